import Verif.Prop.HeatMesh
/-!
C79, C80: the cases the hypotheses are met in.
-/
namespace Verif.Fem

/-- All elements with their numbers of points in the heat transfer and in the structural mechanics (`GPC` in the kernels) have points enough. -/
theorem C79_points : ∀ x ∈ [(Code.triangle3, 6), (.square4, 4), (.triangle6, 6), (.square8, 9), (.tetra4, 8), (.pyramid5, 8), (.prisma6, 9), (.hexa8, 8), (.tetra10, 15),
    (.pyramid13, 14), (.prisma15, 9), (.hexa20, 27), (.triangle3, 4), (.square8, 16), (.prisma6, 8), (.pyramid13, 27)],
    SeesAll x.1 x.2 ∧ ∃ pts, rulePoints Real.sqrt x.1 x.2 = some pts := by
  intro x hx
  simp only [List.mem_cons, List.not_mem_nil, or_false] at hx
  rcases hx with rfl | rfl | rfl | rfl | rfl | rfl | rfl | rfl | rfl | rfl | rfl | rfl | rfl | rfl | rfl | rfl
  all_goals
    refine ⟨?_, _, rfl⟩
    first
    | exact .inl rfl
    | (right; intro order h; obtain rfl := Option.some.inj h; decide)

/-- The unit square. -/
def square : Nat → Nat → ℝ := fun n i => match n, i with | 1, 0 => 1 | 2, 0 => 1 | 2, 1 => 1 | 3, 1 => 1 | _, _ => 0

theorem square_det (p : List ℝ) (hp : p.length = 2) : detAt .square4 4 square p = 1 / 4 := by
  obtain ⟨r, s, rfl⟩ := List.length_eq_two.1 hp
  obtain ⟨tab, ht, -⟩ := (C75_basis .square4 4).defined [r, s] rfl
  rw [detAt_eq (by decide) ht]
  rw [setAt_degraded rfl] at ht
  simp [degradedTerms, degrade, nOrder, terms4x2, nodes, edim, addTerm, wr] at ht
  subst ht
  simp [detOf, det22, jacobian2, List.range_succ, slopeOf, edim, nodes, square]
  ring

/-- Unit conductivity, not turned. -/
noncomputable def unitMaterial : Material ℝ := ⟨.isotropic, false, fun _ _ => 1, fun _ _ => 0⟩

theorem square_conducting : ∃ B, Conducting .square4 4 B := by
  obtain ⟨pts, hp⟩ : ∃ pts, rulePoints Real.sqrt .square4 4 = some pts := ⟨_, rfl⟩
  have hdet : ∀ p ∈ pts, detAt .square4 4 square p.1 = 1 / 4 := fun p hpp => square_det p.1 (rule_length hp p hpp)
  obtain ⟨A, hA⟩ := (C79_defined (c := .square4) (gps := 4) (.inl rfl) hp unitMaterial (fun _ => 1) (fun _ => 7) square).2 fun p hpp => by rw [hdet p hpp]; norm_num
  refine ⟨fun r k => entry A (r * nodes .square4 + k), .inl rfl, (C79_points (.square4, 4) (by simp)).1, unitMaterial, _, _, _, A, pts, hA, fun _ _ _ _ => rfl, by simp [unitMaterial], hp,
    fun p _ v hv => ?_, fun p hpp => ?_, fun p hpp => by rw [hdet p hpp]; norm_num⟩
  · change Fin 2 → ℝ at v
    change 0 < ∑ i : Fin 2, ∑ j : Fin 2, v i * (if i = j then (1 : ℝ) else 0) * v j
    simp only [Fin.sum_univ_two]
    have : v 0 ≠ 0 ∨ v 1 ≠ 0 := by
      by_contra h
      push Not at h
      exact hv (by funext i; fin_cases i; exacts [h.1, h.2])
    simp
    rcases this with h | h
    · nlinarith [mul_self_pos.2 h, mul_self_nonneg (v 1)]
    · nlinarith [mul_self_pos.2 h, mul_self_nonneg (v 0)]
  · obtain ⟨tab, ht⟩ := point_table hp hpp
    have hu := (C75_basis .square4 4).unity p.1 tab (rule_length hp p hpp) ht
    have e : thickAt .square4 4 (fun _ => (1 : ℝ)) p.1 = 1 := by
      simp only [thickAt, edim, if_true, tabAt, ht, Option.getD_some, mul_one]
      exact hu
    rw [e]; norm_num

/-- A domain with two squares side by side. -/
example : ∃ Is : List (Pattern.Interval ℝ), HeatDomain id 6 Is ∧ Relation.ReflTransGen (Together id Is) 0 5 ∧ ∀ T : Nat → ℝ,
    ∑ i ∈ Finset.range 6, ∑ j ∈ Finset.range 6, T i * Pattern.assembled id 1 Is i j * T j = 0 → T 0 = T 5 := by
  obtain ⟨B, hB⟩ := square_conducting
  have h : HeatDomain id 6 [((4, [[0, 1, 2, 3], [1, 4, 5, 2]], fun _ => B) : Pattern.Interval ℝ)] := by
    refine ⟨?_, ?_⟩
    · intro I hI s hs r hr
      obtain rfl := List.mem_singleton.1 hI
      change s < 2 at hs
      change r < 4 at hr
      interval_cases s <;> interval_cases r <;> simp [dofOf, Pattern.elementDofs]
    · intro I hI
      obtain rfl := List.mem_singleton.1 hI
      exact ⟨.square4, 4, rfl, fun s _ => hB⟩
  have hc : Relation.ReflTransGen (Together id [((4, [[0, 1, 2, 3], [1, 4, 5, 2]], fun _ => B) : Pattern.Interval ℝ)]) 0 5 := by
    refine Relation.ReflTransGen.head (b := 1) ?_ (Relation.ReflTransGen.single ?_)
    · exact ⟨_, List.mem_singleton.2 rfl, 0, by norm_num, 0, by norm_num, 1, by norm_num, rfl, rfl⟩
    · exact ⟨_, List.mem_singleton.2 rfl, 1, by norm_num, 0, by norm_num, 2, by norm_num, rfl, rfl⟩
  exact ⟨_, h, hc, fun T hT => (C80_kernel h T).1 hT 0 5 hc⟩

end Verif.Fem
