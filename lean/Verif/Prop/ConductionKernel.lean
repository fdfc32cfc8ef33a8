import Verif.Proof.ConductionKernel
import Verif.Proof.ConductionExplicit
import Mathlib.Logic.Relation
/-!
C79: the kernel of the matrices of the heat conduction.
-/
namespace Verif.Fem

/-- The rule has points enough to see all functions of the element: all explicit rules, Gauss rules of order two (three for quadratic elements). -/
def SeesAll (c : Code) (gps : Nat) : Prop :=
  isExplicit c gps = true ∨ ∀ order, getOrder (edim c) gps = some order → kernelOrder c ≤ order

theorem slopes_kernel {c : Code} {gps : Nat} (hd : edim c = 2 ∨ edim c = 3) (hs : SeesAll c gps) {pts : List (List ℝ × ℝ)}
    (hp : rulePoints Real.sqrt c gps = some pts) (u : Nat → ℝ)
    (hz : ∀ p ∈ pts, ∀ tab, setAt c gps p.1 = some tab → ∀ j < edim c, ∑ n ∈ Finset.range (nodes c), u n * slopeOf tab n j = 0) :
    ∀ n < nodes c, u n = u 0 := by
  have two : ∀ {p : List ℝ × ℝ}, p ∈ pts → edim c = 2 → p.1 = [p.1.getD 0 0, p.1.getD 1 0] := by
    intro p hpp e
    obtain ⟨r, s, e⟩ := List.length_eq_two.1 ((rule_length hp p hpp).trans e)
    rw [e]; rfl
  have three : ∀ {p : List ℝ × ℝ}, p ∈ pts → edim c = 3 → p.1 = [p.1.getD 0 0, p.1.getD 1 0, p.1.getD 2 0] := by
    intro p hpp e
    obtain ⟨r, s, t, e⟩ := List.length_eq_three.1 ((rule_length hp p hpp).trans e)
    rw [e]; rfl
  unfold rulePoints at hp
  split at hp
  · obtain rfl := Option.some.inj hp
    exact triangle3_kernel u fun p hpp j hj => hz p hpp _ (by conv_lhs => rw [two hpp rfl]
                                                              rfl) j hj
  · obtain rfl := Option.some.inj hp
    exact triangle6_kernel u fun p hpp j hj => hz p hpp _ (by conv_lhs => rw [two hpp rfl]
                                                              rfl) j hj
  · obtain rfl := Option.some.inj hp
    exact tetra4_kernel u fun p hpp j hj => hz p hpp _ (by conv_lhs => rw [three hpp rfl]
                                                           rfl) j hj
  · obtain rfl := Option.some.inj hp
    exact tetra10_kernel u fun p hpp j hj => hz p hpp _ (by conv_lhs => rw [three hpp rfl]
                                                            rfl) j hj
  · obtain rfl := Option.some.inj hp
    exact pyramid13_kernel u fun p hpp j hj => hz p hpp _ (by conv_lhs => rw [three hpp rfl]
                                                              rfl) j hj
  · obtain rfl := Option.some.inj hp
    exact prisma6_kernel u fun p hpp j hj => hz p hpp _ (by conv_lhs => rw [three hpp rfl]
                                                            rfl) j hj
  · obtain rfl := Option.some.inj hp
    exact prisma15_kernel u fun p hpp j hj => hz p hpp _ (by conv_lhs => rw [three hpp rfl]
                                                             rfl) j hj
  · rename_i g1 g2 g3 g4 g5 g6 g7
    have he : isExplicit c gps = false := by
      unfold isExplicit
      split <;> simp_all
    simp only [Option.bind_eq_bind, Option.bind_eq_some_iff, Option.pure_def, Option.some.injEq] at hp
    obtain ⟨order, ho, rule, hr, rfl⟩ := hp
    refine degraded_kernel he hd hr ?_ u hz
    rcases hs with hs | hs
    · rw [he] at hs; exact absurd hs (by decide)
    · exact hs order ho

/-- Only constant temperatures conduct no heat: for a conducting material (positive definite tensor), a positive thickness and elements that are
not turned over, the energy vanishes exactly for the constant temperatures. -/
theorem C79_kernel {c : Code} {gps : Nat} (hd : edim c = 2 ∨ edim c = 3) (hs : SeesAll c gps) {m : Material ℝ} {thickness old : Nat → ℝ}
    {coords : Nat → Nat → ℝ} {A : List ℝ} (h : elementConductivity Real.sqrt c gps m thickness old coords = some A)
    {pts : List (List ℝ × ℝ)} (hp : rulePoints Real.sqrt c gps = some pts)
    (hC : ∀ p ∈ pts, ∀ v : Fin (edim c) → ℝ, v ≠ 0 → 0 < ∑ i, ∑ j, v i * m.tensor (edim c) p.1 i j * v j)
    (ht : ∀ p ∈ pts, 0 < thickAt c gps thickness p.1) (hJ : ∀ p ∈ pts, 0 < detAt c gps coords p.1) (T : Nat → ℝ) :
    ∑ a ∈ Finset.range (nodes c), ∑ b ∈ Finset.range (nodes c), T a * entry A (a * nodes c + b) * T b = 0 ↔ ∀ n < nodes c, T n = T 0 := by
  obtain ⟨pts', hp', hf⟩ := C79_form hd h
  rw [hp] at hp'
  obtain rfl := Option.some.inj hp'
  constructor
  · intro hz
    rw [hf, conductionForm] at hz
    have hnn : ∀ p ∈ pts, 0 ≤ thickAt c gps thickness p.1 * (geometryAt c gps coords p.1).det * p.2 *
        ∑ i, ∑ j, gradientAt c gps coords T p.1 i * m.tensor (edim c) p.1 i j * gradientAt c gps coords T p.1 j := by
      intro p hpp
      obtain ⟨tab, -, -, hdet, -⟩ := elementConductivity_regular hd h hp p hpp
      rw [hdet]
      refine mul_nonneg (mul_nonneg (mul_nonneg (ht p hpp).le (hJ p hpp).le) (rule_positive hp p hpp).le) ?_
      by_cases hv : gradientAt c gps coords T p.1 = 0
      · rw [hv]; simp
      · exact (hC p hpp _ hv).le
    have hall : ∀ p ∈ pts, gradientAt c gps coords T p.1 = 0 := by
      intro p hpp
      by_contra hv
      have hpos : 0 < thickAt c gps thickness p.1 * (geometryAt c gps coords p.1).det * p.2 *
          ∑ i, ∑ j, gradientAt c gps coords T p.1 i * m.tensor (edim c) p.1 i j * gradientAt c gps coords T p.1 j := by
        obtain ⟨tab, -, -, hdet, -⟩ := elementConductivity_regular hd h hp p hpp
        rw [hdet]
        exact mul_pos (mul_pos (mul_pos (ht p hpp) (hJ p hpp)) (rule_positive hp p hpp)) (hC p hpp _ hv)
      have := List.single_le_sum (l := pts.map fun p => thickAt c gps thickness p.1 * (geometryAt c gps coords p.1).det * p.2 *
        ∑ i, ∑ j, gradientAt c gps coords T p.1 i * m.tensor (edim c) p.1 i j * gradientAt c gps coords T p.1 j)
        (fun x hx => by obtain ⟨q, hq, rfl⟩ := List.mem_map.1 hx; exact hnn q hq) _ (List.mem_map.2 ⟨p, hpp, rfl⟩)
      rw [hz] at this
      exact absurd hpos (not_lt.2 this)
    refine slopes_kernel hd hs hp T fun p hpp tab htab j hj => ?_
    obtain ⟨tab', htab', hg, -, -⟩ := elementConductivity_regular hd h hp p hpp
    rw [htab] at htab'
    obtain rfl := Option.some.inj htab'
    have := (integrate_spec hg).gradient T ⟨j, hj⟩
    have hv := hall p hpp
    rw [← this]
    refine Finset.sum_eq_zero fun i _ => ?_
    have e := congrFun hv i
    simp only [gradientAt, Pi.zero_apply] at e
    rw [e]
    simp
  · intro hT
    have e : ∀ a ∈ Finset.range (nodes c), ∑ b ∈ Finset.range (nodes c), T a * entry A (a * nodes c + b) * T b = 0 := by
      intro a ha
      have e1 : ∀ b ∈ Finset.range (nodes c), T a * entry A (a * nodes c + b) * T b = T a * T 0 * entry A (a * nodes c + b) := by
        intro b hb
        rw [hT b (Finset.mem_range.1 hb)]
        ring
      rw [Finset.sum_congr rfl e1, ← Finset.mul_sum, C79_constants hd h a (Finset.mem_range.1 ha), mul_zero]
    exact Finset.sum_eq_zero e

end Verif.Fem
