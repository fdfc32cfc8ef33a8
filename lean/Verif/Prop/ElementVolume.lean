import Verif.Proof.ElementVolume
import Mathlib.Tactic.FieldSimp
/-!
C77: the measure of an element.
-/
namespace Verif.Fem

/-- The measured volume is the integral of the determinant of the Jacobian over the reference element, up to the rounding of the decimal tables:
all elements with the numbers of integration points of the code except the prism with 15 nodes and the pyramid with 14 points. -/
theorem C77_volume (c : Code) (gps : Nat) (h : exactVolume c gps) (coords : Nat → Nat → ℝ) (v : ℝ) (hv : elementVolume Real.sqrt c gps coords = some v) :
    ∃ P : MvPolynomial (Fin (edim c)) ℝ, (∀ p : List ℝ, p.length = edim c → detAt c gps coords p = polyAt P p) ∧
      |v - (domain c gps).integral (detAt c gps coords)| ≤ tolerance c gps * ∑ m ∈ P.support, |P.coeff m| := by
  obtain ⟨P, h1, h2⟩ := det_admits c gps h coords
  obtain ⟨pts, hp, rfl⟩ := elementVolume_eq (exactVolume_dim h) hv
  refine ⟨P, h2, ?_⟩
  have := C77_exact c gps pts hp P h1
  have e1 : (domain c gps).integral (detAt c gps coords) = (domain c gps).integral (polyAt P) :=
    Shape.integral_congr _ fun p hp => h2 p (by rw [hp, domain_dim])
  have e2 : ruleSum pts (detAt c gps coords) = ruleSum pts (polyAt P) := by
    unfold ruleSum
    congr 1
    refine List.map_congr_left fun p hp' => ?_
    rw [h2 p.1 (rule_length hp p hp')]
  rwa [e1, e2]

/-- Without decimal tables the volume is exact. -/
theorem C77_volume_exact (c : Code) (gps : Nat) (h : exactVolume c gps) (ht : tolerance c gps = 0) (coords : Nat → Nat → ℝ) (v : ℝ)
    (hv : elementVolume Real.sqrt c gps coords = some v) : v = (domain c gps).integral (detAt c gps coords) := by
  obtain ⟨P, -, h⟩ := C77_volume c gps h coords v hv
  rw [ht, zero_mul] at h
  exact sub_eq_zero.1 (abs_nonpos_iff.1 h)

/-- The loop always finishes. -/
theorem C77_volume_defined (c : Code) (gps : Nat) (pts : List (List ℝ × ℝ)) (h : rulePoints Real.sqrt c gps = some pts) (coords : Nat → Nat → ℝ) :
    ∃ v, elementVolume Real.sqrt c gps coords = some v := by
  have key : ∀ (l : List (List ℝ × ℝ)) (v0 : ℝ), (∀ p ∈ l, p.1.length = edim c) → ∃ v, l.foldlM (fun volume p => do
      let tab ← setAt c gps p.1
      pure (volume + detOf (edim c) (nodes c) (slopeOf tab) coords * p.2)) v0 = some v := by
    intro l
    induction l with
    | nil => exact fun v0 _ => ⟨v0, rfl⟩
    | cons p l ih =>
      intro v0 hl
      obtain ⟨tab, ht, -⟩ := (C75_basis c gps).defined p.1 (hl p (by simp))
      obtain ⟨v, hv⟩ := ih (v0 + detOf (edim c) (nodes c) (slopeOf tab) coords * p.2) fun q hq => hl q (by simp [hq])
      exact ⟨v, by rw [List.foldlM_cons]; simp only [ht, Option.bind_eq_bind, Option.bind_some, Option.pure_def]; exact hv⟩
  obtain ⟨v, hv⟩ := key pts 0 (rule_length h)
  exact ⟨v, by simp only [elementVolume, h, Option.bind_eq_bind, Option.bind_some]; exact hv⟩

/-! ### Straight elements -/

theorem square4_det (gps : Nat) (coords : Nat → Nat → ℝ) (r s : ℝ) :
    detAt .square4 gps coords [r, s] =
      ((coords 2 0 - coords 0 0) * (coords 3 1 - coords 1 1) - (coords 3 0 - coords 1 0) * (coords 2 1 - coords 0 1)) / 8
      + ((coords 1 0 - coords 0 0) * (coords 2 1 - coords 3 1) - (coords 2 0 - coords 3 0) * (coords 1 1 - coords 0 1)) / 8 * r
      + ((coords 2 0 - coords 1 0) * (coords 3 1 - coords 0 1) - (coords 3 0 - coords 0 0) * (coords 2 1 - coords 1 1)) / 8 * s := by
  obtain ⟨tab, h, -⟩ := (C75_basis .square4 gps).defined [r, s] rfl
  rw [detAt_eq (.inl rfl) h]
  rw [setAt_degraded rfl] at h
  simp [degradedTerms, degrade, nOrder, terms4x2, nodes, edim, addTerm, wr] at h
  subst h
  simp [detOf, edim, nodes, det22, jacobian2, List.range_succ, slopeOf]
  ring

theorem triangle3_det (gps : Nat) (h : gps ≠ 6) (coords : Nat → Nat → ℝ) (r s : ℝ) :
    detAt .triangle3 gps coords [r, s] =
      ((coords 1 0 - coords 0 0) * (coords 2 1 - coords 0 1) - (coords 2 0 - coords 0 0) * (coords 1 1 - coords 0 1)) * ((1 - s) / 8) := by
  obtain ⟨tab, h', -⟩ := (C75_basis .triangle3 gps).defined [r, s] rfl
  rw [detAt_eq (.inl rfl) h']
  rw [setAt_degraded (by unfold isExplicit; split <;> simp_all)] at h'
  simp [degradedTerms, degrade, nOrder, terms4x2, nodes, edim, addTerm, wr] at h'
  subst h'
  simp [detOf, edim, nodes, det22, jacobian2, List.range_succ, slopeOf]
  ring

theorem triangle3_det6 (coords : Nat → Nat → ℝ) (r s : ℝ) :
    detAt .triangle3 6 coords [r, s] =
      (coords 1 0 - coords 0 0) * (coords 2 1 - coords 0 1) - (coords 2 0 - coords 0 0) * (coords 1 1 - coords 0 1) := by
  rw [detAt_eq (.inl rfl) (show setAt .triangle3 6 [r, s] = some (setTriangle3 r s) from rfl)]
  simp [detOf, edim, nodes, det22, jacobian2, List.range_succ, slopeOf, setTriangle3]
  ring

/-- Six times the oriented volume of a tetrahedron. -/
def tripleProduct (coords : Nat → Nat → ℝ) : ℝ :=
  let a := fun i => coords 1 i - coords 0 i
  let b := fun i => coords 2 i - coords 0 i
  let c := fun i => coords 3 i - coords 0 i
  a 0 * (b 1 * c 2 - b 2 * c 1) + a 1 * (b 2 * c 0 - b 0 * c 2) + a 2 * (b 0 * c 1 - b 1 * c 0)

theorem tetra4_det (gps : Nat) (h : gps ≠ 4) (coords : Nat → Nat → ℝ) (r s t : ℝ) :
    detAt .tetra4 gps coords [r, s, t] = tripleProduct coords * ((1 - s) * (1 - t) ^ 2 / 64) := by
  obtain ⟨tab, h', -⟩ := (C75_basis .tetra4 gps).defined [r, s, t] rfl
  rw [detAt_eq (.inr rfl) h']
  rw [setAt_degraded (by unfold isExplicit; split <;> simp_all)] at h'
  simp [degradedTerms, degrade, nOrder, terms8x3, nodes, edim, addTerm, wr] at h'
  subst h'
  simp [detOf, edim, nodes, det33, jacobian3, List.range_succ, slopeOf, tripleProduct]
  ring

theorem tetra4_det4 (coords : Nat → Nat → ℝ) (r s t : ℝ) : detAt .tetra4 4 coords [r, s, t] = tripleProduct coords := by
  rw [detAt_eq (.inr rfl) (show setAt .tetra4 4 [r, s, t] = some (setTetra4 r s t) from rfl)]
  simp [detOf, edim, nodes, det33, jacobian3, List.range_succ, slopeOf, setTetra4, tripleProduct]
  ring

theorem integral_parabola (a b c : ℝ) {f : ℝ → ℝ} (h : ∀ x, f x = a + b * x + c * x ^ 2) : ∫ x in (-1 : ℝ)..1, f x = 2 * a + 2 / 3 * c := by
  simp only [h]
  have h1 : IntervalIntegrable (fun x : ℝ => a + b * x) MeasureTheory.volume (-1) 1 := Continuous.intervalIntegrable (by fun_prop) _ _
  have h2 : IntervalIntegrable (fun x : ℝ => c * x ^ 2) MeasureTheory.volume (-1) 1 := Continuous.intervalIntegrable (by fun_prop) _ _
  have h3 : IntervalIntegrable (fun _ : ℝ => a) MeasureTheory.volume (-1) 1 := Continuous.intervalIntegrable (by fun_prop) _ _
  have h4 : IntervalIntegrable (fun x : ℝ => b * x) MeasureTheory.volume (-1) 1 := Continuous.intervalIntegrable (by fun_prop) _ _
  rw [intervalIntegral.integral_add h1 h2, intervalIntegral.integral_add h3 h4, intervalIntegral.integral_const_mul, intervalIntegral.integral_const_mul,
    integral_id, integral_pow, intervalIntegral.integral_const]
  norm_num
  ring

theorem ruleSum_const {pts : List (List ℝ × ℝ)} {f : List ℝ → ℝ} {a : ℝ} (h : ∀ p ∈ pts, f p.1 = a) : ruleSum pts f = a * (pts.map (·.2)).sum := by
  unfold ruleSum
  induction pts with
  | nil => simp
  | cons p pts ih =>
    rw [List.map_cons, List.sum_cons, List.map_cons, List.sum_cons, ih fun q hq => h q (by simp [hq]), h p (by simp)]
    ring

/-- A quadrilateral: half of the cross product of its diagonals. -/
theorem C77_square (gps : Nat) (ht : tolerance .square4 gps = 0) (coords : Nat → Nat → ℝ) (v : ℝ) (hv : elementVolume Real.sqrt .square4 gps coords = some v) :
    v = ((coords 2 0 - coords 0 0) * (coords 3 1 - coords 1 1) - (coords 3 0 - coords 1 0) * (coords 2 1 - coords 0 1)) / 2 := by
  obtain ⟨pts, hp, -⟩ := elementVolume_eq (.inl rfl) hv
  rw [C77_volume_exact .square4 gps ⟨by decide, fun order ho => ?_⟩ ht coords v hv]
  · change (∫ r in (-1 : ℝ)..1, ∫ s in (-1 : ℝ)..1, detAt .square4 gps coords [r, s]) = _
    have e := square4_det gps coords
    generalize ((coords 2 0 - coords 0 0) * (coords 3 1 - coords 1 1) - (coords 3 0 - coords 1 0) * (coords 2 1 - coords 0 1)) = A at e ⊢
    generalize ((coords 1 0 - coords 0 0) * (coords 2 1 - coords 3 1) - (coords 2 0 - coords 3 0) * (coords 1 1 - coords 0 1)) = B at e
    generalize ((coords 2 0 - coords 1 0) * (coords 3 1 - coords 0 1) - (coords 3 0 - coords 0 0) * (coords 2 1 - coords 1 1)) = C at e
    rw [integral_parabola (2 * (A / 8)) (2 * (B / 8)) 0 fun r => by
      rw [integral_parabola (A / 8 + B / 8 * r) (C / 8) 0 fun s => by rw [e]; ring]
      ring]
    ring
  · change getOrder 2 gps = some order at ho
    unfold getOrder at ho
    split at ho <;> simp_all [neededOrder]
    all_goals omega

/-- A triangle: half of the cross product of two edges. -/
theorem C77_triangle (gps : Nat) (h6 : gps ≠ 6) (ht : tolerance .triangle3 gps = 0) (coords : Nat → Nat → ℝ) (v : ℝ)
    (hv : elementVolume Real.sqrt .triangle3 gps coords = some v) :
    v = ((coords 1 0 - coords 0 0) * (coords 2 1 - coords 0 1) - (coords 2 0 - coords 0 0) * (coords 1 1 - coords 0 1)) / 2 := by
  have hx : exactVolume .triangle3 gps := by
    unfold exactVolume
    split <;> try simp_all
    refine ⟨by decide, fun order ho => ?_⟩
    change getOrder 2 _ = some order at ho
    unfold getOrder at ho
    split at ho <;> simp_all [neededOrder]
    all_goals omega
  rw [C77_volume_exact .triangle3 gps hx ht coords v hv]
  have hD : domain .triangle3 gps = .square := by
    unfold domain; split <;> simp_all
    rfl
  rw [hD]
  change (∫ r in (-1 : ℝ)..1, ∫ s in (-1 : ℝ)..1, detAt .triangle3 gps coords [r, s]) = _
  have e := triangle3_det gps h6 coords
  generalize ((coords 1 0 - coords 0 0) * (coords 2 1 - coords 0 1) - (coords 2 0 - coords 0 0) * (coords 1 1 - coords 0 1)) = A at e ⊢
  rw [integral_parabola (2 * (A / 8)) 0 0 fun r => by
    rw [integral_parabola (A / 8) (-A / 8) 0 fun s => by rw [e]; ring]
    ring]
  ring

/-- The same with the table of six points. -/
theorem C77_triangle6 (coords : Nat → Nat → ℝ) (v : ℝ) (hv : elementVolume Real.sqrt .triangle3 6 coords = some v) :
    let a := (coords 1 0 - coords 0 0) * (coords 2 1 - coords 0 1) - (coords 2 0 - coords 0 0) * (coords 1 1 - coords 0 1)
    |v - a / 2| ≤ |a| / 10 ^ 14 := by
  intro a
  obtain ⟨pts, hp, rfl⟩ := elementVolume_eq (.inl rfl) hv
  rw [ruleSum_const (a := a) fun p hp' => by
    obtain ⟨r, s, e⟩ := List.length_eq_two.1 (rule_length hp p hp')
    rw [e, triangle3_det6]]
  have := C77_weights .triangle3 6 pts hp
  change |_ - (1 / 2 : ℝ)| ≤ 1 / 10 ^ 14 at this
  rw [show a * (pts.map (·.2)).sum - a / 2 = a * ((pts.map (·.2)).sum - 1 / 2) by ring, abs_mul, div_eq_mul_one_div |a|]
  exact mul_le_mul_of_nonneg_left this (abs_nonneg a)

/-- A tetrahedron: a sixth of the triple product of three edges. -/
theorem C77_tetra (gps order : Nat) (h4 : gps ≠ 4) (ho : getOrder 3 gps = some order) (hn : 2 ≤ order) (ht : tolerance .tetra4 gps = 0)
    (coords : Nat → Nat → ℝ) (v : ℝ) (hv : elementVolume Real.sqrt .tetra4 gps coords = some v) : v = tripleProduct coords / 6 := by
  have hx : exactVolume .tetra4 gps := by
    unfold exactVolume
    split <;> try simp_all
    refine ⟨by decide, fun order' ho' => ?_⟩
    change getOrder 3 _ = some order' at ho'
    cases ho.symm.trans ho'
    exact hn
  rw [C77_volume_exact .tetra4 gps hx ht coords v hv]
  have hD : domain .tetra4 gps = .cube := by
    unfold domain; split <;> simp_all
    rfl
  rw [hD]
  change (∫ r in (-1 : ℝ)..1, ∫ s in (-1 : ℝ)..1, ∫ t in (-1 : ℝ)..1, detAt .tetra4 gps coords [r, s, t]) = _
  have e := tetra4_det gps h4 coords
  generalize tripleProduct coords = A at e ⊢
  rw [integral_parabola (A / 12) 0 0 fun r => by
    rw [integral_parabola (A / 24) (-A / 24) 0 fun s => by
      rw [integral_parabola (A * (1 - s) / 64) (-2 * (A * (1 - s) / 64)) (A * (1 - s) / 64) fun t => by rw [e]; ring]
      ring]
    ring]
  ring

/-- The same with the table of four points. -/
theorem C77_tetra4 (coords : Nat → Nat → ℝ) (v : ℝ) (hv : elementVolume Real.sqrt .tetra4 4 coords = some v) :
    |v - tripleProduct coords / 6| ≤ |tripleProduct coords| / 10 ^ 14 := by
  obtain ⟨pts, hp, rfl⟩ := elementVolume_eq (.inr rfl) hv
  rw [ruleSum_const (a := tripleProduct coords) fun p hp' => by
    obtain ⟨r, s, t, e⟩ := List.length_eq_three.1 (rule_length hp p hp')
    rw [e, tetra4_det4]]
  have := C77_weights .tetra4 4 pts hp
  change |_ - (1 / 6 : ℝ)| ≤ 1 / 10 ^ 14 at this
  rw [show tripleProduct coords * (pts.map (·.2)).sum - tripleProduct coords / 6 = tripleProduct coords * ((pts.map (·.2)).sum - 1 / 6) by ring,
    abs_mul, div_eq_mul_one_div |tripleProduct coords|]
  exact mul_le_mul_of_nonneg_left this (abs_nonneg _)

/-! ### Examples -/

/-- The numbers of integration points of the two physics (heattransfer/element.h:13-36, structuralmechanics/element.h:13-33) are covered,
except for the prism with 15 nodes and the pyramid with 14 points. -/
example : ∀ x ∈ [(Code.triangle3, 6), (.square4, 4), (.triangle6, 6), (.square8, 9), (.tetra4, 8), (.pyramid5, 8), (.prisma6, 9), (.hexa8, 8),
    (.tetra10, 15), (.hexa20, 27), (.triangle3, 4), (.prisma6, 8), (.square8, 16), (.pyramid13, 27)], exactVolume x.1 x.2 := by
  simp only [List.mem_cons, List.not_mem_nil, or_false, forall_eq_or_imp, forall_eq]
  simp [exactVolume, edim, getOrder, neededOrder]

/-- The trapezoid of four points has the area 6. -/
example : ∃ v, elementVolume Real.sqrt .square4 4 (fun n i => ((trapezoid n i : Rat) : ℝ)) = some v ∧ v = 6 := by
  obtain ⟨v, hv⟩ := C77_volume_defined .square4 4 _ rfl fun n i => ((trapezoid n i : Rat) : ℝ)
  refine ⟨v, hv, ?_⟩
  rw [C77_square 4 (by simp [tolerance, edim, getOrder]) _ v hv]
  norm_num [trapezoid]

/-- The tetrahedron with the edges 2, 3 and 4 has the volume 4. -/
example : ∃ v, elementVolume Real.sqrt .tetra4 8 (fun n i => ((corner n i : Rat) : ℝ)) = some v ∧ v = 4 := by
  obtain ⟨v, hv⟩ := C77_volume_defined .tetra4 8 _ rfl fun n i => ((corner n i : Rat) : ℝ)
  refine ⟨v, hv, ?_⟩
  rw [C77_tetra 8 2 (by decide) rfl le_rfl (by simp [tolerance, edim, getOrder]) _ v hv]
  norm_num [tripleProduct, corner]

end Verif.Fem
