import Verif.Prop.ElasticKernel
/-!
C81: bodies of revolution, and cases the hypotheses of C81 are met in.
-/
namespace Verif.Fem

section
variable {K : Type} [Field K] [DecidableEq K] [CharZero K]

theorem elasticityPointAxi_spec {c : Code} {gps : Nat} (hd : edim c = 2) {m : Elastic K} (hb : m.behaviour = .axisymmetric) (pi : K)
    (u coords : Nat → Nat → K) (p : List K × K) (A : List K) (hA : A.length = 2 * nodes c * (2 * nodes c)) :
    ((elasticityPoint pi c gps m u coords A p).isSome ↔ Regular c gps coords p.1 ∧ m.defined 2 p.1 ∧ radiusAt c gps coords p.1 ≠ 0) ∧
    ∀ B, elasticityPoint pi c gps m u coords A p = some B → B.length = 2 * nodes c * (2 * nodes c) ∧
      ∀ U V, formOf (2 * nodes c) B U V = formOf (2 * nodes c) A U V + 2 * pi * radiusAt c gps coords p.1 * (geometryAt c gps coords p.1).det * p.2 *
        contract (m.law 3 p.1 (strainAround c gps coords U p.1)) (strainAround c gps coords V p.1) := by
  unfold elasticityPoint Regular
  rw [hd]
  cases ht : setAt c gps p.1 with
  | none => simp
  | some tab =>
    cases hg : integrate 2 (nodes c) (slopeOf tab) coords with
    | none => simp [hg]
    | some g =>
      have e1 : tabAt c gps p.1 = tab := by simp [tabAt, ht]
      have e2 : geometryAt c gps coords p.1 = g := by simp [geometryAt, e1, hd, hg]
      have e3 : radiusAt c gps coords p.1 = pointCoordinate (nodes c) tab coords 0 := by rw [radiusAt, e1, pointCoordinate_eq]
      have hk := kirchhoff_defined (.inl rfl) m p.1 (cauchyGreen 2 (deformation 2 (nodes c) u g.dND))
      rw [hb] at hk
      rw [hb]
      cases hs : kirchhoff 2 .axisymmetric (m.young p.1) (m.poisson p.1) (cauchyGreen 2 (deformation 2 (nodes c) u g.dND)) with
      | none =>
        rw [hs] at hk
        have hk : ¬ m.defined 2 p.1 := by simpa using hk
        simp [hg, hs, hk]
      | some s =>
        rw [hs] at hk
        have hk : m.defined 2 p.1 := by simpa using hk
        by_cases hr : pointCoordinate (nodes c) tab coords 0 = 0
        · simp [hg, hs, e3, matrixElasticity, strainAxi, hr]
        · obtain ⟨D, d1, d2, d3⟩ := matrixElasticityAxi_spec hs pi (nodes c) (valueOf tab) hr g.det p.2 g.dND hA
          simp only [Option.bind_eq_bind, Option.bind_some, hg, hs, d1]
          refine ⟨by simp [hk, hg, e3, hr], fun B hB => ?_⟩
          obtain rfl := Option.some.inj hB
          refine ⟨d2, fun U V => ?_⟩
          rw [d3, e2, e3]
          simp only [Elastic.law, strainAround, strainAxiOf, e2, e1, e3, hb]

/-- The matrix of a body of revolution is the quadrature of `∫ 2πr σ(U) : ε(V)`, with the strain of the circles around the axis; the kernel divides by zero if
a point lies on the axis. -/
theorem C81_axisymmetric {sqrt : K → K} {pi : K} {c : Code} {gps : Nat} (hd : edim c = 2) {m : Elastic K} (hb : m.behaviour = .axisymmetric)
    {u coords : Nat → Nat → K} {pts : List (List K × K)} (hp : rulePoints sqrt c gps = some pts) :
    ((elementElasticity sqrt pi c gps m u coords).isSome ↔ ∀ p ∈ pts, Regular c gps coords p.1 ∧ m.defined 2 p.1 ∧ radiusAt c gps coords p.1 ≠ 0) ∧
    ∀ A, elementElasticity sqrt pi c gps m u coords = some A → A.length = 2 * nodes c * (2 * nodes c) ∧
      ∀ U V, formOf (2 * nodes c) A U V = elasticFormAround pi c gps m coords pts U V := by
  unfold elementElasticity
  rw [hp, hd]
  simp only [Option.bind_eq_bind, Option.bind_some]
  obtain ⟨h1, h2⟩ := formLoop (2 * nodes c) (elasticityPoint pi c gps m u coords) _ _ pts (fun p _ A hA => elasticityPointAxi_spec (gps := gps) hd hb pi u coords p A hA)
    (List.replicate (2 * nodes c * (2 * nodes c)) 0) (by simp)
  refine ⟨h1, fun A hA => ?_⟩
  obtain ⟨h3, h4⟩ := h2 A hA
  exact ⟨h3, fun U V => by rw [h4, formOf_zero, zero_add]; rfl⟩

end

/-- The displacements along the axis are the only rigid motions of a body of revolution: the matrix does not resist them. -/
theorem C81_axisymmetric_rigid {pi : ℝ} {c : Code} {gps : Nat} (hd : edim c = 2) {m : Elastic ℝ} (hb : m.behaviour = .axisymmetric)
    {u coords : Nat → Nat → ℝ} {A : List ℝ} (h : elementElasticity Real.sqrt pi c gps m u coords = some A) (z : ℝ) (U : Nat → ℝ)
    (hU : ∀ n < nodes c, U n = 0 ∧ U (nodes c + n) = z) (V : Nat → ℝ) : formOf (2 * nodes c) A U V = 0 := by
  have h' := h
  unfold elementElasticity at h'
  simp only [Option.bind_eq_bind, Option.bind_eq_some_iff] at h'
  obtain ⟨pts, hp, -⟩ := h'
  obtain ⟨h1, h2⟩ := C81_axisymmetric (pi := pi) (u := u) (coords := coords) hd hb hp
  have hr := h1.1 (by rw [h]; rfl)
  rw [(h2 A h).2, elasticFormAround, List.map_congr_left (g := fun _ => (0 : ℝ)), List.map_const', List.sum_replicate, smul_zero]
  intro p hpp
  obtain ⟨⟨tab, g, ht, hg⟩, -, -⟩ := hr p hpp
  have e1 : tabAt c gps p.1 = tab := by simp [tabAt, ht]
  have e2 : geometryAt c gps coords p.1 = g := by simp [geometryAt, e1, hg]
  have lin := fun i => C76_linear c gps coords p.1 tab (rule_length hp p hpp) ht _ hg z (fun _ => 0) (fun _ => z) (fun n hn => by simp) i
  have g0 : ∀ i : Fin 2, displacementGradient 2 (nodes c) g.dND U 0 i = 0 := by
    intro i
    unfold displacementGradient
    refine Finset.sum_eq_zero fun n hn => ?_
    have := (hU n (Finset.mem_range.1 hn)).1
    simp only [Fin.val_zero, zero_mul, zero_add, this]
  have g1 : ∀ i : Fin 2, displacementGradient 2 (nodes c) g.dND U 1 i = 0 := by
    intro i
    have l := lin (Fin.cast hd.symm i)
    unfold displacementGradient
    rw [← l]
    refine Finset.sum_congr rfl fun n hn => ?_
    have := (hU n (Finset.mem_range.1 hn)).2
    simp only [Fin.val_one, one_mul, this]
    rfl
  have s0 : ∑ n ∈ Finset.range (nodes c), valueOf (tabAt c gps p.1) n * U n = 0 :=
    Finset.sum_eq_zero fun n hn => by rw [(hU n (Finset.mem_range.1 hn)).1, mul_zero]
  have e : strainAround c gps coords U p.1 = 0 := by
    unfold strainAround
    rw [e2, s0]
    simp only [g0, g1]
    ext i j
    fin_cases i <;> fin_cases j <;> simp
  rw [e]
  simp [contract, Elastic.law, hooke]

/-- A stable material. -/
noncomputable def steel (b : Behaviour) : Elastic ℝ := ⟨b, fun _ => 1, fun _ => 1 / 4⟩

theorem steel_defined (b : Behaviour) (d : Nat) (p : List ℝ) : (steel b).defined d p := by
  unfold Elastic.defined steel
  refine ⟨by norm_num, ?_⟩
  split
  · cases b <;> norm_num
  · norm_num

theorem steel_stable (b : Behaviour) (d : Nat) (p : List ℝ) : (steel b).stable d p := by
  unfold Elastic.stable steel
  refine ⟨by norm_num, by norm_num, ?_⟩
  split <;> norm_num

/-- The unit square in all plane behaviours meets the hypotheses; its displacements without energy are the rigid motions. -/
example (b : Behaviour) (hb : b ≠ .axisymmetric) : ∃ A, elementElasticity Real.sqrt Real.pi .square4 4 (steel b) (fun _ _ => 0) square = some A ∧
    ∀ U, formOf 8 A U U = 0 ↔ Rigid 2 4 square U := by
  obtain ⟨pts, hp⟩ : ∃ pts, rulePoints Real.sqrt .square4 4 = some pts := ⟨_, rfl⟩
  have hdet : ∀ p ∈ pts, detAt .square4 4 square p.1 = 1 / 4 := fun p hpp => square_det p.1 (rule_length hp p hpp)
  obtain ⟨A, hA⟩ := (C81_defined (c := .square4) (m := steel b) (.inl rfl) (fun _ => hb) hp Real.pi (fun _ _ => 0) square).2 fun p hpp =>
    ⟨by rw [hdet p hpp]; norm_num, steel_defined b _ _⟩
  exact ⟨A, hA, fun U => C81_rigid_only_partial (.inr (.inr rfl)) (fun _ => hb) (C79_points (.square4, 4) (by simp)).1 hA hp (fun p _ => steel_stable b _ _)
    (fun p hpp => by rw [hdet p hpp]; norm_num) U⟩

/-- The unit square next to the axis: the section of a ring. -/
def ringSection : Nat → Nat → ℝ := fun n i => match n, i with | 0, 0 => 1 | 1, 0 => 2 | 2, 0 => 2 | 3, 0 => 1 | 2, 1 => 1 | 3, 1 => 1 | _, _ => 0

theorem ringSection_det (r s : ℝ) : detAt .square4 4 ringSection [r, s] = 1 / 4 ∧ radiusAt .square4 4 ringSection [r, s] = (3 + r) / 2 := by
  obtain ⟨tab, ht, -⟩ := (C75_basis .square4 4).defined [r, s] rfl
  rw [detAt_eq (by decide) ht, radiusAt, tabAt, ht]
  rw [setAt_degraded rfl] at ht
  simp [degradedTerms, degrade, nOrder, terms4x2, nodes, edim, addTerm, wr] at ht
  subst ht
  constructor
  · simp [detOf, det22, jacobian2, List.range_succ, slopeOf, edim, nodes, ringSection]
    ring
  · simp [Finset.sum_range_succ, valueOf, nodes, ringSection]
    ring

/-- A ring meets the hypotheses of the bodies of revolution. -/
example : (elementElasticity Real.sqrt Real.pi .square4 4 (steel .axisymmetric) (fun _ _ => 0) ringSection).isSome := by
  obtain ⟨pts, hp⟩ : ∃ pts, rulePoints Real.sqrt .square4 4 = some pts := ⟨_, rfl⟩
  refine (C81_axisymmetric (pi := Real.pi) (m := steel .axisymmetric) (u := fun _ _ => 0) (coords := ringSection) rfl rfl hp).1.2 fun p hpp => ?_
  have h3 : 0 < 1 / Real.sqrt 3 ∧ 1 / Real.sqrt 3 < 1 := by
    have : 1 < Real.sqrt 3 := by rw [Real.lt_sqrt (by norm_num)]; norm_num
    exact ⟨by positivity, by rw [div_lt_one (by positivity)]; exact this⟩
  have hr : ∃ r s, p.1 = [r, s] ∧ -1 < r := by
    obtain rfl := Option.some.inj hp
    simp only [edim, tensor, List.mem_flatMap, List.mem_map] at hpp
    obtain ⟨x, hx, y, hy, rfl⟩ := hpp
    refine ⟨_, _, rfl, ?_⟩
    simp only [List.mem_cons, List.not_mem_nil, or_false] at hx
    rcases hx with rfl | rfl
    · dsimp only; linarith [h3.2]
    · dsimp only; linarith [h3.1]
  obtain ⟨r, s, e, hr⟩ := hr
  obtain ⟨hdet, hrad⟩ := ringSection_det r s
  refine ⟨(regular_iff (.inl rfl) hp hpp).2 (by rw [e, hdet]; norm_num), steel_defined _ _ _, ?_⟩
  rw [e, hrad]
  intro h
  linarith

end Verif.Fem
