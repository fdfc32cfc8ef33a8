import Verif.Proof.ElasticPoint
import Verif.Prop.ConductionForm
/-!
C81: the element matrix of the linear elasticity.
-/
namespace Verif.Fem

section
variable {K : Type} [Field K]

/-- A loop whose steps add to the form of a matrix. -/
theorem formLoop {ι : Type} (M : Nat) (step : List K → ι → Option (List K)) (val : ι → (Nat → K) → (Nat → K) → K) (R : ι → Prop) (pts : List ι)
    (h : ∀ p ∈ pts, ∀ A : List K, A.length = M * M → ((step A p).isSome ↔ R p) ∧
      ∀ B, step A p = some B → B.length = M * M ∧ ∀ U V, formOf M B U V = formOf M A U V + val p U V) (A : List K) (hA : A.length = M * M) :
    ((pts.foldlM step A).isSome ↔ ∀ p ∈ pts, R p) ∧
    ∀ B, pts.foldlM step A = some B → B.length = M * M ∧ ∀ U V, formOf M B U V = formOf M A U V + (pts.map fun p => val p U V).sum := by
  induction pts generalizing A with
  | nil => simp [hA]
  | cons p pts ih =>
    obtain ⟨h1, h2⟩ := h p (by simp) A hA
    rw [List.foldlM_cons]
    cases hs : step A p with
    | none =>
      have : ¬ R p := fun hr => by rw [hs] at h1; simp [hr] at h1
      simp [this]
    | some B =>
      obtain ⟨b1, b2⟩ := h2 B hs
      have hR : R p := h1.1 (by rw [hs]; rfl)
      obtain ⟨i1, i2⟩ := ih (fun q hq => h q (by simp [hq])) B b1
      simp only [Option.bind_eq_bind, Option.bind_some]
      refine ⟨by rw [i1]; simp [hR], fun C hC => ?_⟩
      obtain ⟨c1, c2⟩ := i2 C hC
      exact ⟨c1, fun U V => by rw [c2, b2, List.map_cons, List.sum_cons, add_assoc]⟩

end

section
variable {K : Type} [Field K] [DecidableEq K] [CharZero K]

/-- The law of the material is defined in a point: no denominator of the code vanishes. -/
def Elastic.defined (m : Elastic K) (d : Nat) (p : List K) : Prop :=
  1 + m.poisson p ≠ 0 ∧
    if d = 2 then
      match m.behaviour with
      | .planeStrain => 1 - 2 * m.poisson p ≠ 0 ∧ 1 - m.poisson p ≠ 0
      | .axisymmetric => 1 - 2 * m.poisson p ≠ 0
      | _ => 1 - m.poisson p ≠ 0
    else 1 - 2 * m.poisson p ≠ 0

theorem kirchhoff_defined {d : Nat} (hd : d = 2 ∨ d = 3) (m : Elastic K) (p : List K) (C2 : Nat → K) :
    (kirchhoff d m.behaviour (m.young p) (m.poisson p) C2).isSome ↔ m.defined d p := by
  have h2 : (2 : K) ≠ 0 := two_ne_zero
  rcases hd with rfl | rfl
  · simp only [kirchhoff, Option.bind_eq_bind, Option.pure_def, Elastic.defined, if_true]
    cases hb : m.behaviour
    · simp only [kirchhoff2]
      split
      · rename_i h
        simp [h2] at h ⊢
        tauto
      · rename_i h
        simp [h2] at h ⊢
        tauto
    · simp only [kirchhoff2]
      have e : 1 - m.poisson p * m.poisson p = (1 + m.poisson p) * (1 - m.poisson p) := by ring
      rw [e]
      split
      · rename_i h
        simp at h ⊢
        tauto
      · rename_i h
        simp at h ⊢
        tauto
    · simp only [kirchhoff2]
      have e : 1 - m.poisson p * m.poisson p = (1 + m.poisson p) * (1 - m.poisson p) := by ring
      rw [e]
      split
      · rename_i h
        simp at h ⊢
        tauto
      · rename_i h
        simp at h ⊢
        tauto
    · simp only [kirchhoff2]
      split
      · rename_i h
        simp at h ⊢
        tauto
      · rename_i h
        simp at h ⊢
        tauto
  · simp only [kirchhoff, Elastic.defined]
    have e : 2 + 2 * m.poisson p = 2 * (1 + m.poisson p) := by ring
    rw [e]
    split
    · rename_i h
      simp [h2] at h ⊢
      tauto
    · rename_i h
      simp [h2] at h ⊢
      tauto

theorem pointCoordinate_eq (N : Nat) (tab : List (K × List K)) (coords : Nat → Nat → K) (d : Nat) :
    pointCoordinate N tab coords d = ∑ n ∈ Finset.range N, valueOf tab n * coords n d := sumLoop_eq _ _

/-- The element is regular in a point. -/
def Regular (c : Code) (gps : Nat) (coords : Nat → Nat → K) (p : List K) : Prop :=
  ∃ tab g, setAt c gps p = some tab ∧ integrate (edim c) (nodes c) (slopeOf tab) coords = some g

/-- One point of the rule. -/
theorem elasticityPoint_spec {c : Code} {gps : Nat} (hd : edim c = 2 ∨ edim c = 3) {m : Elastic K} (hb : edim c = 2 → m.behaviour ≠ .axisymmetric) (pi : K)
    (u coords : Nat → Nat → K) (p : List K × K) (A : List K) (hA : A.length = edim c * nodes c * (edim c * nodes c)) :
    ((elasticityPoint pi c gps m u coords A p).isSome ↔ Regular c gps coords p.1 ∧ m.defined (edim c) p.1) ∧
    ∀ B, elasticityPoint pi c gps m u coords A p = some B → B.length = edim c * nodes c * (edim c * nodes c) ∧
      ∀ U V, formOf (edim c * nodes c) B U V = formOf (edim c * nodes c) A U V + (geometryAt c gps coords p.1).det * p.2 *
        contract (m.law (edim c) p.1 (strainAt c gps coords U p.1)) (strainAt c gps coords V p.1) := by
  unfold elasticityPoint Regular
  cases ht : setAt c gps p.1 with
  | none => simp
  | some tab =>
    cases hg : integrate (edim c) (nodes c) (slopeOf tab) coords with
    | none => simp [hg]
    | some g =>
      have hk := kirchhoff_defined hd m p.1 (cauchyGreen (edim c) (deformation (edim c) (nodes c) u g.dND))
      cases hs : kirchhoff (edim c) m.behaviour (m.young p.1) (m.poisson p.1) (cauchyGreen (edim c) (deformation (edim c) (nodes c) u g.dND)) with
      | none =>
        rw [hs] at hk
        have hk : ¬ m.defined (edim c) p.1 := by simpa using hk
        simp [hg, hs, hk]
      | some s =>
        rw [hs] at hk
        have hk : m.defined (edim c) p.1 := by simpa using hk
        obtain ⟨D, d1, d2, d3⟩ := matrixElasticity_spec hd hb hs pi (nodes c) (valueOf tab) (pointCoordinate (nodes c) tab coords 0) g.det p.2 g.dND hA
        simp only [Option.bind_eq_bind, Option.bind_some, hg, hs, d1]
        refine ⟨by simp [hk, hg], fun B hB => ?_⟩
        obtain rfl := Option.some.inj hB
        refine ⟨d2, fun U V => ?_⟩
        have e1 : tabAt c gps p.1 = tab := by simp [tabAt, ht]
        have e2 : geometryAt c gps coords p.1 = g := by simp [geometryAt, e1, hg]
        rw [d3, e2]
        simp only [Elastic.law, strainAt, gradAt, e2]

theorem elasticLoop {c : Code} {gps : Nat} (hd : edim c = 2 ∨ edim c = 3) {m : Elastic K} (hb : edim c = 2 → m.behaviour ≠ .axisymmetric) (pi : K)
    (u coords : Nat → Nat → K) (pts : List (List K × K)) (A : List K) (hA : A.length = edim c * nodes c * (edim c * nodes c)) :
    ((pts.foldlM (elasticityPoint pi c gps m u coords) A).isSome ↔ ∀ p ∈ pts, Regular c gps coords p.1 ∧ m.defined (edim c) p.1) ∧
    ∀ B, pts.foldlM (elasticityPoint pi c gps m u coords) A = some B → B.length = edim c * nodes c * (edim c * nodes c) ∧
      ∀ U V, formOf (edim c * nodes c) B U V = formOf (edim c * nodes c) A U V + elasticForm c gps m coords pts U V :=
  formLoop (edim c * nodes c) (elasticityPoint pi c gps m u coords) _ _ pts (fun p _ A hA => elasticityPoint_spec hd hb pi u coords p A hA) A hA

/-- The matrix of an element is the quadrature of `∫ σ(U) : ε(V)`: for all elements and displacements, in a plane and in space. -/
theorem C81_form {sqrt : K → K} {pi : K} {c : Code} {gps : Nat} (hd : edim c = 2 ∨ edim c = 3) {m : Elastic K} (hb : edim c = 2 → m.behaviour ≠ .axisymmetric)
    {u coords : Nat → Nat → K} {A : List K} (h : elementElasticity sqrt pi c gps m u coords = some A) :
    ∃ pts, rulePoints sqrt c gps = some pts ∧ A.length = edim c * nodes c * (edim c * nodes c) ∧
      ∀ U V, formOf (edim c * nodes c) A U V = elasticForm c gps m coords pts U V := by
  unfold elementElasticity at h
  simp only [Option.bind_eq_bind, Option.bind_eq_some_iff] at h
  obtain ⟨pts, hp, hB⟩ := h
  obtain ⟨-, h2⟩ := elasticLoop (gps := gps) hd hb pi u coords pts (List.replicate (edim c * nodes c * (edim c * nodes c)) 0) (by simp)
  obtain ⟨h3, h4⟩ := h2 A hB
  exact ⟨pts, hp, h3, fun U V => by rw [h4, formOf_zero, zero_add]⟩

/-- The law of plane stress is the law in space with the strain across the plate that leaves no stress there. -/
theorem C81_plane_stress {ex mi : K} (h1 : 1 + mi ≠ 0) (h2 : 1 - 2 * mi ≠ 0) (h3 : 1 - mi ≠ 0) {b : Behaviour} (hb : b = .planeStress ∨ b = .planeStressThickness)
    (e : Matrix (Fin 2) (Fin 2) K) (e' : Matrix (Fin 3) (Fin 3) K) (hp : ∀ i j : Fin 2, e' i.castSucc j.castSucc = e i j)
    (hs : hooke (lameLambda 3 b ex mi) (lameMu ex mi) e' 2 2 = 0) (hex : ex ≠ 0) (i j : Fin 2) :
    hooke (lameLambda 3 b ex mi) (lameMu ex mi) e' i.castSucc j.castSucc = hooke (lameLambda 2 b ex mi) (lameMu ex mi) e i j := by
  have t : (2 : K) ≠ 0 := two_ne_zero
  have l2 : lameLambda 2 b ex mi = ex * mi / ((1 + mi) * (1 - mi)) := by rcases hb with rfl | rfl <;> simp [lameLambda]
  rw [l2]
  rw [lambda3] at hs ⊢
  have p00 := hp 0 0
  have p11 := hp 1 1
  simp only [hooke, lameMu, Matrix.trace, Matrix.diag, Fin.sum_univ_three, Fin.sum_univ_two, Matrix.add_apply, Matrix.smul_apply, smul_eq_mul, Matrix.one_apply] at hs ⊢
  simp only [if_true, mul_one] at hs
  change e' 0 0 = e 0 0 at p00
  change e' 1 1 = e 1 1 at p11
  rw [p00, p11] at hs
  rw [p00, p11, hp i j]
  obtain ⟨d, hd⟩ : ∃ d, 1 - 2 * mi = d := ⟨_, rfl⟩
  obtain ⟨f, hf⟩ : ∃ f, 1 - mi = f := ⟨_, rfl⟩
  obtain ⟨g, hg⟩ : ∃ g, 1 + mi = g := ⟨_, rfl⟩
  rw [hd] at h2 hs ⊢
  rw [hf] at h3 ⊢
  rw [hg] at h1 hs ⊢
  have key : e' 2 2 = - (mi / f) * (e 0 0 + e 1 1) := by
    field_simp at hs ⊢
    rw [mul_zero] at hs
    rcases mul_eq_zero.1 hs with hs | hs
    · exact absurd hs hex
    · rw [← hf]
      rw [← hd] at hs
      linear_combination hs
  rw [key]
  have hc : (i.castSucc = j.castSucc) ↔ i = j := Fin.castSucc_inj
  by_cases hij : i = j
  · subst hij
    simp only [if_true]
    field_simp
    rw [← hd, ← hf]
    ring
  · rw [if_neg fun h => hij (hc.1 h), if_neg hij, mul_zero, mul_zero]

end

end Verif.Fem
