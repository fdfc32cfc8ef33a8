import Verif.Proof.ElasticLarge
import Verif.Prop.ElasticForm
/-!
C82: the tangent matrix and the inner forces of large displacements.
-/
namespace Verif.Fem

section
variable {K : Type} [Field K]

/-- A loop whose steps add to the form of a matrix and to the work of a vector. -/
theorem pairLoop {ι : Type} (M : Nat) (step : List K × List K → ι → Option (List K × List K)) (val : ι → (Nat → K) → (Nat → K) → K) (wrk : ι → (Nat → K) → K)
    (R : ι → Prop) (pts : List ι)
    (h : ∀ p ∈ pts, ∀ x : List K × List K, x.1.length = M * M → x.2.length = M → ((step x p).isSome ↔ R p) ∧
      ∀ y, step x p = some y → y.1.length = M * M ∧ y.2.length = M ∧ (∀ U V, formOf M y.1 U V = formOf M x.1 U V + val p U V) ∧
        ∀ V, workOf M y.2 V = workOf M x.2 V + wrk p V) (x : List K × List K) (hA : x.1.length = M * M) (hf : x.2.length = M) :
    ((pts.foldlM step x).isSome ↔ ∀ p ∈ pts, R p) ∧
    ∀ y, pts.foldlM step x = some y → y.1.length = M * M ∧ y.2.length = M ∧
      (∀ U V, formOf M y.1 U V = formOf M x.1 U V + (pts.map fun p => val p U V).sum) ∧ ∀ V, workOf M y.2 V = workOf M x.2 V + (pts.map fun p => wrk p V).sum := by
  induction pts generalizing x with
  | nil => simp [hA, hf]
  | cons p pts ih =>
    obtain ⟨h1, h2⟩ := h p (by simp) x hA hf
    rw [List.foldlM_cons]
    cases hs : step x p with
    | none =>
      have : ¬ R p := fun hr => by rw [hs] at h1; simp [hr] at h1
      simp [this]
    | some B =>
      obtain ⟨b1, b2, b3, b4⟩ := h2 B hs
      have hR : R p := h1.1 (by rw [hs]; rfl)
      obtain ⟨i1, i2⟩ := ih (fun q hq => h q (by simp [hq])) B b1 b2
      simp only [Option.bind_eq_bind, Option.bind_some]
      refine ⟨by rw [i1]; simp [hR], fun C hC => ?_⟩
      obtain ⟨c1, c2, c3, c4⟩ := i2 C hC
      exact ⟨c1, c2, fun U V => by rw [c3, b3, List.map_cons, List.sum_cons, add_assoc], fun V => by rw [c4, b4, List.map_cons, List.sum_cons, add_assoc]⟩

end

section
variable {K : Type} [Field K] [DecidableEq K] [CharZero K]

/-- One point of the rule. -/
theorem elasticityPointLarge_spec {c : Code} {gps : Nat} (hd : edim c = 2 ∨ edim c = 3) {m : Elastic K} (hb : edim c = 2 → m.behaviour ≠ .axisymmetric)
    (thickness : Nat → K) (u : Nat → K) (coords : Nat → Nat → K) (p : List K × K) (x : List K × List K)
    (hA : x.1.length = edim c * nodes c * (edim c * nodes c)) (hf : x.2.length = edim c * nodes c) :
    ((elasticityPointLarge c gps m thickness (fun n j => u (j * nodes c + n)) coords x p).isSome ↔ Regular c gps coords p.1 ∧ m.defined (edim c) p.1) ∧
    ∀ y, elasticityPointLarge c gps m thickness (fun n j => u (j * nodes c + n)) coords x p = some y →
      y.1.length = edim c * nodes c * (edim c * nodes c) ∧ y.2.length = edim c * nodes c ∧
      (∀ U V, formOf (edim c * nodes c) y.1 U V = formOf (edim c * nodes c) x.1 U V + thickAt c gps thickness p.1 * (geometryAt c gps coords p.1).det * p.2 *
        (contract (m.law (edim c) p.1 (strainOf (deformationAt c gps coords u p.1) (gradAt c gps coords U p.1)))
          (strainOf (deformationAt c gps coords u p.1) (gradAt c gps coords V p.1)) +
         contract (gradAt c gps coords U p.1 * m.law (edim c) p.1 (greenStrain (deformationAt c gps coords u p.1))) (gradAt c gps coords V p.1))) ∧
      ∀ V, workOf (edim c * nodes c) y.2 V = workOf (edim c * nodes c) x.2 V + thickAt c gps thickness p.1 * (geometryAt c gps coords p.1).det * p.2 *
        contract (m.law (edim c) p.1 (greenStrain (deformationAt c gps coords u p.1))) (strainOf (deformationAt c gps coords u p.1) (gradAt c gps coords V p.1)) := by
  unfold elasticityPointLarge Regular
  cases ht : setAt c gps p.1 with
  | none => simp
  | some tab =>
    cases hg : integrate (edim c) (nodes c) (slopeOf tab) coords with
    | none => simp [hg]
    | some g =>
      obtain ⟨F, hF⟩ : ∃ F, F = deformation (edim c) (nodes c) (fun n j => u (j * nodes c + n)) g.dND := ⟨_, rfl⟩
      have hk := kirchhoff_defined hd m p.1 (cauchyGreen (edim c) F)
      cases hs : kirchhoff (edim c) m.behaviour (m.young p.1) (m.poisson p.1) (cauchyGreen (edim c) F) with
      | none =>
        rw [hs] at hk
        have hk : ¬ m.defined (edim c) p.1 := by simpa using hk
        rw [hF] at hs
        simp [hg, hs, hk]
      | some s =>
        rw [hs] at hk
        have hk : m.defined (edim c) p.1 := by simpa using hk
        obtain ⟨D, d1, d2, d3, d4, d5⟩ := matrixElasticityLarge_spec hd hb u (thicknessAt (nodes c) tab thickness) g.det p.2 hF hs hA hf
        simp only [Option.bind_eq_bind, Option.bind_some, hg, ← hF, hs, d1]
        refine ⟨by simp [hk, hg], fun B hB => ?_⟩
        obtain rfl := Option.some.inj hB
        have e1 : tabAt c gps p.1 = tab := by simp [tabAt, ht]
        have e2 : geometryAt c gps coords p.1 = g := by simp [geometryAt, e1, hg]
        have e3 : thickAt c gps thickness p.1 = if edim c = 2 then thicknessAt (nodes c) tab thickness else 1 := by rw [thickAt, e1, thicknessAt_eq]
        refine ⟨d2, d3, fun U V => ?_, fun V => ?_⟩
        · rw [d4, e2, e3]
          simp only [Elastic.law, deformationAt, gradAt, e2]
        · rw [d5, e2, e3]
          simp only [Elastic.law, deformationAt, gradAt, e2]

theorem largeLoop {c : Code} {gps : Nat} (hd : edim c = 2 ∨ edim c = 3) {m : Elastic K} (hb : edim c = 2 → m.behaviour ≠ .axisymmetric)
    (thickness : Nat → K) (u : Nat → K) (coords : Nat → Nat → K) (pts : List (List K × K)) (x : List K × List K)
    (hA : x.1.length = edim c * nodes c * (edim c * nodes c)) (hf : x.2.length = edim c * nodes c) :
    ((pts.foldlM (elasticityPointLarge c gps m thickness (fun n j => u (j * nodes c + n)) coords) x).isSome ↔
      ∀ p ∈ pts, Regular c gps coords p.1 ∧ m.defined (edim c) p.1) ∧
    ∀ y, pts.foldlM (elasticityPointLarge c gps m thickness (fun n j => u (j * nodes c + n)) coords) x = some y →
      y.1.length = edim c * nodes c * (edim c * nodes c) ∧ y.2.length = edim c * nodes c ∧
      (∀ U V, formOf (edim c * nodes c) y.1 U V = formOf (edim c * nodes c) x.1 U V + tangentForm c gps m thickness coords pts u U V) ∧
      ∀ V, workOf (edim c * nodes c) y.2 V = workOf (edim c * nodes c) x.2 V + innerWork c gps m thickness coords pts u V :=
  pairLoop (edim c * nodes c) (elasticityPointLarge c gps m thickness (fun n j => u (j * nodes c + n)) coords) _ _ _ pts
    (fun p _ x hA hf => elasticityPointLarge_spec hd hb thickness u coords p x hA hf) x hA hf

/-- The matrix of an element is the quadrature of the tangent `∫ t (δE(U) : C : δE(V) + ∇U S : ∇V)` and the vector the one of the virtual work `∫ t S : δE(V)`, in
every state of large displacements. -/
theorem C82_form {sqrt : K → K} {c : Code} {gps : Nat} (hd : edim c = 2 ∨ edim c = 3) {m : Elastic K} (hb : edim c = 2 → m.behaviour ≠ .axisymmetric)
    {thickness u : Nat → K} {coords : Nat → Nat → K} {y : List K × List K}
    (h : elementElasticityLarge sqrt c gps m thickness (fun n j => u (j * nodes c + n)) coords = some y) :
    ∃ pts, rulePoints sqrt c gps = some pts ∧ y.1.length = edim c * nodes c * (edim c * nodes c) ∧ y.2.length = edim c * nodes c ∧
      (∀ U V, formOf (edim c * nodes c) y.1 U V = tangentForm c gps m thickness coords pts u U V) ∧
      ∀ V, workOf (edim c * nodes c) y.2 V = innerWork c gps m thickness coords pts u V := by
  unfold elementElasticityLarge at h
  simp only [Option.bind_eq_bind, Option.bind_eq_some_iff] at h
  obtain ⟨pts, hp, hB⟩ := h
  obtain ⟨-, h2⟩ := largeLoop (gps := gps) hd hb thickness u coords pts
    (List.replicate (edim c * nodes c * (edim c * nodes c)) 0, List.replicate (edim c * nodes c) 0) (by simp) (by simp)
  obtain ⟨h3, h4, h5, h6⟩ := h2 y hB
  exact ⟨pts, hp, h3, h4, fun U V => by rw [h5, formOf_zero, zero_add], fun V => by rw [h6, workOf_zero, zero_add]⟩

end

variable {c : Code} {gps : Nat} {m : Elastic ℝ} {thickness : Nat → ℝ} {coords : Nat → Nat → ℝ} {pts : List (List ℝ × ℝ)}

/-- The kernel divides by zero exactly if the geometry is singular in a point of the rule or a denominator of the law vanishes; the displacements do not matter. -/
theorem C82_defined (hd : edim c = 2 ∨ edim c = 3) (hb : edim c = 2 → m.behaviour ≠ .axisymmetric) (hp : rulePoints Real.sqrt c gps = some pts)
    (thickness : Nat → ℝ) (u : Nat → ℝ) (coords : Nat → Nat → ℝ) :
    (∃ y, elementElasticityLarge Real.sqrt c gps m thickness (fun n j => u (j * nodes c + n)) coords = some y) ↔
      ∀ p ∈ pts, detAt c gps coords p.1 ≠ 0 ∧ m.defined (edim c) p.1 := by
  unfold elementElasticityLarge
  rw [hp]
  simp only [Option.bind_eq_bind, Option.bind_some]
  rw [← Option.isSome_iff_exists, (largeLoop hd hb thickness u coords pts _ (by simp) (by simp)).1]
  refine forall₂_congr fun p hpp => ?_
  rw [regular_iff hd hp hpp]

end Verif.Fem
