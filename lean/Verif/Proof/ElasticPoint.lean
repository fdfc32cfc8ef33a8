import Verif.Proof.ElasticLaw
/-!
The contributions of an integration point to the matrix and to the inner forces of an element.
-/
namespace Verif.Fem

section
variable {K : Type} [Field K]

/-- The bilinear form of a square matrix stored row by row. -/
def formOf (M : Nat) (A : List K) (U V : Nat → K) : K := ∑ a ∈ Finset.range M, ∑ b ∈ Finset.range M, U a * entry A (a * M + b) * V b

/-- The linear form of a vector. -/
def workOf (M : Nat) (f : List K) (V : Nat → K) : K := ∑ a ∈ Finset.range M, entry f a * V a

theorem formOf_zero (M : Nat) (U V : Nat → K) : formOf M (List.replicate (M * M) (0 : K)) U V = 0 := by
  simp [formOf, entry_replicate]

theorem workOf_zero (M : Nat) (V : Nat → K) : workOf M (List.replicate M (0 : K)) V = 0 := by
  simp [workOf, entry_replicate]

/-- The entries of a matrix are the values of its form. -/
theorem formOf_unit {M : Nat} (A : List K) {a b : Nat} (ha : a < M) (hb : b < M) :
    formOf M A (fun i => if i = a then 1 else 0) (fun i => if i = b then 1 else 0) = entry A (a * M + b) := by
  unfold formOf
  rw [Finset.sum_eq_single a, Finset.sum_eq_single b]
  · simp
  · intro c _ hc; simp [hc]
  · intro h; exact absurd (Finset.mem_range.2 hb) h
  · intro c _ hc; simp [hc]
  · intro h; exact absurd (Finset.mem_range.2 ha) h

theorem workOf_unit {M : Nat} (f : List K) {a : Nat} (ha : a < M) : workOf M f (fun i => if i = a then 1 else 0) = entry f a := by
  unfold workOf
  rw [Finset.sum_eq_single a]
  · simp
  · intro c _ hc; simp [hc]
  · intro h; exact absurd (Finset.mem_range.2 ha) h

theorem multAtBA_form (rows M : Nat) (B C : Nat → K) (scale : K) {A : List K} (hA : A.length = M * M) :
    ∃ D, multAtBA rows M A B C scale = some D ∧ D.length = M * M ∧ ∀ U V,
      formOf M D U V = formOf M A U V + scale * ∑ k ∈ Finset.range rows, ∑ j ∈ Finset.range rows,
        (∑ a ∈ Finset.range M, U a * B (j * M + a)) * C (j * rows + k) * ∑ b ∈ Finset.range M, V b * B (k * M + b) := by
  obtain ⟨D, h1, h2, h3⟩ := multAtBA_spec rows M B C scale hA
  refine ⟨D, h1, h2, fun U V => ?_⟩
  have e := quad_form rows M B C U V
  simp only [mul_comm (B (_ * M + _)) (V _)] at e
  rw [← e]
  unfold formOf
  simp only [Finset.mul_sum (s := Finset.range M), ← Finset.sum_add_distrib]
  refine Finset.sum_congr rfl fun a ha => Finset.sum_congr rfl fun b hb => ?_
  rw [h3 a (Finset.mem_range.1 ha) b (Finset.mem_range.1 hb)]
  ring

theorem multAtB1_work (rows M : Nat) (B C : Nat → K) (scale : K) {f : List K} (hf : f.length = M) :
    ∃ D, multAtB1 M rows f B C scale = some D ∧ D.length = M ∧ ∀ V,
      workOf M D V = workOf M f V + scale * ∑ k ∈ Finset.range rows, C k * ∑ a ∈ Finset.range M, V a * B (k * M + a) := by
  obtain ⟨D, h1, h2, h3⟩ := multAtB1_spec M rows B C scale hf
  refine ⟨D, h1, h2, fun V => ?_⟩
  unfold workOf
  have e : ∀ a ∈ Finset.range M, entry D a * V a = entry f a * V a + scale * ∑ k ∈ Finset.range rows, C k * (V a * B (k * M + a)) := by
    intro a ha
    rw [h3 a (Finset.mem_range.1 ha), add_mul, mul_assoc, Finset.sum_mul]
    congr 2
    exact Finset.sum_congr rfl fun k _ => by ring
  rw [Finset.sum_congr rfl e, Finset.sum_add_distrib, ← Finset.mul_sum, Finset.sum_comm]
  simp only [Finset.mul_sum]

end

section
variable {K : Type} [Field K] [DecidableEq K]

theorem unit2 : (1 : Matrix (Fin 2) (Fin 2) K) = Matrix.of fun i j : Fin 2 => unitF (i : Nat) (j : Nat) := by
  ext i j
  fin_cases i <;> fin_cases j <;> simp [unitF]

theorem unit3 : (1 : Matrix (Fin 3) (Fin 3) K) = Matrix.of fun i j : Fin 3 => unitF (i : Nat) (j : Nat) := by
  ext i j
  fin_cases i <;> fin_cases j <;> simp [unitF]

omit [DecidableEq K] in
theorem grad_of (d N : Nat) (dND : Nat → Nat → K) (U : Nat → K) :
    displacementGradient d N dND U = Matrix.of fun i j : Fin d => gradOf N dND U (i : Nat) (j : Nat) := rfl

variable [CharZero K]

theorem lambda3 (b : Behaviour) (ex mi : K) : lameLambda 3 b ex mi = ex * mi / ((1 + mi) * (1 - 2 * mi)) := by simp [lameLambda]

omit [DecidableEq K] [CharZero K] in
theorem lameMu_eq (ex mi : K) : ex / (2 + 2 * mi) = lameMu ex mi := by
  rw [lameMu]
  congr 1
  ring

/-- The contribution of a point for small displacements. -/
theorem matrixElasticity_spec {d : Nat} (hd : d = 2 ∨ d = 3) {b : Behaviour} (hb : d = 2 → b ≠ .axisymmetric) {ex mi : K} {C2 : Nat → K}
    {s : (Nat → K) × (Nat → K)} (hs : kirchhoff d b ex mi C2 = some s) (pi : K) (N : Nat) (v : Nat → K) (r det w : K) (dND : Nat → Nat → K)
    {A : List K} (hA : A.length = d * N * (d * N)) :
    ∃ D, matrixElasticity d b pi N v r det w s.1 dND A = some D ∧ D.length = d * N * (d * N) ∧ ∀ U V, formOf (d * N) D U V = formOf (d * N) A U V +
      det * w * contract (hooke (lameLambda d b ex mi) (lameMu ex mi) (strainOf 1 (displacementGradient d N dND U)))
        (strainOf 1 (displacementGradient d N dND V)) := by
  rcases hd with rfl | rfl
  · have hb := hb rfl
    simp only [kirchhoff, Option.bind_eq_bind, Option.bind_eq_some_iff, Option.pure_def, Option.some.injEq] at hs
    obtain ⟨C, hC, rfl⟩ := hs
    obtain ⟨B, b1, b2⟩ := strain2_spec N dND
    obtain ⟨D, d1, d2, d3⟩ := multAtBA_form 3 (2 * N) (entry B) C (det * w) hA
    refine ⟨D, ?_, d2, fun U V => ?_⟩
    · simp only [matrixElasticity, hb, if_false, b1, Option.bind_eq_bind, Option.bind_some]
      exact d1
    · rw [d3, unit2, grad_of, grad_of, contract2, ← kirchhoff2_law hb hC (voigt2 unitF (gradOf N dND U)) (voigt2 unitF (gradOf N dND V))]
      congr 2
      refine Finset.sum_congr rfl fun k hk => Finset.sum_congr rfl fun j hj => ?_
      have hk := Finset.mem_range.1 hk
      have hj := Finset.mem_range.1 hj
      rw [rowSum (entry B) U (row2 unitF dND) j (b2 j hj), rowSum (entry B) V (row2 unitF dND) k (b2 k hk), row2_sum N _ _ _ j hj, row2_sum N _ _ _ k hk]
  · simp only [kirchhoff] at hs
    split at hs
    · simp at hs
    obtain rfl := Option.some.inj hs
    obtain ⟨B, b1, b2⟩ := strain3_spec N dND
    obtain ⟨D, d1, d2, d3⟩ := multAtBA_form 6 (3 * N) (entry B)
      (symmetrize (kirchhoff3 (ex * mi / ((1 + mi) * (1 - 2 * mi))) (ex / (2 + 2 * mi)))) (det * w) hA
    refine ⟨D, ?_, d2, fun U V => ?_⟩
    · simp only [matrixElasticity, b1, Option.bind_eq_bind, Option.bind_some]
      exact d1
    · rw [d3, unit3, grad_of, grad_of, contract3, lambda3, ← lameMu_eq,
        ← kirchhoff3_law _ _ two_ne_zero (voigt3 unitF (gradOf N dND U)) (voigt3 unitF (gradOf N dND V))]
      congr 2
      refine Finset.sum_congr rfl fun k hk => Finset.sum_congr rfl fun j hj => ?_
      have hk := Finset.mem_range.1 hk
      have hj := Finset.mem_range.1 hj
      rw [rowSum (entry B) U (row3 unitF dND) j (b2 j hj), rowSum (entry B) V (row3 unitF dND) k (b2 k hk), row3_sum N _ _ _ j hj, row3_sum N _ _ _ k hk]

/-- The strains of a body of revolution in the notation of Voigt. -/
def voigtAxi (N : Nat) (v : Nat → K) (r : K) (dND : Nat → Nat → K) (U : Nat → K) (k : Nat) : K :=
  match k with
  | 0 => gradOf N dND U 0 0
  | 1 => gradOf N dND U 1 1
  | 2 => (∑ n ∈ Finset.range N, v n * U n) / r
  | _ => gradOf N dND U 0 1 + gradOf N dND U 1 0

omit [DecidableEq K] [CharZero K] in
theorem rowAxi_sum (N : Nat) (v : Nat → K) (r : K) (dND : Nat → Nat → K) (U : Nat → K) (k : Nat) (hk : k < 4) :
    ∑ j ∈ Finset.range 2, ∑ n ∈ Finset.range N, U (j * N + n) * rowAxi v r dND k j n = voigtAxi N v r dND U k := by
  simp only [Finset.sum_range_succ, Finset.sum_range_zero, zero_add]
  interval_cases k <;> simp [rowAxi, voigtAxi, gradOf, Finset.sum_div]
  exact Finset.sum_congr rfl fun n _ => by ring

/-- The strain of a body of revolution. -/
def strainAxiOf (N : Nat) (v : Nat → K) (r : K) (dND : Nat → Nat → K) (U : Nat → K) : Matrix (Fin 3) (Fin 3) K :=
  let G := displacementGradient 2 N dND U
  !![G 0 0, (G 0 1 + G 1 0) / 2, 0; (G 0 1 + G 1 0) / 2, G 1 1, 0; 0, 0, (∑ n ∈ Finset.range N, v n * U n) / r]

omit [DecidableEq K] [CharZero K] in
theorem contractAxi (h2 : (2 : K) ≠ 0) (lambda mu : K) (N : Nat) (v : Nat → K) (r : K) (dND : Nat → Nat → K) (U V : Nat → K) :
    contract (hooke lambda mu (strainAxiOf N v r dND U)) (strainAxiOf N v r dND V) =
      let x := voigtAxi N v r dND U
      let y := voigtAxi N v r dND V
      lambda * (x 0 + x 1 + x 2) * (y 0 + y 1 + y 2) + 2 * mu * (x 0 * y 0 + x 1 * y 1 + x 2 * y 2 + x 3 * y 3 / 2) := by
  have e : ∀ (i j : Fin 2) (W : Nat → K), displacementGradient 2 N dND W i j = gradOf N dND W i j := fun _ _ _ => rfl
  simp only [contract, hooke, strainAxiOf, Matrix.trace, Matrix.diag, Fin.sum_univ_three, Matrix.add_apply, Matrix.smul_apply, smul_eq_mul, Matrix.one_apply, e, voigtAxi]
  simp
  field_simp
  ring

/-- The contribution of a point of a body of revolution. -/
theorem matrixElasticityAxi_spec {ex mi : K} {C2 : Nat → K} {s : (Nat → K) × (Nat → K)} (hs : kirchhoff 2 .axisymmetric ex mi C2 = some s) (pi : K) (N : Nat)
    (v : Nat → K) {r : K} (hr : r ≠ 0) (det w : K) (dND : Nat → Nat → K) {A : List K} (hA : A.length = 2 * N * (2 * N)) :
    ∃ D, matrixElasticity 2 .axisymmetric pi N v r det w s.1 dND A = some D ∧ D.length = 2 * N * (2 * N) ∧ ∀ U V, formOf (2 * N) D U V = formOf (2 * N) A U V +
      2 * pi * r * det * w * contract (hooke (lameLambda 3 .axisymmetric ex mi) (lameMu ex mi) (strainAxiOf N v r dND U)) (strainAxiOf N v r dND V) := by
  simp only [kirchhoff, Option.bind_eq_bind, Option.bind_eq_some_iff, Option.pure_def, Option.some.injEq] at hs
  obtain ⟨C, hC, rfl⟩ := hs
  obtain ⟨B, b1, b2⟩ := strainAxi_spec N v hr dND
  obtain ⟨D, d1, d2, d3⟩ := multAtBA_form 4 (2 * N) (entry B) C (det * w * (2 * pi) * r) hA
  refine ⟨D, ?_, d2, fun U V => ?_⟩
  · simp only [matrixElasticity, if_true, b1, Option.bind_eq_bind, Option.bind_some]
    exact d1
  · rw [d3, contractAxi two_ne_zero]
    dsimp only
    rw [← kirchhoffAxi_law hC (voigtAxi N v r dND U) (voigtAxi N v r dND V)]
    have e : ∑ k ∈ Finset.range 4, ∑ j ∈ Finset.range 4, (∑ a ∈ Finset.range (2 * N), U a * entry B (j * (2 * N) + a)) * C (j * 4 + k) *
        ∑ b ∈ Finset.range (2 * N), V b * entry B (k * (2 * N) + b) =
        ∑ k ∈ Finset.range 4, ∑ j ∈ Finset.range 4, voigtAxi N v r dND U j * C (j * 4 + k) * voigtAxi N v r dND V k := by
      refine Finset.sum_congr rfl fun k hk => Finset.sum_congr rfl fun j hj => ?_
      have hk := Finset.mem_range.1 hk
      have hj := Finset.mem_range.1 hj
      rw [rowSum (entry B) U (rowAxi v r dND) j (b2 j hj), rowSum (entry B) V (rowAxi v r dND) k (b2 k hk), rowAxi_sum N _ _ _ _ j hj, rowAxi_sum N _ _ _ _ k hk]
    rw [e]
    ring

end

end Verif.Fem
