import Verif.Proof.Elasticity
import Mathlib.Algebra.BigOperators.Fin
import Mathlib.Algebra.CharZero.Defs
import Mathlib.Tactic.FieldSimp
/-!
The law of the Kirchhoff material in the notation of Voigt and as a law of tensors.
-/
namespace Verif.Fem

section
variable {K : Type} [Field K]

theorem quad_form (rows cols : Nat) (B C U V : Nat → K) :
    ∑ a ∈ Finset.range cols, ∑ b ∈ Finset.range cols,
      U a * (∑ k ∈ Finset.range rows, (∑ j ∈ Finset.range rows, B (j * cols + a) * C (j * rows + k)) * B (k * cols + b)) * V b =
    ∑ k ∈ Finset.range rows, ∑ j ∈ Finset.range rows,
      (∑ a ∈ Finset.range cols, U a * B (j * cols + a)) * C (j * rows + k) * ∑ b ∈ Finset.range cols, B (k * cols + b) * V b := by
  simp only [Finset.sum_mul, Finset.mul_sum]
  rw [Finset.sum_comm]
  simp only [Finset.sum_comm (s := Finset.range cols) (t := Finset.range rows)]
  refine Finset.sum_congr rfl fun k _ => Finset.sum_congr rfl fun j _ => Finset.sum_congr rfl fun b _ => Finset.sum_congr rfl fun a _ => ?_
  ring

/-- The displacement gradient with indices that are numbers. -/
def gradOf (N : Nat) (dND : Nat → Nat → K) (U : Nat → K) (j i : Nat) : K := ∑ n ∈ Finset.range N, U (j * N + n) * dND n i

theorem rowSum {d N : Nat} (B U : Nat → K) (h : Nat → Nat → Nat → K) (k : Nat)
    (hB : ∀ j < d, ∀ n < N, B (k * (d * N) + (j * N + n)) = h k j n) :
    ∑ a ∈ Finset.range (d * N), U a * B (k * (d * N) + a) = ∑ j ∈ Finset.range d, ∑ n ∈ Finset.range N, U (j * N + n) * h k j n := by
  rw [sum_blocks]
  exact Finset.sum_congr rfl fun j hj => Finset.sum_congr rfl fun n hn => by rw [hB j (Finset.mem_range.1 hj) n (Finset.mem_range.1 hn)]

/-- The strains of Voigt. -/
def voigt2 (F G : Nat → Nat → K) (k : Nat) : K :=
  match k with
  | 0 => F 0 0 * G 0 0 + F 1 0 * G 1 0
  | 1 => F 0 1 * G 0 1 + F 1 1 * G 1 1
  | _ => F 0 0 * G 0 1 + F 0 1 * G 0 0 + (F 1 0 * G 1 1 + F 1 1 * G 1 0)

def voigt3 (F G : Nat → Nat → K) (k : Nat) : K :=
  match k with
  | 0 => F 0 0 * G 0 0 + F 1 0 * G 1 0 + F 2 0 * G 2 0
  | 1 => F 0 1 * G 0 1 + F 1 1 * G 1 1 + F 2 1 * G 2 1
  | 2 => F 0 2 * G 0 2 + F 1 2 * G 1 2 + F 2 2 * G 2 2
  | 3 => F 0 0 * G 0 1 + F 0 1 * G 0 0 + (F 1 0 * G 1 1 + F 1 1 * G 1 0) + (F 2 0 * G 2 1 + F 2 1 * G 2 0)
  | 4 => F 0 1 * G 0 2 + F 0 2 * G 0 1 + (F 1 1 * G 1 2 + F 1 2 * G 1 1) + (F 2 1 * G 2 2 + F 2 2 * G 2 1)
  | _ => F 0 0 * G 0 2 + F 0 2 * G 0 0 + (F 1 0 * G 1 2 + F 1 2 * G 1 0) + (F 2 0 * G 2 2 + F 2 2 * G 2 0)

theorem row2_sum (N : Nat) (F dND : Nat → Nat → K) (U : Nat → K) (k : Nat) (hk : k < 3) :
    ∑ j ∈ Finset.range 2, ∑ n ∈ Finset.range N, U (j * N + n) * row2 F dND k j n = voigt2 F (gradOf N dND U) k := by
  simp only [Finset.sum_range_succ, Finset.sum_range_zero, zero_add]
  interval_cases k <;> simp only [row2, voigt2, gradOf, Finset.mul_sum, ← Finset.sum_add_distrib] <;>
    exact Finset.sum_congr rfl fun n _ => by ring

theorem row3_sum (N : Nat) (F dND : Nat → Nat → K) (U : Nat → K) (k : Nat) (hk : k < 6) :
    ∑ j ∈ Finset.range 3, ∑ n ∈ Finset.range N, U (j * N + n) * row3 F dND k j n = voigt3 F (gradOf N dND U) k := by
  simp only [Finset.sum_range_succ, Finset.sum_range_zero, zero_add]
  interval_cases k <;> simp only [row3, voigt3, gradOf, Finset.mul_sum, ← Finset.sum_add_distrib] <;>
    exact Finset.sum_congr rfl fun n _ => by ring

end

section
variable {K : Type} [Field K] [DecidableEq K] [CharZero K]

/-- The law in a plane. -/
theorem kirchhoff2_law {b : Behaviour} (hb : b ≠ .axisymmetric) {ex mi : K} {C : Nat → K} (h : kirchhoff2 b ex mi = some C) (x y : Nat → K) :
    ∑ k ∈ Finset.range 3, ∑ j ∈ Finset.range 3, x j * C (j * 3 + k) * y k =
      lameLambda 2 b ex mi * (x 0 + x 1) * (y 0 + y 1) + 2 * lameMu ex mi * (x 0 * y 0 + x 1 * y 1 + x 2 * y 2 / 2) := by
  have h2 : (2 : K) ≠ 0 := two_ne_zero
  cases b with
  | axisymmetric => exact absurd rfl hb
  | planeStrain =>
    unfold kirchhoff2 at h
    dsimp only at h
    split at h
    · simp at h
    · rename_i hc
      push Not at hc
      obtain ⟨c1, c2, c3⟩ := hc
      obtain rfl := Option.some.inj h
      have c4 := left_ne_zero_of_mul c1
      have c5 := right_ne_zero_of_mul c1
      have e : lameLambda 2 .planeStrain ex mi = ex * mi / ((1 + mi) * (1 - 2 * mi)) := by simp [lameLambda]
      rw [e]
      obtain ⟨d, hd⟩ : ∃ d, 1 - 2 * mi = d := ⟨_, rfl⟩
      simp only [Finset.sum_range_succ, Finset.sum_range_zero, lameMu, hd] at c5 ⊢
      norm_num
      field_simp
      rw [← hd]
      ring
  | planeStress =>
    unfold kirchhoff2 at h
    dsimp only at h
    split at h
    · simp at h
    · rename_i hc
      obtain rfl := Option.some.inj h
      have e : 1 - mi * mi = (1 + mi) * (1 - mi) := by ring
      rw [e] at hc
      have c4 := left_ne_zero_of_mul hc
      have c5 := right_ne_zero_of_mul hc
      simp only [Finset.sum_range_succ, Finset.sum_range_zero, lameLambda, lameMu, e]
      norm_num
      field_simp
      ring
  | planeStressThickness =>
    unfold kirchhoff2 at h
    dsimp only at h
    split at h
    · simp at h
    · rename_i hc
      obtain rfl := Option.some.inj h
      have e : 1 - mi * mi = (1 + mi) * (1 - mi) := by ring
      rw [e] at hc
      have c4 := left_ne_zero_of_mul hc
      have c5 := right_ne_zero_of_mul hc
      simp only [Finset.sum_range_succ, Finset.sum_range_zero, lameLambda, lameMu, e]
      norm_num
      field_simp
      ring

/-- The law of a body of revolution. -/
theorem kirchhoffAxi_law {ex mi : K} {C : Nat → K} (h : kirchhoff2 .axisymmetric ex mi = some C) (x y : Nat → K) :
    ∑ k ∈ Finset.range 4, ∑ j ∈ Finset.range 4, x j * C (j * 4 + k) * y k =
      lameLambda 3 .axisymmetric ex mi * (x 0 + x 1 + x 2) * (y 0 + y 1 + y 2) + 2 * lameMu ex mi * (x 0 * y 0 + x 1 * y 1 + x 2 * y 2 + x 3 * y 3 / 2) := by
  have h2 : (2 : K) ≠ 0 := two_ne_zero
  unfold kirchhoff2 at h
  dsimp only at h
  split at h
  · simp at h
  · rename_i hc
    obtain rfl := Option.some.inj h
    have c4 := left_ne_zero_of_mul hc
    have c5 := right_ne_zero_of_mul hc
    have e : lameLambda 3 .axisymmetric ex mi = ex * mi / ((1 + mi) * (1 - 2 * mi)) := by simp [lameLambda]
    rw [e]
    obtain ⟨d, hd⟩ : ∃ d, 1 - 2 * mi = d := ⟨_, rfl⟩
    simp only [Finset.sum_range_succ, Finset.sum_range_zero, lameMu, hd] at c5 ⊢
    norm_num
    field_simp
    rw [← hd]
    ring

omit [DecidableEq K] [CharZero K] in
/-- The law in space. -/
theorem kirchhoff3_law (lambda mu : K) (h2 : (2 : K) ≠ 0) (x y : Nat → K) :
    ∑ k ∈ Finset.range 6, ∑ j ∈ Finset.range 6, x j * symmetrize (kirchhoff3 lambda mu) (j * 6 + k) * y k =
      lambda * (x 0 + x 1 + x 2) * (y 0 + y 1 + y 2) +
        2 * mu * (x 0 * y 0 + x 1 * y 1 + x 2 * y 2 + (x 3 * y 3 + x 4 * y 4 + x 5 * y 5) / 2) := by
  simp only [Finset.sum_range_succ, Finset.sum_range_zero]
  norm_num [symmetrize, kirchhoff3]
  field_simp
  ring

/-- The tensors of a plane. -/
theorem contract2 (lambda mu : K) (F G H : Nat → Nat → K) :
    contract (hooke lambda mu (strainOf (Matrix.of fun i j : Fin 2 => F i j) (Matrix.of fun i j : Fin 2 => G i j))) (strainOf (Matrix.of fun i j : Fin 2 => F i j) (Matrix.of fun i j : Fin 2 => H i j)) =
      lambda * (voigt2 F G 0 + voigt2 F G 1) * (voigt2 F H 0 + voigt2 F H 1) +
        2 * mu * (voigt2 F G 0 * voigt2 F H 0 + voigt2 F G 1 * voigt2 F H 1 + voigt2 F G 2 * voigt2 F H 2 / 2) := by
  simp only [contract, hooke, strainOf, Matrix.trace, Matrix.diag, Fin.sum_univ_two, Matrix.add_apply, Matrix.smul_apply, Matrix.mul_apply, Matrix.transpose_apply,
    smul_eq_mul, Matrix.one_apply, Matrix.of_apply, voigt2]
  simp
  ring

theorem contract3 (lambda mu : K) (F G H : Nat → Nat → K) :
    contract (hooke lambda mu (strainOf (Matrix.of fun i j : Fin 3 => F i j) (Matrix.of fun i j : Fin 3 => G i j))) (strainOf (Matrix.of fun i j : Fin 3 => F i j) (Matrix.of fun i j : Fin 3 => H i j)) =
      lambda * (voigt3 F G 0 + voigt3 F G 1 + voigt3 F G 2) * (voigt3 F H 0 + voigt3 F H 1 + voigt3 F H 2) +
        2 * mu * (voigt3 F G 0 * voigt3 F H 0 + voigt3 F G 1 * voigt3 F H 1 + voigt3 F G 2 * voigt3 F H 2 +
          (voigt3 F G 3 * voigt3 F H 3 + voigt3 F G 4 * voigt3 F H 4 + voigt3 F G 5 * voigt3 F H 5) / 2) := by
  simp only [contract, hooke, strainOf, Matrix.trace, Matrix.diag, Fin.sum_univ_three, Matrix.add_apply, Matrix.smul_apply, Matrix.mul_apply, Matrix.transpose_apply,
    smul_eq_mul, Matrix.one_apply, Matrix.of_apply, voigt3]
  simp
  ring

end

end Verif.Fem
