import Verif.Spec.Conductivity
import Verif.Proof.AddTo
import Verif.Proof.Integration
import Mathlib.Tactic.FinCases
/-!
The kernels of the heat conduction.
-/
namespace Verif.Fem

variable {K : Type} [Field K] [DecidableEq K]

theorem matrixConductivity2_spec (model : Conduct) (N : Nat) (t det w : K) (c : Nat → K) (dND : Nat → Nat → K) {A : List K} (hA : A.length = N * N) :
    ∃ B, matrixConductivity2 model N t det w c dND A = some B ∧ B.length = N * N ∧ ∀ a < N, ∀ b < N,
      entry B (a * N + b) = entry A (a * N + b) + t * det * w * ∑ i : Fin 2, ∑ j : Fin 2, dND a i * tensorOf 2 model c i j * dND b j := by
  cases model
  · obtain ⟨B, h1, h2, h3⟩ := addMirrored_spec N (fun n m => t * det * w * c 0 * (dND n 0 * dND m 0 + dND n 1 * dND m 1)) (fun n m => by ring) hA
    refine ⟨B, h1, h2, fun a ha b hb => ?_⟩
    rw [h3 a ha b hb]
    simp [Fin.sum_univ_two, tensorOf, -mul_eq_mul_left_iff]
    ring
  · obtain ⟨B, h1, h2, h3⟩ := addMirrored_spec N (fun n m => t * det * w * (c 0 * dND n 0 * dND m 0 + c 3 * dND n 1 * dND m 1)) (fun n m => by ring) hA
    refine ⟨B, h1, h2, fun a ha b hb => ?_⟩
    rw [h3 a ha b hb]
    simp [Fin.sum_univ_two, tensorOf, -mul_eq_mul_left_iff]
    ring
  · obtain ⟨B, h1, h2, h3⟩ := addMirrored_spec N (fun n m => t * det * w * ((dND n 0 * c 0 + dND n 1 * c 1) * dND m 0 +
      (dND n 0 * c 1 + dND n 1 * c 3) * dND m 1)) (fun n m => by ring) hA
    refine ⟨B, h1, h2, fun a ha b hb => ?_⟩
    rw [h3 a ha b hb]
    simp [Fin.sum_univ_two, tensorOf, -mul_eq_mul_left_iff]
    ring
  · obtain ⟨B, h1, h2, h3⟩ := addFull_spec N (fun n m => t * det * w * ((dND n 0 * c 0 + dND n 1 * c 2) * dND m 0 +
      (dND n 0 * c 1 + dND n 1 * c 3) * dND m 1)) hA
    refine ⟨B, h1, h2, fun a ha b hb => ?_⟩
    rw [h3 a ha b hb]
    simp [Fin.sum_univ_two, tensorOf, -mul_eq_mul_left_iff]
    ring

theorem matrixConductivity3_spec (model : Conduct) (N : Nat) (det w : K) (c : Nat → K) (dND : Nat → Nat → K) {A : List K} (hA : A.length = N * N) :
    ∃ B, matrixConductivity3 model N det w c dND A = some B ∧ B.length = N * N ∧ ∀ a < N, ∀ b < N,
      entry B (a * N + b) = entry A (a * N + b) + det * w * ∑ i : Fin 3, ∑ j : Fin 3, dND a i * tensorOf 3 model c i j * dND b j := by
  cases model
  · obtain ⟨B, h1, h2, h3⟩ := addMirrored_spec N (fun n m => det * w * c 0 * (dND n 0 * dND m 0 + dND n 1 * dND m 1 + dND n 2 * dND m 2))
      (fun n m => by ring) hA
    refine ⟨B, h1, h2, fun a ha b hb => ?_⟩
    rw [h3 a ha b hb]
    simp [Fin.sum_univ_three, tensorOf, -mul_eq_mul_left_iff]
    ring
  · obtain ⟨B, h1, h2, h3⟩ := addMirrored_spec N (fun n m => det * w * (c 0 * dND n 0 * dND m 0 + c 4 * dND n 1 * dND m 1 + c 8 * dND n 2 * dND m 2))
      (fun n m => by ring) hA
    refine ⟨B, h1, h2, fun a ha b hb => ?_⟩
    rw [h3 a ha b hb]
    simp [Fin.sum_univ_three, tensorOf, -mul_eq_mul_left_iff]
    ring
  · obtain ⟨B, h1, h2, h3⟩ := addMirrored_spec N (fun n m => det * w * ((dND n 0 * c 0 + dND n 1 * c 1 + dND n 2 * c 2) * dND m 0 +
      (dND n 0 * c 1 + dND n 1 * c 4 + dND n 2 * c 5) * dND m 1 + (dND n 0 * c 2 + dND n 1 * c 5 + dND n 2 * c 8) * dND m 2)) (fun n m => by ring) hA
    refine ⟨B, h1, h2, fun a ha b hb => ?_⟩
    rw [h3 a ha b hb]
    simp [Fin.sum_univ_three, tensorOf, -mul_eq_mul_left_iff]
    ring
  · obtain ⟨B, h1, h2, h3⟩ := addFull_spec N (fun n m => det * w * ((dND n 0 * c 0 + dND n 1 * c 3 + dND n 2 * c 6) * dND m 0 +
      (dND n 0 * c 1 + dND n 1 * c 4 + dND n 2 * c 7) * dND m 1 + (dND n 0 * c 2 + dND n 1 * c 5 + dND n 2 * c 8) * dND m 2)) hA
    refine ⟨B, h1, h2, fun a ha b hb => ?_⟩
    rw [h3 a ha b hb]
    simp [Fin.sum_univ_three, tensorOf, -mul_eq_mul_left_iff]
    ring

theorem matrixConductivity_spec {d : Nat} (hd : d = 2 ∨ d = 3) (model : Conduct) (N : Nat) (t det w : K) (c : Nat → K) (dND : Nat → Nat → K)
    {A : List K} (hA : A.length = N * N) :
    ∃ B, matrixConductivity d model N t det w c dND A = some B ∧ B.length = N * N ∧ ∀ a < N, ∀ b < N,
      entry B (a * N + b) = entry A (a * N + b) + (if d = 2 then t else 1) * det * w * ∑ i : Fin d, ∑ j : Fin d, dND a i * tensorOf d model c i j * dND b j := by
  rcases hd with rfl | rfl
  · exact matrixConductivity2_spec model N t det w c dND hA
  · obtain ⟨B, h1, h2, h3⟩ := matrixConductivity3_spec model N det w c dND hA
    refine ⟨B, h1, h2, fun a ha b hb => ?_⟩
    rw [h3 a ha b hb, if_neg (by decide), one_mul]

theorem tensor_table2 (model : Conduct) (c : Nat → K) : tensorOf 2 model c = match model with
    | .isotropic => !![c 0, 0; 0, c 0]
    | .diagonal => !![c 0, 0; 0, c 3]
    | .symmetric => !![c 0, c 1; c 1, c 3]
    | .anisotropic => !![c 0, c 1; c 2, c 3] := by
  ext i j
  cases model <;> fin_cases i <;> fin_cases j <;> rfl

theorem tensor_table3 (model : Conduct) (c : Nat → K) : tensorOf 3 model c = match model with
    | .isotropic => !![c 0, 0, 0; 0, c 0, 0; 0, 0, c 0]
    | .diagonal => !![c 0, 0, 0; 0, c 4, 0; 0, 0, c 8]
    | .symmetric => !![c 0, c 1, c 2; c 1, c 4, c 5; c 2, c 5, c 8]
    | .anisotropic => !![c 0, c 1, c 2; c 3, c 4, c 5; c 6, c 7, c 8] := by
  ext i j
  cases model <;> fin_cases i <;> fin_cases j <;> rfl

/-- The kernel computes the tensor of the rotated material. -/
theorem conductivity_spec {d : Nat} (hd : d = 2 ∨ d = 3) (m : Material K) (p : List K) (old : Nat → K) :
    tensorOf d m.matrixModel (conductivity d m.rotated m.model (m.ecf p) (m.cossin p) old) = m.tensor d p := by
  cases hr : m.rotated
  · have : m.matrixModel = m.model := by simp [Material.matrixModel, hr]
    rw [this]
    unfold Material.tensor
    rw [hr]
    rcases hd with rfl | rfl <;> simp [conductivity, conductivity2, conductivity3]
  · have : m.matrixModel = m.model.rotated := by simp [Material.matrixModel, hr]
    rw [this]
    unfold Material.tensor
    rw [hr]
    have hm : m.model ≠ .isotropic := by
      simp only [Material.rotated, Bool.and_eq_true, decide_eq_true_eq] at hr
      exact hr.2
    rcases hd with rfl | rfl
    · simp only [conductivity, if_true]
      generalize m.ecf p = c
      generalize m.cossin p = r
      cases hc : m.model
      · exact absurd hc hm
      all_goals
        ext i j
        rw [tensor_table2, tensor_table2, rotation2]
        simp only [Conduct.rotated, Matrix.mul_apply, Matrix.transpose_apply, Fin.sum_univ_two]
        fin_cases i <;> fin_cases j <;> simp [conductivity2] <;> ring
    · simp only [conductivity, if_true]
      generalize m.ecf p = c
      generalize m.cossin p = r
      cases hc : m.model
      · exact absurd hc hm
      all_goals
        ext i j
        rw [tensor_table3, tensor_table3, rotation3]
        simp only [Conduct.rotated, Matrix.mul_apply, Matrix.transpose_apply, Fin.sum_univ_three]
        fin_cases i <;> fin_cases j <;> simp [conductivity3] <;> ring

end Verif.Fem
