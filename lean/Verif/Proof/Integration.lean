import Verif.Model.Integration
import Mathlib.LinearAlgebra.Matrix.Determinant.Basic
import Mathlib.LinearAlgebra.Matrix.NonsingularInverse
import Mathlib.Algebra.BigOperators.Fin
import Mathlib.Algebra.BigOperators.Ring.Finset
import Mathlib.Algebra.BigOperators.Group.Finset.Sigma
import Mathlib.Tactic.FieldSimp
import Mathlib.Tactic.FinCases
import Mathlib.Tactic.LinearCombination
import Mathlib.Tactic.Ring
/-!
The kernels of `Model/Integration` as matrices: the Jacobian is the sum over the nodes, its inverse is the inverse.
-/
namespace Verif.Fem

variable {K : Type} [Field K] [DecidableEq K]

omit [DecidableEq K] in
theorem foldl_sum {S : Type} (step : S → Nat → S) (π : S → K) (g : Nat → K) (h : ∀ s n, π (step s n) = π s + g n) (m : Nat) (s0 : S) :
    π ((List.range m).foldl step s0) = π s0 + ∑ n ∈ Finset.range m, g n := by
  induction m with
  | zero => simp
  | succ m ih => rw [List.range_succ, List.foldl_append, List.foldl_cons, List.foldl_nil, h, ih, Finset.sum_range_succ, add_assoc]

/-- The Jacobian matrix: the derivative of coordinate `i` by column `j`. -/
def jacobian (d nodes : Nat) (dN coords : Nat → Nat → K) : Matrix (Fin d) (Fin d) K :=
  fun i j => ∑ n ∈ Finset.range nodes, dN n j * coords n i

omit [DecidableEq K] in
theorem jacobian2_eq (nodes : Nat) (dN coords : Nat → Nat → K) :
    jacobian2 nodes dN coords = ⟨jacobian 2 nodes dN coords 0 0, jacobian 2 nodes dN coords 0 1,
      jacobian 2 nodes dN coords 1 0, jacobian 2 nodes dN coords 1 1⟩ := by
  have h {step : M22 K → Nat → M22 K} (hs : jacobian2 nodes dN coords = (List.range nodes).foldl step ⟨0, 0, 0, 0⟩) (π : M22 K → K) (g : Nat → K)
      (h : ∀ s n, π (step s n) = π s + g n) (h0 : π ⟨0, 0, 0, 0⟩ = 0) : π (jacobian2 nodes dN coords) = ∑ n ∈ Finset.range nodes, g n := by
    rw [hs, foldl_sum _ π g h, h0, zero_add]
  apply M22.ext
  · exact h rfl M22.a0 _ (fun _ _ => rfl) rfl
  · exact h rfl M22.a1 _ (fun _ _ => rfl) rfl
  · exact h rfl M22.a2 _ (fun _ _ => rfl) rfl
  · exact h rfl M22.a3 _ (fun _ _ => rfl) rfl

omit [DecidableEq K] in
theorem jacobian3_eq (nodes : Nat) (dN coords : Nat → Nat → K) :
    jacobian3 nodes dN coords = ⟨jacobian 3 nodes dN coords 0 0, jacobian 3 nodes dN coords 0 1, jacobian 3 nodes dN coords 0 2,
      jacobian 3 nodes dN coords 1 0, jacobian 3 nodes dN coords 1 1, jacobian 3 nodes dN coords 1 2,
      jacobian 3 nodes dN coords 2 0, jacobian 3 nodes dN coords 2 1, jacobian 3 nodes dN coords 2 2⟩ := by
  have h {step : M33 K → Nat → M33 K} (hs : jacobian3 nodes dN coords = (List.range nodes).foldl step ⟨0, 0, 0, 0, 0, 0, 0, 0, 0⟩) (π : M33 K → K) (g : Nat → K)
      (h : ∀ s n, π (step s n) = π s + g n) (h0 : π ⟨0, 0, 0, 0, 0, 0, 0, 0, 0⟩ = 0) : π (jacobian3 nodes dN coords) = ∑ n ∈ Finset.range nodes, g n := by
    rw [hs, foldl_sum _ π g h, h0, zero_add]
  apply M33.ext
  · exact h rfl M33.a0 _ (fun _ _ => rfl) rfl
  · exact h rfl M33.a1 _ (fun _ _ => rfl) rfl
  · exact h rfl M33.a2 _ (fun _ _ => rfl) rfl
  · exact h rfl M33.a3 _ (fun _ _ => rfl) rfl
  · exact h rfl M33.a4 _ (fun _ _ => rfl) rfl
  · exact h rfl M33.a5 _ (fun _ _ => rfl) rfl
  · exact h rfl M33.a6 _ (fun _ _ => rfl) rfl
  · exact h rfl M33.a7 _ (fun _ _ => rfl) rfl
  · exact h rfl M33.a8 _ (fun _ _ => rfl) rfl

/-- What the kernel computes: the determinant of the Jacobian, and derivatives related to those of the reference element by the chain rule. -/
structure IsGeometry (d nodes : Nat) (dN coords : Nat → Nat → K) (g : Geometry K) : Prop where
  det_eq : g.det = (jacobian d nodes dN coords).det
  det_ne : g.det ≠ 0
  chain : ∀ n (j : Fin d), ∑ i : Fin d, g.dND n i * jacobian d nodes dN coords i j = dN n j

theorem integrate2_spec {nodes : Nat} {dN coords : Nat → Nat → K} {g : Geometry K} (h : integrate2 nodes dN coords = some g) :
    IsGeometry 2 nodes dN coords g := by
  unfold integrate2 inv22 at h
  simp only [jacobian2_eq] at h
  generalize hJ : jacobian 2 nodes dN coords = J at h
  dsimp only [Option.bind_eq_bind] at h
  split at h
  · simp at h
  rename_i hd
  simp only [Option.bind_some, Option.pure_def, Option.some.injEq] at h
  subst h
  refine ⟨?_, hd, ?_⟩
  · rw [hJ, Matrix.det_fin_two]; rfl
  · intro n j
    rw [hJ, Fin.sum_univ_two]
    simp only [det22] at hd ⊢
    fin_cases j
    · simp only [Fin.zero_eta, Fin.isValue, Fin.val_zero, Fin.val_one]; field_simp; ring
    · simp only [Fin.mk_one, Fin.isValue, Fin.val_zero, Fin.val_one]; field_simp; ring

theorem integrate2_none {nodes : Nat} {dN coords : Nat → Nat → K} : integrate2 nodes dN coords = none ↔ (jacobian 2 nodes dN coords).det = 0 := by
  unfold integrate2 inv22
  simp only [jacobian2_eq, Matrix.det_fin_two, det22]
  split <;> simp_all

theorem integrate3_spec {nodes : Nat} {dN coords : Nat → Nat → K} {g : Geometry K} (h : integrate3 nodes dN coords = some g) :
    IsGeometry 3 nodes dN coords g := by
  unfold integrate3 inv33 at h
  simp only [jacobian3_eq] at h
  generalize hJ : jacobian 3 nodes dN coords = J at h
  dsimp only [Option.bind_eq_bind] at h
  split at h
  · simp at h
  rename_i hd
  simp only [Option.bind_some, Option.pure_def, Option.some.injEq] at h
  subst h
  refine ⟨?_, hd, ?_⟩
  · rw [hJ, Matrix.det_fin_three]
    simp only [det33]
    ring
  · intro n j
    rw [hJ, Fin.sum_univ_three]
    have hs := one_div_mul_cancel hd
    dsimp only at hs ⊢
    generalize (1 : K) / det33 _ = scale at hs ⊢
    simp only [det33] at hs
    fin_cases j
    · simp only [Fin.zero_eta, Fin.isValue, Fin.val_zero, Fin.val_one, Fin.val_two]; linear_combination dN n 0 * hs
    · simp only [Fin.mk_one, Fin.isValue, Fin.val_zero, Fin.val_one, Fin.val_two]; linear_combination dN n 1 * hs
    · simp only [Fin.reduceFinMk, Fin.isValue, Fin.val_zero, Fin.val_one, Fin.val_two]; linear_combination dN n 2 * hs

theorem integrate3_none {nodes : Nat} {dN coords : Nat → Nat → K} : integrate3 nodes dN coords = none ↔ (jacobian 3 nodes dN coords).det = 0 := by
  have e : (jacobian 3 nodes dN coords).det = det33 (jacobian3 nodes dN coords) := by
    rw [jacobian3_eq, Matrix.det_fin_three, det33]
    ring
  rw [e]
  unfold integrate3 inv33
  dsimp only
  split <;> simp_all

theorem integrate_spec {d nodes : Nat} {dN coords : Nat → Nat → K} {g : Geometry K} (h : integrate d nodes dN coords = some g) :
    IsGeometry d nodes dN coords g := by
  unfold integrate at h
  split at h
  · exact integrate2_spec h
  · exact integrate3_spec h
  · simp at h

theorem integrate_none {d nodes : Nat} {dN coords : Nat → Nat → K} (hd : d = 2 ∨ d = 3) :
    integrate d nodes dN coords = none ↔ (jacobian d nodes dN coords).det = 0 := by
  rcases hd with rfl | rfl
  · exact integrate2_none
  · exact integrate3_none

/-- The system `Jᵀ g = b` has one solution. -/
theorem IsGeometry.unique {d nodes : Nat} {dN coords : Nat → Nat → K} {g : Geometry K} (h : IsGeometry d nodes dN coords g)
    {v w : Fin d → K} (e : ∀ j, ∑ i, v i * jacobian d nodes dN coords i j = ∑ i, w i * jacobian d nodes dN coords i j) : v = w := by
  have hu : IsUnit (jacobian d nodes dN coords) := by
    rw [Matrix.isUnit_iff_isUnit_det, ← h.det_eq]
    exact h.det_ne.isUnit
  exact Matrix.vecMul_injective_of_isUnit hu (funext e)

/-- The gradient of the nodal values satisfies the chain rule. -/
theorem IsGeometry.gradient {d nodes : Nat} {dN coords : Nat → Nat → K} {g : Geometry K} (h : IsGeometry d nodes dN coords g) (u : Nat → K) (j : Fin d) :
    ∑ i : Fin d, (∑ n ∈ Finset.range nodes, u n * g.dND n i) * jacobian d nodes dN coords i j = ∑ n ∈ Finset.range nodes, u n * dN n j := by
  simp only [Finset.sum_mul]
  rw [Finset.sum_comm]
  refine Finset.sum_congr rfl fun n _ => ?_
  rw [← h.chain n j, Finset.mul_sum]
  exact Finset.sum_congr rfl fun i _ => by ring

end Verif.Fem
