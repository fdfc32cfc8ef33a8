import Verif.Spec.Regularization
import Mathlib.Algebra.BigOperators.Ring.Finset
import Mathlib.Algebra.BigOperators.Group.Finset.Sigma
import Mathlib.Algebra.Order.BigOperators.Ring.Finset
import Mathlib.LinearAlgebra.Matrix.NonsingularInverse
import Mathlib.LinearAlgebra.Matrix.ToLin
import Mathlib.LinearAlgebra.FiniteDimensional.Basic
import Mathlib.Algebra.BigOperators.Fin
import Mathlib.Tactic.Linarith
import Mathlib.Tactic.Ring
/-! The regularization by the kernel restricted to some columns. -/
namespace Verif.Regularization

open Finset

variable {K : Type} [Field K] [LinearOrder K] [IsStrictOrderedRing K]

/-- A definite matrix has a symmetric inverse. -/
theorem Definite.exists_inverse {n : Nat} {A : Nat → Nat → K} (h : Definite n A) :
    (∀ x y : Nat → K, (∀ i < n, ∑ j ∈ range n, A i j * x j = ∑ j ∈ range n, A i j * y j) → ∀ i < n, x i = y i) ∧
    ∃ Kp : Nat → Nat → K, (∀ i j, Kp i j = Kp j i) ∧ ∀ b : Nat → K, ∀ i < n, ∑ j ∈ range n, A i j * ∑ m ∈ range n, Kp j m * b m = b i := by
  have huniq : ∀ x y : Nat → K, (∀ i < n, ∑ j ∈ range n, A i j * x j = ∑ j ∈ range n, A i j * y j) → ∀ i < n, x i = y i := by
    intro x y hxy i hi
    by_contra hne
    have := h.pos (fun i => x i - y i) ⟨i, hi, sub_ne_zero.2 hne⟩
    have e : ∑ i ∈ range n, ∑ j ∈ range n, (x i - y i) * A i j * (x j - y j) = 0 := by
      refine sum_eq_zero fun i hi => ?_
      have e1 : ∑ j ∈ range n, (x i - y i) * A i j * (x j - y j) = (x i - y i) * (∑ j ∈ range n, A i j * x j - ∑ j ∈ range n, A i j * y j) := by
        rw [← sum_sub_distrib, mul_sum]
        exact sum_congr rfl fun j _ => by ring
      rw [e1, hxy i (mem_range.1 hi), sub_self, mul_zero]
    rw [e] at this
    exact lt_irrefl _ this
  refine ⟨huniq, ?_⟩
  let B : Matrix (Fin n) (Fin n) K := fun i j => A i j
  have hB : IsUnit B := by
    rw [← Matrix.mulVec_injective_iff_isUnit]
    intro x y hxy
    let ext := fun (x : Fin n → K) (i : Nat) => if hi : i < n then x ⟨i, hi⟩ else 0
    have hext : ∀ (x : Fin n → K) (i : Fin n), ∑ j ∈ range n, A i j * ext x j = B.mulVec x i := by
      intro x i
      rw [Matrix.mulVec, dotProduct, ← Fin.sum_univ_eq_sum_range (fun j => A i j * ext x j)]
      refine sum_congr rfl fun j _ => ?_
      simp only [ext, j.isLt, dif_pos, B, Fin.eta]
    have := huniq (ext x) (ext y) fun i hi => by rw [hext x ⟨i, hi⟩, hext y ⟨i, hi⟩, hxy]
    funext i
    simpa only [ext, i.isLt, dif_pos, Fin.eta] using this i i.isLt
  have hdet : IsUnit B.det := (Matrix.isUnit_iff_isUnit_det B).1 hB
  have hsym : B.transpose = B := by
    ext i j
    exact h.symm j j.isLt i i.isLt
  refine ⟨fun i j => if hi : i < n then if hj : j < n then B⁻¹ ⟨i, hi⟩ ⟨j, hj⟩ else 0 else 0, ?_, ?_⟩
  · intro i j
    by_cases hi : i < n <;> by_cases hj : j < n <;> simp only [hi, hj, dif_pos, dif_neg, not_false_eq_true]
    have : (B⁻¹).transpose = B⁻¹ := by rw [Matrix.transpose_nonsing_inv, hsym]
    exact congrFun (congrFun this ⟨j, hj⟩) ⟨i, hi⟩
  · intro b i hi
    have e : ∀ j : Fin n, ∑ m ∈ range n, (if hi : (j : Nat) < n then if hj : m < n then B⁻¹ ⟨j, hi⟩ ⟨m, hj⟩ else 0 else 0) * b m = (B⁻¹).mulVec (fun m => b m) j := by
      intro j
      rw [Matrix.mulVec, dotProduct, ← Fin.sum_univ_eq_sum_range (fun m => (if hi : (j : Nat) < n then if hj : m < n then B⁻¹ ⟨j, hi⟩ ⟨m, hj⟩ else 0 else 0) * b m)]
      refine sum_congr rfl fun m _ => ?_
      simp only [j.isLt, m.isLt, dif_pos, Fin.eta]
    rw [← Fin.sum_univ_eq_sum_range (fun j => A i j * ∑ m ∈ range n, (if hi : j < n then if hj : m < n then B⁻¹ ⟨j, hi⟩ ⟨m, hj⟩ else 0 else 0) * b m)]
    have : B.mulVec ((B⁻¹).mulVec fun m => b m) ⟨i, hi⟩ = b i := by
      rw [Matrix.mulVec_mulVec, Matrix.mul_nonsing_inv B hdet, Matrix.one_mulVec]
    rw [← this, Matrix.mulVec, dotProduct]
    exact sum_congr rfl fun j _ => by rw [e j]

section
variable {n k : Nat} {Km Rm X M : Nat → Nat → K} {F : Finset Nat} {ρ : K}

omit [LinearOrder K] [IsStrictOrderedRing K] in
/-- The squares of a combination of the rows on `F`. -/
theorem gram_form (F : Finset Nat) (Rm : Nat → Nat → K) (y z : Nat → K) :
    ∑ l ∈ range k, y l * ∑ m ∈ range k, (∑ e ∈ F, Rm l e * Rm m e) * z m = ∑ e ∈ F, (∑ l ∈ range k, y l * Rm l e) * ∑ l ∈ range k, z l * Rm l e := by
  have e1 : ∀ l ∈ range k, y l * ∑ m ∈ range k, (∑ e ∈ F, Rm l e * Rm m e) * z m = ∑ e ∈ F, y l * Rm l e * ∑ m ∈ range k, z m * Rm m e := by
    intro l _
    simp only [mul_sum, sum_mul]
    rw [sum_comm]
    exact sum_congr rfl fun e _ => sum_congr rfl fun m _ => by ring
  rw [sum_congr rfl e1, sum_comm]
  exact sum_congr rfl fun e _ => by rw [sum_mul]

theorem squares_zero (hind : ∀ a : Nat → K, (∀ c ∈ F, ∑ l ∈ range k, a l * Rm l c = 0) → ∀ l < k, a l = 0) {y : Nat → K}
    (h : ∑ e ∈ F, (∑ l ∈ range k, y l * Rm l e) * ∑ l ∈ range k, y l * Rm l e = 0) : ∀ l < k, y l = 0 := by
  refine hind y fun c hc => ?_
  have := (sum_eq_zero_iff_of_nonneg fun e _ => mul_self_nonneg (∑ l ∈ range k, y l * Rm l e)).1 h c hc
  exact mul_self_eq_zero.1 this

variable (hF : ∀ c ∈ F, c < n)
    (hind : ∀ a : Nat → K, (∀ c ∈ F, ∑ l ∈ range k, a l * Rm l c = 0) → ∀ l < k, a l = 0)
    (hX : ∀ c ∈ F, ∀ l < k, ∑ m ∈ range k, (∑ e ∈ F, Rm l e * Rm m e) * X m c = Rm l c)

include hX in
omit [LinearOrder K] [IsStrictOrderedRing K] in
/-- `G y = N x` for `y = X x`. -/
theorem gram_y (x : Nat → K) : ∀ l < k, ∑ m ∈ range k, (∑ e ∈ F, Rm l e * Rm m e) * ∑ c ∈ F, X m c * x c = ∑ c ∈ F, Rm l c * x c := by
  intro l hl
  have e1 : ∑ m ∈ range k, (∑ e ∈ F, Rm l e * Rm m e) * ∑ c ∈ F, X m c * x c = ∑ c ∈ F, (∑ m ∈ range k, (∑ e ∈ F, Rm l e * Rm m e) * X m c) * x c := by
    simp only [mul_sum (s := F) (f := fun c => X _ c * x c), sum_mul (s := range k)]
    rw [sum_comm]
    exact sum_congr rfl fun c _ => sum_congr rfl fun m _ => by ring
  rw [e1]
  exact sum_congr rfl fun c hc => by rw [hX c hc l hl]

include hX in
omit [LinearOrder K] [IsStrictOrderedRing K] in
/-- The matrix `Nᵀ (N Nᵀ)⁻¹ N` is symmetric. -/
theorem ntn_symm {i j : Nat} (hi : i ∈ F) (hj : j ∈ F) : ∑ l ∈ range k, Rm l i * X l j = ∑ l ∈ range k, Rm l j * X l i := by
  have key : ∀ i j, i ∈ F → ∑ l ∈ range k, Rm l i * X l j = ∑ e ∈ F, (∑ l ∈ range k, X l j * Rm l e) * ∑ l ∈ range k, X l i * Rm l e := by
    intro i j hi
    rw [← gram_form F Rm]
    exact sum_congr rfl fun l hl => by rw [hX i hi l (mem_range.1 hl), mul_comm]
  rw [key i j hi, key j i hj]
  exact sum_congr rfl fun e _ => mul_comm _ _

variable (hM : ∀ i < n, ∀ j < n, M i j = if i ∈ F ∧ j ∈ F then ρ * ∑ l ∈ range k, Rm l i * X l j else 0)

include hF hM in
omit [LinearOrder K] [IsStrictOrderedRing K] in
/-- The product with the regularization matrix. -/
theorem reg_mul (x : Nat → K) {i : Nat} (hi : i < n) :
    ∑ j ∈ range n, M i j * x j = if i ∈ F then ρ * ∑ l ∈ range k, Rm l i * ∑ c ∈ F, X l c * x c else 0 := by
  have hsub : F ⊆ range n := fun c hc => mem_range.2 (hF c hc)
  by_cases h : i ∈ F
  · rw [if_pos h, ← sum_subset hsub]
    · simp only [mul_sum]
      rw [sum_comm]
      refine sum_congr rfl fun j hj => ?_
      rw [hM i hi j (hF j hj), if_pos ⟨h, hj⟩, mul_sum, sum_mul]
      exact sum_congr rfl fun l _ => by ring
    · intro j hj hjF
      rw [hM i hi j (mem_range.1 hj), if_neg (fun h => hjF h.2), zero_mul]
  · rw [if_neg h]
    refine sum_eq_zero fun j hj => ?_
    rw [hM i hi j (mem_range.1 hj), if_neg (fun h' => h h'.1), zero_mul]

include hF hX hM in
omit [LinearOrder K] [IsStrictOrderedRing K] in
/-- The form of the regularization matrix. -/
theorem reg_form (x : Nat → K) : ∑ i ∈ range n, ∑ j ∈ range n, x i * M i j * x j =
    ρ * ∑ e ∈ F, (∑ l ∈ range k, (∑ c ∈ F, X l c * x c) * Rm l e) * ∑ l ∈ range k, (∑ c ∈ F, X l c * x c) * Rm l e := by
  have hsub : F ⊆ range n := fun c hc => mem_range.2 (hF c hc)
  have e1 : ∀ i ∈ range n, ∑ j ∈ range n, x i * M i j * x j = if i ∈ F then ρ * (x i * ∑ l ∈ range k, Rm l i * ∑ c ∈ F, X l c * x c) else 0 := by
    intro i hi
    simp only [mul_assoc]
    rw [← mul_sum, reg_mul hF hM x (mem_range.1 hi)]
    split
    · ring
    · rw [mul_zero]
  rw [sum_congr rfl e1, ← gram_form]
  have e2 : ∀ l ∈ range k, (∑ c ∈ F, X l c * x c) * ∑ m ∈ range k, (∑ e ∈ F, Rm l e * Rm m e) * ∑ c ∈ F, X m c * x c =
      ∑ c ∈ F, x c * (Rm l c * ∑ c ∈ F, X l c * x c) := by
    intro l hl
    rw [gram_y hX x l (mem_range.1 hl), mul_sum]
    exact sum_congr rfl fun c _ => by ring
  rw [sum_congr rfl e2, ← sum_filter, mul_sum]
  have hfil : (range n).filter (· ∈ F) = F := by
    ext c
    rw [mem_filter, mem_range]
    exact ⟨fun h => h.2, fun h => ⟨hF c h, h⟩⟩
  rw [hfil]
  simp only [mul_sum]
  rw [sum_comm]

include hF hind hX hM in
/-- **The regularization.** -/
theorem regularized (hK : Kernel n k Km Rm) (hρ : 0 < ρ) : ∃ Kp, Regularizes n k (fun i j => Km i j + M i j) Km Rm Kp := by
  have hsub : F ⊆ range n := fun c hc => mem_range.2 (hF c hc)
  have hdef : Definite n fun i j => Km i j + M i j := by
    refine ⟨fun i hi j hj => ?_, fun x hx => ?_⟩
    · rw [hK.symm i j, hM i hi j hj, hM j hj i hi]
      congr 1
      by_cases h1 : i ∈ F <;> by_cases h2 : j ∈ F <;> simp only [h1, h2, and_self, and_false, false_and, if_true, if_false]
      rw [ntn_symm hX h1 h2]
    · have hsplit : ∑ i ∈ range n, ∑ j ∈ range n, x i * (Km i j + M i j) * x j =
          ∑ i ∈ range n, ∑ j ∈ range n, x i * Km i j * x j + ∑ i ∈ range n, ∑ j ∈ range n, x i * M i j * x j := by
        rw [← sum_add_distrib]
        refine sum_congr rfl fun i _ => ?_
        rw [← sum_add_distrib]
        exact sum_congr rfl fun j _ => by ring
      rw [hsplit]
      have h1 := hK.pos x
      have h2 : 0 ≤ ∑ e ∈ F, (∑ l ∈ range k, (∑ c ∈ F, X l c * x c) * Rm l e) * ∑ l ∈ range k, (∑ c ∈ F, X l c * x c) * Rm l e :=
        sum_nonneg fun e _ => mul_self_nonneg _
      have hform := reg_form hF hX hM x
      by_contra hle
      have h3 : 0 ≤ ρ * ∑ e ∈ F, (∑ l ∈ range k, (∑ c ∈ F, X l c * x c) * Rm l e) * ∑ l ∈ range k, (∑ c ∈ F, X l c * x c) * Rm l e := mul_nonneg hρ.le h2
      rw [hform] at hle
      have hz1 : ∑ i ∈ range n, ∑ j ∈ range n, x i * Km i j * x j = 0 := by linarith
      have hz2 : ρ * ∑ e ∈ F, (∑ l ∈ range k, (∑ c ∈ F, X l c * x c) * Rm l e) * ∑ l ∈ range k, (∑ c ∈ F, X l c * x c) * Rm l e = 0 := by linarith
      have hz3 := (mul_eq_zero.1 hz2).resolve_left hρ.ne'
      have hy := squares_zero hind hz3
      have hN : ∀ l < k, ∑ c ∈ F, Rm l c * x c = 0 := by
        intro l hl
        rw [← gram_y hX x l hl]
        exact sum_eq_zero fun m hm => by rw [hy m (mem_range.1 hm), mul_zero]
      obtain ⟨a, ha⟩ := hK.span x hz1
      have haz : ∀ l < k, a l = 0 := by
        refine squares_zero (F := F) (Rm := Rm) hind ?_
        have e1 : ∀ e ∈ F, (∑ l ∈ range k, a l * Rm l e) * ∑ l ∈ range k, a l * Rm l e = ∑ l ∈ range k, a l * (Rm l e * x e) := by
          intro e he
          rw [← ha e (hF e he), ha e (hF e he), sum_mul]
          refine sum_congr rfl fun l _ => ?_
          rw [← ha e (hF e he)]
          ring
        rw [sum_congr rfl e1, sum_comm]
        refine sum_eq_zero fun l hl => ?_
        rw [← mul_sum, hN l (mem_range.1 hl), mul_zero]
      obtain ⟨i, hi, hxi⟩ := hx
      exact hxi (by rw [ha i hi]; exact sum_eq_zero fun l hl => by rw [haz l (mem_range.1 hl), zero_mul])
  obtain ⟨huniq, Kp, hsym, hinv⟩ := hdef.exists_inverse
  refine ⟨Kp, hdef, huniq, hinv, hsym, fun b hb i hi => ?_⟩
  let z : Nat → K := fun j => ∑ m ∈ range n, Kp j m * b m
  have hz : ∀ i < n, ∑ j ∈ range n, Km i j * z j + ∑ j ∈ range n, M i j * z j = b i := by
    intro i hi
    rw [← hinv b i hi, ← sum_add_distrib]
    exact sum_congr rfl fun j _ => by ring
  have hRM : ∀ l < k, ∑ i ∈ range n, Rm l i * ∑ j ∈ range n, M i j * z j = 0 := by
    intro l hl
    have e1 : ∑ i ∈ range n, Rm l i * ∑ j ∈ range n, Km i j * z j = 0 := by
      simp only [mul_sum]
      rw [sum_comm]
      refine sum_eq_zero fun j hj => ?_
      have := hK.zero l hl j (mem_range.1 hj)
      calc ∑ i ∈ range n, Rm l i * (Km i j * z j) = (∑ i ∈ range n, Km j i * Rm l i) * z j := by
            rw [sum_mul]
            exact sum_congr rfl fun i _ => by rw [hK.symm j i]; ring
        _ = 0 := by rw [this, zero_mul]
    have e2 := hb l hl
    rw [sum_congr rfl fun i hi => by rw [← hz i (mem_range.1 hi), mul_add], sum_add_distrib, e1, zero_add] at e2
    exact e2
  have hNz : ∀ l < k, ∑ c ∈ F, Rm l c * z c = 0 := by
    intro l hl
    have e1 := hRM l hl
    have e2 : ∀ i ∈ range n, Rm l i * ∑ j ∈ range n, M i j * z j = if i ∈ F then Rm l i * (ρ * ∑ m ∈ range k, Rm m i * ∑ c ∈ F, X m c * z c) else 0 := by
      intro i hi
      rw [reg_mul hF hM z (mem_range.1 hi)]
      split
      · rfl
      · rw [mul_zero]
    have hfil : (range n).filter (· ∈ F) = F := by
      ext c
      rw [mem_filter, mem_range]
      exact ⟨fun h => h.2, fun h => ⟨hF c h, h⟩⟩
    rw [sum_congr rfl e2, ← sum_filter, hfil] at e1
    have e3 : ∑ i ∈ F, Rm l i * (ρ * ∑ m ∈ range k, Rm m i * ∑ c ∈ F, X m c * z c) = ρ * ∑ m ∈ range k, (∑ e ∈ F, Rm l e * Rm m e) * ∑ c ∈ F, X m c * z c := by
      simp only [mul_sum (s := range k), sum_mul (s := F)]
      rw [sum_comm]
      refine sum_congr rfl fun m _ => ?_
      rw [mul_sum]
      exact sum_congr rfl fun e _ => by ring
    rw [e3, gram_y hX z l hl] at e1
    exact (mul_eq_zero.1 e1).resolve_left hρ.ne'
  have hy : ∀ l < k, ∑ c ∈ F, X l c * z c = 0 := by
    refine squares_zero (F := F) (Rm := Rm) (y := fun l => ∑ c ∈ F, X l c * z c) hind ?_
    rw [← gram_form]
    refine sum_eq_zero fun l hl => ?_
    rw [gram_y hX z l (mem_range.1 hl), hNz l (mem_range.1 hl), mul_zero]
  have hMz : ∑ j ∈ range n, M i j * z j = 0 := by
    rw [reg_mul hF hM z hi]
    split
    · rw [sum_eq_zero (fun l hl => by rw [hy l (mem_range.1 hl), mul_zero]), mul_zero]
    · rfl
  have := hz i hi
  rw [hMz, add_zero] at this
  exact this

end

end Verif.Regularization
