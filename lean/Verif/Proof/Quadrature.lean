import Verif.Spec.Quadrature
import Verif.Model.Quadrature
import Mathlib.Analysis.Real.Sqrt
import Mathlib.Tactic.IntervalCases
import Mathlib.Tactic.Linarith
import Mathlib.Tactic.LinearCombination
/-!
The moments of the reference domains and of the rules.
-/
namespace Verif.Fem

open intervalIntegral

/-- `∫_{-1}^1 x^k`. -/
noncomputable def m1 (k : Nat) : ℝ := (1 - (-1) ^ (k + 1)) / (k + 1)

theorem integral_m1 (k : Nat) : ∫ x in (-1 : ℝ)..1, x ^ k = m1 k := by
  rw [integral_pow, one_pow]
  rfl

/-- `∫_0^1 x^a (1-x)^b`. -/
theorem integral_beta (a b : Nat) : ∫ x in (0 : ℝ)..1, x ^ a * (1 - x) ^ b = (a.factorial * b.factorial : ℝ) / (a + b + 1).factorial := by
  induction b generalizing a with
  | zero =>
    simp only [pow_zero, mul_one, integral_pow, one_pow, Nat.factorial_zero, Nat.cast_one, add_zero]
    rw [Nat.factorial_succ, Nat.cast_mul]
    have : (a.factorial : ℝ) ≠ 0 := Nat.cast_ne_zero.2 (Nat.factorial_ne_zero a)
    have : ((a + 1 : Nat) : ℝ) ≠ 0 := Nat.cast_ne_zero.2 (Nat.succ_ne_zero a)
    push_cast at *
    field_simp
    simp
  | succ b ih =>
    have e : ∀ x : ℝ, x ^ a * (1 - x) ^ (b + 1) = x ^ a * (1 - x) ^ b - x ^ (a + 1) * (1 - x) ^ b := fun x => by ring
    simp only [e]
    rw [integral_sub (Continuous.intervalIntegrable (by fun_prop) _ _) (Continuous.intervalIntegrable (by fun_prop) _ _), ih, ih]
    have h1 : (a + 1 + b + 1).factorial = (a + b + 2) * (a + b + 1).factorial := by
      rw [show a + 1 + b + 1 = (a + b + 1) + 1 by ring, Nat.factorial_succ]
    have h2 : (a + (b + 1) + 1).factorial = (a + b + 2) * (a + b + 1).factorial := by
      rw [show a + (b + 1) + 1 = (a + b + 1) + 1 by ring, Nat.factorial_succ]
    rw [h1, h2, Nat.factorial_succ a, Nat.factorial_succ b]
    have : ((a + b + 1).factorial : ℝ) ≠ 0 := Nat.cast_ne_zero.2 (Nat.factorial_ne_zero _)
    have : ((a : ℝ) + b + 2) ≠ 0 := by positivity
    push_cast
    field_simp
    ring

/-- `∫_0^L x^a (L-x)^b`. -/
theorem integral_beta_scaled (a b : Nat) (L : ℝ) :
    ∫ x in (0 : ℝ)..L, x ^ a * (L - x) ^ b = (a.factorial * b.factorial : ℝ) / (a + b + 1).factorial * L ^ (a + b + 1) := by
  have h := integral_comp_mul_left (a := 0) (b := 1) (fun x : ℝ => x ^ a * (L - x) ^ b) (c := L)
  rcases eq_or_ne L 0 with rfl | hL
  · simp
  have h := h hL
  rw [mul_zero, mul_one] at h
  have e : ∀ x : ℝ, (L * x) ^ a * (L - L * x) ^ b = L ^ (a + b) * (x ^ a * (1 - x) ^ b) := fun x => by
    rw [mul_pow, show L - L * x = L * (1 - x) by ring, mul_pow]; ring
  simp only [e] at h
  rw [integral_const_mul, integral_beta, smul_eq_mul] at h
  rw [← mul_right_inj' (inv_ne_zero hL), ← h, pow_succ]
  field_simp

/-- The integrals of the monomials. -/
noncomputable def moment : Shape → (Nat → Nat) → ℝ
  | .line, e => m1 (e 0)
  | .square, e => m1 (e 0) * m1 (e 1)
  | .cube, e => m1 (e 0) * m1 (e 1) * m1 (e 2)
  | .triangle, e => (e 0).factorial * (e 1).factorial / (e 0 + e 1 + 2).factorial
  | .tetra, e => (e 0).factorial * (e 1).factorial * (e 2).factorial / (e 0 + e 1 + e 2 + 3).factorial
  | .prism, e => (e 0).factorial * (e 1).factorial / (e 0 + e 1 + 2).factorial * m1 (e 2)

def Shape.dim : Shape → Nat
  | .line => 1
  | .square | .triangle => 2
  | .cube | .tetra | .prism => 3

theorem prod_getD (x : ℝ) (l : List ℝ) (e : Nat → Nat) (d : Nat) :
    ∏ k ∈ Finset.range (d + 1), (x :: l).getD k 0 ^ e k = x ^ e 0 * ∏ k ∈ Finset.range d, l.getD k 0 ^ e (k + 1) := by
  rw [Finset.prod_range_succ', mul_comm]
  rfl

variable {ι : Type}

/-- A sum of continuous functions with weights. -/
theorem integral_weighted (S : Finset ι) (c : ι → ℝ) (g : ι → ℝ → ℝ) (hg : ∀ i, Continuous (g i)) (a b : ℝ) :
    ∫ x in a..b, ∑ i ∈ S, c i * g i x = ∑ i ∈ S, c i * ∫ x in a..b, g i x := by
  rw [integral_finset_sum fun i _ => ((hg i).const_mul (c i)).intervalIntegrable a b]
  exact Finset.sum_congr rfl fun i _ => integral_const_mul _ _

theorem fact_ne (n : Nat) : (n.factorial : ℝ) ≠ 0 := Nat.cast_ne_zero.2 (Nat.factorial_ne_zero n)

theorem integral_simplex (b : Nat) (L : ℝ) : ∫ x in (0 : ℝ)..L, x ^ b = L ^ (b + 1) / (b + 1) := by
  rw [integral_pow]
  simp

/-- The integral of a polynomial is the sum of the moments. -/
theorem integral_poly (sh : Shape) (S : Finset ι) (c : ι → ℝ) (e : ι → Nat → Nat) :
    sh.integral (fun p => ∑ i ∈ S, c i * ∏ k ∈ Finset.range sh.dim, p.getD k 0 ^ e i k) = ∑ i ∈ S, c i * moment sh (e i) := by
  cases sh <;> simp only [Shape.integral, Shape.dim, prod_getD, Finset.prod_range_zero, mul_one, moment]
  · rw [integral_weighted S c _ (fun i => by fun_prop)]
    simp only [integral_m1]
  · have h1 : ∀ r : ℝ, ∫ s in (-1 : ℝ)..1, ∑ i ∈ S, c i * (r ^ e i 0 * s ^ e i (0 + 1)) = ∑ i ∈ S, c i * (r ^ e i 0 * m1 (e i 1)) := fun r => by
      rw [integral_weighted S c _ (fun i => by fun_prop)]
      simp only [integral_const_mul, integral_m1, zero_add]
    simp only [h1]
    rw [integral_weighted S c _ (fun i => by fun_prop)]
    simp only [integral_mul_const, integral_m1]
  · have h1 : ∀ r s : ℝ, ∫ t in (-1 : ℝ)..1, ∑ i ∈ S, c i * (r ^ e i 0 * (s ^ e i (0 + 1) * t ^ e i (0 + 1 + 1))) =
        ∑ i ∈ S, c i * (r ^ e i 0 * (s ^ e i 1 * m1 (e i 2))) := fun r s => by
      rw [integral_weighted S c _ (fun i => by fun_prop)]
      simp only [integral_const_mul, integral_m1, zero_add, Nat.reduceAdd]
    have h2 : ∀ r : ℝ, ∫ s in (-1 : ℝ)..1, ∑ i ∈ S, c i * (r ^ e i 0 * (s ^ e i 1 * m1 (e i 2))) =
        ∑ i ∈ S, c i * (r ^ e i 0 * (m1 (e i 1) * m1 (e i 2))) := fun r => by
      rw [integral_weighted S c _ (fun i => by fun_prop)]
      simp only [integral_const_mul, integral_mul_const, integral_m1]
    simp only [h1, h2]
    rw [integral_weighted S c _ (fun i => by fun_prop)]
    simp only [integral_mul_const, integral_m1, mul_assoc]
  · have h1 : ∀ r : ℝ, ∫ s in (0 : ℝ)..(1 - r), ∑ i ∈ S, c i * (r ^ e i 0 * s ^ e i (0 + 1)) =
        ∑ i ∈ S, c i * (r ^ e i 0 * (1 - r) ^ (e i 1 + 1) * (1 / (e i 1 + 1))) := fun r => by
      rw [integral_weighted S c _ (fun i => by fun_prop)]
      refine Finset.sum_congr rfl fun i _ => ?_
      rw [integral_const_mul, integral_simplex, zero_add]
      ring
    simp only [h1]
    rw [integral_weighted S c _ (fun i => by fun_prop)]
    refine Finset.sum_congr rfl fun i _ => ?_
    rw [integral_mul_const, integral_beta, Nat.factorial_succ, show e i 0 + (e i 1 + 1) + 1 = e i 0 + e i 1 + 2 by ring]
    have := fact_ne (e i 0 + e i 1 + 2)
    have : ((e i 1 : ℝ) + 1) ≠ 0 := by positivity
    push_cast
    field_simp
  · have h1 : ∀ r s : ℝ, ∫ t in (0 : ℝ)..(1 - r - s), ∑ i ∈ S, c i * (r ^ e i 0 * (s ^ e i (0 + 1) * t ^ e i (0 + 1 + 1))) =
        ∑ i ∈ S, c i * (r ^ e i 0 * (s ^ e i 1 * (1 - r - s) ^ (e i 2 + 1)) * (1 / (e i 2 + 1))) := fun r s => by
      rw [integral_weighted S c _ (fun i => by fun_prop)]
      refine Finset.sum_congr rfl fun i _ => ?_
      rw [integral_const_mul, integral_const_mul, integral_simplex]
      simp only [zero_add, Nat.reduceAdd]
      ring
    have h2 : ∀ r : ℝ, ∫ s in (0 : ℝ)..(1 - r), ∑ i ∈ S, c i * (r ^ e i 0 * (s ^ e i 1 * (1 - r - s) ^ (e i 2 + 1)) * (1 / (e i 2 + 1))) =
        ∑ i ∈ S, c i * (r ^ e i 0 * (1 - r) ^ (e i 1 + (e i 2 + 1) + 1) *
          (((e i 1).factorial * (e i 2 + 1).factorial : ℝ) / (e i 1 + (e i 2 + 1) + 1).factorial * (1 / (e i 2 + 1)))) := fun r => by
      rw [integral_weighted S c _ (fun i => by fun_prop)]
      refine Finset.sum_congr rfl fun i _ => ?_
      rw [integral_mul_const, integral_const_mul, integral_beta_scaled]
      ring
    simp only [h1, h2]
    rw [integral_weighted S c _ (fun i => by fun_prop)]
    refine Finset.sum_congr rfl fun i _ => ?_
    rw [integral_mul_const, integral_beta, Nat.factorial_succ (e i 2),
      show e i 0 + (e i 1 + (e i 2 + 1) + 1) + 1 = e i 0 + e i 1 + e i 2 + 3 by ring]
    have := fact_ne (e i 0 + e i 1 + e i 2 + 3)
    have := fact_ne (e i 1 + (e i 2 + 1) + 1)
    have : ((e i 2 : ℝ) + 1) ≠ 0 := by positivity
    push_cast
    field_simp
  · have h1 : ∀ r s : ℝ, ∫ t in (-1 : ℝ)..1, ∑ i ∈ S, c i * (r ^ e i 0 * (s ^ e i (0 + 1) * t ^ e i (0 + 1 + 1))) =
        ∑ i ∈ S, c i * (r ^ e i 0 * s ^ e i 1 * m1 (e i 2)) := fun r s => by
      rw [integral_weighted S c _ (fun i => by fun_prop)]
      simp only [integral_const_mul, integral_m1, zero_add, Nat.reduceAdd, mul_assoc]
    have h2 : ∀ r : ℝ, ∫ s in (0 : ℝ)..(1 - r), ∑ i ∈ S, c i * (r ^ e i 0 * s ^ e i 1 * m1 (e i 2)) =
        ∑ i ∈ S, c i * (r ^ e i 0 * (1 - r) ^ (e i 1 + 1) * (1 / (e i 1 + 1) * m1 (e i 2))) := fun r => by
      rw [integral_weighted S c _ (fun i => by fun_prop)]
      refine Finset.sum_congr rfl fun i _ => ?_
      rw [integral_mul_const, integral_const_mul, integral_simplex]
      ring
    simp only [h1, h2]
    rw [integral_weighted S c _ (fun i => by fun_prop)]
    refine Finset.sum_congr rfl fun i _ => ?_
    rw [integral_mul_const, integral_beta, Nat.factorial_succ, show e i 0 + (e i 1 + 1) + 1 = e i 0 + e i 1 + 2 by ring]
    have := fact_ne (e i 0 + e i 1 + 2)
    have : ((e i 1 : ℝ) + 1) ≠ 0 := by positivity
    push_cast
    field_simp

end Verif.Fem
