import Verif.Model.BaseFunctions
import Verif.Spec.ShapeFunctions
import Mathlib.Analysis.Calculus.Deriv.Add
import Mathlib.Analysis.Calculus.Deriv.Mul
import Mathlib.Analysis.Calculus.Deriv.Pow
import Mathlib.Tactic.IntervalCases
import Mathlib.Tactic.Ring
/-!
Every table of `Model/BaseFunctions` is a partition of unity with its partial derivatives.
-/
namespace Verif.Fem

/-- A function that is exactly quadratic around `x`. -/
theorem hasDerivAt_of_quadratic {f : ℝ → ℝ} {d x c : ℝ} (h : ∀ y, f y = f x + (y - x) * d + (y - x) ^ 2 * c) : HasDerivAt f d x := by
  have hf : f = fun y => f x + (y - x) * d + (y - x) ^ 2 * c := funext h
  have h1 : HasDerivAt (fun y : ℝ => y - x) 1 x := (hasDerivAt_id x).sub_const x
  have h2 : HasDerivAt (fun y => f x + (y - x) * d + (y - x) ^ 2 * c) (1 * d + (2 : ℕ) * (x - x) ^ (2 - 1) * 1 * c) x :=
    HasDerivAt.fun_add (HasDerivAt.const_add (f x) (h1.mul_const d)) ((h1.fun_pow 2).mul_const c)
  rw [hf]
  simpa using h2

/-- All functions of the tables are quadratic in every coordinate. -/
theorem hasDerivAt_of_taylor {f : ℝ → ℝ} {d x : ℝ}
    (h : ∀ y, f y = f x + (y - x) * d + (y - x) ^ 2 * ((f (x + 1) + f (x - 1) - 2 * f x) / 2)) : HasDerivAt f d x := hasDerivAt_of_quadratic h

macro "shape_tac" f:ident : tactic => `(tactic|
  (refine hasDerivAt_of_taylor fun y => ?_
   simp only [valueOf, slopeOf, $f:ident, List.getElem?_cons_succ, List.getElem?_cons_zero, Option.map_some, Option.getD_some, Option.bind_some]
   ring))

macro "sum_tac" f:ident : tactic => `(tactic|
  (simp only [Finset.sum_range_succ, Finset.sum_range_zero, valueOf, slopeOf, $f:ident, List.getElem?_cons_succ, List.getElem?_cons_zero,
     Option.map_some, Option.getD_some, Option.bind_some]
   ring))

theorem setTriangle3_unity (r s : ℝ) : ∑ n ∈ Finset.range 3, valueOf (setTriangle3 r s) n = 1 := by
  sum_tac setTriangle3

theorem setTriangle3_balance0 (r s : ℝ) : ∑ n ∈ Finset.range 3, slopeOf (setTriangle3 r s) n 0 = 0 := by
  sum_tac setTriangle3

theorem setTriangle3_balance1 (r s : ℝ) : ∑ n ∈ Finset.range 3, slopeOf (setTriangle3 r s) n 1 = 0 := by
  sum_tac setTriangle3

theorem setTriangle3_deriv0 (r s : ℝ) (n : Nat) (hn : n < 3) : HasDerivAt (fun y => valueOf (setTriangle3 y s) n) (slopeOf (setTriangle3 r s) n 0) r := by
  interval_cases n <;> shape_tac setTriangle3

theorem setTriangle3_deriv1 (r s : ℝ) (n : Nat) (hn : n < 3) : HasDerivAt (fun y => valueOf (setTriangle3 r y) n) (slopeOf (setTriangle3 r s) n 1) s := by
  interval_cases n <;> shape_tac setTriangle3

theorem setTriangle6_unity (r s : ℝ) : ∑ n ∈ Finset.range 6, valueOf (setTriangle6 r s) n = 1 := by
  sum_tac setTriangle6

theorem setTriangle6_balance0 (r s : ℝ) : ∑ n ∈ Finset.range 6, slopeOf (setTriangle6 r s) n 0 = 0 := by
  sum_tac setTriangle6

theorem setTriangle6_balance1 (r s : ℝ) : ∑ n ∈ Finset.range 6, slopeOf (setTriangle6 r s) n 1 = 0 := by
  sum_tac setTriangle6

theorem setTriangle6_deriv0 (r s : ℝ) (n : Nat) (hn : n < 6) : HasDerivAt (fun y => valueOf (setTriangle6 y s) n) (slopeOf (setTriangle6 r s) n 0) r := by
  interval_cases n <;> shape_tac setTriangle6

theorem setTriangle6_deriv1 (r s : ℝ) (n : Nat) (hn : n < 6) : HasDerivAt (fun y => valueOf (setTriangle6 r y) n) (slopeOf (setTriangle6 r s) n 1) s := by
  interval_cases n <;> shape_tac setTriangle6

theorem setTetra4_unity (r s t : ℝ) : ∑ n ∈ Finset.range 4, valueOf (setTetra4 r s t) n = 1 := by
  sum_tac setTetra4

theorem setTetra4_balance0 (r s t : ℝ) : ∑ n ∈ Finset.range 4, slopeOf (setTetra4 r s t) n 0 = 0 := by
  sum_tac setTetra4

theorem setTetra4_balance1 (r s t : ℝ) : ∑ n ∈ Finset.range 4, slopeOf (setTetra4 r s t) n 1 = 0 := by
  sum_tac setTetra4

theorem setTetra4_balance2 (r s t : ℝ) : ∑ n ∈ Finset.range 4, slopeOf (setTetra4 r s t) n 2 = 0 := by
  sum_tac setTetra4

theorem setTetra4_deriv0 (r s t : ℝ) (n : Nat) (hn : n < 4) : HasDerivAt (fun y => valueOf (setTetra4 y s t) n) (slopeOf (setTetra4 r s t) n 0) r := by
  interval_cases n <;> shape_tac setTetra4

theorem setTetra4_deriv1 (r s t : ℝ) (n : Nat) (hn : n < 4) : HasDerivAt (fun y => valueOf (setTetra4 r s y) n) (slopeOf (setTetra4 r s t) n 1) t := by
  interval_cases n <;> shape_tac setTetra4

theorem setTetra4_deriv2 (r s t : ℝ) (n : Nat) (hn : n < 4) : HasDerivAt (fun y => valueOf (setTetra4 r y t) n) (slopeOf (setTetra4 r s t) n 2) s := by
  interval_cases n <;> shape_tac setTetra4

theorem setTetra10_unity (r s t : ℝ) : ∑ n ∈ Finset.range 10, valueOf (setTetra10 r s t) n = 1 := by
  sum_tac setTetra10

theorem setTetra10_balance0 (r s t : ℝ) : ∑ n ∈ Finset.range 10, slopeOf (setTetra10 r s t) n 0 = 0 := by
  sum_tac setTetra10

theorem setTetra10_balance1 (r s t : ℝ) : ∑ n ∈ Finset.range 10, slopeOf (setTetra10 r s t) n 1 = 0 := by
  sum_tac setTetra10

theorem setTetra10_balance2 (r s t : ℝ) : ∑ n ∈ Finset.range 10, slopeOf (setTetra10 r s t) n 2 = 0 := by
  sum_tac setTetra10

theorem setTetra10_deriv0 (r s t : ℝ) (n : Nat) (hn : n < 10) : HasDerivAt (fun y => valueOf (setTetra10 y s t) n) (slopeOf (setTetra10 r s t) n 0) r := by
  interval_cases n <;> shape_tac setTetra10

theorem setTetra10_deriv1 (r s t : ℝ) (n : Nat) (hn : n < 10) : HasDerivAt (fun y => valueOf (setTetra10 r s y) n) (slopeOf (setTetra10 r s t) n 1) t := by
  interval_cases n <;> shape_tac setTetra10

theorem setTetra10_deriv2 (r s t : ℝ) (n : Nat) (hn : n < 10) : HasDerivAt (fun y => valueOf (setTetra10 r y t) n) (slopeOf (setTetra10 r s t) n 2) s := by
  interval_cases n <;> shape_tac setTetra10

theorem setPyramid13_unity (r s t : ℝ) : ∑ n ∈ Finset.range 13, valueOf (setPyramid13 r s t) n = 1 := by
  sum_tac setPyramid13

theorem setPyramid13_balance0 (r s t : ℝ) : ∑ n ∈ Finset.range 13, slopeOf (setPyramid13 r s t) n 0 = 0 := by
  sum_tac setPyramid13

theorem setPyramid13_balance1 (r s t : ℝ) : ∑ n ∈ Finset.range 13, slopeOf (setPyramid13 r s t) n 1 = 0 := by
  sum_tac setPyramid13

theorem setPyramid13_balance2 (r s t : ℝ) : ∑ n ∈ Finset.range 13, slopeOf (setPyramid13 r s t) n 2 = 0 := by
  sum_tac setPyramid13

theorem setPyramid13_deriv0 (r s t : ℝ) (n : Nat) (hn : n < 13) : HasDerivAt (fun y => valueOf (setPyramid13 y s t) n) (slopeOf (setPyramid13 r s t) n 0) r := by
  interval_cases n <;> shape_tac setPyramid13

theorem setPyramid13_deriv1 (r s t : ℝ) (n : Nat) (hn : n < 13) : HasDerivAt (fun y => valueOf (setPyramid13 r y t) n) (slopeOf (setPyramid13 r s t) n 1) s := by
  interval_cases n <;> shape_tac setPyramid13

theorem setPyramid13_deriv2 (r s t : ℝ) (n : Nat) (hn : n < 13) : HasDerivAt (fun y => valueOf (setPyramid13 r s y) n) (slopeOf (setPyramid13 r s t) n 2) t := by
  interval_cases n <;> shape_tac setPyramid13

theorem setPrisma6_unity (r s t : ℝ) : ∑ n ∈ Finset.range 6, valueOf (setPrisma6 r s t) n = 1 := by
  sum_tac setPrisma6

theorem setPrisma6_balance0 (r s t : ℝ) : ∑ n ∈ Finset.range 6, slopeOf (setPrisma6 r s t) n 0 = 0 := by
  sum_tac setPrisma6

theorem setPrisma6_balance1 (r s t : ℝ) : ∑ n ∈ Finset.range 6, slopeOf (setPrisma6 r s t) n 1 = 0 := by
  sum_tac setPrisma6

theorem setPrisma6_balance2 (r s t : ℝ) : ∑ n ∈ Finset.range 6, slopeOf (setPrisma6 r s t) n 2 = 0 := by
  sum_tac setPrisma6

theorem setPrisma6_deriv0 (r s t : ℝ) (n : Nat) (hn : n < 6) : HasDerivAt (fun y => valueOf (setPrisma6 y s t) n) (slopeOf (setPrisma6 r s t) n 0) r := by
  interval_cases n <;> shape_tac setPrisma6

theorem setPrisma6_deriv1 (r s t : ℝ) (n : Nat) (hn : n < 6) : HasDerivAt (fun y => valueOf (setPrisma6 r y t) n) (slopeOf (setPrisma6 r s t) n 1) s := by
  interval_cases n <;> shape_tac setPrisma6

theorem setPrisma6_deriv2 (r s t : ℝ) (n : Nat) (hn : n < 6) : HasDerivAt (fun y => valueOf (setPrisma6 r s y) n) (slopeOf (setPrisma6 r s t) n 2) t := by
  interval_cases n <;> shape_tac setPrisma6

theorem setPrisma15_unity (r s t : ℝ) : ∑ n ∈ Finset.range 15, valueOf (setPrisma15 r s t) n = 1 := by
  sum_tac setPrisma15

theorem setPrisma15_balance0 (r s t : ℝ) : ∑ n ∈ Finset.range 15, slopeOf (setPrisma15 r s t) n 0 = 0 := by
  sum_tac setPrisma15

theorem setPrisma15_balance1 (r s t : ℝ) : ∑ n ∈ Finset.range 15, slopeOf (setPrisma15 r s t) n 1 = 0 := by
  sum_tac setPrisma15

theorem setPrisma15_balance2 (r s t : ℝ) : ∑ n ∈ Finset.range 15, slopeOf (setPrisma15 r s t) n 2 = 0 := by
  sum_tac setPrisma15

theorem setPrisma15_deriv0 (r s t : ℝ) (n : Nat) (hn : n < 15) : HasDerivAt (fun y => valueOf (setPrisma15 y s t) n) (slopeOf (setPrisma15 r s t) n 0) r := by
  interval_cases n <;> shape_tac setPrisma15

theorem setPrisma15_deriv1 (r s t : ℝ) (n : Nat) (hn : n < 15) : HasDerivAt (fun y => valueOf (setPrisma15 r y t) n) (slopeOf (setPrisma15 r s t) n 1) s := by
  interval_cases n <;> shape_tac setPrisma15

theorem setPrisma15_deriv2 (r s t : ℝ) (n : Nat) (hn : n < 15) : HasDerivAt (fun y => valueOf (setPrisma15 r s y) n) (slopeOf (setPrisma15 r s t) n 2) t := by
  interval_cases n <;> shape_tac setPrisma15

theorem terms2x1_unity (r : ℝ) : ∑ n ∈ Finset.range 2, valueOf (terms2x1 r) n = 1 := by
  sum_tac terms2x1

theorem terms2x1_balance0 (r : ℝ) : ∑ n ∈ Finset.range 2, slopeOf (terms2x1 r) n 0 = 0 := by
  sum_tac terms2x1

theorem terms2x1_deriv0 (r : ℝ) (n : Nat) (hn : n < 2) : HasDerivAt (fun y => valueOf (terms2x1 y) n) (slopeOf (terms2x1 r) n 0) r := by
  interval_cases n <;> shape_tac terms2x1

theorem terms3x1_unity (r : ℝ) : ∑ n ∈ Finset.range 3, valueOf (terms3x1 r) n = 1 := by
  sum_tac terms3x1

theorem terms3x1_balance0 (r : ℝ) : ∑ n ∈ Finset.range 3, slopeOf (terms3x1 r) n 0 = 0 := by
  sum_tac terms3x1

theorem terms3x1_deriv0 (r : ℝ) (n : Nat) (hn : n < 3) : HasDerivAt (fun y => valueOf (terms3x1 y) n) (slopeOf (terms3x1 r) n 0) r := by
  interval_cases n <;> shape_tac terms3x1

theorem terms4x2_unity (r s : ℝ) : ∑ n ∈ Finset.range 4, valueOf (terms4x2 r s) n = 1 := by
  sum_tac terms4x2

theorem terms4x2_balance0 (r s : ℝ) : ∑ n ∈ Finset.range 4, slopeOf (terms4x2 r s) n 0 = 0 := by
  sum_tac terms4x2

theorem terms4x2_balance1 (r s : ℝ) : ∑ n ∈ Finset.range 4, slopeOf (terms4x2 r s) n 1 = 0 := by
  sum_tac terms4x2

theorem terms4x2_deriv0 (r s : ℝ) (n : Nat) (hn : n < 4) : HasDerivAt (fun y => valueOf (terms4x2 y s) n) (slopeOf (terms4x2 r s) n 0) r := by
  interval_cases n <;> shape_tac terms4x2

theorem terms4x2_deriv1 (r s : ℝ) (n : Nat) (hn : n < 4) : HasDerivAt (fun y => valueOf (terms4x2 r y) n) (slopeOf (terms4x2 r s) n 1) s := by
  interval_cases n <;> shape_tac terms4x2

theorem terms8x2_unity (r s : ℝ) : ∑ n ∈ Finset.range 8, valueOf (terms8x2 r s) n = 1 := by
  sum_tac terms8x2

theorem terms8x2_balance0 (r s : ℝ) : ∑ n ∈ Finset.range 8, slopeOf (terms8x2 r s) n 0 = 0 := by
  sum_tac terms8x2

theorem terms8x2_balance1 (r s : ℝ) : ∑ n ∈ Finset.range 8, slopeOf (terms8x2 r s) n 1 = 0 := by
  sum_tac terms8x2

theorem terms8x2_deriv0 (r s : ℝ) (n : Nat) (hn : n < 8) : HasDerivAt (fun y => valueOf (terms8x2 y s) n) (slopeOf (terms8x2 r s) n 0) r := by
  interval_cases n <;> shape_tac terms8x2

theorem terms8x2_deriv1 (r s : ℝ) (n : Nat) (hn : n < 8) : HasDerivAt (fun y => valueOf (terms8x2 r y) n) (slopeOf (terms8x2 r s) n 1) s := by
  interval_cases n <;> shape_tac terms8x2

theorem terms8x3_unity (r s t : ℝ) : ∑ n ∈ Finset.range 8, valueOf (terms8x3 r s t) n = 1 := by
  sum_tac terms8x3

theorem terms8x3_balance0 (r s t : ℝ) : ∑ n ∈ Finset.range 8, slopeOf (terms8x3 r s t) n 0 = 0 := by
  sum_tac terms8x3

theorem terms8x3_balance1 (r s t : ℝ) : ∑ n ∈ Finset.range 8, slopeOf (terms8x3 r s t) n 1 = 0 := by
  sum_tac terms8x3

theorem terms8x3_balance2 (r s t : ℝ) : ∑ n ∈ Finset.range 8, slopeOf (terms8x3 r s t) n 2 = 0 := by
  sum_tac terms8x3

theorem terms8x3_deriv0 (r s t : ℝ) (n : Nat) (hn : n < 8) : HasDerivAt (fun y => valueOf (terms8x3 y s t) n) (slopeOf (terms8x3 r s t) n 0) r := by
  interval_cases n <;> shape_tac terms8x3

theorem terms8x3_deriv1 (r s t : ℝ) (n : Nat) (hn : n < 8) : HasDerivAt (fun y => valueOf (terms8x3 r y t) n) (slopeOf (terms8x3 r s t) n 1) s := by
  interval_cases n <;> shape_tac terms8x3

theorem terms8x3_deriv2 (r s t : ℝ) (n : Nat) (hn : n < 8) : HasDerivAt (fun y => valueOf (terms8x3 r s y) n) (slopeOf (terms8x3 r s t) n 2) t := by
  interval_cases n <;> shape_tac terms8x3

theorem terms20x3_unity (r s t : ℝ) : ∑ n ∈ Finset.range 20, valueOf (terms20x3 r s t) n = 1 := by
  sum_tac terms20x3

theorem terms20x3_balance0 (r s t : ℝ) : ∑ n ∈ Finset.range 20, slopeOf (terms20x3 r s t) n 0 = 0 := by
  sum_tac terms20x3

theorem terms20x3_balance1 (r s t : ℝ) : ∑ n ∈ Finset.range 20, slopeOf (terms20x3 r s t) n 1 = 0 := by
  sum_tac terms20x3

theorem terms20x3_balance2 (r s t : ℝ) : ∑ n ∈ Finset.range 20, slopeOf (terms20x3 r s t) n 2 = 0 := by
  sum_tac terms20x3

theorem terms20x3_deriv0 (r s t : ℝ) (n : Nat) (hn : n < 20) : HasDerivAt (fun y => valueOf (terms20x3 y s t) n) (slopeOf (terms20x3 r s t) n 0) r := by
  interval_cases n <;> shape_tac terms20x3

theorem terms20x3_deriv1 (r s t : ℝ) (n : Nat) (hn : n < 20) : HasDerivAt (fun y => valueOf (terms20x3 r y t) n) (slopeOf (terms20x3 r s t) n 1) s := by
  interval_cases n <;> shape_tac terms20x3

theorem terms20x3_deriv2 (r s t : ℝ) (n : Nat) (hn : n < 20) : HasDerivAt (fun y => valueOf (terms20x3 r s y) n) (slopeOf (terms20x3 r s t) n 2) t := by
  interval_cases n <;> shape_tac terms20x3

end Verif.Fem
