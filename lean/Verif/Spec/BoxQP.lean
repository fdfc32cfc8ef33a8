import Mathlib.Algebra.BigOperators.Group.Finset.Basic
import Mathlib.Algebra.Order.Field.Basic
import Mathlib.Algebra.Module.Pi
import Mathlib.Data.Fintype.Basic
import Mathlib.Algebra.BigOperators.Pi
/-!
Minimisation of a quadratic function with bounds on some of the variables.
-/
namespace Verif.Mprgp

variable {ι K : Type}

/-- Bounds on the variables `i` with `bounded i`. -/
structure Box (ι K : Type) where
  bounded : ι → Bool
  lb : ι → K
  ub : ι → K

/-- The bounds are consistent. -/
def Box.Proper [LE K] (B : Box ι K) : Prop := ∀ i, B.bounded i = true → B.lb i ≤ B.ub i

/-- `x` satisfies the bounds. -/
def Box.Has [LE K] (B : Box ι K) (x : ι → K) : Prop := ∀ i, B.bounded i = true → B.lb i ≤ x i ∧ x i ≤ B.ub i

/-- The scalar product. -/
def dot [Fintype ι] [Semiring K] (x y : ι → K) : K := ∑ i, x i * y i

/-- `1/2 xᵀ H x - bᵀ x`. -/
def cost [Fintype ι] [Field K] (H : (ι → K) → ι → K) (b x : ι → K) : K := 1 / 2 * dot x (H x) - dot b x

/-- `x` minimises the function in the box. -/
def Minimises [Fintype ι] [Field K] [LinearOrder K] (B : Box ι K) (H : (ι → K) → ι → K) (b x : ι → K) : Prop := B.Has x ∧ ∀ u, B.Has u → cost H b x ≤ cost H b u

end Verif.Mprgp
