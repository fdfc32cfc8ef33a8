import Mathlib.Analysis.Calculus.Deriv.Basic
import Mathlib.Algebra.BigOperators.Group.Finset.Basic
/-!
What a table of basis functions must satisfy.  A table has one entry per node: the value and the row of derivatives.
-/
namespace Verif.Fem

/-- The value of the basis function of node `n`. -/
def valueOf {K : Type} [Zero K] (tab : List (K × List K)) (n : Nat) : K := (tab[n]?.map Prod.fst).getD 0

/-- The stored derivative of the basis function of node `n` in column `d`. -/
def slopeOf {K : Type} [Zero K] (tab : List (K × List K)) (n d : Nat) : K := ((tab[n]?).bind fun e => e.2[d]?).getD 0

/-- The value of the basis function of node `n` in a point (zero where the table is undefined). -/
def valueIn {K : Type} [Zero K] (f : List K → Option (List (K × List K))) (n : Nat) (p : List K) : K :=
  (f p).elim 0 fun tab => valueOf tab n

/-- The function `f` from the points of a reference element of the dimension `dim` to tables is a family of `nodes` basis functions:
always defined, a partition of unity, column `d` of the derivatives is the partial derivative in coordinate `axis d`. -/
structure IsBasis (dim nodes : Nat) (axis : Nat → Nat) (f : List ℝ → Option (List (ℝ × List ℝ))) : Prop where
  defined : ∀ p, p.length = dim → ∃ tab, f p = some tab ∧ tab.length = nodes ∧ ∀ e ∈ tab, e.2.length = dim
  unity : ∀ p tab, p.length = dim → f p = some tab → ∑ n ∈ Finset.range nodes, valueOf tab n = 1
  balance : ∀ p tab d, p.length = dim → f p = some tab → d < dim → ∑ n ∈ Finset.range nodes, slopeOf tab n d = 0
  derivative : ∀ p tab d n, p.length = dim → f p = some tab → d < dim → n < nodes →
    HasDerivAt (fun y => valueIn f n (p.set (axis d) y)) (slopeOf tab n d) (p.getD (axis d) 0)

/-- The tables in the nodes: the basis function of node `sigma n` is one in the point of row `n`, the others are zero there. -/
def IsNodal {K : Type} [Zero K] [One K] (nodes : Nat) (sigma : Nat → Nat) (rows : List (Option (List (K × List K)))) : Prop :=
  rows.length = nodes ∧ ∀ n < nodes, ∃ tab, rows[n]? = some (some tab) ∧ tab.length = nodes ∧
    ∀ m < nodes, valueOf tab m = if m = sigma n then 1 else 0

end Verif.Fem
