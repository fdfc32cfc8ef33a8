import Mathlib.Order.Defs.LinearOrder
/-! What a user of the trees relies on, stated without the functions of the model. -/
namespace Verif.KdTree

/-- A complete binary tree of ranges of positions: node `k` has the positions `[bg k, en k)`, its children are `2 k` and `2 k + 1`, split at `index k`.  `perm` is a permutation of all
points. -/
structure IsTree (n levels : Nat) (perm : List Nat) (index bg en : Nat → Nat) : Prop where
  perm : perm.Perm (List.range n)
  root : bg 1 = 0 ∧ en 1 = n
  range : ∀ k, 1 ≤ k → k < 2 ^ (levels + 1) → bg k ≤ en k ∧ en k ≤ n
  split : ∀ k, 1 ≤ k → k < 2 ^ levels → bg (2 * k) = bg k ∧ en (2 * k) = index k ∧ bg (2 * k + 1) = index k ∧ en (2 * k + 1) = en k
  left : ∀ k, 1 ≤ k → k < 2 ^ levels → bg k < en k → bg k < index k
  partition : ∀ l p, l ≤ levels → p < n → ∃ k, (2 ^ l ≤ k ∧ k < 2 ^ (l + 1) ∧ bg k ≤ p ∧ p < en k) ∧
    ∀ k', 2 ^ l ≤ k' → k' < 2 ^ (l + 1) → bg k' ≤ p → p < en k' → k' = k

/-- Lexicographic order of points. -/
def LexLe {K : Type} [LinearOrder K] (coord : Nat → Nat → K) (x y : Nat) : Prop :=
  coord x 0 < coord y 0 ∨ (coord x 0 = coord y 0 ∧ (coord x 1 < coord y 1 ∨ (coord x 1 = coord y 1 ∧ coord x 2 ≤ coord y 2)))

end Verif.KdTree
