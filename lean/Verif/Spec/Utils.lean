import Mathlib.Order.Defs.LinearOrder
/-
Specification vocabulary for the utilities (independent of the model).
-/
namespace Verif.Utils

/-- Segment `[a, b)` of a list. -/
def seg {α : Type} (l : List α) (a b : Nat) : List α := (l.drop a).take (b - a)

/-- Sortedness used in the specifications. -/
abbrev Sorted {α : Type} [LinearOrder α] (l : List α) : Prop := l.Pairwise (· ≤ ·)

/-- Parts of `data` given by the consecutive borders are sorted. -/
def PartsSorted {α : Type} [LinearOrder α] (data : List α) (dist : List Nat) : Prop :=
  ∀ k a b, dist[k]? = some a → dist[k + 1]? = some b → Sorted (seg data a b)

/-- Column sum of the first `t` threads. -/
def colSum (m : List (List Int)) (t i : Nat) : Int := ((m.take t).map fun r => r[i]?.getD 0).sum

/-- Inclusive prefix sums started at `s`: the borders after each item. -/
def borders (s : Int) : List Int → List Int
  | [] => []
  | x :: xs => (s + x) :: borders (s + x) xs

/-- Border of the thread parts: number of items of the first `t` threads. -/
def partStart (sizes : List (List Int)) (t : Nat) : Nat := (sizes.take t).flatten.length

end Verif.Utils
