/-
Specification vocabulary for the refinement tree of a space-filling curve: `B` children per cell, levels `0 .. D`.
-/
namespace Verif.Sfc

/-- Number of finest-level buckets in a cell of level `d`. -/
def width (B D d : Nat) : Nat := B ^ (D - d)

/-- Refined cells of level `i`. -/
def lv (refined : List (List Nat)) (i : Nat) : List Nat := refined[i]?.getD []

/-- A well-formed refinement: levels are strictly increasing (as `finishLevel` leaves them), a refined cell has a refined parent, there
is no level below the finest one, and a level `i` above the finest one that is stored last is empty (nothing is refined further
than the stored levels). -/
structure WF (B D : Nat) (refined : List (List Nat)) : Prop where
  sorted : ∀ l ∈ refined, l.Pairwise (· < ·)
  parent : ∀ i x, x ∈ lv refined (i + 1) → x / B ∈ lv refined i
  levels : refined.length ≤ D + 1
  last : refined.length < D → ∃ l, refined.getLast? = some l ∧ l = []

/-- `(d, x)` is a leaf: all proper ancestors are refined, the cell itself is not (or is on the finest level). -/
def Leaf (B D : Nat) (refined : List (List Nat)) (d x : Nat) : Prop :=
  d ≤ D ∧ (∀ j, j < d → x / B ^ (d - j) ∈ lv refined j) ∧ (d = D ∨ x ∉ lv refined d)

/-- `b` is the first finest bucket of some leaf. -/
def LeafStart (B D : Nat) (refined : List (List Nat)) (b : Nat) : Prop :=
  ∃ d x, Leaf B D refined d x ∧ b = x * width B D d

/-- Finest buckets of a list of cells, in order. -/
def covered (B D : Nat) (out : List (Nat × Nat)) : List Nat :=
  out.flatMap fun c => List.range' (c.2 * width B D c.1) (width B D c.1)

end Verif.Sfc
