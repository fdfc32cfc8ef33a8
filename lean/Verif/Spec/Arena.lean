/-
Specification vocabulary for allocators: blocks `(offset, size)` of a buffer.
-/
namespace Verif.Arena

/-- A block of memory: offset from the start of the buffer and size in bytes. -/
abbrev Blk := Nat × Nat

/-- Two blocks share no byte. -/
def Disjoint (a b : Blk) : Prop := a.1 + a.2 ≤ b.1 ∨ b.1 + b.2 ≤ a.1

/-- The block lies in a buffer of `capacity` bytes. -/
def Inside (capacity : Nat) (a : Blk) : Prop := a.1 + a.2 ≤ capacity

end Verif.Arena
