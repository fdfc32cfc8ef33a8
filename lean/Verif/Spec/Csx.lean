/-!
Compressed sparse matrices (`MatrixCsxView_new`, `src/math/primitives_new/matrix_csx_view_new.h`): `ptrs`, `idxs` and `vals`. The orders CSR and CSC differ only in the
meaning of the *primary* index (the row for CSR, the column for CSC); sizes are given as primary and secondary.  The meaning of a matrix is its list of entries.
-/
namespace Verif.Csx

structure Csx (T : Type) where
  /-- primary size -/
  np : Nat
  /-- secondary size -/
  ns : Nat
  ptrs : List Nat
  idxs : List Nat
  vals : List T
  deriving DecidableEq

variable {T : Type}

/-- The arrays have the right sizes, `ptrs` delimits the primary slices and all secondary indices are in range. -/
structure WellFormed (A : Csx T) : Prop where
  plen : A.ptrs.length = A.np + 1
  first : A.ptrs.getD 0 0 = 0
  mono : A.ptrs.Pairwise (· ≤ ·)
  last : A.ptrs.getD A.np 0 = A.idxs.length
  vlen : A.vals.length = A.idxs.length
  range : ∀ c ∈ A.idxs, c < A.ns

/-- The (secondary index, value) pairs of the slice `p`, in the order of storage. -/
def Csx.row (A : Csx T) (p : Nat) : List (Nat × T) := ((A.idxs.zip A.vals).drop (A.ptrs.getD p 0)).take (A.ptrs.getD (p + 1) 0 - A.ptrs.getD p 0)

/-- All slices. -/
def Csx.rows (A : Csx T) : List (List (Nat × T)) := (List.range A.np).map A.row

/-- All entries (primary, secondary, value). -/
def Csx.entries (A : Csx T) : List (Nat × Nat × T) := (List.range A.np).flatMap fun p => (A.row p).map fun e => (p, e.1, e.2)

/-- The secondary indices of every slice are increasing. -/
def Csx.Sorted (A : Csx T) : Prop := ∀ p, p < A.np → (A.row p).Pairwise fun a b => a.1 < b.1

/-- The stored pattern visited column by column: the slice `p` of the other order. -/
def column (A : Csx T) (p : Nat) : List (Nat × T) := (A.entries.filter fun e => e.2.1 = p).map fun e => (e.1, e.2.2)

/-- The entries in the other order. -/
def swapEntry (e : Nat × Nat × T) : Nat × Nat × T := (e.2.1, e.1, e.2.2)

/-- What is promised about the matrix in the other order. -/
structure Converted (A B : Csx T) : Prop where
  wf : WellFormed B
  np : B.np = A.ns
  ns : B.ns = A.np
  row : ∀ p, p < A.ns → B.row p = column A p

/-- `B` is the window `[lp, hp) x [ls, hs)` of `A`, shifted to the origin, in the same order. -/
structure Sub (A : Csx T) (lp hp ls hs : Nat) (B : Csx T) : Prop where
  wf : WellFormed B
  np : B.np = hp - lp
  ns : B.ns = hs - ls
  row : ∀ p, p < hp - lp → B.row p = ((A.row (lp + p)).filter fun e => ls ≤ e.1 ∧ e.1 < hs).map fun e => (e.1 - ls, e.2)

end Verif.Csx
