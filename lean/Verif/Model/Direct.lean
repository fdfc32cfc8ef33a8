import Mathlib.Algebra.Field.Defs
import Mathlib.Algebra.BigOperators.Group.Finset.Basic
/-!
Prescribed values in the direct solvers (`src/analysis/linearsystem/directsolver.cpp`) and the upper part taken for symmetric matrices (`src/analysis/linearsystem/sequentialsolver.h`), for one process
(no halo, `begin = 0`).

A matrix in CSR is addressed by the row and the position within the row: `cols r` are the columns of the row `r`, and `vals r k` is the value at the position `k` of the row (`rows[r] + k` in the code).
-/
namespace Verif.Direct

variable {K : Type} [Field K]

/-- The values of the matrix and the right-hand side. -/
structure System (K : Type) where
  vals : Nat → Nat → K
  b : Nat → K

/-- `A.cluster.vals[rows[r] + k] = v`. -/
def System.setVal (s : System K) (r k : Nat) (v : K) : System K := { s with vals := fun r' k' => if r' = r ∧ k' = k then v else s.vals r' k' }

/-- `b.cluster.vals[r] = v`. -/
def System.setB (s : System K) (r : Nat) (v : K) : System K := { s with b := fun r' => if r' = r then v else s.b r' }

/-- The column at a position of a row. -/
def colAt (cols : Nat → List Nat) (r k : Nat) : Nat := (cols r).getD k 0

/-- `directsolver.cpp` 48-56: the column `col` of the row `row` is moved to the right-hand side; `d` is the prescribed degree of freedom. -/
def clearColumn (cols : Nat → List Nat) (d row : Nat) (s : System K) : System K :=
  (List.range (cols row).length).foldl (fun s c =>
    if colAt cols row c = d then (s.setB row (s.b row - s.vals row c * s.b d)).setVal row c 0 else s) s

/-- `directsolver.cpp` 34-61: one prescribed value; `dofs` are all prescribed degrees of freedom. -/
def fixDof (cols : Nat → List Nat) (dofs : List Nat) (d : Nat) (g : K) (s : System K) : System K :=
  (List.range (cols d).length).foldl (fun s j =>
    if colAt cols d j = d then s.setVal d j 1
    else
      let s := s.setVal d j 0
      if colAt cols d j ∈ dofs then s else clearColumn cols d (colAt cols d j) s) (s.setB d g)

/-- `directsolver.cpp` 33-62. -/
def setDirichlet (cols : Nat → List Nat) (dofs : List Nat) (g : Nat → K) (s : System K) : System K := dofs.foldl (fun s d => fixDof cols dofs d (g d) s) s

/-- `sequentialsolver.h` 44-60, 71-78: the entries of the row `r` that are kept for symmetric types: pairs of columns and values. -/
def upperRow (cols : Nat → List Nat) (vals : Nat → Nat → K) (r : Nat) : List (Nat × K) :=
  (List.range (cols r).length).filterMap fun k => if r ≤ colAt cols r k then some (colAt cols r k, vals r k) else none

end Verif.Direct
