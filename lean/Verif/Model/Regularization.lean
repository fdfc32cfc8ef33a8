import Verif.Spec.Csx
import Verif.Model.Pattern
import Mathlib.Algebra.BigOperators.Group.Finset.Defs
/-!
The sum of sparse matrices (`src/math/math.h` 149-231, `combine` and `sumCombined`) and the analytic regularization of the matrices of the domains
(`src/analysis/linearsystem/regularization/regularization.heattransfer.cpp`, `regularization.elasticity.cpp`).

Indices start at 0 (`Indexing::CSR` is subtracted everywhere). Arrays that are written from the front to the back are built by appending.
-/
namespace Verif.Regularization

open Verif.Csx Verif.Pattern

/-! ### `math::combine`, `math::sumCombined` -/

/-- `math.h` 192-204: the loop over two sorted slices of columns. -/
def mergeCols : List Nat → List Nat → List Nat
  | [], b => b
  | x :: a, [] => x :: a
  | x :: a, y :: b =>
    if x = y then x :: mergeCols a b
    else if x < y then x :: mergeCols a (y :: b)
    else y :: mergeCols (x :: a) b
termination_by a b => a.length + b.length

/-- `math.h` 163-183: the number of columns counted for two slices. -/
def countCols : List Nat → List Nat → Nat
  | [], b => b.length
  | x :: a, [] => (x :: a).length
  | x :: a, y :: b =>
    if x = y then countCols a b + 1
    else if x < y then countCols a (y :: b) + 1
    else countCols (x :: a) b + 1
termination_by a b => a.length + b.length

/-- The pointers written by `*r = c - C.cols` (`math.h` 187, 206). -/
def ptrsFrom : Nat → List (List Nat) → List Nat
  | base, [] => [base]
  | base, row :: rows => base :: ptrsFrom (base + row.length) rows

variable {T : Type}

/-- The columns of slice `r` (the range `A.cols + A.rows[r]`, `A.cols + A.rows[r + 1]`). -/
def colsAt (A : Csx T) (r : Nat) : List Nat := (A.row r).map (·.1)

/-- `math.h` 149-207 `combine`: the pattern of the sum. Different sizes end with an error; the columns are written into the space that was counted before. The values are not
initialized (`z` stands for them). -/
def combine (z : T) (A B : Csx T) : Option (Csx T) :=
  if A.np ≠ B.np ∨ A.ns ≠ B.ns then none
  else
    let nnz := ((List.range A.np).map fun r => countCols (colsAt A r) (colsAt B r)).sum
    let rows := (List.range A.np).map fun r => mergeCols (colsAt A r) (colsAt B r)
    if rows.flatten.length ≤ nnz then some ⟨A.np, A.ns, ptrsFrom 0 rows, rows.flatten, List.replicate nnz z⟩ else none

/-- `math.h` 226-227: `if (bA != eA && *bC == *bA) { *c += *a++; ++bA; }`: the value read for the column `c`, and the rest of the slice. -/
def takeCol [Zero T] (c : Nat) : List (Nat × T) → T × List (Nat × T)
  | [] => (0, [])
  | (x, v) :: a => if c = x then (v, a) else (0, (x, v) :: a)

/-- `math.h` 224-229: the loop over a slice of the sum. -/
def sumRow [Zero T] [Add T] : List Nat → List (Nat × T) → List (Nat × T) → List T
  | [], _, _ => []
  | c :: cs, a, b => (0 + (takeCol c a).1 + (takeCol c b).1) :: sumRow cs (takeCol c a).2 (takeCol c b).2

/-- `math.h` 209-231 `sumCombined`: the values of the sum (`alpha`, which is 1 in all calls, is not used). -/
def sumCombined [Zero T] [Add T] (C A B : Csx T) : Option (Csx T) :=
  if A.np ≠ B.np ∨ A.ns ≠ B.ns then none
  else some { C with vals := (List.range A.np).flatMap fun r => sumRow (colsAt C r) (A.row r) (B.row r) }

/-- `totalfeti.implicit.cpp` 57, 83: `Kplus = K + RegMat`. -/
def plus [Zero T] [Add T] (z : T) (A B : Csx T) : Option (Csx T) := do
  let C ← combine z A B
  sumCombined C A B

/-! ### Heat transfer -/

/-- `regularization.heattransfer.cpp` 36-39, `regularization.elasticity.cpp` 474-477: the maximum of zero and the first entries of the slices. -/
def maxFirst [Zero T] [Max T] (K : Csx T) : Option T :=
  (List.range K.np).foldlM (m := Option) (fun mx r => do
    let p ← K.ptrs[r]?
    let v ← K.vals[p]?
    some (max mx v)) 0

/-- `regularization.heattransfer.cpp` 22-31 `setRegMat`, 33-40 `updateRegMat`. -/
def heatRegMat [Zero T] [Max T] (K : Csx T) : Option (Csx T) := do
  let v ← maxFirst K
  some ⟨K.np, K.ns, 0 :: List.replicate K.np 1, [0], [v]⟩

/-- `regularization.heattransfer.cpp` 8-20 `setR1`, `updateR1`: one row of ones. -/
def heatR1 [One T] (_k _i : Nat) : T := 1

/-! ### Elasticity -/

/-- The number of the rigid motions (3 in a plane, 6 in space). -/
def kernelSize (d : Nat) : Nat := if d = 2 then 3 else 6

/-- `regularization.elasticity.cpp` 392-404, 418-447, 519-531, 547-573: the values of the rigid motions in the direction `j` of a node at `x`. -/
def modes {T : Type} [Zero T] [One T] [Neg T] (d : Nat) (x : Nat → T) (j : Nat) : List T :=
  if d = 2 then
    match j with
    | 0 => [1, 0, -x 1]
    | _ => [0, 1, x 0]
  else
    match j with
    | 0 => [1, 0, 0, -x 1, -x 2, 0]
    | 1 => [0, 1, 0, x 0, 0, -x 2]
    | _ => [0, 0, 1, 0, x 0, x 1]

/-- `regularization.elasticity.cpp` 319-328: `for (di : dmap) if (di->domain == domain + dbegin) fixCols[...] = di->index` (0 after `resize`). -/
def fixCol (dom : Nat) (dm : List DIndex) : Option Nat :=
  dm.foldlM (m := Option) (fun c di => if di.1 = dom then di.2 else some c) 0

/-- `regularization.elasticity.cpp` 314-352: the columns of the fix points. -/
def fixCols (d : Nat) (dmap : List (List DIndex)) (dom : Nat) (fixPoints : List Nat) : Option (List Nat) :=
  (fixPoints.flatMap fun p => (List.range d).map fun j => d * p + j).mapM fun i => do
    let dm ← dmap[i]?
    fixCol dom dm

/-- `regularization.elasticity.cpp` 384-453: the values of the fix points (zeros if the node is not in the domain). `x` are the coordinates, or the deformed coordinates
if `solution` is given. -/
def fixVals [Zero T] [One T] [Neg T] (d : Nat) (dmap : List (List DIndex)) (dom : Nat) (x : Nat → Nat → T) (fixPoints : List Nat) : Option (List (List T)) :=
  (fixPoints.flatMap fun p => (List.range d).map fun j => (p, j)).mapM fun (p, j) => do
    let dm ← dmap[d * p + j]?
    some (dm.foldl (fun v di => if di.1 = dom then modes d (x p) j else v) (List.replicate (kernelSize d) 0))

/-- `regularization.elasticity.cpp` 365-378: the rows after `RegMat.rows[r]`, which is `last`, for the sorted columns that remain. -/
def regRows (nrows : Nat) : List Nat → Nat → Nat → List Nat
  | [], r, last => List.replicate (nrows - r) last
  | f :: rest, r, last => List.replicate (f - r) last ++ (last + (rest.length + 1)) :: regRows nrows rest (max r f + 1) (last + (rest.length + 1))

/-- `regularization.elasticity.cpp` 370-372: the columns of the upper triangle. -/
def regCols : List Nat → List Nat
  | [] => []
  | f :: rest => (f :: rest) ++ regCols rest

/-- `regularization.elasticity.cpp` 306: `N Nᵀ`. -/
def gram [Zero T] [Add T] [Mul T] (n : Nat) (N : Nat → Nat → T) (k l : Nat) : T := ((List.range n).map fun i => N k i * N l i).foldl (· + ·) 0

/-- `regularization.elasticity.cpp` 301-309 `getNtNNtN`: `Nᵀ X`, where `X` solves `N Nᵀ X = N`; `solve` is LAPACK's solver of the symmetric system for one column. -/
def ntn [Zero T] [Add T] [Mul T] (solve : Nat → (Nat → Nat → T) → (Nat → T) → Nat → T) (k n : Nat) (N : Nat → Nat → T) (r c : Nat) : T :=
  ((List.range k).map fun l => N l r * solve k (gram n N) (fun l => N l c) l).foldl (· + ·) 0

/-- `regularization.elasticity.cpp` 311-379 `setRegMat`, 381-485 `updateRegMat`; `srt key l` is `std::sort` of `l` by `key`. Rows written behind the array are an error. -/
def elasticRegMat [Zero T] [One T] [Neg T] [Add T] [Mul T] [Max T] (srt : (Nat → Nat) → List Nat → List Nat) (solve : Nat → (Nat → Nat → T) → (Nat → T) → Nat → T)
    (d : Nat) (dmap : List (List DIndex)) (dom : Nat) (x : Nat → Nat → T) (fixPoints : List Nat) (K : Csx T) : Option (Csx T) := do
  let cols ← fixCols d dmap dom fixPoints
  let perm := srt (fun i => cols.getD i 0) (List.range cols.length)
  let sorted := perm.map fun i => cols.getD i 0
  let rows := 0 :: regRows K.np sorted 0 0
  if rows.length ≠ K.np + 1 then none
  else
    let vals ← fixVals d dmap dom x fixPoints
    let N := fun k i => (vals.getD (perm.getD i 0) []).getD k 0
    let mx ← maxFirst K
    let n := cols.length
    some ⟨K.np, K.np, rows, regCols sorted,
      (List.range n).flatMap fun r => (List.range' r (n - r)).map fun c => mx * ntn solve (kernelSize d) n N r c⟩

/-- `regularization.elasticity.cpp` 506-577 `updateR1`: the values of the degree of freedom `i` are written into the column `di->index` of the `kernelSize d` rows (in a plane without
a check of the index, in space only below `K.nrows`). -/
def updateR1 [Zero T] [One T] [Neg T] (d : Nat) (dmap : List (List DIndex)) (dom nrows : Nat) (x : Nat → Nat → T) (R1 : Nat → Nat → T) : Option (Nat → Nat → T) :=
  dmap.zipIdx.foldlM (m := Option) (fun R1 (dm, i) =>
    dm.foldlM (m := Option) (fun R1 di =>
      if di.1 = dom then do
        let c ← di.2
        if c < nrows then some fun k c' => if c' = c ∧ k < kernelSize d then (modes d (x (i / d)) (i % d)).getD k 0 else R1 k c'
        else if d = 2 then none else some R1
      else some R1) R1) R1

end Verif.Regularization
