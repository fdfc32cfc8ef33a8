import Verif.Model.Pattern
/-!
The pattern of the matrices of the direct solvers (`src/analysis/pattern/matrix.uniform.direct.cpp`) for one process.

Simplifications: there are no neighbouring processes, so the exchanges (80-106, 125-165) do nothing; `serializededata` is a list of lists; the elements are given as the list of the
intervals, each a list of elements, each a list of nodes; `position` is `nodes->uniqInfo.position`.
-/
namespace Verif.Pattern.Direct

open Verif.Csx Verif.Pattern

/-- 73-78: the upper bounds of the numbers of neighbours; `begin` starts with ones. -/
def countNodes (elems : List (List Nat)) (begin : List Nat) : Option (List Nat) :=
  elems.foldlM (fun begin e => e.foldlM (fun begin n => do
    let x ← begin[n]?
    wr begin n (x + (e.length - 1))) begin) begin

/-- 111-113: the diagonal. -/
def fillDiagonal (size : Nat) (position : List Nat) (st : List Nat × List Nat) : Option (List Nat × List Nat) :=
  forLoop 0 size st fun n st => do
    let p ← position[n]?
    pushIndex n p st

/-- 115-123: the other nodes of the elements. -/
def fillNodes (position : List Nat) (elems : List (List Nat)) (st : List Nat × List Nat) : Option (List Nat × List Nat) :=
  elems.foldlM (fun st e => e.foldlM (fun st src => e.foldlM (fun st dst =>
    if src ≠ dst then do
      let p ← position[dst]?
      pushIndex src p st
    else some st) st) st) st

/-- `pattern.row`, `pattern.column` and `offset`. -/
structure Blocks where
  row : List Nat
  column : List Nat
  offset : List Nat
  deriving DecidableEq

/-- 191-195: one row. -/
def listBlockRow (dofs b e : Nat) (indices : List Nat) (R : Blocks) : Option Blocks := do
  let R ← forLoop b e R fun i R => do
    let x ← indices[i]?
    forLoop 0 dofs R fun c R => some { R with column := R.column ++ [x * dofs + c] }
  some { R with row := R.row ++ [R.column.length] }

/-- 184-199. -/
def listBlocks (dofs size : Nat) (begin fin indices : List Nat) : Option Blocks := do
  let (R, _) ← forLoop 0 size ((⟨[0], [], []⟩ : Blocks), 0) fun n (R, sz) => do
    let b ← begin[n]?
    let e ← fin[n]?
    let R ← forLoop 0 dofs { R with offset := R.offset ++ [sz] } fun _ R => listBlockRow dofs b e indices R
    some (R, sz + dofs * dofs * (e - b))
  some R

/-- `std::lower_bound(ibegin, iend, c) - ibegin`. -/
def lowerBound (indices : List Nat) (b e c : Nat) : Nat := (((indices.take e).drop b).takeWhile (· < c)).length

/-- The order of the loops in 203-210: `(rd, from, cd, to)`. -/
def loops (dofs : Nat) (e : List Nat) : List (Nat × Nat × Nat × Nat) :=
  (List.range dofs).flatMap fun rd => e.flatMap fun src => (List.range dofs).flatMap fun cd => e.map fun dst => (rd, src, cd, dst)

/-- 205-211: one position. -/
def blockPosition (dofs : Nat) (position begin fin indices offset : List Nat) (t : Nat × Nat × Nat × Nat) : Option Nat := do
  let b ← begin[t.2.1]?
  let e ← fin[t.2.1]?
  let o ← offset[t.2.1]?
  let p ← position[t.2.2.2]?
  some (o + t.1 * dofs * (e - b) + dofs * lowerBound indices b e p + t.2.2.1)

/-- 203-214 (and 225-238 for boundary elements). -/
def blockPositions (dofs : Nat) (position begin fin indices offset : List Nat) (e : List Nat) (perm : List Nat) : Option (List Nat) :=
  (loops dofs e).foldlM (fun perm t => do
    let p ← blockPosition dofs position begin fin indices offset t
    some (perm ++ [p])) perm

/-- 200-217 (and 221-243). -/
def blockPermutation (dofs : Nat) (position begin fin indices offset : List Nat) (intervals : List (List (List Nat))) : Option (List Nat × List Nat) :=
  intervals.foldlM (fun (perm, offs) elems => do
    let offs := offs ++ [perm.length]
    let perm ← elems.foldlM (fun perm e => blockPositions dofs position begin fin indices offset e perm) perm
    some (perm, offs)) ([], [])

/-- What `buildPattern` stores: for the elements and for one boundary region. -/
structure DirectBuilt where
  row : List Nat
  column : List Nat
  perm : List Nat
  offs : List Nat
  bperm : List Nat
  boffs : List Nat
  deriving DecidableEq

/-- `MatrixUniformDirect::buildPattern` (66-261) with one boundary region; `junk` is the uninitialised content of `indices`. -/
def buildDirect (dofs size : Nat) (position : List Nat) (intervals boundary : List (List (List Nat))) (junk : Nat → Nat) : Option DirectBuilt := do
  let begin ← countNodes intervals.flatten (List.replicate (size + 1) 1)
  let begin ← sumPtrs size begin
  let total ← begin[size]?
  let st ← fillDiagonal size position ((List.range total).map junk, begin)
  let st ← fillNodes position intervals.flatten st
  let (indices, fin) ← uniqueRows size begin st
  let R ← listBlocks dofs size begin fin indices
  let (perm, offs) ← blockPermutation dofs position begin fin indices R.offset intervals
  let (bperm, boffs) ← blockPermutation dofs position begin fin indices R.offset boundary
  some ⟨R.row, R.column, perm, offs, bperm, boffs⟩

end Verif.Pattern.Direct
