import Verif.Spec.Csx
import Verif.Base.Loop
/-!
Conversion between the compressed row and compressed column order, and transposition (`src/math/operations/convert_csx_csy.cpp`, `convert_csx_csy_map.cpp`,
`transpose_csx_csx_map.cpp`).  Index arithmetic of the type `I` is done in `Nat` (no overflow; `nnz` fits into `I` by the checks of the callers).
The destination arrays are allocated by the caller and have arbitrary contents.
-/
namespace Verif.Csx

variable {T P σ : Type}

/-- The common loop of the sparse operations (e.g. `convert_csx_csy.cpp` 85-98):
`for(r = 0; r < A.np; r++) for(i = A.ptrs[r]; i < A.ptrs[r+1]; i++) { c = A.idxs[i]; body }`. -/
def forEntries (A : Csx T) (s : σ) (f : Nat → Nat → Nat → σ → Option σ) : Option σ :=
  forLoop 0 A.np s fun r s => do
    let start ← A.ptrs[r]?
    let stop ← A.ptrs[r + 1]?
    forLoop start stop s fun i s => do
      let c ← A.idxs[i]?
      f r i c s

/-- `convert_csx_csy.cpp` 64-67: `for(c = 0; c <= ncols; c++) dst_ptrs[c] = 0`. -/
def zeroPtrs (n : Nat) (ptrs : List Nat) : Option (List Nat) := forLoop 0 (n + 1) ptrs fun c ptrs => wr ptrs c 0

/-- `convert_csx_csy.cpp` 69-73: `for(i = 0; i < nnz; i++) dst_ptrs[src_idxs[i]]++`. -/
def countPtrs (idxs ptrs : List Nat) : Option (List Nat) := forLoop 0 idxs.length ptrs fun i ptrs => do
  let c ← idxs[i]?
  let x ← ptrs[c]?
  wr ptrs c (x + 1)

/-- `convert_csx_csy.cpp` 75-82: the exclusive cumulative sum over `c = 0, ..., ncols`. -/
def sumPtrs (n : Nat) (ptrs : List Nat) : Option (List Nat) := do
  let (ptrs, _) ← forLoop 0 (n + 1) (ptrs, 0) fun c (ptrs, curr) => do
    let tmp ← ptrs[c]?
    let ptrs ← wr ptrs c curr
    some (ptrs, curr + tmp)
  some ptrs

/-- `convert_csx_csy.cpp` 100-107: the pointers were moved to the end of their slices, shift them. -/
def shiftPtrs (n : Nat) (ptrs : List Nat) : Option (List Nat) := do
  let (ptrs, _) ← forLoop 0 (n + 1) (ptrs, 0) fun c (ptrs, curr) => do
    let tmp ← ptrs[c]?
    let ptrs ← wr ptrs c curr
    some (ptrs, tmp)
  some ptrs

/-- `convert_csx_csy.cpp` 84-98 (`pay i = src_vals[i]`), `convert_csx_csy_map.cpp` 88-101 and `transpose_csx_csx_map.cpp` 78-93 (`pay i = i`). -/
def fillCsy (A : Csx T) (pay : Nat → Option P) (st : List Nat × List Nat × List P) : Option (List Nat × List Nat × List P) :=
  forEntries A st fun r i c (ptrs, idxs, pays) => do
    let v ← pay i
    let d ← ptrs[c]?
    let ptrs ← wr ptrs c (d + 1)
    let idxs ← wr idxs d r
    let pays ← wr pays d v
    some (ptrs, idxs, pays)

/-- The common body of the three operations: `ptrs`, `idxs`, `pays` are the destination arrays. -/
def convertCore (A : Csx T) (pay : Nat → Option P) (ptrs idxs : List Nat) (pays : List P) : Option (List Nat × List Nat × List P) := do
  let ptrs ← zeroPtrs A.ns ptrs
  let ptrs ← countPtrs A.idxs ptrs
  let ptrs ← sumPtrs A.ns ptrs
  let (ptrs, idxs, pays) ← fillCsy A pay (ptrs, idxs, pays)
  let ptrs ← shiftPtrs A.ns ptrs
  some (ptrs, idxs, pays)

/-- `convert_csx_csy::perform` (36-110) for different orders: the destination has the primary size `A.ns` and the secondary size `A.np`. -/
def convert (A : Csx T) (ptrs idxs : List Nat) (vals : List T) : Option (Csx T) := do
  let (ptrs, idxs, vals) ← convertCore A (fun i => A.vals[i]?) ptrs idxs vals
  some ⟨A.ns, A.np, ptrs, idxs, vals⟩

/-- `convert_csx_csy_map::perform_pattern` (37-116) for different orders and `transpose_csx_csx_map::perform_pattern` (37-108): the pattern and the map.  The matrix
carries the map in place of the values. -/
def convertMap (A : Csx T) (ptrs idxs map : List Nat) : Option (Csx Nat) := do
  let (ptrs, idxs, map) ← convertCore A some ptrs idxs map
  some ⟨A.ns, A.np, ptrs, idxs, map⟩

/-- `convert_csx_csy_map::perform_values` (121-147), `transpose_csx_csx_map::perform_values` (113-129), `permute_csx_csx_map::perform_values` (114-123):
`for(i = 0; i < nnz; i++) dst_vals[i] = src_vals[map[i]]`. -/
def mapValues (map : List Nat) (src dst : List T) : Option (List T) := forLoop 0 map.length dst fun i dst => do
  let j ← map[i]?
  let v ← src[j]?
  wr dst i v

end Verif.Csx
