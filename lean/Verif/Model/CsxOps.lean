import Verif.Model.Csx
import Mathlib.Algebra.Ring.Defs
/-!
Operations on compressed sparse matrices that read the matrix and produce vectors or dense matrices: `gemv_csx.cpp`, `pruning_subset_csx.cpp`, `pivots_trails_csx.cpp`,
`convert_csx_dny.cpp` in `src/math/operations`.
-/
namespace Verif.Csx

variable {T : Type}

/-- `std::fill_n(y_vals, y->size, T{0})`. -/
def fillZero [Zero T] (y : List (Option T)) : List (Option T) := y.map fun _ => some 0

/-- `gemv_csx::perform` for `order == 'R'` (`gemv_csx.cpp` 73-89).  A cell of `y` is `none` when it was not initialised; reading it gives `none` (undefined). -/
def gemvR [CommRing T] [DecidableEq T] (A : Csx T) (x : List T) (y : List (Option T)) (α β : T) : Option (List (Option T)) :=
  let y := if β = 0 then fillZero y else y
  forLoop 0 A.np y fun row y => do
    let start ← A.ptrs[row]?
    let stop ← A.ptrs[row + 1]?
    let s ← forLoop start stop 0 fun i s => do
      let col ← A.idxs[i]?
      let val ← A.vals[i]?
      let xv ← x[col]?
      some (s + val * xv)
    let cell ← y[row]?
    let old ← cell
    wr y row (some (α * s + β * old))

/-- `gemv_csx.cpp` 91-98: `y *= beta`. -/
def scaleY [CommRing T] [DecidableEq T] (y : List (Option T)) (β : T) : Option (List (Option T)) :=
  if β = 0 then some (fillZero y) else forLoop 0 y.length y fun i y => do
    let cell ← y[i]?
    let old ← cell
    wr y i (some (old * β))

/-- `gemv_csx::perform` for `order == 'C'` (`gemv_csx.cpp` 90-111). -/
def gemvC [CommRing T] [DecidableEq T] (A : Csx T) (x : List T) (y : List (Option T)) (α β : T) : Option (List (Option T)) := do
  let y ← scaleY y β
  forLoop 0 A.np y fun col y => do
    let start ← A.ptrs[col]?
    let stop ← A.ptrs[col + 1]?
    let xv ← x[col]?
    forLoop start stop y fun i y => do
      let row ← A.idxs[i]?
      let val ← A.vals[i]?
      let cell ← y[row]?
      let old ← cell
      wr y row (some (old + α * val * xv))

/-- `pruning_subset_csx::setup` (`pruning_subset_csx.cpp` 53-64) for a pruned primary dimension: the number of non-empty slices. -/
def pruneCountPrimary (A : Csx T) : Option Nat := forLoop 0 A.np 0 fun ip n => do
  let start ← A.ptrs[ip]?
  let stop ← A.ptrs[ip + 1]?
  some (if stop - start > 0 then n + 1 else n)

/-- `pruning_subset_csx::setup` (69-76): the number of entries of each secondary index. -/
def pruneCounts (A : Csx T) : Option (List Nat) := forLoop 0 A.idxs.length (List.replicate A.ns 0) fun i cnt => do
  let c ← A.idxs[i]?
  let x ← cnt[c]?
  wr cnt c (x + 1)

/-- `pruning_subset_csx::setup` (77-82). -/
def pruneCountSecondary (A : Csx T) (cnt : List Nat) : Option Nat := forLoop 0 A.ns 0 fun is n => do
  let c ← cnt[is]?
  some (if c > 0 then n + 1 else n)

/-- `pruning_subset_csx::perform` (156-166) for the primary dimension; `out` is the vector of the announced size. -/
def prunePrimary (A : Csx T) (out : List Nat) : Option (List Nat) := do
  let (out, _) ← forLoop 0 A.np (out, 0) fun ip (out, k) => do
    let start ← A.ptrs[ip]?
    let stop ← A.ptrs[ip + 1]?
    if stop - start > 0 then
      let out ← wr out k ip
      some (out, k + 1)
    else some (out, k)
  some out

/-- `pruning_subset_csx::perform` (178-186) for the secondary dimension. -/
def pruneSecondary (A : Csx T) (cnt out : List Nat) : Option (List Nat) := do
  let (out, _) ← forLoop 0 A.ns (out, 0) fun is (out, k) => do
    let c ← cnt[is]?
    if c > 0 then
      let out ← wr out k is
      some (out, k + 1)
    else some (out, k)
  some out

/-- `pivots_trails_csx::perform_pivots` (`pivots_trails_csx.cpp` 101-121); the vector holds values of the signed index type. -/
def pivots (A : Csx T) (vec : List Int) : Option (List Int) := forLoop 0 A.np vec fun ip vec => do
  let start ← A.ptrs[ip]?
  let stop ← A.ptrs[ip + 1]?
  if start = stop then wr vec ip A.ns
  else do
    let c ← A.idxs[start]?
    wr vec ip c

/-- `pivots_trails_csx::perform_trails` (126-146). -/
def trails (A : Csx T) (vec : List Int) : Option (List Int) := forLoop 0 A.np vec fun ip vec => do
  let start ← A.ptrs[ip]?
  let stop ← A.ptrs[ip + 1]?
  if start = stop then wr vec ip A.ns
  else do
    let c ← A.idxs[stop - 1]?
    wr vec ip c

/-- The test of `complete_forward`: `pivtrl[ip] == end_val || (ip > 0 && pivtrl[ip] < pivtrl[ip-1])`. -/
def replaceForward (vec : List Int) (endVal : Int) (ip : Nat) : Option Bool := do
  let v ← vec[ip]?
  if v = endVal then some true
  else if ip > 0 then do
    let u ← vec[ip - 1]?
    some (decide (v < u))
  else some false

/-- `pivots_trails_csx::complete_forward` (149-161). -/
def completeForward (vec : List Int) (endVal : Int) : Option (List Int) := do
  let (vec, _) ← forLoop 0 vec.length (vec, 0) fun ip (vec, curr) => do
    let b ← replaceForward vec endVal ip
    let vec ← bif b then wr vec ip curr else some vec
    let v ← vec[ip]?
    some (vec, v)
  some vec

/-- The test of `complete_backward`: `pivtrl[ip] == end_val || (ip < size-1 && pivtrl[ip] > pivtrl[ip+1])`. -/
def replaceBackward (vec : List Int) (endVal : Int) (ip : Nat) : Option Bool := do
  let v ← vec[ip]?
  if v = endVal then some true
  else if ip < vec.length - 1 then do
    let u ← vec[ip + 1]?
    some (decide (v > u))
  else some false

/-- `pivots_trails_csx::complete_backward` (166-178): `for(ip = size - 1; ip < size; ip--)`, the index wraps around to end the loop; the loop is counted by `k`. -/
def completeBackward (vec : List Int) (endVal : Int) : Option (List Int) := do
  let n := vec.length
  let (vec, _) ← forLoop 0 n (vec, endVal - 1) fun k (vec, curr) => do
    let ip := n - 1 - k
    let b ← replaceBackward vec endVal ip
    let vec ← bif b then wr vec ip curr else some vec
    let v ← vec[ip]?
    some (vec, v)
  some vec

/-- `convert_csx_dny::perform_copyvals` (`convert_csx_dny.cpp` 58-103); `same` tells whether the orders of the two matrices agree, `ld` is the leading dimension. -/
def toDense (A : Csx T) (same : Bool) (ld : Nat) (dst : List T) : Option (List T) := forEntries A dst fun r i c dst => do
  let v ← A.vals[i]?
  wr dst (if same then r * ld + c else r + ld * c) v

end Verif.Csx
