import Verif.Base.Loop
import Mathlib.Order.Defs.LinearOrder
/-
Model of `src/basis/utilities/utils.hpp` and of `tarray::distribute` (`src/basis/containers/tarray.hpp`).
-/
namespace Verif.Utils

/-- `sizesToOffsets(begin, end, offset)` (utils.hpp 12-22): in place over the range, returns the final sum. -/
def sizesToOffsets (v : List Int) (offset : Int) : Option (List Int × Int) :=
  forLoop 0 v.length (v, offset) fun i (v, sum) => do
    let tmp ← v[i]?
    let v ← wr v i sum
    some (v, sum + tmp)

/-- `sizes[t][i]` read and write on a vector of vectors. -/
def rd2 {α : Type} (m : List (List α)) (t i : Nat) : Option α := (m[t]?).bind (·[i]?)
def wr2 {α : Type} (m : List (List α)) (t i : Nat) (x : α) : Option (List (List α)) :=
  (m[t]?).bind fun r => (wr r i x).bind fun r => wr m t r

/-- `sizesToOffsets(sizes, offsets)` (utils.hpp 24-36): per column `i`, running over threads `t`.
`sizes.front()` of an empty vector is undefined. -/
def sizesToOffsets2 (sizes : List (List Int)) (offsets : List Int) : Option (List (List Int) × List Int) := do
  let front ← sizes[0]?
  forLoop 0 front.length (sizes, offsets) fun i s =>
    forLoop 0 sizes.length s fun t (sizes, sum) => do
      let tmp ← rd2 sizes t i
      let si ← sum[i]?
      let sizes ← wr2 sizes t i si
      let si ← sum[i]?
      let sum ← wr sum i (si + tmp)
      some (sizes, sum)

/-- `permute(data, permutation, elementsize)` (utils.hpp 38-48): `data` becomes a value-initialised vector of the same size,
then every component of every element is copied. -/
def permute {α : Type} (zero : α) (data : List α) (perm : List Nat) (es : Nat) : Option (List α) :=
  forLoop 0 es (List.replicate data.length zero) fun e d =>
    forLoop 0 (d.length / es) d fun i d => do
      let p ← perm[i]?
      let x ← data[es * p + e]?
      wr d (es * i + e) x

/-- `threadDistributionToFullDistribution(distribution)` (utils.hpp 50-66).  The parallel loop writes disjoint vectors. -/
def threadDistribution (dist : List (List Int)) : Option (List (List Int)) := do
  let offsets := dist.map fun d => d.getLast?.getD 0   -- `size() ? back() : 0`
  let (offsets, _) ← sizesToOffsets offsets 0
  forLoop 0 dist.length dist fun t dist => do
    let off ← offsets[t]?
    let d ← dist[t]?
    wr dist t (d.map (· + off))

/-- `threadDistributionToFullDistribution(data, distribution)` (utils.hpp 68-87); `distribution` must be non-empty
(`size() - 1` would wrap). -/
def threadDistributionFlat (data : List Int) (dist : List Nat) : Option (List Int) := do
  if dist.length = 0 then none else
  let threads := dist.length - 1
  let offsets ← forLoop 0 threads (List.replicate dist.length (0 : Int)) fun t offsets => do
    let a ← dist[t]?
    let b ← dist[t + 1]?
    if a ≠ b then
      let x ← data[b]?
      wr offsets t x
    else some offsets
  let (offsets, _) ← sizesToOffsets offsets 0
  forLoop 0 threads data fun t data => do
    let off ← offsets[t]?
    let a ← dist[t]?
    let b ← dist[t + 1]?
    forLoop (a + 1) (b + 1) data fun i data => do
      let x ← data[i]?
      wr data i (x + off)

section Order
variable {α : Type} [LinearOrder α]

/-- `removeDuplicates(data, begin)` (utils.hpp 89-103).  With `begin > data.size()` the resize would grow the vector
(new unspecified-by-the-caller elements): modelled as `none`. -/
def removeDuplicates (data : List α) (begin : Nat) : Option (List α) :=
  if data.length = begin then some data
  else if data.length < begin then none
  else do
    let (data, unique) ← forLoop (begin + 1) data.length (data, begin) fun d (data, unique) => do
      let u ← data[unique]?
      let x ← data[d]?
      if u ≠ x then
        let data ← wr data (unique + 1) x
        some (data, unique + 1)
      else some (data, unique)
    some (data.take (unique + 1))

/-- `std::sort` on a range (contract: the sorted permutation; unique for a total order). -/
def stdSort (l : List α) : List α := l.mergeSort (· ≤ ·)

/-- `std::sort(data + a, data + b)`; `none` when the range is invalid. -/
def sortRange (data : List α) (a b : Nat) : Option (List α) :=
  if a ≤ b ∧ b ≤ data.length then
    some (data.take a ++ stdSort ((data.take b).drop a) ++ data.drop b)
  else none

/-- `sortAndRemoveDuplicates(data, begin)` (utils.hpp 105-110). -/
def sortAndRemoveDuplicates (data : List α) (begin : Nat) : Option (List α) := do
  let data ← sortRange data begin data.length
  removeDuplicates data begin

/-- `mergeThreadedUniqueData` (utils.hpp 120-127): append everything to `data[0]`, sort, remove duplicates
(result: the new `data[0]`).  `data[0]` must exist. -/
def mergeThreadedUniqueData (data : List (List α)) : Option (List α) := do
  let d0 ← data[0]?
  let d ← forLoop 1 data.length d0 fun t d => do
    let dt ← data[t]?
    some (d ++ dt)
  sortAndRemoveDuplicates d 0

/-- `std::inplace_merge(data + a, data + m, data + b)` by contract: invalid ranges or unsorted halves are undefined behaviour,
otherwise the stable merge. -/
def inplaceMergeRange (data : List α) (a m b : Nat) : Option (List α) :=
  if a ≤ m ∧ m ≤ b ∧ b ≤ data.length then
    let l := (data.take m).drop a
    let r := (data.take b).drop m
    if l.Pairwise (· ≤ ·) ∧ r.Pairwise (· ≤ ·) then
      some (data.take a ++ l.merge r (· ≤ ·) ++ data.drop b)
    else none
  else none

/-- `while (align < n) align = align << 1` started from `align` (utils.hpp 146-147, 221-222). -/
def alignUp (align n : Nat) (h : 0 < align) : Nat :=
  if align < n then alignUp (align * 2) n (by omega) else align
termination_by n - align

/-- One level of the merge tree (utils.hpp 153-159, 227-233): blocks of width `i`. -/
def mergeLevel (data : List α) (dist : List Nat) (align i : Nat) : Option (List α) :=
  forLoop 0 (align / i) data fun t data => do
    let a ← dist[i * t]?
    let m ← dist[i * t + i / 2]?
    let b ← dist[i * t + i]?
    inplaceMergeRange data a m b

/-- `for (size_t i = 2; i <= align; i *= 2)` (utils.hpp 152, 226). -/
def mergeLevels (data : List α) (dist : List Nat) (align i : Nat) (h : 0 < i) : Option (List α) :=
  if i ≤ align then do
    let data ← mergeLevel data dist align i
    mergeLevels data dist align (i * 2) (by omega)
  else some data
termination_by align + 1 - i

/-- `inplaceMerge(data, distribution)` (utils.hpp 141-161); `back()` of an empty distribution is undefined. -/
def inplaceMerge (data : List α) (dist : List Nat) : Option (List α) := do
  let back ← dist.getLast?
  let size := dist.length - 1
  let align := alignUp 1 dist.length (by omega)
  mergeLevels data (dist ++ List.replicate (align - size) back) align 2 (by omega)

/-- `sortWithInplaceMerge(data, distribution)` (utils.hpp 163-176). -/
def sortWithInplaceMerge (data : List α) (dist : List Nat) : Option (List α) := do
  if dist.length = 0 then none else
  let data ← forLoop 0 (dist.length - 1) data fun t data => do
    let a ← dist[t]?
    let b ← dist[t + 1]?
    sortRange data a b
  inplaceMerge data dist

/-- Appending the threads' vectors (utils.hpp 181-185, 192-196, 207-211): the new `data[0]` and the distribution. -/
def appendThreads (data : List (List α)) : Option (List α × List Nat) := do
  let d0 ← data[0]?
  forLoop 1 data.length (d0, [0, d0.length]) fun t (d, dist) => do
    let dt ← data[t]?
    some (d ++ dt, dist ++ [(d ++ dt).length])

/-- `inplaceMerge(vector<vector>)` (utils.hpp 178-187). -/
def inplaceMergeThreads (data : List (List α)) : Option (List α) := do
  let (d, dist) ← appendThreads data
  inplaceMerge d dist

/-- `sortWithInplaceMerge(vector<vector>)` (utils.hpp 189-198). -/
def sortWithInplaceMergeThreads (data : List (List α)) : Option (List α) := do
  let (d, dist) ← appendThreads data
  sortWithInplaceMerge d dist

/-- `sortWithUniqueMerge` (utils.hpp 200-214). -/
def sortWithUniqueMerge (data : List (List α)) : Option (List α) := do
  let data ← data.mapM fun d => sortAndRemoveDuplicates d 0
  let (d, dist) ← appendThreads data
  let d ← inplaceMerge d dist
  sortAndRemoveDuplicates d 0

/-- `mergeAppendedData` (utils.hpp 216-240).  `distribution.begin() + 1` of an empty vector and `back()` of an empty
`_distribution` are undefined.  The count `align - distribution.size() + 2` is computed modulo 2^64 left to right; as its
final value is non-negative it equals `align + 2 - distribution.size()`. -/
def mergeAppendedData (data : List α) (dist : List Nat) : Option (List α) := do
  let tail := dist.drop 1
  let back ← tail.getLast?
  let front ← tail.head?
  let align := alignUp 1 tail.length (by omega)
  let padded := tail ++ List.replicate (align + 2 - dist.length) back
  let data ← mergeLevels data padded align 2 (by omega)
  let last ← padded.getLast?
  inplaceMergeRange data 0 front last

end Order

/-- `tarray::distribute` (tarray.hpp 10-25) for a given chunk size: `threads + 1` value-initialised borders, the inner ones set to
`min(t * chunk, size)`, the last one to `size`. `threads = 0` writes `distribution[0] = size`. -/
def distributeChunk (threads size chunk : Nat) : Option (List Nat) := do
  let d ← forLoop 1 threads (List.replicate (threads + 1) 0) fun t d => do
    let d ← wr d t (t * chunk)
    let x ← d[t]?
    if x > size then wr d t size else some d
  wr d threads size

/-- The chunk size of line 15, exact ceiling (the code divides in `double`: exact for `size < 2^53`; division by zero threads is not
an error there and is excluded by the theorems). -/
def chunkSize (threads size minchunk : Nat) : Nat := max ((size + threads - 1) / threads) minchunk

def distribute (threads size minchunk : Nat) : Option (List Nat) :=
  distributeChunk threads size (chunkSize threads size minchunk)

end Verif.Utils
