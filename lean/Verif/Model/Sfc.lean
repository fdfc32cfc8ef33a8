import Verif.Base.Loop
/-
Model of the bucket iteration of `src/basis/sfc/spacefillingcurve.{h,cpp}`.
-/
namespace Verif.Sfc

/-- `bucketSize()` (spacefillingcurve.h 26). -/
def bucketSize (dim : Nat) : Nat := if dim = 2 then 4 else 8

/-- `buckets(depth)` (spacefillingcurve.h 25): `std::pow((size_t)1 << depth, dim)`, a power of two, exact in `double`. -/
def buckets (dim depth : Nat) : Nat := (2 ^ depth) ^ dim

/-- `std::lower_bound` by contract: position of the first element not less than `v` in a sorted range. -/
def lowerBound (l : List Nat) (v : Nat) : Nat := l.findIdx fun x => !(decide (x < v))

/-- `a / b`, undefined for zero. -/
def divU (a b : Nat) : Option Nat := if b = 0 then none else some (a / b)

/-- The object: dimension, `_depth` and `_refinedsfc`. -/
structure Curve where
  dim : Nat
  depth : Nat
  refined : List (List Nat)

/-- Lines 86-93: one iterator per level; `c` is divided after every level. -/
def initIters (s : Curve) (begin : Nat) : Option (List Nat) := do
  let (its, _) ← forLoop 0 s.refined.length (([] : List Nat), buckets s.dim s.depth) fun i (its, c) => do
    let l ← s.refined[i]?
    let q ← divU begin c
    some (its ++ [lowerBound l q], c / bucketSize s.dim)
  some its

/-- Lines 97-101: advance every iterator by at most one. -/
def advance (s : Curve) (bucket : Nat) (its : List Nat) : Option (List Nat) := do
  let (its, _) ← forLoop 0 s.refined.length (its, buckets s.dim s.depth) fun i (its, c) => do
    let l ← s.refined[i]?
    let p ← its[i]?
    let its ← if p ≠ l.length then do      -- `rindices[i] != end()`
        let x ← l[p]?
        let q ← divU bucket c
        if x < q then wr its i (p + 1) else some its
      else some its
    some (its, c / bucketSize s.dim)
  some its

/-- Lines 102-107: `while (depth < _depth && rindices[depth] != end && *rindices[depth] == bucket / step)`. -/
def descend (s : Curve) (bucket : Nat) (its : List Nat) (depth step : Nat) : Option (Nat × Nat) :=
  if depth < s.depth then do
    let l ← s.refined[depth]?
    let p ← its[depth]?
    if p ≠ l.length then do
      let x ← l[p]?
      let q ← divU bucket step
      if x = q then descend s bucket its (depth + 1) (step / bucketSize s.dim)
      else some (depth, step)
    else some (depth, step)
  else some (depth, step)
termination_by s.depth - depth

/-- The loop of lines 96-110; the result is the list of callback arguments `(depth, index)`.  A zero `step` would not terminate. -/
def iterLoop (s : Curve) (stop bucket : Nat) (its : List Nat) (out : List (Nat × Nat)) : Option (List (Nat × Nat)) :=
  if _h : bucket < stop then
    match advance s bucket its with
    | none => none
    | some its =>
      match descend s bucket its 0 (buckets s.dim s.depth) with
      | none => none
      | some (depth, step) =>
        if _hs : step = 0 then none
        else iterLoop s stop (bucket + step) its (out ++ [(depth, bucket / step)])
  else some out
termination_by stop - bucket

/-- `iterateBuckets(begin, end, callback)` (lines 84-111). -/
def iterateBuckets (s : Curve) (begin stop : Nat) : Option (List (Nat × Nat)) := do
  let its ← initIters s begin
  iterLoop s stop begin its []

end Verif.Sfc
