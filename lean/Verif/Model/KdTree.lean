import Verif.Base.Mem
import Verif.Base.Loop
import Mathlib.Order.Defs.LinearOrder
/-!
The kD-tree (`src/basis/structures/kdtree.{h,cpp}`) and the interval tree (`src/basis/structures/intervaltree.{h,cpp}`).

Simplifications: coordinates are from a linear order (no NaN); a point is a function of the dimension; the points are the numbers below `n`, a read of a point outside is undefined;
the dimension in which a level is split is a parameter (`box` in `build` only chooses it); the number of levels, computed by the code as `floor(log2(n / bucketsize))` in floating
point, is `Nat.log2`.  `std::nth_element` and `std::sort` are parameters (any implementation that meets their specification).  The iterations of the parallel loop over the nodes of
a level are executed in an arbitrary order (`orders`): each iteration reads and writes only its own node and its own range of the permutation and reads the nodes of the levels
above.
-/
namespace Verif.KdTree

/-- `KDTree::splitter` and `IntervalTree::splitter`: `value` is `value` of the first and `end` of the second, `start` is used only by the second. -/
structure Splitter (K : Type) where
  d : Nat
  index : Nat
  value : K
  start : K
  deriving DecidableEq

variable {K : Type}

/-- `begin(interval)` (`kdtree.h` 31-36, `intervaltree.h` 21-26).  The loop halves `left`, it does not end only for 0; `fuel = interval + 1`. -/
def beginOf (sp : List (Splitter K)) : Nat → Nat → Option Nat
  | 0, _ => none
  | fuel + 1, left => if left % 2 = 0 then beginOf sp fuel (left / 2) else if left = 1 then some 0 else sp[left / 2]?.map (·.index)

/-- `end(interval)` (`kdtree.h` 38-43, `intervaltree.h` 28-33). -/
def endOf (sp : List (Splitter K)) (n : Nat) : Nat → Nat → Option Nat
  | 0, _ => none
  | fuel + 1, right => if right % 2 = 1 then endOf sp n fuel (right / 2) else if right = 0 then some n else sp[right / 2]?.map (·.index)

/-- The loop over the levels and over the nodes of a level (`kdtree.cpp` 55-66, 98-101; `intervaltree.cpp` 48-56, 79-81): the range of the node, its splitting `node`, and for the
kD-tree `leaf_intervals` (`kdtree.cpp` 59-61, 68-71).  `dim` is the dimension of the level. -/
def buildLevels (levels n : Nat) (orders : Nat → List Nat) (node : (ll b e : Nat) → List Nat → Option (List Nat × Splitter K))
    (perm : List Nat) (sp : List (Splitter K)) : Option (List Nat × List (Splitter K) × List (Nat × Nat)) :=
  forLoop 0 levels (perm, sp, []) fun ll (perm, sp, leaf) =>
    (orders ll).foldlM (m := Option) (fun (perm, sp, leaf) i => do
      let index := 2 ^ ll + i
      let b ← beginOf sp (index + 1) index
      let e ← endOf sp n (index + 1) index
      let leaf ← bif ll + 1 == levels then wr leaf i (b, e) else some leaf
      let (perm, s) ← node ll b e perm
      let sp ← wr sp index s
      some (perm, sp, leaf)) (perm, sp, bif ll + 1 == levels then List.replicate (2 ^ ll) (0, 0) else leaf)

/-- `compxyz` (`kdtree.cpp` 41-49). -/
def compxyz [LinearOrder K] (coord : Nat → Nat → K) (i j : Nat) : Bool :=
  if coord i 0 = coord j 0 then
    if coord i 1 = coord j 1 then decide (coord i 2 < coord j 2) else decide (coord i 1 < coord j 1)
  else decide (coord i 0 < coord j 0)

/-- `std::nth_element(permutation.begin() + b, permutation.begin() + mid, permutation.begin() + e, ...)`; the comparator reads the coordinates of the points in the range. -/
def nthRange (n : Nat) (nth : (Nat → K) → List Nat → Nat → List Nat) (key : Nat → K) (perm : List Nat) (b mid e : Nat) : Option (List Nat) :=
  if b ≤ mid ∧ mid ≤ e ∧ e ≤ perm.length ∧ ((perm.take e).drop b).all (· < n) then some (perm.take b ++ nth key ((perm.take e).drop b) (mid - b) ++ perm.drop e) else none

/-- `std::sort(permutation.begin() + b, permutation.begin() + e, compxyz)`. -/
def sortPart (n : Nat) (srt : List Nat → List Nat) (perm : List Nat) (b e : Nat) : Option (List Nat) :=
  if b ≤ e ∧ e ≤ perm.length ∧ ((perm.take e).drop b).all (· < n) then some (perm.take b ++ srt ((perm.take e).drop b) ++ perm.drop e) else none

/-- The coordinate of the point at a position of the permutation. -/
def keyAt (n : Nat) (key : Nat → K) (perm : List Nat) (p : Nat) : Option K := do
  let x ← perm[p]?
  if x < n then some (key x) else none

/-- `while (index + 1 < end && ... == ...) ++index` (`kdtree.cpp` 82-86, `intervaltree.cpp` 66-70); `cur` is the value compared with.  `fuel = end`. -/
def moveMid [DecidableEq K] (n : Nat) (key : Nat → K) (cur : List Nat → Nat → Option K) (perm : List Nat) (e : Nat) : Nat → Nat → Option Nat
  | 0, _ => none
  | fuel + 1, idx =>
      if idx + 1 < e then do
        let u ← cur perm idx
        let x ← keyAt n key perm (idx + 1)
        if u = x then moveMid n key cur perm e fuel (idx + 1) else some idx
      else some idx

/-- `for (c = index + 2; c < end; ++c) if (...) std::swap(permutation[++index], permutation[c--])` (`kdtree.cpp` 87-91, `intervaltree.cpp` 71-75).  After a swap the same
position is tested again; each iteration increases `c` or `index`, so `fuel = 2 * end + 1` suffices. -/
def gather [DecidableEq K] (n : Nat) (key : Nat → K) (cur : List Nat → Nat → Option K) (e : Nat) : Nat → (idx c : Nat) → List Nat → Option (Nat × List Nat)
  | 0, _, _, _ => none
  | fuel + 1, idx, c, perm =>
      if c < e then do
        let u ← cur perm idx
        let x ← keyAt n key perm c
        if u = x then do
          let a ← perm[idx + 1]?
          let y ← perm[c]?
          let perm ← wr perm (idx + 1) y
          let perm ← wr perm c a
          gather n key cur e fuel (idx + 1) c perm
        else gather n key cur e fuel idx (c + 1) perm
      else some (idx, perm)

/-- The splitting of a node, common to both trees (`kdtree.cpp` 73-92, `intervaltree.cpp` 58-76); `zero` is the initial value of `splitter.value` (`resize` value-initialises).
`ref v` is the value to which the others are compared. -/
def splitNode [DecidableEq K] (n : Nat) (nth : (Nat → K) → List Nat → Nat → List Nat) (key : Nat → K) (cur : K → List Nat → Nat → Option K) (zero : K) (d b e : Nat) (perm : List Nat) :
    Option (List Nat × Splitter K) := do
  let mid := b + (e - b) / 2
  let perm ← nthRange n nth key perm b mid e
  let v ← (if b < e then keyAt n key perm mid else some zero)
  let idx ← moveMid n key (cur v) perm e (e + 1) mid
  let (idx, perm) ← gather n key (cur v) e (2 * e + 1) idx (idx + 2) perm
  some (perm, ⟨d, min (idx + 1) e, v, zero⟩)

/-- The body of the loop of `KDTree::build` (`kdtree.cpp` 73-97): the value compared with is that of the point at the current index; both parts are sorted at the last level. -/
def kdNode [DecidableEq K] (n levels : Nat) (nth : (Nat → K) → List Nat → Nat → List Nat) (srt : List Nat → List Nat) (coord : Nat → Nat → K) (zero : K) (dim : Nat → Nat)
    (ll b e : Nat) (perm : List Nat) : Option (List Nat × Splitter K) := do
  let (perm, s) ← splitNode n nth (fun x => coord x (dim ll)) (fun _ perm idx => keyAt n (fun x => coord x (dim ll)) perm idx) zero (dim ll) b e perm
  bif ll + 1 == levels then (do
    let perm ← sortPart n srt perm b s.index
    let perm ← sortPart n srt perm s.index e
    some (perm, s))
  else some (perm, s)

/-- `levels` (`kdtree.cpp` 52; `intervaltree.cpp` 45): division by zero is undefined. -/
def levelsOf (n bucketsize : Nat) : Option Nat := if n < bucketsize then some 0 else if bucketsize = 0 then none else some (Nat.log2 (n / bucketsize))

/-- `KDTree::build` (`kdtree.cpp` 36-105). -/
def kdBuild [DecidableEq K] (n bucketsize : Nat) (orders : Nat → List Nat) (nth : (Nat → K) → List Nat → Nat → List Nat) (srt : List Nat → List Nat) (coord : Nat → Nat → K) (zero : K)
    (dim : Nat → Nat) : Option (List Nat × List (Splitter K) × List (Nat × Nat)) := do
  let levels ← levelsOf n bucketsize
  let (perm, sp, leaf) ← buildLevels levels n orders (kdNode n levels nth srt coord zero dim) (List.range n) (List.replicate (2 ^ levels) ⟨0, 0, zero, zero⟩)
  bif levels == 0 then (do
    let perm ← sortPart n srt perm 0 n
    some (perm, sp, leaf))
  else some (perm, sp, leaf)

/-- The body of the loop of `IntervalTree::build` (`intervaltree.cpp` 58-81): the boxes are split by their ends; `start` is the smallest start of the right part (at most `end`). -/
def itNode [LinearOrder K] (n : Nat) (nth : (Nat → K) → List Nat → Nat → List Nat) (istart iend : Nat → Nat → K) (zero : K) (dim : Nat → Nat) (ll b e : Nat) (perm : List Nat) :
    Option (List Nat × Splitter K) := do
  let (perm, s) ← splitNode n nth (fun x => iend x (dim ll)) (fun v _ _ => some v) zero (dim ll) b e perm
  let start ← forLoop s.index e s.value fun c start => do
    let x ← keyAt n (fun x => istart x (dim ll)) perm c
    some (min start x)
  some (perm, { s with start := start })

/-- `IntervalTree::build` (`intervaltree.cpp` 31-83); `bucketsize = 8`. -/
def itBuild [LinearOrder K] (n : Nat) (orders : Nat → List Nat) (nth : (Nat → K) → List Nat → Nat → List Nat) (istart iend : Nat → Nat → K) (zero : K) (dim : Nat → Nat) :
    Option (List Nat × List (Splitter K)) := do
  let levels ← levelsOf n 8
  let (perm, sp, _) ← buildLevels levels n orders (itNode n nth istart iend zero dim) (List.range n) (List.replicate (2 ^ levels) ⟨0, 0, zero, zero⟩)
  some (perm, sp)

/-- `IntervalTree::traverse` (`intervaltree.h` 50-62) for the box `(s, e)`; the numbers of the nodes double, `fuel = splitters.size() + 1` suffices. -/
def traverse [LinearOrder K] (sp : List (Splitter K)) (s e : Nat → K) : Nat → Nat → List Nat → Option (List Nat)
  | 0, _, _ => none
  | fuel + 1, node, acc =>
      if node < sp.length then do
        let q ← sp[node]?
        let acc ← (if s q.d < q.value then traverse sp s e fuel (2 * node) acc else some acc)
        if q.start < e q.d then traverse sp s e fuel (2 * node + 1) acc else some acc
      else some (acc ++ [node])

/-- `boxMin(interval, min)` (`kdtree.h` 85-97, `intervaltree.h` 35-48); `fuel = interval + 1`. -/
def boxMin [LinearOrder K] (sp : List (Splitter K)) : Nat → Nat → (Nat → K) → Option (Nat → K)
  | 0, _, _ => none
  | fuel + 1, interval, min =>
      let parent := interval / 2
      if parent = 0 then some min else
      if interval % 2 = 1 then do
        let q ← sp[parent]?
        boxMin sp fuel parent fun d => if d = q.d ∧ min q.d < q.value then q.value else min d
      else boxMin sp fuel parent min

end Verif.KdTree
