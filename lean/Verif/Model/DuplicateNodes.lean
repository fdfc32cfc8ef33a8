import Verif.Model.KdTree
import Mathlib.Algebra.Order.Group.Defs
import Mathlib.Algebra.Order.Sub.Defs
/-!
The search of duplicate nodes (`src/input/builders/input.cpp` 1264-1369, `Input::searchDuplicateNodes`).

The state is the array `duplicate` (`-1` is `none`) and the list of calls of `merge`.  Positions index the permutation of the tree.  Simplifications: coordinates are from an ordered
group (exact arithmetic).  Profiling is left out.  `max` is `std::max(first, i)`.
-/
namespace Verif.KdTree

variable {K : Type} [AddCommGroup K] [LinearOrder K]

/-- `duplicate` and the calls of `merge(id, target)`. -/
abbrev DupState := List (Option Nat) × List (Nat × Nat)

/-- The point at a position (`coordinates[tree.permutation[p]]` is defined). -/
def pointAt (n : Nat) (perm : List Nat) (p : Nat) : Option Nat := keyAt n id perm p

/-- The condition in `check` (1289-1293). -/
def nearTest (coord : Nat → Nat → K) (eps : K) (a c : Nat) : Bool :=
  decide (coord a 0 ≤ coord c 0 + eps) && decide (coord c 0 - eps ≤ coord a 0) &&
  decide (coord a 1 ≤ coord c 1 + eps) && decide (coord c 1 - eps ≤ coord a 1) &&
  decide (coord a 2 ≤ coord c 2 + eps) && decide (coord c 2 - eps ≤ coord a 2)

/-- The found pair of positions is merged (1295-1301). -/
def mergeAt (n : Nat) (perm : List Nat) (p pp : Nat) (st : DupState) : Option DupState := do
  let a ← pointAt n perm p
  let c ← pointAt n perm pp
  let d ← st.1[pp]?
  match d with
  | some r => do
      let t ← perm[r]?
      let dup ← wr st.1 p (some r)
      some (dup, st.2 ++ [(a, t)])
  | none => do
      let dup ← wr st.1 p (some pp)
      some (dup, st.2 ++ [(a, c)])

/-- `check(p, begin, end)` (1287-1305): the first near point of the range; `k` positions from `pp`. -/
def check (n : Nat) (coord : Nat → Nat → K) (eps : K) (perm : List Nat) (p : Nat) : (k pp : Nat) → DupState → Option DupState
  | 0, _, st => some st
  | k + 1, pp, st => do
      let a ← pointAt n perm p
      let c ← pointAt n perm pp
      bif nearTest coord eps a c then mergeAt n perm p pp st else check n coord eps perm p k (pp + 1) st

/-- `check` of the range of a leaf before `max` (1312-1314, 1320-1322). -/
def checkLeaf (n : Nat) (coord : Nat → Nat → K) (eps : K) (perm : List Nat) (sp : List (Splitter K)) (max p leaf : Nat) (st : DupState) : Option DupState :=
  if leaf < max then do
    let b ← beginOf sp (leaf + 1) leaf
    let e ← endOf sp n (leaf + 1) leaf
    check n coord eps perm p (e - b) b st
  else some st

/-- The lambda `traverse` (1307-1325); the number of the node doubles, `fuel = splitters.size()` suffices. -/
def treeSearch (n : Nat) (coord : Nat → Nat → K) (eps : K) (perm : List Nat) (sp : List (Splitter K)) (max p : Nat) : (fuel node : Nat) → DupState → Option DupState
  | 0, _, _ => none
  | fuel + 1, node, st => do
      let a ← pointAt n perm p
      let q ← sp[node]?
      let st ← (if coord a q.d ≤ q.value + eps then
        if 2 * node < sp.length then treeSearch n coord eps perm sp max p fuel (2 * node) st else checkLeaf n coord eps perm sp max p (2 * node) st else some st)
      if q.value - eps ≤ coord a q.d then
        if 2 * node < sp.length then treeSearch n coord eps perm sp max p fuel (2 * node + 1) st else checkLeaf n coord eps perm sp max p (2 * node + 1) st else some st

/-- The loop over the points of a leaf near to its lower border (1327-1333). -/
def borderPhase (n : Nat) (coord : Nat → Nat → K) (eps : K) (perm : List Nat) (sp : List (Splitter K)) (max b e : Nat) (min : Nat → K) (st : DupState) : Option DupState :=
  if 1 < sp.length then
    forLoop b e st fun p st => do
      let a ← pointAt n perm p
      if coord a 0 ≤ min 0 + eps ∨ coord a 1 ≤ min 1 + eps ∨ coord a 2 ≤ min 2 + eps then treeSearch n coord eps perm sp max p sp.length 1 st else some st
  else some st

/-- `while (left != right && (x + eps < x || duplicate)) ++left` (1339-1341), `k = right - left`. -/
def moveLeft (n : Nat) (coord : Nat → Nat → K) (eps : K) (perm : List Nat) (dup : List (Option Nat)) (right : Nat) : (k left : Nat) → Option Nat
  | 0, left => some left
  | k + 1, left => do
      let a ← pointAt n perm left
      let r ← pointAt n perm right
      let d ← dup[left]?
      if coord a 0 + eps < coord r 0 ∨ d ≠ none then moveLeft n coord eps perm dup right k (left + 1) else some left

/-- `while (mid != right && y(mid) + eps < y(right)) ++mid` (1343-1345). -/
def skipLow (n : Nat) (coord : Nat → Nat → K) (eps : K) (perm : List Nat) (right : Nat) : (k mid : Nat) → Option Nat
  | 0, mid => some mid
  | k + 1, mid => do
      let a ← pointAt n perm mid
      let r ← pointAt n perm right
      if coord a 1 + eps < coord r 1 then skipLow n coord eps perm right k (mid + 1) else some mid

/-- `while (mid != right && y(right) + eps < y(mid)) ++mid` (1358-1360). -/
def skipHigh (n : Nat) (coord : Nat → Nat → K) (eps : K) (perm : List Nat) (right : Nat) : (k mid : Nat) → Option Nat
  | 0, mid => some mid
  | k + 1, mid => do
      let a ← pointAt n perm mid
      let r ← pointAt n perm right
      if coord r 1 + eps < coord a 1 then skipHigh n coord eps perm right k (mid + 1) else some mid

/-- The test of a pair in a leaf (1346-1357); the branch for `duplicate[mid] >= 0` is never taken. -/
def midTest (n : Nat) (coord : Nat → Nat → K) (eps : K) (perm : List Nat) (right mid : Nat) (st : DupState) : Option (Nat × DupState) :=
  if mid = right then some (mid, st) else do
    let a ← pointAt n perm mid
    let r ← pointAt n perm right
    if coord a 1 - eps ≤ coord r 1 then do
      let d ← st.1[mid]?
      let st ← (if d = none ∧ coord r 2 ≤ coord a 2 + eps ∧ coord a 2 - eps ≤ coord r 2 then mergeAt n perm right mid st else some st)
      some (mid + 1, st)
    else some (mid, st)

/-- `for (mid = left; mid != right;)` (1342-1361).  In exact arithmetic every iteration advances `mid`, so `fuel = right - left + 1` suffices. -/
def midLoop (n : Nat) (coord : Nat → Nat → K) (eps : K) (perm : List Nat) (right : Nat) : (fuel mid : Nat) → DupState → Option DupState
  | 0, _, _ => none
  | fuel + 1, mid, st =>
      if mid = right then some st else do
        let mid ← skipLow n coord eps perm right (right - mid) mid
        let (mid, st) ← midTest n coord eps perm right mid st
        let mid ← skipHigh n coord eps perm right (right - mid) mid
        midLoop n coord eps perm right fuel mid st

/-- The sweep over a leaf (1335-1362). -/
def sweep (n : Nat) (coord : Nat → Nat → K) (eps : K) (perm : List Nat) (b e : Nat) (st : DupState) : Option DupState := do
  let (_, st) ← forLoop (b + 1) e (b, st) fun right (left, st) => do
    let d ← st.1[right]?
    if d ≠ none then some (left, st) else do
      let left ← moveLeft n coord eps perm st.1 right (right - left) left
      let st ← midLoop n coord eps perm right (right - left + 1) left st
      some (left, st)
  some st

/-- One leaf (1277-1362). -/
def searchLeaf (n levels : Nat) (coord : Nat → Nat → K) (eps : K) (perm : List Nat) (sp : List (Splitter K)) (min : Nat → K) (i : Nat) (st : DupState) : Option DupState := do
  let b ← beginOf sp (i + 1) i
  let e ← endOf sp n (i + 1) i
  if b = e then some st else do
    let min ← boxMin sp (i + 1) i min
    let st ← borderPhase n coord eps perm sp (max (2 ^ levels) i) b e min st
    sweep n coord eps perm b e st

/-- `KDTree::KDTree` computes the minimum of the coordinates (`kdtree.cpp` 18-29). -/
def minPoint (n : Nat) (coord : Nat → Nat → K) (d : Nat) : K := (List.range' 1 (n - 1)).foldl (fun m i => min (coord i d) m) (coord 0 d)

/-- `Input::searchDuplicateNodes`. -/
def searchDuplicates (n : Nat) (orders : Nat → List Nat) (nth : (Nat → K) → List Nat → Nat → List Nat) (srt : List Nat → List Nat) (coord : Nat → Nat → K) (dim : Nat → Nat) (eps : K) :
    Option (List Nat × DupState) := do
  let levels ← levelsOf n 8
  let (perm, sp, _) ← kdBuild n 8 orders nth srt coord 0 dim
  let st ← forLoop (2 ^ levels) (2 ^ (levels + 1)) (List.replicate perm.length none, []) fun i st => searchLeaf n levels coord eps perm sp (minPoint n coord) i st
  some (perm, st)

end Verif.KdTree
