import Verif.Base.Loop
import Verif.Model.Utils
/-
Model of `serializededata` (src/basis/containers/serializededata.h): balancing of per-thread vectors, permutation of items and
the item iterators.  A `std::vector<std::vector<T> >` indexed by the thread is a `List (List T)`; a read or write out of range is
`none`.  Boundaries are natural numbers (overflow of the boundary type is not modelled).
-/
namespace Verif.Serial

/-- `_distribution[t + 1] - _distribution[t]`; the distribution is expected to be monotone (otherwise the code wraps around). -/
def need (d : List Nat) (t : Nat) : Option Nat := do
  let a ← d[t]?
  let b ← d[t + 1]?
  some (b - a)

/-- The `while` loop of the uniform `balance` (serializededata.h 36-46) for thread `t` that needs `n` values.  `tt` grows in every
iteration and `data[tt]` is undefined behaviour behind the last thread, so the loop makes at most `data.size()` iterations:
`fuel` only makes the definition structurally recursive. -/
def pullUniform {D : Type _} (n t : Nat) : Nat → Nat → List (List D) → Option (List (List D))
  | 0, _, _ => none
  | fuel + 1, tt, data => do
      let cur ← data[t]?
      if n ≤ cur.length then some data
      else do
        let src ← data[tt]?
        if n - cur.length < src.length then do
          let data ← wr data t (cur ++ src.take (n - cur.length))
          let data ← wr data tt (src.drop (n - cur.length))
          pullUniform n t fuel (tt + 1) data
        else do
          let data ← wr data t (cur ++ src)
          let data ← wr data tt []
          pullUniform n t fuel (tt + 1) data

/-- The surplus of thread `t` is moved to the front of the next thread (serializededata.h 47-51). -/
def pushUniform {D : Type _} (n t : Nat) (data : List (List D)) : Option (List (List D)) := do
  let cur ← data[t]?
  if n < cur.length then do
    let next ← data[t + 1]?
    let data ← wr data (t + 1) (cur.drop (cur.length - (cur.length - n)) ++ next)
    wr data t (cur.take (cur.length - (cur.length - n)))
  else some data

/-- Body of the loop over threads (serializededata.h 35-52). -/
def stepUniform {D : Type _} (esize : Nat) (d : List Nat) (t : Nat) (data : List (List D)) : Option (List (List D)) := do
  let n ← need d t
  let data ← pullUniform (esize * n) t (data.length + 1) (t + 1) data
  pushUniform (esize * n) t data

/-- `balance(esize, data, &d)` (serializededata.h 18-53) with a given distribution. -/
def balanceUniformBy {D : Type _} (esize : Nat) (data : List (List D)) (d : List Nat) : Option (List (List D)) :=
  forLoop 0 data.length data (stepUniform esize d)

/-- `balance(esize, data, NULL)`: the number of all values is distributed over the threads (serializededata.h 21-31). -/
def balanceUniform {D : Type _} (esize : Nat) (data : List (List D)) : Option (List (List D)) := do
  let d ← Utils.distribute data.length (data.map List.length).sum 0
  balanceUniformBy esize data d

/-- State of the non-uniform `balance`. -/
structure BState (D : Type _) where
  bnd : List (List Nat)
  data : List (List D)
  sizes : List Nat
deriving DecidableEq

/-- `while (boundaries[tt - ++ttt].size() == 0); ... boundaries[tt - ttt].back()` (serializededata.h 83-85): the last boundary in front
of thread `tt`; `tt - ttt` below zero is out of range. -/
def lastBefore (bnd : List (List Nat)) : Nat → Option Nat
  | 0 => none
  | tt + 1 => do
      let b ← bnd[tt]?
      match b.getLast? with
      | some x => some x
      | none => lastBefore bnd tt

/-- `data[t].insert(end, data[tt].begin(), data[tt].begin() + k); data[tt].erase(begin, begin + k)`; `k` beyond the end is undefined. -/
def moveFront {D : Type _} (l : List (List D)) (t tt k : Nat) : Option (List (List D)) := do
  let cur ← l[t]?
  let src ← l[tt]?
  if src.length < k then none
  else do
    let l ← wr l t (cur ++ src.take k)
    wr l tt (src.drop k)

/-- `l[t + 1].insert(begin, l[t].end() - k, l[t].end()); l[t].erase(l[t].end() - k, l[t].end())`. -/
def moveBack {D : Type _} (l : List (List D)) (t k : Nat) : Option (List (List D)) := do
  let cur ← l[t]?
  let next ← l[t + 1]?
  if cur.length < k then none
  else do
    let l ← wr l (t + 1) (cur.drop (cur.length - k) ++ next)
    wr l t (cur.take (cur.length - k))

/-- The branch `diff < sizes[tt]` (serializededata.h 82-92). -/
def pullPart {D : Type _} (diff t tt sz stt : Nat) (s : BState D) : Option (BState D) := do
  let prev ← lastBefore s.bnd tt
  let btt ← s.bnd[tt]?
  let bd ← btt[diff - 1]?
  let data ← moveFront s.data t tt (bd - prev)
  let bnd ← moveFront s.bnd t tt diff
  let sizes ← wr s.sizes t (sz + diff)
  let sizes ← wr sizes tt (stt - diff)
  some ⟨bnd, data, sizes⟩

/-- The other branch (serializededata.h 93-101). -/
def pullAll {D : Type _} (t tt sz stt : Nat) (s : BState D) : Option (BState D) := do
  let btt ← s.bnd[tt]?
  let dtt ← s.data[tt]?
  let sizes ← wr s.sizes t (sz + btt.length)
  let sizes ← wr sizes tt (stt - btt.length)
  let data ← moveFront s.data t tt dtt.length
  let bnd ← moveFront s.bnd t tt btt.length
  some ⟨bnd, data, sizes⟩

/-- The `while` loop of the non-uniform `balance` (serializededata.h 80-103); `fuel` as in `pullUniform`. -/
def pullItems {D : Type _} (n t : Nat) : Nat → Nat → BState D → Option (BState D)
  | 0, _, _ => none
  | fuel + 1, tt, s => do
      let sz ← s.sizes[t]?
      if n ≤ sz then some s
      else do
        let stt ← s.sizes[tt]?
        if n - sz < stt then do
          let s ← pullPart (n - sz) t tt sz stt s
          pullItems n t fuel (tt + 1) s
        else do
          let s ← pullAll t tt sz stt s
          pullItems n t fuel (tt + 1) s

/-- The surplus is moved to the next thread (serializededata.h 104-114).  `*(boundaries[t].end() - diff - 1)` is read before the
first boundary of the thread when `diff` is the number of its boundaries. -/
def pushItems {D : Type _} (n t : Nat) (s : BState D) : Option (BState D) := do
  let sz ← s.sizes[t]?
  if n < sz then do
    let bt ← s.bnd[t]?
    let last ← bt.getLast?
    if bt.length < (sz - n) + 1 then none
    else do
      let before ← bt[bt.length - (sz - n) - 1]?
      let data ← moveBack s.data t (last - before)
      let bnd ← moveBack s.bnd t (sz - n)
      let sizes ← wr s.sizes t n
      let snext ← sizes[t + 1]?
      let sizes ← wr sizes (t + 1) (snext + (sz - n))
      some ⟨bnd, data, sizes⟩
  else some s

def stepItems {D : Type _} (d : List Nat) (t : Nat) (s : BState D) : Option (BState D) := do
  let n ← need d t
  let s ← pullItems n t (s.bnd.length + 1) (t + 1) s
  pushItems n t s

/-- `balance(boundaries, data, &d)` (serializededata.h 55-116) with a given distribution.  Without any boundary nothing is done.
The first thread has to hold the leading zero boundary: otherwise `--sizes[0]` wraps around, which is not modelled (`none`). -/
def balanceItemsBy {D : Type _} (bnd : List (List Nat)) (data : List (List D)) (d : List Nat) :
    Option (List (List Nat) × List (List D)) :=
  if (bnd.map List.length).sum = 0 then some (bnd, data)
  else do
    let s0 ← (bnd.map List.length)[0]?
    if s0 = 0 then none
    else do
      let sizes ← wr (bnd.map List.length) 0 (s0 - 1)
      let s ← forLoop 0 bnd.length ⟨bnd, data, sizes⟩ (stepItems d)
      some (s.bnd, s.data)

/-- `balance(boundaries, data, NULL)`: the number of items is distributed (serializededata.h 71-73). -/
def balanceItems {D : Type _} (bnd : List (List Nat)) (data : List (List D)) :
    Option (List (List Nat) × List (List D)) :=
  if (bnd.map List.length).sum = 0 then some (bnd, data)
  else do
    let d ← Utils.distribute data.length ((bnd.map List.length).sum - 1) 0
    balanceItemsBy bnd data d

/-- Values `[_edata.data() + a, _edata.data() + b)`. -/
def slice {D : Type _} (edata : List D) (a b : Nat) : Option (List D) :=
  if a ≤ b ∧ b ≤ edata.length then some ((edata.take b).drop a) else none

/-- `tarray(const std::vector<std::vector<T> >&)` (tarray.hpp 62-90): values of all threads in a row, borders of the threads. -/
def ofThreads {D : Type _} (l : List (List D)) : List Nat × List D :=
  (l.foldl (fun d x => d ++ [d.getLastD 0 + x.length]) [0], l.flatten)

/-- `permuteUniformData` (serializededata.h 349-366): the vectors of the threads. A thread writes its own vector only. -/
def permuteUniform {D : Type _} (esize : Nat) (edata : List D) (perm : List Nat) (d : List Nat) : Option (List (List D)) :=
  forLoop 0 (d.length - 1) (List.replicate (d.length - 1) []) fun t pdata => do
    let a ← d[t]?
    let b ← d[t + 1]?
    let x ← forLoop a b [] fun i x => do
      let p ← perm[i]?
      let v ← slice edata (esize * p) (esize * (p + 1))
      some (x ++ v)
    wr pdata t x

/-- One item of `permuteNonUniformData` (serializededata.h 386-397): its size is pushed, its values are appended, and the size is
accumulated inside the thread. -/
def permuteItem {D : Type _} (ebnd : List Nat) (edata : List D) (perm : List Nat) (e : Nat) (s : List Nat × List D) :
    Option (List Nat × List D) := do
  let p ← perm[e - 1]?
  let a ← ebnd[p]?
  let b ← ebnd[p + 1]?
  let v ← slice edata a b
  let pb := s.1 ++ [b - a]
  if 1 < pb.length then do
    let last ← pb[pb.length - 1]?
    let before ← pb[pb.length - 2]?
    let pb ← wr pb (pb.length - 1) (last + before)
    some (pb, s.2 ++ v)
  else some (pb, s.2 ++ v)

/-- The loops over threads of `permuteNonUniformData` (serializededata.h 383-398). -/
def permuteThreads {D : Type _} (ebnd : List Nat) (edata : List D) (perm : List Nat) (d : List Nat) :
    Option (List (List Nat × List D)) :=
  forLoop 0 (d.length - 1) [] fun t acc => do
    let a ← d[t]?
    let b ← d[t + 1]?
    let s ← forLoop (if t = 0 then 1 else a) b (if t = 0 then [0] else [], []) (permuteItem ebnd edata perm)
    some (acc ++ [s])

/-- Exclusive sums of the last accumulated sizes of the threads (serializededata.h 400-410). -/
def offsetsFrom : Nat → List (List Nat) → List Nat
  | _, [] => []
  | sum, b :: l => sum :: offsetsFrom (sum + b.getLastD 0) l

/-- `permuteNonUniformData` (serializededata.h 368-421): new boundaries and values of the threads.  `edist` is the last entry of the
distribution of the old boundaries. -/
def permuteNonUniform {D : Type _} (ebnd : List Nat) (edist : Nat) (edata : List D) (perm : List Nat) (provided : List Nat) :
    Option (List (List Nat) × List (List D)) := do
  let back ← provided.getLast?
  let d := if back < edist then provided.take 1 ++ (provided.drop 1).map (· + 1) else provided
  if provided.length < 2 then none -- `pboundaries.front()` of an empty vector
  else do
    let s ← permuteThreads ebnd edata perm d
    let pb := s.map Prod.fst
    some (((offsetsFrom 0 pb).zip pb).map (fun (o, b) => b.map (· + o)), s.map Prod.snd)

/-- An item iterator (serializededata.h 127-169): index of the current boundary (`none` for uniform data), positions of the first
value of the item and behind its last one. -/
structure It where
  elem : Option Nat
  b : Nat
  e : Nat
deriving DecidableEq

/-- `move(n)` (serializededata.h 152-169), `last` is the index of the last boundary.  `n` may be negative. -/
def It.move (ebnd : List Nat) (last : Nat) (it : It) (n : Int) : Option It :=
  match it.elem with
  | none => some { it with b := (it.b + n * (it.e - it.b : Nat) : Int).toNat, e := (it.e + n * (it.e - it.b : Nat) : Int).toNat }
  | some i => do
      if (i : Int) + n < 0 then none
      else do
        let j := ((i : Int) + n).toNat
        let x ← ebnd[j]?
        let y ← ebnd[i]?
        let b := it.b + x - y
        if j ≠ last then do
          let z ← ebnd[j + 1]?
          some ⟨some j, b, b + z - x⟩
        else some ⟨some j, b, b⟩

/-- `iterator(begin, begin, end - 1, data)` (serializededata.h 140-144); without boundaries `begin` is the null pointer and the iterator
is that of uniform data of size zero. -/
def firstItem (ebnd : List Nat) : Option It :=
  if ebnd = [] then some ⟨none, 0, 0⟩ else It.move ebnd (ebnd.length - 1) ⟨some 0, 0, 0⟩ 0

/-- `inititerators()` for boundaries (serializededata.h 327-336): the iterators of the threads, the last one is the end. -/
def initItems (ebnd : List Nat) (bdist : List Nat) (threads : Nat) : Option (List It) := do
  let first ← firstItem ebnd
  forLoop 1 (threads + 1) (List.replicate (threads + 1) first) fun t its => do
    let d ← bdist[t]?
    let it ← its[t]?
    let it ← it.move ebnd (ebnd.length - 1) ((d : Int) - 1)
    wr its t it

/-- `inititerators(edatasize)` for uniform data (serializededata.h 338-347); a zero `edatasize` divides by zero. -/
def initUniform (esize : Nat) (ddist : List Nat) (threads : Nat) : Option (List It) :=
  if esize = 0 then none
  else
    forLoop 1 (threads + 1) (List.replicate (threads + 1) ⟨none, 0, esize⟩) fun t its => do
      let d ← ddist[t]?
      let it ← its[t]?
      let it ← it.move [] 0 ((d / esize : Nat) : Int)
      wr its t it

/-- `for (it = begin(t); it != end(t); ++it)`: `!=` compares the first positions and the boundary pointers (serializededata.h 127-139);
the items visited as ranges of values. `fuel` bounds the number of visited items. -/
def iterate (ebnd : List Nat) (last : Nat) (stop : It) : Nat → It → Option (List (Nat × Nat))
  | 0, it => if it.elem = stop.elem ∧ it.b = stop.b then some [] else none
  | fuel + 1, it =>
      if it.elem = stop.elem ∧ it.b = stop.b then some []
      else do
        let nxt ← it.move ebnd last 1
        let l ← iterate ebnd last stop fuel nxt
        some ((it.b, it.e) :: l)

end Verif.Serial
