import Verif.Base.Loop
import Verif.Model.Gluing
import Mathlib.Algebra.Order.Group.Int
/-!
The map of the multipliers shared with other processes (`src/feti/common/dual_map.cpp`) and the dual vectors and matrices (`src/feti/common/vector_dual.cpp`, `vector_dual.h`,
`matrix_dual.cpp`).

Simplifications: `int` is `Nat` (the marker `-1` in `last` is an `Int`); the global sums `Dual_Map::total`, `interval.offset` and `interval.total` are left out; values are from a commutative ring.
-/
namespace Verif.Feti

variable {R : Type}

/-- What a process knows about the decomposition: its domains are `dbegin, …, dend - 1`; `neighDomain` has the first domain of each of the `neighbors` (and, at the end, `dbegin`). -/
structure Decomposition where
  dbegin : Nat
  dend : Nat
  neighbors : List Nat
  neighDomain : List Nat

/-- `ismy` (`analysis/pattern/decomposition.feti.h` 23-26). -/
def Decomposition.ismy (D : Decomposition) (domain : Nat) : Bool := decide (D.dbegin ≤ domain ∧ domain < D.dend)

/-- The loop of `noffset` (`decomposition.feti.h` 28-33); `fuel = neighbors.size()` is enough as `n` grows. -/
def Decomposition.noffsetLoop (D : Decomposition) (domain : Nat) : Nat → Nat → Option Nat
  | 0, n => some n
  | fuel + 1, n =>
      if n + 1 < D.neighbors.length then do
        let x ← D.neighDomain[n + 1]?
        if x ≤ domain then D.noffsetLoop domain fuel (n + 1) else some n
      else some n

/-- `noffset` (`decomposition.feti.h` 28-33). -/
def Decomposition.noffset (D : Decomposition) (domain : Nat) : Option Nat := D.noffsetLoop domain D.neighbors.length 0

/-- The loop over the domains of a group of multipliers (`dual_map.cpp` 37-46); the state is `(nmap, nsize, last)`. -/
def groupDomain (D : Decomposition) (cmap : List Nat) (i ncounter lambdas d : Nat) (st : List Nat × List Nat × Int) : Option (List Nat × List Nat × Int) := do
  let dom ← cmap[2 + i + d]?
  bif D.ismy dom then some st
  else do
    let neigh ← D.noffset dom
    if st.2.2 < (neigh : Int) then do
      let nmap := st.1 ++ [neigh]
      let c ← nmap[ncounter]?
      let nmap ← wr nmap ncounter (c + 1)
      let s ← st.2.1[neigh]?
      let nsize ← wr st.2.1 neigh (s + lambdas)
      some (nmap, nsize, (neigh : Int))
    else some st

/-- The body of the loop over `cmap` (`dual_map.cpp` 31-53); the state is `(nmap, nsize, offset)`, the result has also the next `i`. -/
def groupStep (D : Decomposition) (cmap : List Nat) (i : Nat) (st : List Nat × List Nat × Nat) : Option (Nat × List Nat × List Nat × Nat) := do
  let lambdas ← cmap[i]?
  let domains ← cmap[i + 1]?
  let nmap := st.1 ++ [st.2.2, st.2.2 + lambdas]
  let ncounter := nmap.length
  let (nmap, nsize, _) ← forLoop 0 domains (nmap ++ [0], st.2.1, (-1 : Int)) fun d s => groupDomain D cmap i ncounter lambdas d s
  let c ← nmap[ncounter]?
  let nmap := if c = 0 then nmap.take (nmap.length - 3) else nmap
  some (i + domains + 2, nmap, nsize, st.2.2 + lambdas)

/-- The loop over `cmap` (`dual_map.cpp` 30-54); every step consumes at least two numbers, so `fuel = cmap.size()` is enough. -/
def groupLoop (D : Decomposition) (cmap : List Nat) : Nat → Nat → List Nat × List Nat × Nat → Option (List Nat × List Nat)
  | 0, i, st => if i < cmap.length then none else some (st.1, st.2.1)
  | fuel + 1, i, st =>
      if i < cmap.length then do
        let (i, st) ← groupStep D cmap i st
        groupLoop D cmap fuel i st
      else some (st.1, st.2.1)

/-- `Dual_Map::set` (`dual_map.cpp` 25-54): `(nmap, nsize)`. -/
def dualMapSet (D : Decomposition) (cmap : List Nat) : Option (List Nat × List Nat) :=
  groupLoop D cmap cmap.length 0 ([], List.replicate D.neighbors.length 0, 0)

/-- The local intervals (`dual_map.cpp` 16-20, 23): `(start, end)`; an interval is given by `(halo, size)`. -/
def localIntervals (intervals : List (Nat × Nat)) : List (Nat × Nat) :=
  (intervals.foldl (fun (st : List (Nat × Nat) × Nat) iv => (st.1 ++ [(iv.1 + st.2, iv.1 + st.2 + iv.2)], iv.1 + st.2 + iv.2)) ([], 0)).1

/-- The loops over `nmap` in `synchronize` (`vector_dual.cpp` 28-35 and 38-45): `f begin end ni` for each neighbour of each group; every step consumes at least three numbers, so
`fuel = nmap.size()` is enough. -/
def walk {σ : Type} (nmap : List Nat) (f : Nat → Nat → Nat → σ → Option σ) : Nat → Nat → σ → Option σ
  | 0, i, s => if i < nmap.length then none else some s
  | fuel + 1, i, s =>
      if i < nmap.length then do
        let b ← nmap[i]?
        let e ← nmap[i + 1]?
        let c ← nmap[i + 2]?
        let s ← forLoop 0 c s fun n s => do
          let ni ← nmap[i + 3 + n]?
          f b e ni s
        walk nmap f fuel (i + c + 3) s
      else some s

/-- `std::copy` to the buffer of a neighbour and the shift of its offset (`vector_dual.cpp` 31-32, `matrix_dual.cpp` 28-29); `base` is the begin of the row (zero for vectors); the state is `(send, offset)`. -/
def packStep (vals : List R) (base b e ni : Nat) (st : List (List R) × List Nat) : Option (List (List R) × List Nat) := do
  let off ← st.2[ni]?
  let buf ← st.1[ni]?
  let src ← memcpyFrom vals (base + b) (e - b)
  let buf ← memcpyTo buf off src
  let send ← wr st.1 ni buf
  let offset ← wr st.2 ni (off + (e - b))
  some (send, offset)

/-- `math::blas::add` of a part of the buffer of a neighbour (`vector_dual.cpp` 41-42, `matrix_dual.cpp` 40-41); the state is `(vals, offset)`. -/
def addStep [CommRing R] (recv : List (List R)) (base b e ni : Nat) (st : List R × List Nat) : Option (List R × List Nat) := do
  let off ← st.2[ni]?
  let buf ← recv[ni]?
  let vals ← forLoop 0 (e - b) st.1 fun k vals => do
    let x ← buf[off + k]?
    addAt vals (base + b + k) x
  let offset ← wr st.2 ni (off + (e - b))
  some (vals, offset)

/-- `Vector_Dual::initBuffers` (`vector_dual.h` 29-37) for new buffers. -/
def initBuffer [Zero R] (nsize : List Nat) : List (List R) := nsize.map fun n => List.replicate n 0

/-- The part of `Vector_Dual::synchronize` before the exchange (`vector_dual.cpp` 27-35); the result is `send`. -/
def syncPack (nmap : List Nat) (vals : List R) (send : List (List R)) : Option (List (List R)) := do
  let st ← walk nmap (packStep vals 0) nmap.length 0 (send, List.replicate send.length 0)
  some st.1

/-- The part of `Vector_Dual::synchronize` after the exchange (`vector_dual.cpp` 37-45). -/
def syncAdd [CommRing R] (nmap : List Nat) (vals : List R) (recv : List (List R)) : Option (List R) := do
  let st ← walk nmap (addStep recv 0) nmap.length 0 (vals, List.replicate recv.length 0)
  some st.1

/-- The local part of `Vector_Dual::dot` (`vector_dual.cpp` 62-66). -/
def localDot [CommRing R] (li : List (Nat × Nat)) (vals other : List R) : Option R :=
  li.foldlM (fun sum iv => do
    let s ← forLoop 0 (iv.2 - iv.1) (0 : R) fun k s => do
      let a ← vals[iv.1 + k]?
      let b ← other[iv.1 + k]?
      some (s + a * b)
    some (sum + s)) 0

/-- `Matrix_Dual::synchronize` before the exchange: the buffers (`matrix_dual.cpp` 14-21).  `none` if `nsize[0]` is read from an empty array. -/
def matrixBuffers [Zero R] (nsize : List Nat) (nrows : Nat) (send : List (List R)) : Option (List (List R)) :=
  match send with
  | [] => some (nsize.map fun n => List.replicate (n * nrows) 0)
  | b :: _ => do
      let n0 ← nsize[0]?
      some (if b.length < n0 * nrows then (List.range nsize.length).map fun i =>
          (send.getD i []).take (nsize.getD i 0 * nrows) ++ List.replicate (nsize.getD i 0 * nrows - (send.getD i []).length) 0
        else send)

/-- `Matrix_Dual::synchronize` before the exchange (`matrix_dual.cpp` 22-33). -/
def matrixPack (nmap : List Nat) (nrows ncols : Nat) (vals : List R) (send : List (List R)) : Option (List (List R)) := do
  let st ← forLoop 0 nrows (send, List.replicate send.length 0) fun r st => walk nmap (packStep vals (r * ncols)) nmap.length 0 st
  some st.1

/-- `Matrix_Dual::synchronize` after the exchange (`matrix_dual.cpp` 35-45). -/
def matrixAdd [CommRing R] (nmap : List Nat) (nrows ncols : Nat) (vals : List R) (recv : List (List R)) : Option (List R) := do
  let st ← forLoop 0 nrows (vals, List.replicate recv.length 0) fun r st => walk nmap (addStep recv (r * ncols)) nmap.length 0 st
  some st.1

end Verif.Feti
