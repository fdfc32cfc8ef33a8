import Verif.Model.Nonblocking
import Verif.Model.Wildcard
/-
Model of `Communication::balance` (`src/wrappers/mpi/communication.hpp`, 898-964).
Simplifications: `Tdistribution` and the `int` sizes are natural numbers; the 1 GB check and the profiler are left out.
-/
namespace Verif.Comm
open Verif.Mpi

variable {T : Type}

/-- The `while (restSize)` loop of `fill` (917-930). The first argument is the rest of `to` from `tIndex`; `none` = access out of range. -/
def fillLoop : List Nat → (tOffset rest offset t : Nat) → (size disp : List Nat) → Option (List Nat × List Nat)
  | a :: b :: dst, tOffset, rest, offset, t, size, disp =>
      if rest = 0 then some (size, disp)
      else if rest < b - a - tOffset then do
        let size ← wr size t rest
        let disp ← wr disp t offset
        pure (size, disp)
      else do
        let size ← wr size t (b - a - tOffset)
        let disp ← wr disp t offset
        fillLoop (b :: dst) 0 (rest - (b - a - tOffset)) (offset + (b - a - tOffset)) (t + 1) size disp
  | _, _, rest, _, _, size, disp => if rest = 0 then some (size, disp) else none

/-- `fill` (909-936) on rank `rank` of `n`; `none` = access out of range. -/
def fill (n rank : Nat) (src dst : List Nat) : Option (List Nat × List Nat) := do
  let f0 ← src[rank]?
  let f1 ← src[rank + 1]?
  let l := Wildcard.lowerBound dst (f0 + 1)
  if l = 0 then none
  else do
    let a ← dst[l - 1]?
    fillLoop (dst.drop (l - 1)) (f0 - a) (f1 - f0) 0 (l - 1) (List.replicate n 0) (List.replicate n 0)

/-- The messages have been received to `result.data() + rdisp[r]`, where `rsize[r]` elements are expected. -/
def placeParts (size disp : List Nat) : List (Nat × List T) → List T → Option (List T)
  | [], result => some result
  | (r, m) :: ms, result =>
      if m.length ≤ size.getD r 0 then (memcpyTo result (disp.getD r 0) m).bind (placeParts size disp ms) else none

/-- `balance` (898-964). -/
def balance [Inhabited T] (t n rank : Nat) (buffer : List T) (cur tgt : List Nat) : Prog (List T) (Option (List T)) :=
  match fill n rank cur tgt, fill n rank tgt cur with
  | some (ssize, sdisp), some (rsize, rdisp) =>
      let srcs := (List.range n).filter fun r => rsize.getD r 0 ≠ 0
      match ((List.range n).filter fun r => ssize.getD r 0 ≠ 0).mapM fun r => (memcpyFrom buffer (sdisp.getD r 0) (ssize.getD r 0)).map fun m => (r, m) with
      | some sends =>
          (nonblocking t sends srcs).bind fun ms =>
            .ret (placeParts rsize rdisp (srcs.zip ms) (List.replicate (tgt.getD (rank + 1) 0 - tgt.getD rank 0) default))
      | none => .ret none
  | _, _ => .ret none

end Verif.Comm
