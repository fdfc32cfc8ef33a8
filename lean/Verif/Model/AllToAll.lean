import Verif.Model.Comm
import Verif.Base.Loop
/-
Model of `Communication::allToAllWithDataSizeAndTarget` (communication.hpp 1286-1463).  The buffers contain records
`[size, target, payload …]` of `size` numbers.  Elements are integers of unbounded size; the checks against 2^30 are not modelled.
-/
namespace Verif.Comm
open Verif.Mpi

/-- `movebefore` (1300-1306): skips the records with a target below `rank`. A read outside of the buffer or a record that does not advance is
`none` (undefined behaviour or an infinite loop). -/
def movebefore (data : List Int) (rank : Nat) (pos e : Nat) : Option Nat :=
  if pos < e then
    match data[pos + 1]?, data[pos]? with
    | some target, some size =>
        if target < rank then
          if 0 < size then movebefore data rank (pos + size.toNat) e else none
        else some pos
    | _, _ => none
  else some pos
termination_by e - pos
decreasing_by omega

/-- Variables of the merge loops: ends of the consumed parts of `recv` (first and second message) and `prevsend`, the new `send`, `rBuffer`. -/
structure Merge where
  recvend : Nat
  recvmidend : Nat
  sendend : Nat
  send : List Int
  rbuf : List Int

/-- Merge loop of a lower rank (1367-1378). -/
def mergeLower (rank l m : Nat) (recv prev rbuf : List Int) : Option Merge :=
  forLoop l m ⟨0, 0, 0, [], rbuf⟩ fun r s => do
    let recvend ← movebefore recv (r + 1) s.recvend recv.length
    let sendend ← movebefore prev (r + 1) s.sendend prev.length
    let a ← slice recv s.recvend (recvend - s.recvend)
    let b ← slice prev s.sendend (sendend - s.sendend)
    if r = rank then some { s with recvend, sendend, rbuf := s.rbuf ++ a }
    else some { s with recvend, sendend, send := s.send ++ a ++ b }

/-- Merge loop of an upper rank (1431-1453); the first `recvmidsize` elements of `recv` come from the twin, the others from `mid - 1`. -/
def mergeUpper (rank m r : Nat) (recv : List Int) (recvmidsize : Nat) (prev rbuf : List Int) : Option Merge := do
  let sendbegin ← movebefore prev m 0 prev.length
  forLoop m r ⟨0, recvmidsize, sendbegin, [], rbuf⟩ fun r s => do
    let recvend ← movebefore recv (r + 1) s.recvend recvmidsize
    let recvmidend ← movebefore recv (r + 1) s.recvmidend recv.length
    let sendend ← movebefore prev (r + 1) s.sendend prev.length
    let a ← slice recv s.recvend (recvend - s.recvend)
    let c ← slice recv s.recvmidend (recvmidend - s.recvmidend)
    let b ← slice prev s.sendend (sendend - s.sendend)
    if r = rank then some { s with recvend, recvmidend, sendend, rbuf := s.rbuf ++ a ++ c }
    else some { s with recvend, recvmidend, sendend, send := s.send ++ a ++ c ++ b }

/-- The loop `while (rh.recurse())` (1316-1456). -/
def allToAllLoop (t rank l r : Nat) (send rbuf : List Int) : Prog (List Int) (Option (List Int)) :=
  if h : l + 1 < r then
    have := mid_lt h
    if rank < mid l r then
      if isodd rank l r then
        match movebefore send rank 0 send.length with
        | none => .ret none
        | some my =>
          match movebefore send (mid l r) my send.length with
          | none => .ret none
          | some upper => .send (mid l r) t (send.drop upper) <| allToAllLoop t rank l (mid l r) (send.take my) rbuf
      else
        let twin := rank + (mid l r - l)
        match movebefore send (mid l r) 0 send.length with
        | none => .ret none
        | some upper => .send twin t (send.drop upper) <| .recv twin t fun recv =>
            match mergeLower rank l (mid l r) recv send rbuf with
            | none => .ret none
            | some s => allToAllLoop t rank l (mid l r) s.send s.rbuf
    else
      let twin := rank - (mid l r - l)
      match movebefore send (mid l r) 0 send.length with
      | none => .ret none
      | some upper => .recv twin t fun recv => .send twin t (send.take upper) <|
          if treatodd rank l r then
            .recv (mid l r - 1) t fun recv2 =>
              match mergeUpper rank (mid l r) r (recv ++ recv2) recv.length send rbuf with
              | none => .ret none
              | some s => allToAllLoop t rank (mid l r) r s.send s.rbuf
          else
            match mergeUpper rank (mid l r) r recv recv.length send rbuf with
            | none => .ret none
            | some s => allToAllLoop t rank (mid l r) r s.send s.rbuf
  else .ret (some rbuf)
termination_by r - l

/-- `Communication::allToAllWithDataSizeAndTarget`; the result is `rBuffer`. -/
def allToAll (t rank l r : Nat) (sbuf rbuf : List Int) : Prog (List Int) (Option (List Int)) :=
  let own := do
    let mybegin ← movebefore sbuf rank 0 sbuf.length
    let myend ← movebefore sbuf (rank + 1) mybegin sbuf.length
    slice sbuf mybegin (myend - mybegin)
  match own with
  | none => .ret none
  | some own => allToAllLoop t rank l r sbuf (rbuf ++ own)

end Verif.Comm
