import Verif.Base.Mpi
import Verif.Model.Comm
import Verif.Base.Mem
/-
Model of the nonblocking exchanges of `src/wrappers/mpi/communication.hpp`: `exchangeKnownSize` (72-160), `exchangeKnownSizeInPlace` (162-187),
`receiveLowerKnownSize` (319-369), `receiveUpperKnownSize` (454-500), `gatherUniformNeighbors` (553-584), `balance` (898-964), and of the chain
shifts `receiveLower` (296-317) and `receiveUpper` (430-452).

`MPI_Irecv` only posts a receive, it is completed by `MPI_Waitall`; the model has a blocking receive for every posted one, in the order of posting, at
the place of `MPI_Waitall`, after all `MPI_Isend`.  (All of them have to be completed before `MPI_Waitall` returns and each has its own source, so the order does not
matter.)  Sizes in bytes, the checks against 1 GB and the profiler are left out.
-/
namespace Verif.Comm
open Verif.Mpi

variable {M R T : Type}

/-- `MPI_Isend` of all messages (target, buffer). -/
def isends (t : Nat) : List (Nat × M) → Prog M R → Prog M R
  | [], k => k
  | (j, m) :: ms, k => .isend j t m (isends t ms k)

/-- Completion of the posted receives from the given sources. -/
def recvs (t : Nat) : List Nat → List M → (List M → Prog M R) → Prog M R
  | [], acc, k => k acc
  | j :: srcs, acc, k => .recv j t fun m => recvs t srcs (acc ++ [m]) k

/-- `MPI_Isend`s, `MPI_Irecv`s and `MPI_Waitall`. -/
def nonblocking (t : Nat) (sends : List (Nat × M)) (srcs : List Nat) : Prog M (List M) :=
  isends t sends (recvs t srcs [] fun ms => .wait (.ret ms))

/-- The received messages `ms` are in `rBuffer[n]` for the neighbours `n` that satisfy `sel`; `none` = MPI truncation error. -/
def fillWhere (sel : Nat → Bool) : List Nat → List (List T) → List (List T) → Option (List (List T))
  | j :: nb, b :: rbuf, ms =>
      if sel j then
        match ms with
        | [] => none
        | m :: ms => do
            let b ← recvInto b m
            let rbuf ← fillWhere sel nb rbuf ms
            pure (b :: rbuf)
      else do
        let rbuf ← fillWhere sel nb rbuf ms
        pure (b :: rbuf)
  | _, rbuf, _ => some rbuf

/-- `exchangeKnownSize` (72-116); the second overload (118-160) has the same buffer for all neighbours. -/
def exchangeKnownSize (t : Nat) (nb : List Nat) (sbuf rbuf : List (List T)) : Prog (List T) (Option (List (List T))) :=
  (nonblocking t (nb.zip sbuf) nb).bind fun ms => .ret (fillWhere (fun _ => true) nb rbuf ms)

/-- `receiveLowerKnownSize` (346-358). -/
def receiveLowerKnownSize (t rank : Nat) (nb : List Nat) (sbuf rbuf : List (List T)) : Prog (List T) (Option (List (List T))) :=
  (nonblocking t ((nb.zip sbuf).filter fun x => decide (x.1 > rank)) (nb.filter fun j => decide (j < rank))).bind fun ms =>
    .ret (fillWhere (fun j => decide (j < rank)) nb rbuf ms)

/-- `receiveUpperKnownSize` (477-490). -/
def receiveUpperKnownSize (t rank : Nat) (nb : List Nat) (sbuf rbuf : List (List T)) : Prog (List T) (Option (List (List T))) :=
  (nonblocking t ((nb.zip sbuf).filter fun x => decide (x.1 < rank)) (nb.filter fun j => decide (j > rank))).bind fun ms =>
    .ret (fillWhere (fun j => decide (j > rank)) nb rbuf ms)

/-- Writes the `n`-th message to position `off n` of `rBuffer`, where `cap n` elements are expected; `none` = truncation error or write outside of the buffer. -/
def scatterIn (off cap : Nat → Nat) : Nat → List (List T) → List T → Option (List T)
  | _, [], rbuf => some rbuf
  | n, m :: ms, rbuf =>
      if m.length ≤ cap n then (memcpyTo rbuf (off n) m).bind (scatterIn off cap (n + 1) ms) else none

/-- `gatherUniformNeighbors` (565-577): the `n`-th message goes to `rBuffer.data() + n * sBuffer.size()`. -/
def gatherUniformNeighbors (t : Nat) (nb : List Nat) (sbuf rbuf : List T) : Prog (List T) (Option (List T)) :=
  (nonblocking t (nb.map fun j => (j, sbuf)) nb).bind fun ms => .ret (scatterIn (fun n => n * sbuf.length) (fun _ => sbuf.length) 0 ms rbuf)

/-- `exchangeKnownSizeInPlace` (171-178): the `n`-th neighbour has the part `distribution[n] … distribution[n + 1]` of both buffers. -/
def exchangeInPlace (t : Nat) (nb dist : List Nat) (sbuf rbuf : List T) : Prog (List T) (Option (List T)) :=
  let part := fun n => (sbuf.drop (dist.getD n 0)).take (dist.getD (n + 1) 0 - dist.getD n 0)
  (nonblocking t (nb.zipIdx.map fun x => (x.1, part x.2)) nb).bind fun ms =>
    .ret (scatterIn (fun n => dist.getD n 0) (fun n => dist.getD (n + 1) 0 - dist.getD n 0) 0 ms rbuf)

/-- `receiveLower` (296-317). -/
def receiveLower (t rank size : Nat) (sbuf rbuf : List T) : Prog (List T) (Option (List T)) :=
  if rank % 2 = 1 then
    .recv (rank - 1) t fun m =>
      if rank + 1 ≠ size then .send (rank + 1) t sbuf (.ret (recvInto (resizeTo rbuf sbuf) m)) else .ret (recvInto (resizeTo rbuf sbuf) m)
  else
    let k : Prog (List T) (Option (List T)) :=
      if rank ≠ 0 then .recv (rank - 1) t fun m => .ret (recvInto (resizeTo rbuf sbuf) m) else .ret (some (resizeTo rbuf sbuf))
    if rank + 1 ≠ size then .send (rank + 1) t sbuf k else k
where
  /-- `rBuffer.resize(sBuffer.size())`; the values of new elements are not important (a copy of `sBuffer`). -/
  resizeTo (rbuf sbuf : List T) : List T := rbuf.take sbuf.length ++ sbuf.drop rbuf.length

/-- `receiveUpper` (430-452). -/
def receiveUpper (t rank size : Nat) (sbuf rbuf : List T) : Prog (List T) (Option (List T)) :=
  if rank % 2 = 1 then
    .send (rank - 1) t sbuf <|
      if rank + 1 ≠ size then .recv (rank + 1) t fun m => .ret (recvInto (receiveLower.resizeTo rbuf sbuf) m)
      else .ret (some (receiveLower.resizeTo rbuf sbuf))
  else
    let k : Option (List T) → Prog (List T) (Option (List T)) := fun r => if rank ≠ 0 then .send (rank - 1) t sbuf (.ret r) else .ret r
    if rank + 1 ≠ size then .recv (rank + 1) t fun m => k (recvInto (receiveLower.resizeTo rbuf sbuf) m)
    else k (some (receiveLower.resizeTo rbuf sbuf))

end Verif.Comm
