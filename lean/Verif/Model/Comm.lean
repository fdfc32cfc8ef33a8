import Verif.Base.Mpi
/-
Model of the hand-written collective operations of `src/wrappers/mpi/communication.hpp`, one program per rank.  Types are ESPRESO native MPI
types, so `type.mpisize = 1`; the checks against 2^30 elements are not modelled.  The tag of a call is a parameter.
A message is the list of its elements.
-/
namespace Verif.Comm
open Verif.Mpi

/-- `RecursiveHalving::recurse` (communication.cpp 269-278): the middle of the range. -/
def mid (l r : Nat) : Nat := l + (r - l) / 2 + (r - l) % 2
/-- `RecursiveHalving::isodd` (295-298). -/
def isodd (rank l r : Nat) : Bool := (r - l) % 2 ≠ 0 && rank + 1 == mid l r
/-- `RecursiveHalving::treatodd` (305-308). -/
def treatodd (rank l r : Nat) : Bool := (r - l) % 2 ≠ 0 && rank == mid l r

/-- Range handled by the rank after `n` calls of `recurse`+`exchanged` (280-286, 310-317); a range of one rank is not divided. -/
def node (rank l r : Nat) : Nat → Nat × Nat
  | 0 => (l, r)
  | n + 1 => if l + 1 < r then (if rank < mid l r then node rank l (mid l r) n else node rank (mid l r) r n) else (l, r)

theorem mid_lt {l r : Nat} (h : l + 1 < r) : l < mid l r ∧ mid l r < r := by
  unfold mid; omega

variable {T : Type}

/-- `MPI_Recv` into a buffer: a message longer than the buffer is an error (`none`), a shorter one leaves the rest of the buffer. -/
def recvInto (buf msg : List T) : Option (List T) :=
  if msg.length ≤ buf.length then some (msg ++ buf.drop msg.length) else none

/-- `merge` of `allReduce` (communication.hpp 1155-1163); `data` and `recv` have the same size. -/
def mergeVec (op : T → T → T) (data recv : List T) : List T := List.zipWith op data recv

/-- `Communication::allReduce` (communication.hpp 1146-1192); `none` = MPI truncation error. -/
def allReduce (t : Nat) (op : T → T → T) (rank l r : Nat) (data buf : List T) : Prog (List T) (Option (List T)) :=
  if h : l + 1 < r then
    have := mid_lt h
    if rank < mid l r then
      if isodd rank l r then
        .send (mid l r) t data (allReduce t op rank l (mid l r) data buf)
      else
        let twin := rank + (mid l r - l)
        .send twin t data <| .recv twin t fun m =>
          match recvInto buf m with
          | none => .ret none
          | some buf => allReduce t op rank l (mid l r) (mergeVec op data buf) buf
    else
      let twin := rank - (mid l r - l)
      .recv twin t fun m =>
        match recvInto buf m with
        | none => .ret none
        | some buf =>
          .send twin t data <|
            let data := mergeVec op data buf
            if treatodd rank l r then
              .recv (mid l r - 1) t fun m =>
                match recvInto buf m with
                | none => .ret none
                | some buf => allReduce t op rank (mid l r) r (mergeVec op data buf) buf
            else allReduce t op rank (mid l r) r data buf
  else .ret (some data)
termination_by r - l

/-- The loop `while (levels) if (rh.recurse(levels--)) { … }` shared by the gather-like operations (communication.hpp 622-642, 705-736,
783-805, 843-874): from the lowest level of the tree of ranges to the root. -/
def upLoop {M S : Type} (body : Nat → Nat → Nat → S → Prog M S) (rank l r : Nat) : Nat → S → Prog M S
  | 0, s => .ret s
  | levels + 1, s =>
      let nd := node rank l r levels
      (if nd.1 + 1 < nd.2 then body rank nd.1 nd.2 s else .ret s).bind (upLoop body rank l r levels)

/-- One level of the all-gather operations on the range `l … r`: `out` is the message to send, `fl` and `fu` merge the received message into the
state of a lower and of an upper rank. -/
def gatherLevel {M S : Type} (t : Nat) (out : S → M) (fl fu : S → M → S) (rank l r : Nat) (s : S) : Prog M S :=
  let h := mid l r - l
  if rank < mid l r then
    if isodd rank l r then .recv (mid l r) t fun m => .ret (fl s m)
    else .send (rank + h) t (out s) <| .recv (rank + h) t fun m => .ret (fl s m)
  else
    .recv (rank - h) t fun m => .send (rank - h) t (out s) <|
      if treatodd rank l r then .send (mid l r - 1) t (out s) (.ret (fu s m)) else .ret (fu s m)

/-- `ceil(log2(size))`; the floating point computation of the code is exact for `int` arguments. -/
def levels (size : Nat) : Nat := Nat.log2 (2 * size - 1)

/-- `Communication::allGatherUnknownSize` (communication.hpp 676-738). -/
def allGather (t rank size : Nat) (data : List T) : Prog (List T) (List T) :=
  upLoop (gatherLevel t id (fun data recv => data ++ recv) (fun data recv => recv ++ data)) rank 0 size (levels size) data

/-- `std::set_union` of two ranges sorted by `lt`. -/
def setUnion (lt : T → T → Bool) : List T → List T → List T
  | [], bs => bs
  | as, [] => as
  | a :: as, b :: bs =>
      if lt a b then a :: setUnion lt as (b :: bs)
      else if lt b a then b :: setUnion lt (a :: as) bs
      else a :: setUnion lt as bs
termination_by as bs => as.length + bs.length

/-- `Communication::uniqueAllGatherUnknownSize` (communication.hpp 809-879). -/
def uniqueAllGather (lt : T → T → Bool) (t rank size : Nat) (data : List T) : Prog (List T) (List T) :=
  upLoop (gatherLevel t id (setUnion lt) (setUnion lt)) rank 0 size (levels size) data

/-- Local variables of `allGatherInplace`. -/
structure Inplace (T : Type) where
  data : List T
  offset : Nat
  size : Nat

/-- `MPI_Recv` to position `p` of the array; a message that does not fit is an access outside of the array. -/
def writeAt (data : List T) (p : Nat) (m : List T) : Option (List T) :=
  if p + m.length ≤ data.length then some (data.take p ++ m ++ data.drop (p + m.length)) else none

/-- `receive` of `allGatherInplace` for a source above (776-780): the message is appended. -/
def inplaceAbove (s : Inplace T) (m : List T) : Option (Inplace T) := do
  let data ← writeAt s.data (s.offset + s.size) m
  some { s with data, size := s.size + m.length }

/-- `receive` of `allGatherInplace` for a source below (773-775, 780): the message is put before the own part. -/
def inplaceBelow (s : Inplace T) (m : List T) : Option (Inplace T) :=
  if m.length ≤ s.offset then do
    let data ← writeAt s.data (s.offset - m.length) m
    some { data, offset := s.offset - m.length, size := s.size + m.length }
  else none

/-- The message of `allGatherInplace` (`data + offset`, `size` elements). -/
def inplaceOut : Option (Inplace T) → List T
  | none => []
  | some s => (s.data.drop s.offset).take s.size

/-- `Communication::allGatherInplace` (communication.hpp 759-807) for a native MPI type; `none` = access outside of the array. -/
def allGatherInplace (t rank size : Nat) (s : Inplace T) : Prog (List T) (Option (Inplace T)) :=
  upLoop (gatherLevel t inplaceOut (fun s m => s.bind (inplaceAbove · m)) (fun s m => s.bind (inplaceBelow · m))) rank 0 size (levels size) (some s)

/-- One level of `gatherUnknownSize` (624-640); a rank that has sent its data has returned (`none`). -/
def gatherBody (t rank l r : Nat) : Option (List T) → Prog (List T) (Option (List T))
  | none => .ret none
  | some recv =>
      if l = rank then .recv (mid l r) t fun m => .ret (some (recv ++ m))
      else if mid l r = rank then .send l t recv (.ret none)
      else .ret (some recv)

/-- `Communication::gatherUnknownSize` (communication.hpp 593-650); the result is `recv` if it is assigned to `rBuffer`. -/
def gather (t rank size : Nat) (data : List T) : Prog (List T) (Option (List T)) :=
  upLoop (gatherBody t) rank 0 size (levels size) (some data)

/-- The offsets of `gatherUnknownSize` (611-616) from the sizes collected by `MPI_Allgather`: exclusive prefix sums, one more than ranks.
(`offsets[size]` is read before it is written; its old value only enters `rsize`, used for `reserve`.) -/
def gatherOffsets : List Nat → Nat → List Nat
  | [], acc => [acc]
  | s :: ss, acc => acc :: gatherOffsets ss (acc + s)

/-- The part `buf[off … off + n)` passed to `MPI_Send`; reading outside of the buffer is undefined. -/
def slice (buf : List T) (off n : Nat) : Option (List T) := if off + n ≤ buf.length then some ((buf.drop off).take n) else none

/-- `std::vector::resize`. -/
def resize [Inhabited T] (buf : List T) (n : Nat) : List T := buf.take n ++ List.replicate (n - buf.length) default

/-- The loop of `scatterv` (communication.hpp 1207-1227) and of `scatter` (1256-1273), with group ranks `0 … size`.
`dist a b` is the number of elements of the ranks `a … b` (`displacement[b] - displacement[a]` or `(b - a) * size`), `first` is the number of
elements copied by the root. The result is `rBuffer`; `none` = undefined behaviour or MPI truncation error. -/
def scatterTree [Inhabited T] (t : Nat) (dist : Nat → Nat → Option Nat) (first : Option Nat) (rank l r : Nat) (sbuf rbuf : List T) :
    Prog (List T) (Option (List T)) :=
  if h : l + 1 < r then
    have := mid_lt h
    let m := mid l r
    let go (rbuf : List T) :=
      if rank < m then scatterTree t dist first rank l m sbuf rbuf else scatterTree t dist first rank m r sbuf rbuf
    let receive (rbuf : List T) : Prog (List T) (Option (List T)) :=
      if m = rank then
        match dist m r with
        | none => .ret none
        | some n => .recv l t fun msg =>
            match recvInto (resize rbuf n) msg with
            | none => .ret none
            | some rbuf => go rbuf
      else go rbuf
    if l = rank then
      match dist l m, dist m r with
      | some o, some n =>
          match slice (if rank = 0 then sbuf else rbuf) o n with
          | none => .ret none
          | some msg => .send m t msg <| receive (if rank = 0 then rbuf else resize rbuf o)
      | _, _ => .ret none
    else receive rbuf
  else if rank = 0 then
    .ret (first.bind (slice sbuf 0))
  else .ret (some rbuf)
termination_by r - l

/-- `displacement[b] - displacement[a]`; reads outside of the vector and a negative difference are undefined. -/
def dispDist (disp : List Nat) (a b : Nat) : Option Nat := do
  let x ← disp[a]?
  let y ← disp[b]?
  if x ≤ y then some (y - x) else none

/-- `Communication::scatterv` (communication.hpp 1194-1238), `Communication::manual`. -/
def scatterv [Inhabited T] (t : Nat) (disp : List Nat) (rank size : Nat) (sbuf rbuf : List T) : Prog (List T) (Option (List T)) :=
  scatterTree t (dispDist disp) disp[1]? rank 0 size sbuf rbuf

/-- `Communication::scatter` (communication.hpp 1240-1284), `Communication::manual`. -/
def scatter [Inhabited T] (t : Nat) (n : Nat) (rank size : Nat) (sbuf rbuf : List T) : Prog (List T) (Option (List T)) :=
  scatterTree t (fun a b => some ((b - a) * n)) (some n) rank 0 size sbuf rbuf

end Verif.Comm
