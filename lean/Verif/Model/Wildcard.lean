import Verif.Base.Loop
/-
Model of the exchanges that receive from `MPI_ANY_SOURCE`: `exchangeUnknownSize` (communication.hpp 190-294), `receiveLowerUnknownSize`
(371-428), `receiveUpperUnknownSize` (502-551) and `sendVariousTargets` (1070-1144) of `src/wrappers/mpi`.

All have the same shape: `MPI_Isend` to every target, a loop of `MPI_Probe(MPI_ANY_SOURCE)` + `MPI_Recv` with a fixed number of repetitions,
`MPI_Waitall` and `MPI_Barrier`.  `Job` describes a sequence of such calls (rounds); all rounds use the same tag (on `MPI_COMM_WORLD` the tag
is incremented, on other communicators it is not).  The result of a round is the list of the received messages with their sources, in the order
in which they were received.  The checks of the buffer sizes (below 1 GB) and the profiler calls are left out.
-/
namespace Verif.Wildcard

/-- The calls of all ranks: `msgs k i` are the targets and buffers passed to `MPI_Isend` by rank `i` in round `k`, `cnt k i` is the number of
repetitions of the receive loop. -/
structure Job (M : Type) where
  ranks : Nat
  rounds : Nat
  msgs : Nat → Nat → List (Nat × M)
  cnt : Nat → Nat → Nat

/-- State of one rank. -/
structure Rank (M : Type) where
  round : Nat := 0
  /-- number of `MPI_Isend` calls done in this round -/
  sent : Nat := 0
  /-- messages received in this round -/
  got : List (Nat × M) := []
  /-- inside of `MPI_Barrier` -/
  barrier : Bool := false
  /-- results of the finished rounds -/
  out : List (List (Nat × M)) := []

structure State (M : Type) where
  r : Nat → Rank M
  /-- messages sent and not yet received, per source and destination -/
  ch : Nat → Nat → List M

def upd {A : Type} (p : Nat → A) (i : Nat) (v : A) : Nat → A := fun x => if x = i then v else p x
def updc {A : Type} (ch : Nat → Nat → A) (i j : Nat) (v : A) : Nat → Nat → A := fun x y => if x = i ∧ y = j then v else ch x y

variable {M : Type}

def init : State M := ⟨fun _ => {}, fun _ _ => []⟩

/-- One call of one rank. Steps with `true` have to be possible with every MPI library; the step with `false` (`MPI_Waitall` returns although a
message is not yet received) depends on buffering.  Messages between two ranks are not overtaken (MPI standard), those of different sources
are received in any order.  A rank leaves `MPI_Barrier` only when all ranks have entered it. -/
inductive Step (J : Job M) : Bool → State M → State M → Prop where
  | isend {s : State M} {i t m} : i < J.ranks → (s.r i).round < J.rounds → (s.r i).barrier = false →
      (J.msgs (s.r i).round i)[(s.r i).sent]? = some (t, m) →
      Step J true s ⟨upd s.r i { s.r i with sent := (s.r i).sent + 1 }, updc s.ch i t (s.ch i t ++ [m])⟩
  | recv {s : State M} {i j m ms} : i < J.ranks → (s.r i).round < J.rounds → (s.r i).barrier = false →
      (s.r i).sent = (J.msgs (s.r i).round i).length → (s.r i).got.length < J.cnt (s.r i).round i → s.ch j i = m :: ms →
      Step J true s ⟨upd s.r i { s.r i with got := (s.r i).got ++ [(j, m)] }, updc s.ch j i ms⟩
  | wait {s : State M} {i} : i < J.ranks → (s.r i).round < J.rounds → (s.r i).barrier = false →
      (s.r i).sent = (J.msgs (s.r i).round i).length → J.cnt (s.r i).round i ≤ (s.r i).got.length → (∀ t, s.ch i t = []) →
      Step J true s ⟨upd s.r i { s.r i with barrier := true }, s.ch⟩
  | bwait {s : State M} {i} : i < J.ranks → (s.r i).round < J.rounds → (s.r i).barrier = false →
      (s.r i).sent = (J.msgs (s.r i).round i).length → J.cnt (s.r i).round i ≤ (s.r i).got.length →
      Step J false s ⟨upd s.r i { s.r i with barrier := true }, s.ch⟩
  | leave {s : State M} {i} : i < J.ranks → (s.r i).barrier = true →
      (∀ j, j < J.ranks → (s.r i).round < (s.r j).round ∨ ((s.r j).round = (s.r i).round ∧ (s.r j).barrier = true)) →
      Step J true s ⟨upd s.r i { round := (s.r i).round + 1, sent := 0, got := [], barrier := false, out := (s.r i).out ++ [(s.r i).got] }, s.ch⟩

/-- Executions of `n` calls. -/
inductive Exec (J : Job M) : Nat → State M → State M → Prop where
  | refl {s} : Exec J 0 s s
  | step {n b s s' s''} : Exec J n s s' → Step J b s' s'' → Exec J (n + 1) s s''

/-- `std::lower_bound` on a sorted vector: the number of leading elements below `x`. -/
def lowerBound (l : List Nat) (x : Nat) : Nat := (l.takeWhile fun y => decide (y < x)).length

/-- `rBuffer[n2i(status.MPI_SOURCE)]` is assigned for every received message (communication.hpp 219-231, 402-415, 525-538);
`none` = access outside of `rBuffer`. -/
def place (neighbors : List Nat) : List (Nat × M) → List M → Option (List M)
  | [], rbuf => some rbuf
  | (j, m) :: got, rbuf => (wr rbuf (lowerBound neighbors j) m).bind (place neighbors got)

/-- Calls of `exchangeUnknownSize`: `nb i` are the neighbours of rank `i`, `sbuf k i` is `sBuffer` of rank `i` in call `k`. The second
overload (245-294) sends one buffer to all neighbours, i.e., all elements of `sbuf k i` are equal. -/
def exchangeJob (ranks rounds : Nat) (nb : Nat → List Nat) (sbuf : Nat → Nat → List M) : Job M :=
  { ranks, rounds, msgs := fun k i => (nb i).zip (sbuf k i), cnt := fun _ i => (nb i).length }

/-- Calls of `receiveLowerUnknownSize`: only the neighbours above get a message (391-398), the counter starts with the number of neighbours
that are not below (401-403). -/
def receiveLowerJob (ranks rounds : Nat) (nb : Nat → List Nat) (sbuf : Nat → Nat → List M) : Job M :=
  { ranks, rounds, msgs := fun k i => ((nb i).zip (sbuf k i)).filter fun x => decide (i < x.1),
    cnt := fun _ i => (nb i).length - ((nb i).length - lowerBound (nb i) i) }

/-- Calls of `receiveUpperUnknownSize`: the leading neighbours below the rank get a message (519-524); the counter starts with their
number (526-528). -/
def receiveUpperJob (ranks rounds : Nat) (nb : Nat → List Nat) (sbuf : Nat → Nat → List M) : Job M :=
  { ranks, rounds, msgs := fun k i => ((nb i).zip (sbuf k i)).takeWhile fun x => decide (x.1 < i),
    cnt := fun _ i => (nb i).length - lowerBound (nb i) i }

/-- Calls of `sendVariousTargets`: `smsgcounter[t]` is 1 for every target (1086-1090), the sum over all ranks (`MPI_Allreduce`, 1092) is the
number of messages to receive. -/
def variousJob (ranks rounds : Nat) (targets : Nat → Nat → List Nat) (sbuf : Nat → Nat → List M) : Job M :=
  { ranks, rounds, msgs := fun k i => (targets k i).zip (sbuf k i),
    cnt := fun k i => ((List.range ranks).map fun j => if i ∈ targets k j then 1 else 0).sum }

/-- The permutation of `rBuffer` in `sendVariousTargets` (1120-1130): `perm` is the sorted `permutation`, `rbuf` the previous content of
`rBuffer` resized to the number of messages. Returns `rBuffer` (and the rest in `tmpBuffer`). -/
def permuteBuffers (perm : List Nat) (tmp rbuf : List M) : Option (List M × List M) :=
  forLoop 0 perm.length (rbuf, tmp) fun i s => do
    let p ← perm[i]?
    let a ← s.1[i]?
    let b ← s.2[p]?
    let rb ← wr s.1 i b
    let tb ← wr s.2 p a
    pure (rb, tb)

end Verif.Wildcard
