/-
Model of `src/basis/utilities/cbmb_allocator.cpp` (circular buffer multithreaded blocking allocator) as a transition system.  One
transition is one critical section of a thread: the part of `allocate` up to `cv.wait` (`request`), the return from the wait
(`grant`), `deallocate` (`release`), the beginning of `do_transaction` and its unlocked end, split into the read and the write of
`start_empty`.  Virtual addresses are naturals (no overflow of the running 64-bit offset is modelled), except for the expression
`(0 - 1)`, which wraps to 2^64 - 1 as in the code.  Pointers are offsets from `memory_pool`.
-/
namespace Verif.Cbmb

/-- `((x - 1) / a + 1) * a` on `size_t` (cbmb_allocator.cpp 39, 43, 44, 101); for `x = 0` the subtraction wraps. -/
def up (x a : Nat) : Nat :=
  if x = 0 then (((2 ^ 64 - 1) / a + 1) * a) % 2 ^ 64 else ((x - 1) / a + 1) * a

/-- `mem_block` (cbmb_allocator.h 37-42) plus the ghost data of the requesting thread: arguments of the call, end of the block and whether
`allocate` has returned it. -/
structure Block where
  size : Nat
  align : Nat
  start : Nat
  aligned : Nat
  stop : Nat
  granted : Bool
deriving Repr, DecidableEq

/-- Members of `cbmba_resource` (cbmb_allocator.h 43-54); `tmp` is the value computed by the unlocked line 101 before it is written. -/
structure St where
  P : Nat
  startEmpty : Nat := 0
  startFull : Nat := 0
  blocks : List Block := []
  inTx : Bool := false
  txEnd : Nat := 2 ^ 64 - 1
  txMem : Nat := 0
  doReset : Bool := false
  tmp : Option Nat := none
deriving Repr, DecidableEq

/-- Position of a request of `n` bytes (cbmb_allocator.cpp 38-46). -/
def place (P startEmpty n align : Nat) : Block :=
  let start := startEmpty
  let aligned := up start align
  let stop := aligned + n
  if (stop - 1) / P > start / P then
    let start := up startEmpty P
    let aligned := up start align
    ⟨n, align, start, aligned, aligned + n, false⟩
  else ⟨n, align, start, aligned, stop, false⟩

/-- `allocate` up to the wait (cbmb_allocator.cpp 25-56) for `num_bytes > 0`; `none` = `eslog::error`. -/
def request (s : St) (n align : Nat) : Option St :=
  if n > s.P then none
  else if s.P % align ≠ 0 then none
  else
    let b := place s.P s.startEmpty n align
    if s.inTx ∧ b.stop > s.txEnd then none
    else
      let mem := if s.inTx then s.txMem + n else s.txMem
      some { s with
        blocks := s.blocks ++ [b], startEmpty := b.stop, txMem := mem,
        doReset := if s.inTx ∧ mem > s.P / 2 then true else s.doReset }

/-- The wait condition (line 58): `new_block_end <= start_full + memory_pool_size`. -/
def canGrant (s : St) (b : Block) : Bool := b.stop ≤ s.startFull + s.P

/-- Return of `allocate` of the `i`-th waiting block. -/
def grant (s : St) (i : Nat) : Option St :=
  match s.blocks[i]? with
  | none => none
  | some b =>
      if !b.granted && canGrant s b then some { s with blocks := s.blocks.set i { b with granted := true } } else none

/-- Offset in the pool handed out (line 61). -/
def pos (s : St) (b : Block) : Nat := b.aligned % s.P

/-- `deallocate` (lines 64-83); `none` = `eslog::error`. -/
def release (s : St) (p : Nat) : Option St :=
  match s.blocks.findIdx? fun b => b.aligned % s.P == p with
  | none => none
  | some i =>
      match s.blocks.eraseIdx i with
      | [] => some { s with blocks := [], startFull := 0, startEmpty := 0 }
      | b :: bs => some { s with blocks := b :: bs, startFull := b.start }

/-- `do_transaction` before `f()` (lines 94-98). -/
def txBegin (s : St) : St := { s with txEnd := s.startEmpty + s.P, txMem := 0, inTx := true }

/-- After `f()` (lines 100-101), read of `start_empty`. -/
def txEndRead (s : St) : St :=
  { s with inTx := false, tmp := if s.doReset then some (up s.startEmpty s.P) else none }

/-- The write of line 101 and line 102. -/
def txEndWrite (s : St) : St :=
  { s with startEmpty := s.tmp.getD s.startEmpty, tmp := none, txMem := 0 }

/-- Transitions of any number of threads. -/
inductive Act where
  | request (n align : Nat)
  | grant (i : Nat)
  | release (i : Nat)   -- a thread gives back the `i`-th block (its own, granted one)
  | txBegin
  | txEndRead
  | txEndWrite
deriving Repr

/-- One transition.  A client releases only blocks it was granted.  `mtx_transaction` excludes a second transaction until the first one
has finished. -/
def step (s : St) : Act → Option St
  | .request n align => if n = 0 then none else request s n align
  | .grant i => grant s i
  | .release i =>
      match s.blocks[i]? with
      | some b => if b.granted then release s (pos s b) else none
      | none => none
  | .txBegin => if s.inTx ∨ s.tmp.isSome then none else some (txBegin s)
  | .txEndRead => if s.inTx then some (txEndRead s) else none
  | .txEndWrite => some (txEndWrite s)

end Verif.Cbmb
