/-
Model of `src/basis/utilities/arena_allocator.cpp` and of `AllocatorArena_new` / `AllocatorSinglePointer_new`
(`src/math/primitives_new/allocator_new.h`).  `size_t` arithmetic is modulo 2^64.  Every operation runs under a mutex (an OpenMP
critical section in `AllocatorArena_new`), so a history is a sequence of operations.  Pointers are offsets from the start of
the buffer.  `eslog::error` is `[[noreturn]]` (eslog.h 45) and is modelled by the outcome `none`.
-/
namespace Verif.Arena

/-- Number of `size_t` values. -/
def W : Nat := 2 ^ 64

/-- Private members of `arena_allocator_resource` (arena_allocator.h 17-22). -/
structure St where
  capacity : Nat
  align : Nat
  off : Nat := 0
  num : Nat := 0
deriving Repr, DecidableEq

/-- Calls. `free none` is a call with `nullptr`. -/
inductive Op where
  | alloc (n : Nat)
  | free (p : Option Nat)
  | reset
deriving Repr, DecidableEq

/-- `allocate` (arena_allocator.cpp 19-34), returns the new state and the pointer. -/
def allocate (s : St) (n : Nat) : Option (St × Option Nat) :=
  if n = 0 then some (s, none)
  else
    let ptr := s.off
    let off := (s.off + n) % W
    if off > s.capacity then none
    else
      let off := (((off + 1) % W / s.align + 1) * s.align) % W
      some ({ s with off := off, num := (s.num + 1) % W }, some ptr)

/-- `deallocate` (arena_allocator.cpp 36-44): only counts. -/
def deallocate (s : St) (p : Option Nat) : St :=
  match p with
  | none => s
  | some _ => { s with num := (s.num + (W - 1)) % W }

/-- `reset_arena` (arena_allocator.cpp 46-56). -/
def resetArena (s : St) : Option St :=
  if s.num ≠ 0 then none else some { s with num := 0, off := 0 }

/-- `get_free_size` (arena_allocator.cpp 58-61). -/
def getFreeSize (s : St) : Nat := (s.capacity + (W - s.off % W)) % W

/-- `utils::round_up` on `size_t` (utils.h 133-139), `num - 1` wraps at zero. -/
def roundUp (num align : Nat) : Nat := ((((num + (W - 1)) % W) / align + 1) * align) % W
/-- `utils::round_down` on `size_t` (utils.h 141-146). -/
def roundDown (num align : Nat) : Nat := num / align * align

/-- Private members of `AllocatorArena_new` (allocator_new.h 126-134) after `set`. -/
structure StNew where
  capacity : Nat
  align : Nat
  used : Nat := 0
deriving Repr, DecidableEq

/-- `AllocatorArena_new::alloc` (allocator_new.h 158-173). -/
def allocNew (s : StNew) (n : Nat) : Option (StNew × Option Nat) :=
  if n = 0 then some (s, none)
  else
    let ptr := s.used
    let used := (s.used + n) % W
    if used > s.capacity then none
    else some ({ s with used := roundUp used s.align }, some ptr)

/-- `AllocatorArena_new::clear` (allocator_new.h 150-153). -/
def clearNew (s : StNew) : StNew := { s with used := 0 }

/-- `AllocatorArena_new::get_remaining_capacity` (allocator_new.h 190-193). -/
def remainingNew (s : StNew) : Nat := roundDown ((s.capacity + (W - s.used % W)) % W) s.align

/-- `AllocatorSinglePointer_new::alloc` (allocator_new.h 223-231). -/
def allocSingle (capacity n : Nat) : Option (Option Nat) :=
  if n = 0 then some none
  else if n > capacity then none
  else some (some 0)

end Verif.Arena
