import Verif.Model.Packing
/-
Model of memory and packing of `tarray` (src/basis/containers/tarray.hpp 188-280) and of `serializededata`
(src/basis/containers/serializededata.h 288-315, 431-465).  Memory is bytes; `sz` is `sizeof(TType)`.
-/
namespace Verif.TArr
open Verif.Packing

/-- A `tarray`: number of elements, requested alignment, distribution, the allocated bytes (`_dataUnaligned`, `none` = NULL) and the
byte offset of `_data` in them. -/
structure TA where
  size : Nat
  align : Nat
  dist : List Nat
  buf : Option (List Byte)
  off : Nat
deriving DecidableEq

/-- The bytes of the elements as all accessors see them (through `_data`). -/
def TA.view (sz : Nat) (a : TA) : List Byte := ((a.buf.getD []).drop a.off).take (a.size * sz)

/-- Number of bytes requested by `allocate` (tarray.hpp 252-263). -/
def allocBytes (sz size align : Nat) : Nat :=
  if align ≠ 0 then (size + (align - 1) / sz + 1) * sz else size * sz

/-- `std::align(alignment, bytes, ptr, space)`: offset to the next multiple of the alignment; NULL if the bytes do not fit. -/
def stdAlign (align bytes addr space : Nat) : Option Nat :=
  let off := (align - addr % align) % align
  if off + bytes ≤ space then some off else none

/-- `allocate` (tarray.hpp 251-264); the allocator returned `addr`, the fresh memory holds `junk`.  `none` only if `std::align`
returned NULL (every later access would be undefined). -/
def allocate (sz : Nat) (a : TA) (addr : Nat) (junk : Nat → Byte) : Option TA :=
  let fresh := (List.range (allocBytes sz a.size a.align)).map junk
  if a.align ≠ 0 then do
    let off ← stdAlign a.align (a.size * sz) addr (allocBytes sz a.size a.align)
    some { a with buf := some fresh, off := off }
  else some { a with buf := some fresh, off := 0 }

/-- `packedSize` (tarray.hpp 196-203). -/
def packedSize (sz : Nat) (a : TA) : Nat := 8 + a.dist.length * 8 + 8 + a.size * sz

/-- `pack` (tarray.hpp 205-219): the values are copied from `_dataUnaligned`. -/
def pack (sz : Nat) (a : TA) (o : Out) : Option Out := do
  let o ← put (encSize a.dist.length) o
  let o ← put (a.dist.flatMap encSize) o
  let o ← put (encSize a.size) o
  if a.size ≠ 0 then do
    let b ← a.buf
    let src ← memcpyFrom b 0 (a.size * sz)
    put src o
  else some o

/-- `memcpy` of `n` numbers. -/
def getSizes (buf : List Byte) : Nat → Nat → Option (List Nat × Nat)
  | 0, p => some ([], p)
  | n + 1, p => do
      let (b, p) ← get buf p 8
      let (l, p) ← getSizes buf n p
      some (decSize b :: l, p)

/-- The condition `_dataUnaligned != NULL && _distribution.back() != _size` (tarray.hpp 234): `back()` of an empty vector is undefined. -/
def release (a : TA) : Option TA :=
  match a.buf with
  | none => some a
  | some _ => do
      let back ← a.dist.getLast?
      some (if back ≠ a.size then { a with buf := none, off := 0 } else a)

/-- `unpack` (tarray.hpp 221-243) into the array `old`; a fresh allocation at `addr`; the values go to `_dataUnaligned`. -/
def unpack (sz : Nat) (buf : List Byte) (old : TA) (addr : Nat) (junk : Nat → Byte) (p : Nat) : Option (TA × Nat) := do
  let (b, p) ← get buf p 8
  let (dist, p) ← getSizes buf (decSize b) p
  let (s, p) ← get buf p 8
  let a ← release { old with dist := dist, size := decSize s }
  if a.size ≠ 0 then do
    let a ← allocate sz a addr junk
    let (v, p) ← get buf p (a.size * sz)
    let dst ← a.buf
    let dst ← memcpyTo dst 0 v
    some ({ a with buf := some dst }, p)
  else some (a, p)

/-- `serializededata`: the bytes of `_edatasize`, boundaries, values. -/
structure SD where
  es : List Byte
  bnd : TA
  data : TA
deriving DecidableEq

/-- `serializededata::packedSize` (serializededata.h 288-291); `w = sizeof(esint)`, `sb`, `sd` sizes of the elements. -/
def SD.packedSize (w sb sd : Nat) (x : SD) : Nat := w + TArr.packedSize sb x.bnd + TArr.packedSize sd x.data

/-- `serializededata::pack` (serializededata.h 293-300). -/
def SD.pack (sb sd : Nat) (x : SD) (o : Out) : Option Out := do
  let o ← put x.es o
  let o ← TArr.pack sb x.bnd o
  TArr.pack sd x.data o

/-- `serializededata::unpack` (serializededata.h 302-315) without the iterators. -/
def SD.unpack (w sb sd : Nat) (buf : List Byte) (old : SD) (addr : Nat × Nat) (junk : Nat → Byte) (p : Nat) : Option (SD × Nat) := do
  let (es, p) ← get buf p w
  let (b, p) ← TArr.unpack sb buf old.bnd addr.1 junk p
  let (d, p) ← TArr.unpack sd buf old.data addr.2 junk p
  some (⟨es, b, d⟩, p)

/-- `utils::packedSize(serializededata*)` (serializededata.h 431-438). -/
def ptrPackedSize (w sb sd : Nat) : Option SD → Nat
  | none => 1
  | some x => 1 + x.packedSize w sb sd

/-- `utils::pack(serializededata*)` (serializededata.h 440-447): a flag (one byte) and the data. -/
def ptrPack (sb sd : Nat) : Option SD → Out → Option Out
  | none, o => put [0] o
  | some x, o => do
      let o ← put [1] o
      x.pack sb sd o

/-- `tarray(0, 0)`: no threads, nothing allocated. -/
def TA.empty : TA := ⟨0, 0, [0], none, 0⟩

/-- `utils::unpack(serializededata*)` (serializededata.h 449-463): the previous data are deleted, a new object is filled. -/
def ptrUnpack (w sb sd : Nat) (buf : List Byte) (_old : Option SD) (addr : Nat × Nat) (junk : Nat → Byte) (p : Nat) :
    Option (Option SD × Nat) := do
  let (f, p) ← get buf p 1
  if f ≠ [0] then do
    let (x, p) ← SD.unpack w sb sd buf ⟨[], TA.empty, TA.empty⟩ addr junk p
    some (some x, p)
  else some (none, p)

end Verif.TArr
