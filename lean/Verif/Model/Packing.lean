import Verif.Base.Mem
/-
Model of `src/basis/utilities/packing.h` and `src/basis/containers/packer.h`.

Memory is a list of bytes with an integer cursor `p`.  `size_t` has eight bytes, little endian.
Sums of sizes are taken in `Nat` (all objects live in one address space).

C++ overload resolution (packing.h): the explicit specialisations for `std::vector<std::string>` (lines 27, 65, 107)
specialise the *primary* templates declared before them.  For an argument of type `std::vector<std::string>` the later
function templates for `std::vector<Ttype>` (lines 37, 77, 122) are more specialised, so overload resolution selects those.
The specialisation bodies are reached only through an explicit template argument, which no caller in the repository uses.
Hence `vec` below is the `std::vector<Ttype>` overload for every element type; the unreachable specialisation body is modelled
separately as `unpackVecStrSpecialisation`.
-/
namespace Verif.Packing

abbrev Byte := UInt8

/-- Shapes of packable values: plain objects of `n` bytes, strings, vectors. -/
inductive Ty where
  | pod (n : Nat)
  | str
  | vec (t : Ty)

/-- Values of a shape. -/
@[reducible] def Ty.Val : Ty → Type
  | .pod n => { l : List Byte // l.length = n }
  | .str => List Byte
  | .vec t => List t.Val

/-- Value-initialised object (what `vector::resize` appends). -/
def Ty.default : (t : Ty) → t.Val
  | .pod n => ⟨List.replicate n 0, by simp⟩
  | .str => ([] : List Byte)
  | .vec _ => ([] : List _)

/-- Bytes of a `size_t`: eight bytes, little endian (`std::memcpy(p, &size, sizeof(size_t))`, lines 58, 69, 82). -/
def encSize (n : Nat) : List Byte := (List.range 8).map fun i => UInt8.ofNat (n / 256 ^ i)

/-- The `size_t` stored in bytes (`std::memcpy(&size, p, sizeof(size_t))`, lines 101, 111, 126). -/
def decSize : List Byte → Nat
  | [] => 0
  | b :: bs => b.toNat + 256 * decSize bs

/-- `packedSize` (lines 15-45): 8 + length for strings, `sizeof` for plain objects, 8 + loop of element sizes for vectors. -/
def packedSize : (t : Ty) → t.Val → Nat
  | .pod n, _ => n
  | .str, (s : List Byte) => 8 + s.length
  | .vec t, (v : List t.Val) => v.foldl (fun size x => size + packedSize t x) 8

/-- Write cursor: buffer and position. -/
abbrev Out := List Byte × Nat

/-- `memcpy(p, src, n); p += n`. -/
def put (src : List Byte) (o : Out) : Option Out :=
  (memcpyTo o.1 o.2 src).map fun b => (b, o.2 + src.length)

/-- `pack` (lines 47-88). -/
def pack : (t : Ty) → t.Val → Out → Option Out
  | .pod _, d, o => put d.1 o
  | .str, (s : List Byte), o => do
      let o ← put (encSize s.length) o
      put s o
  | .vec t, (v : List t.Val), o => do
      let o ← put (encSize v.length) o
      v.foldlM (fun o x => pack t x o) o

/-- Read `n` bytes at the cursor and advance. -/
def get (buf : List Byte) (p n : Nat) : Option (List Byte × Nat) :=
  (memcpyFrom buf p n).map fun l => (l, p + n)

/-- `std::vector::resize(n)`: keep the first elements, append value-initialised ones. -/
def resize {α : Type} (dflt : α) (v : List α) (n : Nat) : List α :=
  v.take n ++ List.replicate (n - v.length) dflt

/-- The loop `for i: unpack(data[i], p)` over the already present elements. -/
def unpackAll {α : Type} (f : α → Nat → Option (α × Nat)) : List α → Nat → Option (List α × Nat)
  | [], p => some ([], p)
  | x :: xs, p => do
      let (y, p) ← f x p
      let (ys, p) ← unpackAll f xs p
      some (y :: ys, p)

/-- `unpack` (lines 90-105, 122-133); `old` is the previous content of the target. -/
def unpack (buf : List Byte) : (t : Ty) → (old : t.Val) → (p : Nat) → Option (t.Val × Nat)
  | .pod n, _, p =>
      if h : p + n ≤ buf.length then
        some ((⟨(buf.drop p).take n, by simp; omega⟩ : { l : List Byte // l.length = n }), p + n)
      else none
  | .str, _, p => do
      let (sz, p) ← get buf p 8
      get buf p (decSize sz)
  | .vec t, (old : List t.Val), p => do
      let (sz, p) ← get buf p 8
      unpackAll (unpack buf t) (resize t.default old (decSize sz)) p

/-- Body of the explicit specialisation for `vector<string>` (lines 107-120), not selected by overload resolution:
the resize is guarded by `if (size)`. -/
def unpackVecStrSpecialisation (buf : List Byte) (old : List (List Byte)) (p : Nat) :
    Option (List (List Byte) × Nat) := do
  let (sz, p) ← get buf p 8
  if decSize sz ≠ 0 then
    unpackAll (unpack buf .str) (resize ([] : List Byte) old (decSize sz)) p
  else some (old, p)

/-- A field of a `Packer`: shape and value (`PackerData`, packer.h lines 24-48). -/
abbrev Field := (t : Ty) × t.Val

/-- `Packer::pack` (packer.h lines 79-93): sum of the sizes, new buffer of that size (content unspecified: `junk`),
pack all fields one after the other.  `+=` appends the field lists (lines 66-72). -/
def packerSize (fs : List Field) : Nat := fs.foldl (fun s f => s + packedSize f.1 f.2) 0

def packerPack (fs : List Field) (junk : Nat → Byte) : Option Out :=
  fs.foldlM (fun o f => pack f.1 f.2 o) ((List.range (packerSize fs)).map junk, 0)

/-- `Packer::unpack` (packer.h lines 95-101): unpack into the fields in order; `olds` are the present values. -/
def packerUnpack (buf : List Byte) : List Field → Nat → Option (List Field × Nat)
  | [], p => some ([], p)
  | f :: fs, p => do
      let (v, p) ← unpack buf f.1 f.2 p
      let (vs, p) ← packerUnpack buf fs p
      some (⟨f.1, v⟩ :: vs, p)

end Verif.Packing
