import Verif.Model.Csx
import Verif.Model.Utils
import Verif.Model.Gluing
import Mathlib.Data.Nat.Basic
/-!
The pattern of the matrices of the FETI domains and the map from element matrices to it (`src/analysis/pattern/matrix.uniform.feti.cpp`, `matrix.uniform.feti.h`), and the assembly
(`src/analysis/assembler/general/filler.h`).

Simplifications: only domains without BEM; `serializededata` is a list of lists; the elements of a domain are given as the list of its intervals, each a list of elements,
each a list of (local) node indices; `esint` is `Nat`, the value `-1` is `none`.  Reading an index `-1` and using it as a position is undefined (`none`).
-/
namespace Verif.Pattern

open Verif.Csx

/-- One entry of `decomposition.dmap`: domain and index in the domain (`-1` for domains of other processes). -/
abbrev DIndex := Nat × Option Nat

/-- `matrix.uniform.feti.cpp` 177-183: the domains of one degree of freedom; `sizes` are `pattern[.].size`. -/
def fillDof (dbegin dend : Nat) (domains : List Nat) (st : List (List DIndex) × List Nat) : Option (List (List DIndex) × List Nat) := do
  let (di, sizes) ← domains.foldlM (m := Option) (fun (di, sizes) d =>
    if dbegin ≤ d ∧ d < dend then do
      let k ← sizes[d - dbegin]?
      let sizes ← wr sizes (d - dbegin) (k + 1)
      some (di ++ [(d, some k)], sizes)
    else some (di ++ [(d, none)], sizes)) ([], st.2)
  some (st.1 ++ [di], sizes)

/-- `fillDecomposition` without BEM (173-187): `nodes` are the domains of each node.  The result is `dmap` and the sizes of the domains. -/
def fillDecomposition (dofs dbegin dend : Nat) (nodes : List (List Nat)) : Option (List (List DIndex) × List Nat) :=
  nodes.foldlM (fun st domains => forLoop 0 dofs st fun _ st => fillDof dbegin dend domains st) ([], List.replicate (dend - dbegin) 0)

/-- `imap` of a domain (200-208). -/
def buildImap (dofs nnodes : Nat) (dmap : List (List DIndex)) (domain : Nat) : Option (List (Option Nat)) :=
  forLoop 0 dmap.length (List.replicate (dofs * nnodes) none) fun ni imap => do
    let dis ← dmap[ni]?
    dis.foldlM (fun imap di => if di.1 = domain then wr imap ni di.2 else some imap) imap

/-- `imap[i]` used as an index. -/
def rdMap (imap : List (Option Nat)) (i : Nat) : Option Nat := imap[i]?.bind id

/-- 210-217: the upper bounds of the sizes of the rows. -/
def countRows (dofs : Nat) (imap : List (Option Nat)) (elems : List (List Nat)) (begin : List Nat) : Option (List Nat) :=
  elems.foldlM (fun begin e => e.foldlM (fun begin n => forLoop 0 dofs begin fun rd begin => do
    let k ← rdMap imap (n * dofs + rd)
    let x ← begin[k]?
    wr begin k (x + dofs * e.length)) begin) begin

/-- 228: `indices[end[i]++] = c`. -/
def pushIndex (i c : Nat) (st : List Nat × List Nat) : Option (List Nat × List Nat) := do
  let p ← st.2[i]?
  let fin ← wr st.2 i (p + 1)
  let indices ← wr st.1 p c
  some (indices, fin)

/-- 222-234: the (repeated) columns of each row; the state is `(indices, end)`. -/
def fillRows (dofs : Nat) (full : Bool) (imap : List (Option Nat)) (elems : List (List Nat)) (st : List Nat × List Nat) : Option (List Nat × List Nat) :=
  elems.foldlM (fun st e => e.foldlM (fun st src => e.foldlM (fun st dst => forLoop 0 dofs st fun rd st => forLoop 0 dofs st fun cd st => do
    let r ← rdMap imap (src * dofs + rd)
    let c ← rdMap imap (dst * dofs + cd)
    bif full || decide (r ≤ c) then pushIndex r c st else some st) st) st) st

/-- 238-244: sort a row and remove its duplicates. -/
def uniqueRow (b e : Nat) (indices : List Nat) : Option (List Nat × Nat) := do
  let indices ← Utils.sortRange indices b e
  forLoop (b + 1) e (indices, b) fun i (indices, unique) => do
    let u ← indices[unique]?
    let x ← indices[i]?
    if u ≠ x then do
      let indices ← wr indices (unique + 1) x
      some (indices, unique + 1)
    else some (indices, unique)

/-- 237-247. -/
def uniqueRows (size : Nat) (begin : List Nat) (st : List Nat × List Nat) : Option (List Nat × List Nat) :=
  forLoop 0 size st fun n (indices, fin) => do
    let b ← begin[n]?
    let e ← fin[n]?
    let (indices, unique) ← uniqueRow b e indices
    let fin ← wr fin n (unique + 1)
    some (indices, fin)

/-- The pattern of a domain: `pattern[domain].row`, `pattern[domain].column`, `offset`. -/
structure Rows where
  row : List Nat
  column : List Nat
  offset : List Nat
  deriving DecidableEq

/-- 255-262. -/
def listRows (size : Nat) (begin fin indices : List Nat) : Option Rows := do
  let (R, _) ← forLoop 0 size ((⟨[], [], []⟩ : Rows), 0) fun n (R, sz) => do
    let b ← begin[n]?
    let e ← fin[n]?
    let R ← forLoop b e { R with offset := R.offset ++ [sz] } fun i R => do
      let c ← indices[i]?
      some { R with row := R.row ++ [n], column := R.column ++ [c] }
    some (R, sz + (e - b))
  some R

/-- `esint coffset = 0; while (ibegin[coffset] < c) ++coffset;` (275-276, 287-288) started at `o`; the search leaves the array at the latest after `fuel = indices.size()` steps. -/
def search (indices : List Nat) (b c : Nat) : Nat → Nat → Option Nat
  | 0, _ => none
  | fuel + 1, o => do
      let x ← indices[b + o]?
      if x < c then search indices b c fuel (o + 1) else some o

/-- The position of the entry `(r, c)` (e.g. 271-277). -/
def position (begin indices offset : List Nat) (r c : Nat) : Option Nat := do
  let b ← begin[r]?
  let o ← search indices b c (indices.length + 1) 0
  let off ← offset[r]?
  some (off + o)

/-- 268-295: the positions of one element (`full`: 270-279, otherwise 281-292; the counters `r` and `c` count the rows and columns of the element matrix). -/
def elementPositions (dofs : Nat) (full : Bool) (imap : List (Option Nat)) (begin indices offset : List Nat) (e : List Nat) (perm : List Nat) : Option (List Nat) :=
  forLoop 0 dofs perm fun rd perm => forLoop 0 e.length perm fun f perm => do
    let src ← e[f]?
    forLoop 0 dofs perm fun cd perm => forLoop 0 e.length perm fun t perm => do
      let dst ← e[t]?
      let ri ← rdMap imap (src * dofs + rd)
      let ci ← rdMap imap (dst * dofs + cd)
      bif full then (do
        let p ← position begin indices offset ri ci
        some (perm ++ [p]))
      else bif decide (rd * e.length + f ≤ cd * e.length + t) then (do
        let p ← position begin indices offset (min ri ci) (max ri ci)
        some (perm ++ [p]))
      else some perm

/-- `elements[domain].permutation` and `elements[domain].offset` (264-297). -/
def permutation (dofs : Nat) (full : Bool) (imap : List (Option Nat)) (begin indices offset : List Nat) (intervals : List (List (List Nat))) :
    Option (List Nat × List Nat) :=
  intervals.foldlM (fun (perm, offs) elems => do
    let offs := offs ++ [perm.length]
    let perm ← elems.foldlM (fun perm e => elementPositions dofs full imap begin indices offset e perm) perm
    some (perm, offs)) ([], [])

/-- What `buildPattern` stores. -/
structure Built where
  row : List Nat
  column : List Nat
  /-- `elements[domain].permutation` -/
  perm : List Nat
  /-- `elements[domain].offset` -/
  offs : List Nat
  deriving DecidableEq

/-- `MatrixUniformFETI::buildPattern` (210-297, without the boundary regions) after `imap` is known.  `junk` is the uninitialised content of `indices`
(`initless_allocator`): `indices = junk` of the size `begin.back()`. -/
def buildPattern (dofs : Nat) (full : Bool) (size : Nat) (imap : List (Option Nat)) (intervals : List (List (List Nat))) (junk : Nat → Nat) : Option Built := do
  let begin ← countRows dofs imap intervals.flatten (List.replicate (size + 1) 0)
  let begin ← sumPtrs size begin
  let total ← begin[size]?
  let (indices, fin) ← fillRows dofs full imap intervals.flatten ((List.range total).map junk, begin)
  let (indices, fin) ← uniqueRows size begin (indices, fin)
  let R ← listRows size begin fin indices
  let (perm, offs) ← permutation dofs full imap begin indices R.offset intervals
  some ⟨R.row, R.column, perm, offs⟩

/-- `MatrixUniformFETI::set` without BEM (`matrix.uniform.feti.h` 64-74): the CSR arrays `rows` (one more than rows, uninitialised) and `cols`; `base` is `Indexing::CSR`.
`column.front()` of an empty pattern is undefined. -/
def setCsr (base : Nat) (row column : List Nat) (rows : List Nat) : Option (List Nat × List Nat) := do
  let rows ← wr rows 0 base
  let c0 ← column[0]?
  let cols := List.replicate row.length 0
  let cols ← wr cols 0 (c0 + base)
  let (rows, cols, r) ← forLoop 1 column.length (rows, cols, 1) fun c (rows, cols, r) => do
    let x ← column[c]?
    let cols ← wr cols c (x + base)
    let a ← row[c]?
    let b ← row[c - 1]?
    if a ≠ b then do
      let rows ← wr rows r (c + base)
      some (rows, cols, r + 1)
    else some (rows, cols, r)
  let rows ← wr rows r (column.length + base)
  some (rows, cols)

/-- The entries of the element matrix of size `sz` visited by the filler (`filler.h` 53-69). -/
def visited (full : Bool) (sz : Nat) : List (Nat × Nat) :=
  (List.range sz).flatMap fun r => (List.range' (bif full then 0 else r) (sz - bif full then 0 else r)).map fun c => (r, c)

/-- `MatrixFillerKernel::simd` (`filler.h` 47-94) for `count` elements starting with the element `s0` of the interval; `A s r c` are the entries of the element matrices.
The state is `(position, out)`: the offset of the pointer `position` and the values. -/
def fillChunk {R : Type} [Add R] (full : Bool) (sz : Nat) (A : Nat → Nat → Nat → R) (perm : List Nat) (s0 count : Nat) (st : Nat × List R) : Option (Nat × List R) := do
  let (_, out) ← forLoop 0 count (0, st.2) fun s (i, out) =>
    (visited full sz).foldlM (m := Option) (fun (i, out) (rc : Nat × Nat) => do
      let p ← perm[st.1 + i]?
      let out ← Feti.addAt out p (A (s0 + s) rc.1 rc.2)
      some (i + 1, out)) (i, out)
  some (st.1 + count * (bif full then sz * sz else sz * (sz - 1) / 2 + sz), out)

/-- The elements of an interval are processed in groups of `simd` (`count = min(SIMD::size, elements)`, the kernels call the filler once for each group). -/
def fillInterval {R : Type} [Add R] (full : Bool) (sz simd : Nat) (A : Nat → Nat → Nat → R) (perm : List Nat) : (chunks elements s0 : Nat) → Nat × List R → Option (Nat × List R)
  | 0, _, _, st => some st
  | chunks + 1, elements, s0, st => do
      let st ← fillChunk full sz A perm s0 (min simd elements) st
      fillInterval full sz simd A perm chunks (elements - min simd elements) (s0 + min simd elements) st

/-- The matrices of an interval: the number of rows of the element matrices, the number of elements, the entries. -/
abbrev IntervalData (R : Type) := Nat × Nat × (Nat → Nat → Nat → R)

/-- The assembly of a domain: `mapping.elements[i].position` starts at `offset[i]` (`matrix.uniform.feti.h` `map`), the number of groups is `elements / SIMD::size`
rounded up (`heattransfer.cpp` 51). -/
def fillDomain {R : Type} [Add R] (full : Bool) (simd : Nat) (perm offs : List Nat) (intervals : List (IntervalData R)) (out : List R) : Option (List R) :=
  forLoop 0 intervals.length out fun i out => do
    let o ← offs[i]?
    let I ← intervals[i]?
    let st ← fillInterval full I.1 simd I.2.2 perm (I.2.1 / simd + if I.2.1 % simd ≠ 0 then 1 else 0) I.2.1 0 (o, out)
    some st.2

end Verif.Pattern
