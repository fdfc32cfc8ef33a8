import Verif.Model.Projector
import Verif.Model.Utils
/-!
The coarse space of Total FETI: the dual graph (`src/feti/projector/dualgraph.cpp`) and the assembly of `G` and `G Gᵀ` (`src/feti/projector/tfeti.orthogonal.symmetric.cpp`).

Simplifications: `int` is `Nat`; `std::map` is a list of pairs with increasing keys; the clusters of the dual graph are left out; `feti.R1[d]` is a dense matrix stored by rows; new arrays have zeros
(in the code they are not initialised).  The exchanges of buffers are `exchangeUnknownSize` (C27), the sums `exscan` (C25) and the gathering of `GGt` is `allGatherInplace` (C53).
-/
namespace Verif.Feti

open Verif.Csx Verif.Utils

/-! ### std::map -/

/-- `std::map<int, V>`: pairs with increasing keys. -/
abbrev OMap (V : Type) := List (Nat × V)

namespace OMap
variable {V : Type}

/-- The value of a key. -/
def find (m : OMap V) (k : Nat) : Option V :=
  match m with
  | [] => none
  | (a, v) :: m => if a = k then some v else find m k

/-- `m[k] = f(m[k])`; a new key gets the default value `d` first. -/
def alter (d : V) (k : Nat) (f : V → V) : OMap V → OMap V
  | [] => [(k, f d)]
  | (a, v) :: m => if k < a then (k, f d) :: (a, v) :: m else if k = a then (a, f v) :: m else (a, v) :: alter d k f m

end OMap

/-! ### The dual graph -/

/-- `Indices` (`dualgraph.h` 32): consecutive multipliers and the lower neighbours that have them. -/
structure Indices where
  offset : Nat
  size : Nat
  lower : List Nat

/-- `DomainVertexInfo` (`dualgraph.h` 23-36). -/
structure Vertex where
  offset : Nat := 0
  rank : Nat := 0
  goffset : Nat := 0
  loffset : Nat := 0
  size : Nat := 0
  indices : List Indices := []
  total : Nat := 0

/-- The loops over `lMap` (`dualgraph.cpp` 37-45, 78-98): `f i lsize ndomains` for each group; every step consumes at least two numbers, so `fuel = lMap.size()` is enough. -/
def walkGroups {σ : Type} (lMap : List Nat) (f : Nat → Nat → Nat → σ → Option σ) : Nat → Nat → σ → Option σ
  | 0, i, s => if i < lMap.length then none else some s
  | fuel + 1, i, s =>
      if i < lMap.length then do
        let lsize ← lMap[i]?
        let ndomains ← lMap[i + 1]?
        let s ← f i lsize ndomains s
        walkGroups lMap f fuel (i + ndomains + 2) s
      else some s

/-- `pushVertex` (`dualgraph.cpp` 16-20). -/
def pushVertex (offset index size : Nat) (m : OMap Vertex) : OMap Vertex := m.alter {} index fun v => { v with offset := offset, size := size }

/-- The vertices of the own domains (`tfeti.orthogonal.symmetric.cpp` 60-62). -/
def pushVertices (dbegin : Nat) (sizes : List Nat) : Option (OMap Vertex) :=
  forLoop 0 sizes.length [] fun d m => do
    let s ← sizes[d]?
    some (pushVertex d (dbegin + d) s m)

/-- The sum of the sizes (`dualgraph.cpp` 25-28). -/
def kernelSum (m : OMap Vertex) : Nat := m.foldl (fun s v => s + v.2.size) 0

/-- `rank` and `goffset` of the own vertices (`dualgraph.cpp` 30-34); `offset` is the result of `exscan`. -/
def initVertices (rank : Nat) : Nat → OMap Vertex → OMap Vertex
  | _, [] => []
  | offset, (d, v) :: m => (d, { v with rank := rank, goffset := offset }) :: initVertices rank (offset + v.size) m

/-- The edges of a group (`dualgraph.cpp` 38-43). -/
def groupEdges (lMap : List Nat) (i ndomains : Nat) (edges : OMap (List Nat)) : Option (OMap (List Nat)) :=
  forLoop 0 ndomains edges fun d1 edges =>
    forLoop 0 ndomains edges fun d2 edges => do
      let a ← lMap[i + 2 + d1]?
      let b ← lMap[i + 2 + d2]?
      some (edges.alter [] a fun l => l ++ [b])

/-- The edges (`dualgraph.cpp` 36-48). -/
def buildEdges (lMap : List Nat) : Option (OMap (List Nat)) := do
  let edges ← walkGroups lMap (fun i _ ndomains s => groupEdges lMap i ndomains s) lMap.length 0 []
  edges.mapM (m := Option) fun e => do
    let l ← sortAndRemoveDuplicates e.2 0
    some (e.1, l)

/-- A vertex is sent to the neighbours with an adjacent domain (`dualgraph.cpp` 53-62); the state is `(sBuffer, last)`. -/
def packVertex (D : Decomposition) (v : Nat × Vertex) (edges : List Nat) (sBuffer : List (List Nat)) : Option (List (List Nat)) := do
  let st ← edges.foldlM (m := Option) (fun (st : List (List Nat) × Int) e => do
    let n ← D.noffset e
    if D.ismy e = false ∧ st.2 < (n : Int) then do
      let b ← st.1[n]?
      let s ← wr st.1 n (b ++ [v.1, v.2.goffset, v.2.size])
      some (s, (n : Int))
    else some st) (sBuffer, (-1 : Int))
  some st.1

/-- `sBuffer` (`dualgraph.cpp` 51-63). -/
def packVertices (D : Decomposition) (m : OMap Vertex) (edges : OMap (List Nat)) : Option (List (List Nat)) :=
  m.foldlM (m := Option) (fun s v => packVertex D v ((edges.find v.1).getD []) s) (List.replicate D.neighbors.length [])

/-- A received buffer (`dualgraph.cpp` 70-74). -/
def unpackBuffer (rank : Nat) : List Nat → OMap Vertex → Option (OMap Vertex)
  | [], m => some m
  | a :: b :: c :: l, m => unpackBuffer rank l (m.alter {} a fun v => { v with rank := rank, goffset := b, size := c })
  | _, _ => none

/-- The received vertices (`dualgraph.cpp` 69-75). -/
def unpackVertices (D : Decomposition) (rBuffer : List (List Nat)) (m : OMap Vertex) : Option (OMap Vertex) :=
  forLoop 0 rBuffer.length m fun n m => do
    let b ← rBuffer[n]?
    let r ← D.neighbors[n]?
    unpackBuffer r b m

/-- `lower_neighs` of the domain `d` of a group (`dualgraph.cpp` 86-93). -/
def lowerNeighs (D : Decomposition) (lMap : List Nat) (i d : Nat) : Option (List Nat) :=
  forLoop 0 d [] fun lower ln => do
    let x ← lMap[i + 2 + lower]?
    if x < D.dbegin then do
      let n ← D.noffset x
      some (if ln.getLast? = some n then ln else ln ++ [n])
    else some ln

/-- The multipliers of a group (`dualgraph.cpp` 79-98); the state is `(vertices, offset)`. -/
def groupLambdas (D : Decomposition) (lMap : List Nat) (i lsize ndomains : Nat) (st : OMap Vertex × Nat) : Option (OMap Vertex × Nat) := do
  let m ← forLoop 0 ndomains st.1 fun d m => do
    let x ← lMap[i + 2 + d]?
    let lower ← (bif D.ismy x then lowerNeighs D lMap i d else some [])
    some (m.alter {} x fun v => { v with indices := v.indices ++ [⟨st.2, lsize, lower⟩], total := v.total + lsize })
  some (m, st.2 + lsize)

/-- The multipliers of the vertices (`dualgraph.cpp` 78-98). -/
def setLambdas (D : Decomposition) (lMap : List Nat) (m : OMap Vertex) : Option (OMap Vertex) := do
  let st ← walkGroups lMap (fun i lsize ndomains s => groupLambdas D lMap i lsize ndomains s) lMap.length 0 (m, 0)
  some st.1

/-- The dual graph before the exchange: the own vertices, the edges and the buffers; `offset` is the result of `exscan`. -/
def graphBegin (D : Decomposition) (rank : Nat) (sizes lMap : List Nat) (offset : Nat) : Option (OMap Vertex × OMap (List Nat) × List (List Nat)) := do
  let m ← pushVertices D.dbegin sizes
  let m := initVertices rank offset m
  let edges ← buildEdges lMap
  let s ← packVertices D m edges
  some (m, edges, s)

/-- The dual graph after the exchange. -/
def graphEnd (D : Decomposition) (lMap : List Nat) (rBuffer : List (List Nat)) (m : OMap Vertex) : Option (OMap Vertex) := do
  let m ← unpackVertices D rBuffer m
  setLambdas D lMap m

/-! ### G -/

variable {R : Type} [CommRing R]

/-- `vertices.find(d)` as an iterator: the rest of the map from it (empty: `end()`). -/
def fromKey (d : Nat) (m : OMap Vertex) : OMap Vertex := m.dropWhile fun v => v.1 ≠ d

/-- `for (v = vertices.find(dbegin); v != vertices.lower_bound(dend); ++v)`. -/
def ownVertices (D : Decomposition) (m : OMap Vertex) : OMap Vertex := (fromKey D.dbegin m).takeWhile fun v => v.1 < D.dend

/-- The number of rows and entries (`tfeti.orthogonal.symmetric.cpp` 103-111); the state is `(Gtrows, Gtnnz, Grows, Gnnz)`. -/
def countRows (D : Decomposition) (m : OMap Vertex) : Nat × Nat × Nat × Nat :=
  (fromKey D.dbegin m).foldl (fun st v =>
    let st := (st.1 + v.2.size, st.2.1 + v.2.size * v.2.total, st.2.2.1, st.2.2.2)
    if v.1 < D.dend then (st.1, st.2.1, st.2.2.1 + v.2.size, st.2.2.2 + v.2.size * v.2.total) else st) (0, 0, 0, 0)

/-- `loffset` (`tfeti.orthogonal.symmetric.cpp` 104-105). -/
def setLoffset : Nat → OMap Vertex → OMap Vertex
  | _, [] => []
  | rows, (d, v) :: m => (d, { v with loffset := rows }) :: setLoffset (rows + v.size) m

/-- The map with `loffset` in the vertices from `dbegin`. -/
def withLoffset (D : Decomposition) (m : OMap Vertex) : OMap Vertex := m.takeWhile (fun v => v.1 ≠ D.dbegin) ++ setLoffset 0 (fromKey D.dbegin m)

/-- The columns of a row (`tfeti.orthogonal.symmetric.cpp` 119-123); the state is `(cols, c)`. -/
def rowColumns (indices : List Indices) (cols : List Nat) (c : Nat) : Option (List Nat) := do
  let st ← indices.foldlM (m := Option) (fun (st : List Nat × Nat) x =>
    forLoop 0 x.size st fun cc st => do
      let cols ← wr st.1 st.2 (x.offset + cc)
      some (cols, st.2 + 1)) (cols, c)
  some st.1

/-- A row (`tfeti.orthogonal.symmetric.cpp` 117-124); the state is `(rows, cols, ri)`. -/
def patternRow (v : Vertex) (st : List Nat × List Nat × Nat) : Option (List Nat × List Nat × Nat) := do
  let r ← st.1[st.2.2]?
  let rows ← wr st.1 (st.2.2 + 1) (r + v.total)
  let cols ← rowColumns v.indices st.2.1 r
  some (rows, cols, st.2.2 + 1)

/-- `_setG` (`tfeti.orthogonal.symmetric.cpp` 96-131): the vertices, the rows and the columns of `Gt`, `G.nrows` and `G.nnz`. -/
def setG (D : Decomposition) (m : OMap Vertex) : Option (OMap Vertex × List Nat × List Nat × Nat × Nat) := do
  let n := countRows D m
  let rows ← wr (List.replicate (n.1 + 1) 0) 0 0
  let st ← (fromKey D.dbegin m).foldlM (m := Option) (fun st v => forLoop 0 v.2.size st fun _ st => patternRow v.2 st) (rows, List.replicate n.2.1 0, 0)
  some (withLoffset D m, st.1, st.2.1, n.2.2.1, n.2.2.2)

/-- The values of a row (`tfeti.orthogonal.symmetric.cpp` 144-148); `rv` is `G.rows[ri]`. -/
def rowValues (B : Csx R) (A : Dense R) (kr rv : Nat) (vals : List R) : Option (List R) :=
  forEntries B vals fun c i j vals => do
    let x ← A.vals[A.ncols * kr + j]?
    let w ← B.vals[i]?
    addAt vals (rv + c) (-(x * w))

/-- The own rows (`tfeti.orthogonal.symmetric.cpp` 139-150); the state is `(vals, ri)`; `math::set(G, 0)` is the first loop, `nnz` is `G.nnz`. -/
def localValues (D : Decomposition) (m : OMap Vertex) (nnz : Nat) (rows : List Nat) (B : List (Csx R)) (Rs : List (Dense R)) (vals : List R) : Option (List R) := do
  let vals ← forLoop 0 nnz vals fun i vals => wr vals i 0
  let st ← (ownVertices D m).foldlM (m := Option) (fun (st : List R × Nat) v =>
    forLoop 0 v.2.size st fun kr st => do
      let b ← B[v.2.offset]?
      let a ← Rs[v.2.offset]?
      let rv ← rows[st.2]?
      let vals ← rowValues b a kr rv st.1
      some (vals, st.2 + 1)) (vals, 0)
  some st.1

/-- A row to the buffers of the lower neighbours (`tfeti.orthogonal.symmetric.cpp` 158-165); the state is `(sBuffer, ci)`. -/
def packRow (indices : List Indices) (vals : List R) (ci : Nat) (sBuffer : List (List R)) : Option (List (List R)) := do
  let st ← indices.foldlM (m := Option) (fun (st : List (List R) × Nat) x => do
    let s ← x.lower.foldlM (m := Option) (fun s n =>
      forLoop 0 x.size s fun c s => do
        let v ← vals[st.2 + c]?
        let b ← s[n]?
        wr s n (b ++ [v])) st.1
    some (s, st.2 + x.size)) (sBuffer, ci)
  some st.1

/-- `sBuffer` (`tfeti.orthogonal.symmetric.cpp` 153-167). -/
def packRows (D : Decomposition) (m : OMap Vertex) (roffset : Nat) (rows : List Nat) (vals : List R) : Option (List (List R)) :=
  (ownVertices D m).foldlM (m := Option) (fun s v =>
    forLoop 0 v.2.size s fun kr s => do
      let ci ← rows[v.2.goffset + kr - roffset]?
      packRow v.2.indices vals ci s) (List.replicate D.neighbors.length [])

/-- The received rows (`tfeti.orthogonal.symmetric.cpp` 173-176); `offset` is `G.rows[G.nrows]`; the state is `(vals, offset)`. -/
def unpackRows (rBuffer : List (List R)) (offset : Nat) (vals : List R) : Option (List R) := do
  let st ← rBuffer.foldlM (m := Option) (fun (st : List R × Nat) b => do
    let vals ← memcpyTo st.1 st.2 b
    some (vals, st.2 + b.length)) (vals, offset)
  some st.1

/-! ### G Gᵀ -/

/-- The loops over the upper triangle (`tfeti.orthogonal.symmetric.cpp` 190-198, 209-220, 251-272): `f v kr e kc` for each entry of the row `kr` of the own vertex `v`. -/
def upperRow {σ : Type} (m : OMap Vertex) (edges : OMap (List Nat)) (v : Nat × Vertex) (kr : Nat) (f : Vertex → Nat → σ → Option σ) (s : σ) : Option σ :=
  ((edges.find v.1).getD []).foldlM (m := Option) (fun s e =>
    let w := (m.find e).getD {}
    forLoop 0 w.size s fun kc s => if v.2.goffset + kr ≤ w.goffset + kc then f w kc s else some s) s

/-- The number of the own entries (`tfeti.orthogonal.symmetric.cpp` 188-199). -/
def countUpper (D : Decomposition) (m : OMap Vertex) (edges : OMap (List Nat)) : Option Nat :=
  (ownVertices D m).foldlM (m := Option) (fun s v =>
    forLoop 0 v.2.size s fun kr s => upperRow m edges v kr (fun _ _ s => some (s + 1)) s) 0

/-- An entry of the pattern (`tfeti.orthogonal.symmetric.cpp` 215-216); the state is `(rows, cols, c)`, indices are from `idx`. -/
def patternEntry (idx row col : Nat) (st : List Nat × List Nat × Nat) : Option (List Nat × List Nat × Nat) := do
  let cols ← wr st.2.1 st.2.2 (col + idx)
  let r ← st.1[row + 1]?
  let rows ← wr st.1 (row + 1) (r + 1)
  some (rows, cols, st.2.2 + 1)

/-- A row of the pattern (`tfeti.orthogonal.symmetric.cpp` 210-219). -/
def patternUpperRow (idx : Nat) (m : OMap Vertex) (edges : OMap (List Nat)) (v : Nat × Vertex) (kr : Nat) (st : List Nat × List Nat) : Option (List Nat × List Nat) := do
  let row := v.2.goffset + kr
  let r ← st.1[row]?
  let rows ← wr st.1 (row + 1) r
  let st ← upperRow m edges v kr (fun w kc st => patternEntry idx row (w.goffset + kc) st) (rows, st.2, r - idx)
  some (st.1, st.2.1)

/-- `_setGGt` (`tfeti.orthogonal.symmetric.cpp` 206-221) before the gathering; `offset` and `nnz` are the results of `exscan`. -/
def setGGt (idx total roffset offset nnz : Nat) (D : Decomposition) (m : OMap Vertex) (edges : OMap (List Nat)) : Option (List Nat × List Nat) := do
  let rows ← wr (List.replicate (total + 1) 0) 0 idx
  let rows ← wr rows roffset (offset + idx)
  (ownVertices D m).foldlM (m := Option) (fun st v => forLoop 0 v.2.size st fun kr st => patternUpperRow idx m edges v kr st) (rows, List.replicate nnz 0)

/-- `while (k < ke && cols[k] < cols[k']) { ++k; }` (`tfeti.orthogonal.symmetric.cpp` 262-263); `fuel = ke - k` is enough. -/
def advance (cols : List Nat) (ke k' : Nat) : Nat → Nat → Option Nat
  | 0, k => if k < ke then none else some k
  | fuel + 1, k =>
      if k < ke then do
        let a ← cols[k]?
        let b ← cols[k']?
        if a < b then advance cols ke k' fuel (k + 1) else some k
      else some k

/-- The product of two rows (`tfeti.orthogonal.symmetric.cpp` 261-267); every step advances `k1` or `k2`, so `fuel = ke1 - k1 + (ke2 - k2)` is enough. -/
def mergeRows (cols : List Nat) (vals : List R) (ke1 ke2 : Nat) : Nat → Nat → Nat → R → Option R
  | 0, k1, k2, s => if k1 < ke1 ∧ k2 < ke2 then none else some s
  | fuel + 1, k1, k2, s =>
      if k1 < ke1 ∧ k2 < ke2 then do
        let k1 ← advance cols ke1 k2 (ke1 - k1) k1
        let k2 ← advance cols ke2 k1 (ke2 - k2) k2
        if k1 < ke1 ∧ k2 < ke2 then do
          let a ← cols[k1]?
          let b ← cols[k2]?
          if a = b then do
            let x ← vals[k1]?
            let y ← vals[k2]?
            mergeRows cols vals ke1 ke2 fuel (k1 + 1) (k2 + 1) (s + x * y)
          else mergeRows cols vals ke1 ke2 fuel k1 k2 s
        else mergeRows cols vals ke1 ke2 fuel k1 k2 s
      else some s

/-- An entry of `GGt` (`tfeti.orthogonal.symmetric.cpp` 256-268); the state is `(vals, c)`. -/
def productEntry (rows cols : List Nat) (gvals : List R) (r1 r2 : Nat) (st : List R × Nat) : Option (List R × Nat) := do
  let k1 ← rows[r1]?
  let ke1 ← rows[r1 + 1]?
  let k2 ← rows[r2]?
  let ke2 ← rows[r2 + 1]?
  let s ← mergeRows cols gvals ke1 ke2 (ke1 - k1 + (ke2 - k2)) k1 k2 0
  let vals ← wr st.1 st.2 s
  some (vals, st.2 + 1)

/-- `_updateGGt` (`tfeti.orthogonal.symmetric.cpp` 250-273) before the gathering; `rows`, `cols`, `gvals` is `Gt`, `grows` are the rows of `GGt`. -/
def updateGGt (idx : Nat) (D : Decomposition) (m : OMap Vertex) (edges : OMap (List Nat)) (rows cols : List Nat) (gvals : List R) (grows : List Nat) (vals : List R) : Option (List R) :=
  (ownVertices D m).foldlM (m := Option) (fun vals v =>
    forLoop 0 v.2.size vals fun kr vals => do
      let c ← grows[v.2.goffset + kr]?
      let st ← upperRow m edges v kr (fun w kc st => productEntry rows cols gvals (v.2.loffset + kr) (w.loffset + kc) st) (vals, c - idx)
      some st.1) vals

end Verif.Feti
