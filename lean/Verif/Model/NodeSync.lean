import Verif.Base.Loop
import Verif.Proof.Gluing
import Verif.Model.Stress
/-!
`NodeData::synchronize` (`src/mesh/store/nodestore.cpp` 326-365): the values of shared nodes are sent to the neighbours and the received ones are added.

Simplifications: a process is given by its rank, its neighbours and the lists of ranks of its nodes; `Communication::exchangeUnknownSize` is a transposition of the buffers, which is C27; exact arithmetic; a read or write
outside of an array is the outcome `none`.
-/
namespace Verif.Sync

open Verif.Csx

/-- `while (info::mesh->neighbors[i] < *r) ++i` (nodestore.cpp 338, 356) with `k` neighbours left. -/
def advanceFrom (nb : List Nat) (r : Nat) : Nat → Nat → Option Nat
  | 0, _ => none
  | k + 1, i => do
    let x ← nb[i]?
    if x < r then advanceFrom nb r k (i + 1) else some i

/-- The loop from `i`; behind the last neighbour there is nothing to read. -/
def advance (nb : List Nat) (r i : Nat) : Option Nat := advanceFrom nb r (nb.length - i) i

/-- The loop over the ranks of a node (nodestore.cpp 335-344, 353-362); `f` is the loop over the directions. -/
def walk {σ : Type} (nb : List Nat) (rank : Nat) (f : Nat → σ → Option σ) (rs : List Nat) (s : σ) : Option σ := do
  let st ← rs.foldlM (fun (st : Nat × σ) r => if r ≠ rank then do
      let i ← advance nb r st.1
      let s ← f i st.2
      some (i, s) else some st) (0, s)
  some st.2

section
variable {K : Type} [AddCommMonoid K]

/-- `sBuffer[i].push_back(data[n * dimension + d])` for all directions (nodestore.cpp 339-341). -/
def push (dim : Nat) (data : List K) (n i : Nat) (sb : List (List K)) : Option (List (List K)) :=
  forLoop 0 dim sb fun d sb => do
    let x ← data[n * dim + d]?
    let b ← sb[i]?
    wr sb i (b ++ [x])

/-- The buffers for the neighbours (nodestore.cpp 331-344). -/
def pack (dim : Nat) (nb : List Nat) (rank : Nat) (ranks : List (List Nat)) (data : List K) : Option (List (List K)) :=
  forLoop 0 ranks.length (List.replicate nb.length []) fun n sb => do
    let rs ← ranks[n]?
    walk nb rank (push dim data n) rs sb

/-- `data[n * dimension + d] += rBuffer[i][offset[i]++]` for all directions (nodestore.cpp 357-359). -/
def pull (dim : Nat) (rb : List (List K)) (n i : Nat) (st : List Nat × List K) : Option (List Nat × List K) :=
  forLoop 0 dim st fun d st => do
    let o ← st.1[i]?
    let b ← rb[i]?
    let x ← b[o]?
    let data ← Verif.Feti.addAt st.2 (n * dim + d) x
    let off ← wr st.1 i (o + 1)
    some (off, data)

/-- The received values are added (nodestore.cpp 350-362). -/
def unpack (dim : Nat) (nb : List Nat) (rank : Nat) (ranks : List (List Nat)) (rb : List (List K)) (data : List K) : Option (List K) := do
  let st ← forLoop 0 ranks.length (List.replicate nb.length 0, data) fun n st => do
    let rs ← ranks[n]?
    walk nb rank (pull dim rb n) rs st
  some st.2

/-- What the process `p` receives (nodestore.cpp 346): from the neighbour `q` the buffer `q` has for `p`. -/
def received (dim : Nat) (nb : Nat → List Nat) (ranks : Nat → List (List Nat)) (data : Nat → List K) (p : Nat) : Option (List (List K)) :=
  (nb p).mapM fun q => do
    let sb ← pack dim (nb q) q (ranks q) (data q)
    sb[(nb q).idxOf p]?

/-- `NodeData::synchronize` in the process `p`. -/
def synchronize (dim : Nat) (nb : Nat → List Nat) (ranks : Nat → List (List Nat)) (data : Nat → List K) (p : Nat) : Option (List K) := do
  let _ ← pack dim (nb p) p (ranks p) (data p)
  let rb ← received dim nb ranks data p
  unpack dim (nb p) p (ranks p) rb (data p)

end

section
variable {K : Type} [Field K]

/-- The elements of a process with each of its nodes (structuralmechanics.cpp 198-203). -/
def counts (nodes : Nat) (elements : List (List Nat)) : Option (List K) :=
  elements.foldlM (fun m e => e.foldlM (fun m n => Verif.Feti.addAt m n 1) m) (List.replicate nodes 0)

/-- `nodeMultiplicity` of the process `p` (structuralmechanics.cpp 204-207): the numbers of elements of all processes are added and inverted; `c` are the numbers of the processes. -/
def inverse (nb : Nat → List Nat) (ranks : Nat → List (List Nat)) (c : Nat → List K) (p : Nat) : Option (List K) := do
  let m ← synchronize 1 nb ranks c p
  some (m.map fun x => 1 / x)

end

end Verif.Sync
