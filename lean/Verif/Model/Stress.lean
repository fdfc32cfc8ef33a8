import Verif.Model.ElementResults
import Verif.Proof.Gluing
import Mathlib.Algebra.Field.Defs
/-!
The stresses and strains of the elements and nodes: `StressKernel` (`src/analysis/assembler/structuralmechanics/op.stress.h`), `eigSym22Desc` and `eigSym33Desc` (`general/math.cpp`), the
loops of `structuralmechanics/kernel.h` 382-499, and the multiplicity of the nodes (`structuralmechanics.cpp` 197-208).

Simplifications: exact arithmetic; `sqrt` and LAPACK's eigenvalues are parameters; the arrays of the results are lists with checked indices, one function for the six arrays, which differ by
the number of values of an element; one process.
-/
namespace Verif.Stress

open Verif.Csx

section
variable {K : Type} [Field K]

/-- `eigSym22Desc` (math.cpp 19-31): `eig` gives the eigenvalues in ascending order. -/
def eigDesc2 (eig : (Nat → K) → Nat → K) (A : Nat → K) : Nat → K := fun i => if i = 0 then eig A 1 else eig A 0

/-- `eigSym33Desc` (math.cpp 77-89). -/
def eigDesc3 (eig : (Nat → K) → Nat → K) (A : Nat → K) : Nat → K := fun i => if i = 0 then eig A 2 else if i = 1 then eig A 1 else eig A 0

/-- The stress tensor `S` from `vS` (op.stress.h 76-79, 122-125). -/
def tensor2 (vS : Nat → K) : Nat → K := fun i => match i with
  | 0 => vS 0
  | 1 => vS 2
  | 2 => vS 2
  | _ => vS 1

/-- The stress tensor `S` from `vS` (op.stress.h 215-219, 266-270). -/
def tensor3 (vS : Nat → K) : Nat → K := fun i => match i with
  | 0 => vS 0
  | 1 => vS 3
  | 2 => vS 5
  | 3 => vS 3
  | 4 => vS 1
  | 5 => vS 4
  | 6 => vS 5
  | 7 => vS 4
  | _ => vS 2

/-- The strain tensor `E` from `C2` (op.stress.h 92-95, 127-130). -/
def strain2 (C : Nat → K) : Nat → K := fun i => if i = 0 ∨ i = 3 then 1 / 2 * C i - 1 / 2 else 1 / 2 * C i

/-- The strain tensor `E` from `C2` (op.stress.h 237-241, 272-276). -/
def strain3 (C : Nat → K) : Nat → K := fun i => if i = 0 ∨ i = 4 ∨ i = 8 then 1 / 2 * C i - 1 / 2 else 1 / 2 * C i

/-- The components in the order of the arrays (op.stress.h 85-87, 101-103, 139-141, 147-149). -/
def component2 (S : Nat → K) : Nat → K := fun d => match d with
  | 0 => S 0
  | 1 => S 3
  | _ => S 1

/-- The components in the order of the arrays (op.stress.h 226-231, 248-253, 284-289, 296-301). -/
def component3 (S : Nat → K) : Nat → K := fun d => match d with
  | 0 => S 0
  | 1 => S 4
  | 2 => S 8
  | 3 => S 1
  | 4 => S 5
  | _ => S 2

/-- The von Mises value from the eigenvalues (op.stress.h 89, 105, 142, 150). -/
def mises2 (sqrt : K → K) (e : Nat → K) : K := sqrt (1 / 2 * ((e 0 - e 1) * (e 0 - e 1)))

/-- The von Mises value from the eigenvalues (op.stress.h 233, 255, 290, 302). -/
def mises3 (sqrt : K → K) (e : Nat → K) : K := sqrt (1 / 2 * ((e 0 - e 1) * (e 0 - e 1) + (e 1 - e 2) * (e 1 - e 2) + (e 2 - e 0) * (e 2 - e 0)))

/-- The six values of a point (op.stress.h 71-107, 210-257): principal stresses, components of the stress, von Mises stress, and the same for the strain. -/
def pointResults (sqrt : K → K) (eig : (Nat → K) → Nat → K) (dim : Nat) (vS C2 : Nat → K) (nu : K) : List (Nat → K) :=
  match dim with
  | 2 => [eigDesc2 eig (tensor2 vS), component2 (tensor2 vS), fun _ => mises2 sqrt (eigDesc2 eig (tensor2 vS)),
          eigDesc2 eig (strain2 C2), component2 (strain2 C2), fun _ => mises2 sqrt (eigDesc2 eig (strain2 C2)) / (1 + nu)]
  | _ => [eigDesc3 eig (tensor3 vS), component3 (tensor3 vS), fun _ => mises3 sqrt (eigDesc3 eig (tensor3 vS)),
          eigDesc3 eig (strain3 C2), component3 (strain3 C2), fun _ => mises3 sqrt (eigDesc3 eig (strain3 C2)) / (1 + nu)]

/-- The number of values of an element or node in the six arrays (structuralmechanics.cpp 160-176, op.stress.cpp 35-40). -/
def widths (dim : Nat) : List Nat := [dim, 3 * (dim - 1), 1, dim, 3 * (dim - 1), 1]

/-! ### The arrays of the elements -/

/-- `out[width * e + d] += rgps * v` for one element (op.stress.h 82-89, 98-105, 222-233, 244-255). -/
def addLane (width ptr e : Nat) (r : K) (v : Nat → K) (out : List K) : Option (List K) :=
  forLoop 0 width out fun d out => Verif.Feti.addAt out (ptr + width * e + d) (r * v d)

/-- `StressKernel::element` for the `n` elements of a chunk. -/
def addPoint (width ptr n : Nat) (r : K) (v : Nat → Nat → K) (out : List K) : Option (List K) :=
  forLoop 0 n out fun e out => addLane width ptr e r (v e) out

/-- A chunk (kernel.h 401-427, 496-498; op.stress.h 36-69): `init`, the points, `move`; `n` is `element.elements`. -/
def stressChunk (width size n gps : Nat) (v : Nat → Nat → Nat → K) (st : Nat × List K) : Option (Nat × List K) := do
  let out ← forLoop 0 n st.2 fun e out => Verif.Results.storeLane width st.1 e (fun _ => 0) out
  let out ← forLoop 0 gps out fun p out => addPoint width st.1 n (1 / (gps : K)) (v p) out
  some (st.1 + size * width, out)

/-- An interval of elements: its first element, the number of its elements, the values in the points and lanes. -/
structure Interval (K : Type) where
  begin : Nat
  elements : Nat
  value : Nat → Nat → Nat → K

/-- The chunks of an interval (kernel.h 382; op.coordinates.h 40-60 counts the elements of a chunk; structuralmechanics.cpp). -/
def stressInterval (width size gps : Nat) (I : Interval K) (out : List K) : Option (List K) := do
  let chunks := I.elements / size + if I.elements % size ≠ 0 then 1 else 0
  let (_, out) ← forLoop 0 chunks (width * I.begin, out) fun c st => stressChunk width size (min size (I.elements - c * size)) gps (fun p s => I.value p (c * size + s)) st
  some out

/-- The intervals in the order in which the threads process them. -/
def stressAll (width size gps : Nat) (Is : List (Interval K)) (out : List K) : Option (List K) := Is.foldlM (fun out I => stressInterval width size gps I out) out

/-! ### The arrays of the nodes -/

/-- `nodeMultiplicity` for one process (structuralmechanics.cpp 198-207). -/
def multiplicity (nodes : Nat) (elements : List (List Nat)) : Option (List K) := do
  let m ← elements.foldlM (fun m e => e.foldlM (fun m n => Verif.Feti.addAt m n 1) m) (List.replicate nodes 0)
  some (m.map fun x => 1 / x)

/-- `StressKernel::node` for one element and one of its nodes (op.stress.h 109-152, 259-304). -/
def addNode (width node : Nat) (scale : K) (v : Nat → K) (avg : List K) : Option (List K) :=
  forLoop 0 width avg fun d avg => Verif.Feti.addAt avg (width * node + d) (scale * v d)

/-- One evaluation of a result in a node of an element. -/
structure Visit (K : Type) where
  node : Nat
  value : Nat → K

/-- The averages (structuralmechanics.cpp 861-869): zeros, and the visits in the order in which the elements are processed. -/
def averages (width nodes : Nat) (m : List K) (visits : List (Visit K)) : Option (List K) :=
  visits.foldlM (fun avg x => do
    let scale ← m[x.node]?
    addNode width x.node scale x.value avg) (List.replicate (width * nodes) 0)

/-! ### Threads -/

/-- The two steps of `avg[i] += x` of a thread: the value is loaded to a register of the thread, the sum is stored. -/
inductive Step (K : Type)
  | load (thread i : Nat)
  | store (thread i : Nat) (x : K)

/-- One step on the memory and the registers. -/
def step (st : List K × (Nat → K)) : Step K → Option (List K × (Nat → K))
  | .load t i => st.1[i]?.map fun x => (st.1, fun t' => if t' = t then x else st.2 t')
  | .store t i x => (wr st.1 i (st.2 t + x)).map fun m => (m, st.2)

/-- The steps of one addition. -/
def addition (t i : Nat) (x : K) : List (Step K) := [.load t i, .store t i x]

end

end Verif.Stress
