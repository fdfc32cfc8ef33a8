import Verif.Base.Loop
import Mathlib.Analysis.Real.Sqrt
/-!
The statistics of the monitors: `Statistics` (`src/mesh/store/statisticsstore.cpp`), `NodeData::statistics` (`nodestore.cpp` 282-324), `ElementData::statistics` (`elementstore.cpp` 359-396), `_mergeStatistics`
(`src/wrappers/mpi/communication.cpp` 66-76), `Monitoring::updateSolution` (`src/output/monitors/monitoring.cpp` 345-357).

Simplifications: real numbers; the largest double is the parameter `M`; one of the statistics at a time, those of a component, while those of the magnitude are the same with other values; `allReduce` merges the statistics of
the processes one after another.
-/
namespace Verif.Statistics

/-- `Statistics` (statisticsstore.h 7-12). -/
structure Stat where
  min : ℝ
  max : ℝ
  avg : ℝ
  norm : ℝ
  absmin : ℝ
  absmax : ℝ

/-- `Statistics::reset` (statisticsstore.cpp 13-20). -/
def reset (M : ℝ) : Stat := ⟨M, -M, 0, 0, M, 0⟩

/-- A value of a node (nodestore.cpp 296-301, 305-310). -/
noncomputable def addNode (s : Stat) (x : ℝ) : Stat := ⟨Min.min s.min x, Max.max s.max x, s.avg + x, s.norm + x * x, Min.min s.absmin |x|, Max.max s.absmax |x|⟩

/-- A value of an element (elementstore.cpp 370-375, 379-384): `min` and `max` have their new values in the last two lines. -/
noncomputable def addElement (s : Stat) (x : ℝ) : Stat := ⟨Min.min s.min x, Max.max s.max x, s.avg + x, s.norm + x * x, Min.min (Min.min s.min x) |x|, Max.max (Max.max s.max x) |x|⟩

/-- `_mergeStatistics` (communication.cpp 66-76). -/
noncomputable def merge (out i : Stat) : Stat :=
  ⟨Min.min out.min i.min, Max.max out.max i.max, out.avg + i.avg, out.norm + i.norm, Min.min |out.absmin| |i.absmin|, Max.max |out.absmax| |i.absmax|⟩

/-- `allReduce` (nodestore.cpp 317). -/
noncomputable def reduce : List Stat → Option Stat
  | [] => none
  | s :: l => some (l.foldl merge s)

/-- The last loop (nodestore.cpp 320-323, elementstore.cpp 392-395). -/
noncomputable def finish (total : Nat) (s : Stat) : Stat := { s with avg := s.avg / total, norm := Real.sqrt s.norm }

/-- The loop over the nodes of a process (nodestore.cpp 288-301): `pos` is the position of `nranks`. -/
noncomputable def nodeLoop (rank : Nat) (ranks : List (List Nat)) (store : List ℝ) (dim d : Nat) : List Nat → Int → Nat → Stat → Option Stat
  | [], _, _, s => some s
  | n :: ns, pos, prev, s => do
    let pos := pos + ((n : Int) - prev)
    let rs ← ranks[pos.toNat]?
    let r ← rs.head?
    let s ← if r = rank then do
      let x ← store[n * dim + d]?
      some (addNode s x) else some s
    nodeLoop rank ranks store dim d ns pos n s

/-- `NodeData::statistics` for a component: the processes and the total number of nodes. -/
noncomputable def nodeStatistics (M : ℝ) (P : Nat) (ranks : Nat → List (List Nat)) (store : Nat → List ℝ) (dim d : Nat) (nodes : Nat → List Nat) (total : Nat) : Option Stat := do
  let l ← (List.range P).mapM fun p => nodeLoop p (ranks p) (store p) dim d (nodes p) 0 0 (reset M)
  let s ← reduce l
  some (finish total s)

/-- `ElementData::statistics` for a component in one process; `values` are the values of the elements. -/
noncomputable def elementStatistics (M : ℝ) (values : List ℝ) (total : Nat) : Stat := finish total (values.foldl addElement (reset M))

/-- What the monitors show for a region of elements with `nodes` nodes (monitoring.cpp 349). -/
noncomputable def monitor (M : ℝ) (nodes : Nat) (values : List ℝ) : Stat := elementStatistics M values nodes

/-- The first loop of `ElementData::statistics` (elementstore.cpp 361-363) on the statistics from `offset`. -/
def resetAll (M : ℝ) (offset nstatistics : Nat) (l : List Stat) : Option (List Stat) := forLoop 0 (nstatistics + 1) l fun d l => wr l (offset + d) (reset M)

end Verif.Statistics
