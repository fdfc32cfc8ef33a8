import Verif.Model.ElementLoop
/-!
The elements of an interval in the lanes of the SIMD vectors: `CoordinatesKernel::simd` (`src/analysis/assembler/general/op.coordinates.h`), the loops
over the chunks of `setElementKernel` and `setBoundaryKernel` (`heattransfer/kernel.h`), and the heat through a boundary: `ExternalHeatKernel`
(`heattransfer/op.externalheat.h`).

Simplifications: the coordinates of the nodes of an element are one value `E`; exact arithmetic; the lanes are a list of the length `SIMD::size`.
-/
namespace Verif.Fem

/-- `CoordinatesKernel::simd` (op.coordinates.h:42-62): the lanes `element.coords.node[…][…][s]` and the iterator `enodes` (the elements left).
At the end of the interval one more lane is set to zero, and the loop is left. -/
def loadLanes {E : Type} (zero : E) : List E → List E → List E × List E
  | [], enodes => ([], enodes)
  | _ :: lanes, [] => (zero :: lanes, [])
  | _ :: lanes, e :: enodes => let (lanes', enodes') := loadLanes zero lanes enodes; (e :: lanes', enodes')

section
variable {K : Type} [Add K] [Zero K]

/-- The variables of the loop over the chunks. -/
structure Lanes (E K : Type) where
  coords : List E
  enodes : List E
  volume : List K

/-- One chunk (heattransfer/kernel.h:220-236, 428-434): `measure` is the sum over the integration points in one lane. -/
def measureChunk {E : Type} (zero : E) (measure : E → K) (s : Lanes E K) : Lanes E K :=
  let (coords, enodes) := loadLanes zero s.coords s.enodes
  { coords, enodes, volume := List.zipWith (· + ·) s.volume (coords.map measure) }

/-- `operators.volume`, `operators.surface` of an interval (heattransfer/kernel.h:218-241, 426-439) with `chunks` of heattransfer.cpp:51, 59;
the default constructor of `SIMD` gives zeros. -/
def measureInterval {E : Type} (size : Nat) (zero : E) (measure : E → K) (elements : List E) : K :=
  let chunks := elements.length / size + if elements.length % size ≠ 0 then 1 else 0
  let s := (List.range chunks).foldl (fun s _ => measureChunk zero measure s) ⟨List.replicate size zero, elements, List.replicate size 0⟩
  s.volume.foldl (· + ·) 0

end

section
variable {K : Type} [Field K] [DecidableEq K]

/-- `element.det` of a boundary element: faces and edges in three dimensions, edges in two (op.integration.h:222-302). -/
def boundaryDet (sqrt : K → K) (ndim edim nodes : Nat) (dN coords : Nat → Nat → K) : Option K :=
  match ndim, edim with
  | 3, 2 => (face3 sqrt nodes dN coords).map (·.det)
  | 2, 1 => (edge2 sqrt nodes dN coords).map (·.det)
  | 3, 1 => some (edge3 sqrt nodes dN coords)
  | _, _ => none

/-- `surface = surface + element.det * load1(element.w[gp])` for one element (heattransfer/kernel.h:430-433). -/
def boundaryArea (sqrt : K → K) (ndim : Nat) (c : Code) (gps : Nat) (coords : Nat → Nat → K) : Option K := do
  let pts ← rulePoints sqrt c gps
  pts.foldlM (fun surface p => do
    let tab ← setAt c gps p.1
    let det ← boundaryDet sqrt ndim (edim c) (nodes c) (slopeOf tab) coords
    pure (surface + det * p.2)) 0

/-- The parameters of the heat through a boundary, constant on the boundary: `area = 1 / base.area` (op.externalheat.h:31). -/
structure HeatLoad (K : Type) where
  heatFlow : K
  heatFlux : K
  htc : K
  extTemp : K
  area : K
  thickness : K

/-- `q` (op.externalheat.h:37-40). -/
def HeatLoad.q (l : HeatLoad K) : K := 0 + l.heatFlow * l.area + l.heatFlux + l.htc * l.extTemp

/-- `ExternalHeatKernel::simd` in all integration points (op.externalheat.h:33-44, heattransfer/kernel.h:477-495): the entries `f[n]` of one element. -/
def boundaryLoad (sqrt : K → K) (ndim : Nat) (c : Code) (gps : Nat) (l : HeatLoad K) (coords : Nat → Nat → K) : Option (List K) := do
  let pts ← rulePoints sqrt c gps
  pts.foldlM (fun f p => do
    let tab ← setAt c gps p.1
    let det ← boundaryDet sqrt ndim (edim c) (nodes c) (slopeOf tab) coords
    pure (f.mapIdx fun n fn => fn + l.q * l.thickness * det * p.2 * valueOf tab n)) (List.replicate (nodes c) 0)

end

end Verif.Fem
