import Verif.Model.Elasticity
import Verif.Model.Chunks
/-!
Loads and masses of elements: `AccelerationKernel` (`src/analysis/assembler/structuralmechanics/op.acceleration.h`), `AngularVelocityKernel`
(`structuralmechanics/op.angularvelocity.h`), `MatrixMassKernel` (`general/op.matrix.mass.h`), `NormalPressureKernel`
(`structuralmechanics/op.normalpressure.h`), `PressureKernel` (`structuralmechanics/op.pressure.h`) and the loops over the integration points around them
(`structuralmechanics/kernel.h:405-450, 607-640`, `heattransfer/kernel.h:316-366`).

Simplifications: one lane of the SIMD vectors; exact arithmetic; the additions `f[i] = f[i] + v` of a kernel are a list of pairs `(i, v)` in the order of the
code; expressions are functions of the coordinates of the point (`coords.gp`); a load that is not prescribed is zero; `NormalKernel` is never activated, the
normal is the one of `IntegrationKernel`; edges in space have the zero normal of the constructor.
-/
namespace Verif.Fem

variable {K : Type} [Field K] [DecidableEq K]

/-- The additions `A[i] = A[i] + v`. -/
def addAll (l : List (Nat × K)) (A : List K) : Option (List K) := l.foldlM (fun A p => addTo A p.1 p.2) A

/-- `AccelerationKernel::simd` (op.acceleration.h:17-55). -/
def accelerationLoads (dim : Nat) (b : Behaviour) (pi : K) (nodes : Nat) (thickness det w rho : K) (x N a : Nat → K) : List (Nat × K) :=
  match dim with
  | 2 =>
    if b = .axisymmetric then
      (List.range nodes).flatMap fun n =>
        let scale := det * w * (2 * pi) * x 0 * rho * N n
        [(1 * nodes + n, scale * a 1)]
    else
      (List.range nodes).flatMap fun n =>
        let scale := thickness * det * w * rho * N n
        [(0 * nodes + n, scale * a 0), (1 * nodes + n, scale * a 1)]
  | _ =>
    (List.range nodes).flatMap fun n =>
      let scale := det * w * rho * N n
      [(0 * nodes + n, scale * a 0), (1 * nodes + n, scale * a 1), (2 * nodes + n, scale * a 2)]

/-- `AngularVelocityKernel::simd` (op.angularvelocity.h:17-58). -/
def angularLoads (dim : Nat) (b : Behaviour) (pi : K) (nodes : Nat) (thickness det w rho : K) (x N o : Nat → K) : List (Nat × K) :=
  match dim with
  | 2 =>
    if b = .axisymmetric then
      (List.range nodes).flatMap fun n =>
        let scale := det * w * (2 * pi) * x 0 * rho * N n * o 1 * o 1
        [(0 * nodes + n, scale * x 0)]
    else
      (List.range nodes).flatMap fun n =>
        let scale := thickness * det * w * rho * N n * o 2 * o 2
        [(0 * nodes + n, scale * x 0), (1 * nodes + n, scale * x 1)]
  | _ =>
    (List.range nodes).flatMap fun n =>
      let scale := det * w * rho * N n
      let vx := o 0 * o 0
      let vy := o 1 * o 1
      let vz := o 2 * o 2
      [(0 * nodes + n, scale * x 0 * (vy + vz)), (1 * nodes + n, scale * x 1 * (vx + vz)), (2 * nodes + n, scale * x 2 * (vx + vy))]

/-- The loads of the volume of an interval: the behaviour of the elements, whether the material (or its coordinate system) needs coordinates, the density, the
acceleration and the angular velocity if there is one. -/
structure Body (K : Type) where
  behaviour : Behaviour
  needs : Bool
  density : (Nat → K) → K
  acceleration : (Nat → K) → Nat → K
  angular : Option ((Nat → K) → Nat → K)

/-- `gpcoo` (structuralmechanics.cpp:399-401): the coordinates are interpolated to the points. -/
def Body.gpcoo (m : Body K) : Bool := m.needs || m.angular.isSome || decide (m.behaviour = .axisymmetric)

/-- `coords.gp` (op.coordinates.h:65-84): zero without interpolation. -/
def gpCoords (toGPs : Bool) (nodes : Nat) (tab : List (K × List K)) (coords : Nat → Nat → K) (d : Nat) : K :=
  if toGPs then pointCoordinate nodes tab coords d else 0

/-- The loads of one integration point (kernel.h:405-442). -/
def bodyPoint (pi : K) (c : Code) (gps : Nat) (m : Body K) (thickness : Nat → K) (coords : Nat → Nat → K) (f : List K) (p : List K × K) : Option (List K) := do
  let tab ← setAt c gps p.1
  let g ← integrate (edim c) (nodes c) (slopeOf tab) coords
  let x := gpCoords m.gpcoo (nodes c) tab coords
  let t := thicknessAt (nodes c) tab thickness
  let f ← addAll (accelerationLoads (edim c) m.behaviour pi (nodes c) t g.det p.2 (m.density x) x (valueOf tab) (m.acceleration x)) f
  match m.angular with
  | none => pure f
  | some o => addAll (angularLoads (edim c) m.behaviour pi (nodes c) t g.det p.2 (m.density x) x (valueOf tab) (o x)) f

/-- The right-hand side of an element (kernel.h:405-442). -/
def elementBody (sqrt : K → K) (pi : K) (c : Code) (gps : Nat) (m : Body K) (thickness : Nat → K) (coords : Nat → Nat → K) : Option (List K) := do
  let pts ← rulePoints sqrt c gps
  pts.foldlM (bodyPoint pi c gps m thickness coords) (List.replicate (edim c * nodes c) 0)

/-- `MatrixMassKernel<nodes, dim>::simd` (op.matrix.mass.h:35-98). -/
def massAdds (dim nodes : Nat) (det w rho : K) (N : Nat → K) : List (Nat × K) :=
  let scale := det * w * rho
  (List.range nodes).flatMap fun n =>
    ((List.range dim).map fun d => ((n + d * nodes) * (dim * nodes) + (n + d * nodes), scale * (N n * N n))) ++
    (List.range' (n + 1) (nodes - (n + 1))).flatMap fun m =>
      let k := scale * (N n * N m)
      ((List.range dim).map fun d => ((n + d * nodes) * (dim * nodes) + (m + d * nodes), k)) ++
      (List.range dim).map fun d => ((m + d * nodes) * (dim * nodes) + (n + d * nodes), k)

/-- The mass of one integration point. -/
def massPoint (dim : Nat) (c : Code) (gps : Nat) (rho : List K → K) (coords : Nat → Nat → K) (M : List K) (p : List K × K) : Option (List K) := do
  let tab ← setAt c gps p.1
  let g ← integrate (edim c) (nodes c) (slopeOf tab) coords
  addAll (massAdds dim (nodes c) g.det p.2 (rho p.1) (valueOf tab)) M

/-- The mass matrix of an element with `dim` values in a node: one in the heat transfer (heattransfer/kernel.h:259, 360), the dimension of the mesh in the
structural mechanics. -/
def elementMass (sqrt : K → K) (dim : Nat) (c : Code) (gps : Nat) (rho : List K → K) (coords : Nat → Nat → K) : Option (List K) := do
  let pts ← rulePoints sqrt c gps
  pts.foldlM (massPoint dim c gps rho coords) (List.replicate (dim * nodes c * (dim * nodes c)) 0)

/-- The mass matrix of the transient heat transfer (heattransfer/kernel.h:259, 360): the kernel reads `element.ecf.density` only; `element.ecf.heatCapacity`
(heattransfer/kernel.h:190-194) and the thickness are set, but not used. -/
def heatMass (sqrt : K → K) (c : Code) (gps : Nat) (density _capacity : List K → K) (_thickness : Nat → K) (coords : Nat → Nat → K) : Option (List K) :=
  elementMass sqrt 1 c gps density coords

/-- `IntegrationKernel::coords` of boundary elements (op.integration.h:217-302). -/
def surfaceOf (sqrt : K → K) (ndim edim nodes : Nat) (dN coords : Nat → Nat → K) : Option (Surface K) :=
  match ndim, edim with
  | 3, 2 => face3 sqrt nodes dN coords
  | 2, 1 => edge2 sqrt nodes dN coords
  | 3, 1 => some { det := edge3 sqrt nodes dN coords, normal := fun _ => 0 }
  | _, _ => none

/-- `PressureKernel::simd` (op.pressure.h:40-76). -/
def pressureLoads (ndim : Nat) (b : Behaviour) (pi : K) (nodes : Nat) (det w : K) (x N : Nat → K) (value : K) (direction : Nat → K) : List (Nat × K) :=
  match ndim with
  | 2 =>
    if b = .axisymmetric then
      (List.range nodes).flatMap fun n =>
        let pressure := det * w * (2 * pi) * x 0 * N n * value
        [(0 * nodes + n, pressure * direction 0), (1 * nodes + n, pressure * direction 1)]
    else
      (List.range nodes).flatMap fun n =>
        let pressure := det * w * N n * value
        [(0 * nodes + n, pressure * direction 0), (1 * nodes + n, pressure * direction 1)]
  | _ =>
    (List.range nodes).flatMap fun n =>
      let pressure := det * w * N n * value
      [(0 * nodes + n, pressure * direction 0), (1 * nodes + n, pressure * direction 1), (2 * nodes + n, pressure * direction 2)]

/-- `NormalPressureKernel::simd` (op.normalpressure.h:33-70). -/
def normalPressureLoads (ndim : Nat) (b : Behaviour) (pi : K) (nodes : Nat) (det w : K) (x N : Nat → K) (value : K) (normal : Nat → K) : List (Nat × K) :=
  match ndim with
  | 2 =>
    if b = .axisymmetric then
      (List.range nodes).flatMap fun n =>
        let pressure := det * w * (2 * pi) * x 0 * N n * value
        [(0 * nodes + n, pressure * normal 0), (1 * nodes + n, pressure * normal 1)]
    else
      (List.range nodes).flatMap fun n =>
        let pressure := det * w * N n * value
        [(0 * nodes + n, pressure * normal 0), (1 * nodes + n, pressure * normal 1)]
  | _ =>
    (List.range nodes).flatMap fun n =>
      let pressure := det * w * N n * value
      [(0 * nodes + n, -(pressure * normal 0)), (1 * nodes + n, -(pressure * normal 1)), (2 * nodes + n, -(pressure * normal 2))]

/-- The loads of a boundary: the pressure along the normal and the pressure with a direction. -/
structure Push (K : Type) where
  behaviour : Behaviour
  normalPressure : (Nat → K) → K
  pressure : (Nat → K) → K
  direction : (Nat → K) → Nat → K

/-- The loads of one point of a boundary element (kernel.h:612-640); the coordinates are interpolated only for axisymmetric elements
(structuralmechanics.cpp:456). -/
def pushPoint (sqrt : K → K) (pi : K) (ndim : Nat) (c : Code) (gps : Nat) (l : Push K) (coords : Nat → Nat → K) (f : List K) (p : List K × K) :
    Option (List K) := do
  let tab ← setAt c gps p.1
  let x := gpCoords (decide (l.behaviour = .axisymmetric)) (nodes c) tab coords
  let s ← surfaceOf sqrt ndim (edim c) (nodes c) (slopeOf tab) coords
  let f ← addAll (normalPressureLoads ndim l.behaviour pi (nodes c) s.det p.2 x (valueOf tab) (l.normalPressure x) s.normal) f
  addAll (pressureLoads ndim l.behaviour pi (nodes c) s.det p.2 x (valueOf tab) (l.pressure x) (l.direction x)) f

/-- The right-hand side of a boundary element (kernel.h:600-660). -/
def elementPush (sqrt : K → K) (pi : K) (ndim : Nat) (c : Code) (gps : Nat) (l : Push K) (coords : Nat → Nat → K) : Option (List K) := do
  let pts ← rulePoints sqrt c gps
  pts.foldlM (pushPoint sqrt pi ndim c gps l coords) (List.replicate (ndim * nodes c) 0)

end Verif.Fem
