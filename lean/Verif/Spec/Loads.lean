import Verif.Model.Loads
import Verif.Spec.Elasticity
/-!
What the loads and the masses of elements should be.
-/
namespace Verif.Fem

variable {K : Type} [Field K] [DecidableEq K]

/-- The component `d` of nodal values in a point: the component `d` of node `n` is stored on the position `d * nodes + n`. -/
def fieldAt (c : Code) (gps : Nat) (U : Nat → K) (p : List K) (d : Nat) : K :=
  ∑ n ∈ Finset.range (nodes c), valueOf (tabAt c gps p) n * U (d * nodes c + n)

/-- The place of a point in the coordinates of the mesh. -/
def placeAt (c : Code) (gps : Nat) (coords : Nat → Nat → K) (p : List K) (d : Nat) : K :=
  ∑ n ∈ Finset.range (nodes c), valueOf (tabAt c gps p) n * coords n d

/-- The volume around a point: of a plate with its thickness, of a ring around the axis, of a body. -/
def volumeAt (pi : K) (b : Behaviour) (c : Code) (gps : Nat) (thickness : Nat → K) (coords : Nat → Nat → K) (p : List K) : K :=
  (if edim c = 2 ∧ b = .axisymmetric then 2 * pi * placeAt c gps coords p 0 else thickAt c gps thickness p) * (geometryAt c gps coords p).det

/-- The acceleration that moves a body: bodies of revolution are accelerated along their axis only. -/
def pullOf (dim : Nat) (b : Behaviour) (a : Nat → K) (d : Nat) : K :=
  if dim = 2 ∧ b = .axisymmetric then (if d = 1 then a 1 else 0) else a d

/-- The angular velocity: plates turn in their plane, bodies of revolution around their axis. -/
def spinOf (dim : Nat) (b : Behaviour) (o : Nat → K) (d : Nat) : K :=
  if dim = 2 then (if b = .axisymmetric then (if d = 1 then o 1 else 0) else (if d = 2 then o 2 else 0)) else o d

/-- The centrifugal acceleration `- o × (o × x) = (o · o) x - (o · x) o`. -/
def centrifugal (o x : Nat → K) (d : Nat) : K := (o 0 * o 0 + o 1 * o 1 + o 2 * o 2) * x d - (o 0 * x 0 + o 1 * x 1 + o 2 * x 2) * o d

/-- The place of a point in space: in a plane the third coordinate is zero. For bodies of revolution, the plane contains the axis. -/
def spaceAt (c : Code) (gps : Nat) (coords : Nat → Nat → K) (p : List K) (d : Nat) : K :=
  if edim c = 2 ∧ d = 2 then 0 else placeAt c gps coords p d

/-- The virtual work of the forces around a point: `ρ (a - o × (o × x)) · V`. -/
def bodyWorkAt (pi : K) (c : Code) (gps : Nat) (m : Body K) (thickness : Nat → K) (coords : Nat → Nat → K) (V : Nat → K) (p : List K × K) : K :=
  volumeAt pi m.behaviour c gps thickness coords p.1 * p.2 * m.density (placeAt c gps coords p.1) *
    ∑ d ∈ Finset.range (edim c), (pullOf (edim c) m.behaviour (m.acceleration (placeAt c gps coords p.1)) d +
      match m.angular with
      | none => 0
      | some o => centrifugal (spinOf (edim c) m.behaviour (o (placeAt c gps coords p.1))) (spaceAt c gps coords p.1) d) * fieldAt c gps V p.1 d

/-- The virtual work of the forces on the volume: `∫ ρ (a - o × (o × x)) · V`. -/
def bodyWork (pi : K) (c : Code) (gps : Nat) (m : Body K) (thickness : Nat → K) (coords : Nat → Nat → K) (pts : List (List K × K)) (V : Nat → K) : K :=
  (pts.map (bodyWorkAt pi c gps m thickness coords V)).sum

/-- `∫ ρ U · V` by the quadrature of the element. -/
def massForm (dim : Nat) (c : Code) (gps : Nat) (rho : List K → K) (coords : Nat → Nat → K) (pts : List (List K × K)) (U V : Nat → K) : K :=
  (pts.map fun p => (geometryAt c gps coords p.1).det * p.2 * rho p.1 * ∑ d ∈ Finset.range dim, fieldAt c gps U p.1 d * fieldAt c gps V p.1 d).sum

/-- `∫ t ρ c T V`: the heat stored in the volume of a plate with its thickness, or of a body. -/
def heatForm (c : Code) (gps : Nat) (density capacity : List K → K) (thickness : Nat → K) (coords : Nat → Nat → K) (pts : List (List K × K)) (T V : Nat → K) : K :=
  (pts.map fun p => thickAt c gps thickness p.1 * (geometryAt c gps coords p.1).det * p.2 * density p.1 * capacity p.1 *
    ((∑ n ∈ Finset.range (nodes c), valueOf (tabAt c gps p.1) n * T n) * ∑ n ∈ Finset.range (nodes c), valueOf (tabAt c gps p.1) n * V n)).sum

/-- The tangents of a boundary element. -/
def tangentAt (c : Code) (gps : Nat) (coords : Nat → Nat → K) (p : List K) (j i : Nat) : K :=
  ∑ n ∈ Finset.range (nodes c), slopeOf (tabAt c gps p) n j * coords n i

/-- The vector of the surface around a point, into the body: the tangent of an edge turned to the left (the body is on the left side of its edges), the opposite
of the cross product of the tangents of a face (the faces of a body turn left seen from outside). -/
def inwardAt (ndim : Nat) (c : Code) (gps : Nat) (coords : Nat → Nat → K) (p : List K) (d : Nat) : K :=
  let t := tangentAt c gps coords p
  if ndim = 2 then (match d with | 0 => -t 0 1 | _ => t 0 0)
  else -(match d with
    | 0 => t 0 1 * t 1 2 - t 0 2 * t 1 1
    | 1 => t 0 2 * t 1 0 - t 0 0 * t 1 2
    | _ => t 0 0 * t 1 1 - t 0 1 * t 1 0)

/-- The way around the axis. -/
def aroundAt (pi : K) (ndim : Nat) (b : Behaviour) (c : Code) (gps : Nat) (coords : Nat → Nat → K) (p : List K) : K :=
  if ndim = 2 ∧ b = .axisymmetric then 2 * pi * placeAt c gps coords p 0 else 1

/-- The work of the pressures around a point: the normal pressure pushes into the body, the other one to its direction. -/
def pushWorkAt (sqrt : K → K) (pi : K) (ndim : Nat) (c : Code) (gps : Nat) (l : Push K) (coords : Nat → Nat → K) (V : Nat → K) (p : List K × K) : K :=
  let x := placeAt c gps coords p.1
  let n := inwardAt ndim c gps coords p.1
  aroundAt pi ndim l.behaviour c gps coords p.1 * p.2 * ∑ d ∈ Finset.range ndim,
    (l.normalPressure x * n d + l.pressure x * sqrt (∑ i ∈ Finset.range ndim, n i ^ 2) * l.direction x d) * fieldAt c gps V p.1 d

/-- The work of the pressures on a boundary element. -/
def pushWork (sqrt : K → K) (pi : K) (ndim : Nat) (c : Code) (gps : Nat) (l : Push K) (coords : Nat → Nat → K) (pts : List (List K × K)) (V : Nat → K) : K :=
  (pts.map (pushWorkAt sqrt pi ndim c gps l coords V)).sum

end Verif.Fem
