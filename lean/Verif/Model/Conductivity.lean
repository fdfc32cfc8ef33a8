import Verif.Model.ElementLoop
import Verif.Base.Mem
/-!
The element matrix of the heat transfer: `ConductivityKernel` (`src/analysis/assembler/heattransfer/op.conductivity.h`), `MatrixConductivityKernel`
(`heattransfer/op.matrix.conductivity.h`) and the loop over the integration points of `runElementKernel` (`heattransfer/kernel.h:327-369`).

Simplifications: one lane of the SIMD vectors; exact arithmetic; the arrays of fixed size that are only read are functions of their indices, the
matrix `K[nodes * nodes]` is a list with checked indices; the values of the expressions (`ecf.conductivity`, the cosines and sines of the rotation) are
functions of the integration point; the thickness is interpolated in every point (the code does it once if it is constant).
-/
namespace Verif.Fem

variable {K : Type} [Field K] [DecidableEq K]

/-- `A[i] = A[i] + v`. -/
def addTo (A : List K) (i : Nat) (v : K) : Option (List K) := do
  let x ← A[i]?
  wr A i (x + v)

/-- The loops that compute the upper triangle and mirror it (op.matrix.conductivity.h:45-57, 64-78, 85-99, 134-148, 156-173, 181-198,
op.matrix.mass.h:41-48). -/
def addMirrored (nodes : Nat) (k : Nat → Nat → K) (A : List K) : Option (List K) :=
  (List.range nodes).foldlM (fun A n => do
    let A ← addTo A (n * nodes + n) (k n n)
    (List.range' (n + 1) (nodes - (n + 1))).foldlM (fun A m => do
      let A ← addTo A (n * nodes + m) (k n m)
      addTo A (m * nodes + n) (k n m)) A) A

/-- The loops over all entries (op.matrix.conductivity.h:106-117, 206-220, op.advection.h:60-65, 103-108). -/
def addFull (nodes : Nat) (k : Nat → Nat → K) (A : List K) : Option (List K) :=
  (List.range nodes).foldlM (fun A n => (List.range nodes).foldlM (fun A m => addTo A (n * nodes + m) (k n m)) A) A

/-- `ThermalConductivityConfiguration::MODEL` (config/ecf/material/thermalconductivity.h). -/
inductive Conduct
  | isotropic
  | diagonal
  | symmetric
  | anisotropic
deriving DecidableEq, Repr

/-- The model of the matrix of a rotated material (heattransfer.cpp:250-259). -/
def Conduct.rotated : Conduct → Conduct
  | .isotropic => .isotropic
  | .diagonal => .symmetric
  | .symmetric => .symmetric
  | .anisotropic => .anisotropic

/-- `MatrixConductivityKernel<nodes, 2>::simd` (op.matrix.conductivity.h:39-120). -/
def matrixConductivity2 (model : Conduct) (nodes : Nat) (thickness det w : K) (c : Nat → K) (dND : Nat → Nat → K) (A : List K) : Option (List K) :=
  match model with
  | .isotropic =>
    let scale := thickness * det * w * c 0
    addMirrored nodes (fun n m => scale * (dND n 0 * dND m 0 + dND n 1 * dND m 1)) A
  | .diagonal =>
    let scale := thickness * det * w
    addMirrored nodes (fun n m =>
      let a := c 0 * dND n 0
      let b := c 3 * dND n 1
      scale * (a * dND m 0 + b * dND m 1)) A
  | .symmetric =>
    let scale := thickness * det * w
    addMirrored nodes (fun n m =>
      let a := dND n 0 * c 0 + dND n 1 * c 1
      let b := dND n 0 * c 1 + dND n 1 * c 3
      scale * (a * dND m 0 + b * dND m 1)) A
  | .anisotropic =>
    let scale := thickness * det * w
    addFull nodes (fun n m =>
      let a := dND n 0 * c 0 + dND n 1 * c 2
      let b := dND n 0 * c 1 + dND n 1 * c 3
      scale * (a * dND m 0 + b * dND m 1)) A

/-- `MatrixConductivityKernel<nodes, 3>::simd` (op.matrix.conductivity.h:128-223). -/
def matrixConductivity3 (model : Conduct) (nodes : Nat) (det w : K) (c : Nat → K) (dND : Nat → Nat → K) (A : List K) : Option (List K) :=
  match model with
  | .isotropic =>
    let scale := det * w * c 0
    addMirrored nodes (fun n m => scale * (dND n 0 * dND m 0 + dND n 1 * dND m 1 + dND n 2 * dND m 2)) A
  | .diagonal =>
    let scale := det * w
    addMirrored nodes (fun n m =>
      let a := c 0 * dND n 0
      let b := c 4 * dND n 1
      let e := c 8 * dND n 2
      scale * (a * dND m 0 + b * dND m 1 + e * dND m 2)) A
  | .symmetric =>
    let scale := det * w
    addMirrored nodes (fun n m =>
      let a := dND n 0 * c 0 + dND n 1 * c 1 + dND n 2 * c 2
      let b := dND n 0 * c 1 + dND n 1 * c 4 + dND n 2 * c 5
      let e := dND n 0 * c 2 + dND n 1 * c 5 + dND n 2 * c 8
      scale * (a * dND m 0 + b * dND m 1 + e * dND m 2)) A
  | .anisotropic =>
    let scale := det * w
    addFull nodes (fun n m =>
      let a := dND n 0 * c 0 + dND n 1 * c 3 + dND n 2 * c 6
      let b := dND n 0 * c 1 + dND n 1 * c 4 + dND n 2 * c 7
      let e := dND n 0 * c 2 + dND n 1 * c 5 + dND n 2 * c 8
      scale * (a * dND m 0 + b * dND m 1 + e * dND m 2)) A

/-- `MatrixConductivityKernel<nodes, ndim>`. -/
def matrixConductivity (dim : Nat) (model : Conduct) (nodes : Nat) (thickness det w : K) (c : Nat → K) (dND : Nat → Nat → K) (A : List K) :
    Option (List K) :=
  match dim with
  | 2 => matrixConductivity2 model nodes thickness det w c dND A
  | 3 => matrixConductivity3 model nodes det w c dND A
  | _ => none

/-- `ConductivityKernel<2>::simd` (op.conductivity.h:50-103): `rot` is `rotation.cossin`, `old` is `conductivity` before the call. -/
def conductivity2 (rotated : Bool) (model : Conduct) (ecf rot old : Nat → K) : Nat → K :=
  if rotated then
    let cos := rot 0
    let sin := rot 1
    match model with
    | .isotropic => old
    | .diagonal =>
      let c00 := ecf 0
      let c11 := ecf 3
      fun i => match i with
        | 0 => (cos * c00) * cos + (sin * c11) * sin
        | 1 => (cos * c00) * sin - (sin * c11) * cos
        | 3 => (sin * c00) * sin + (cos * c11) * cos
        | i => old i
    | .symmetric =>
      let c00 := ecf 0
      let c01 := ecf 1
      let c11 := ecf 3
      fun i => match i with
        | 0 => (cos * c00 - sin * c01) * cos - (cos * c01 - sin * c11) * sin
        | 1 => (cos * c00 - sin * c01) * sin + (cos * c01 - sin * c11) * cos
        | 3 => (sin * c00 + cos * c01) * sin + (sin * c01 + cos * c11) * cos
        | i => old i
    | .anisotropic =>
      let c00 := ecf 0
      let c10 := ecf 2
      let c01 := ecf 1
      let c11 := ecf 3
      fun i => match i with
        | 0 => (cos * c00 - sin * c10) * cos - (cos * c01 - sin * c11) * sin
        | 1 => (cos * c00 - sin * c10) * sin + (cos * c01 - sin * c11) * cos
        | 2 => (sin * c00 + cos * c10) * cos - (sin * c01 + cos * c11) * sin
        | 3 => (sin * c00 + cos * c10) * sin + (sin * c01 + cos * c11) * cos
        | i => old i
  else ecf

/-- `ConductivityKernel<3>::simd` (op.conductivity.h:117-257). -/
def conductivity3 (rotated : Bool) (model : Conduct) (ecf rot old : Nat → K) : Nat → K :=
  if rotated then
    let cos0 := rot 0
    let cos1 := rot 1
    let cos2 := rot 2
    let sin0 := rot 3
    let sin1 := rot 4
    let sin2 := rot 5
    let t00 := cos1 * cos2
    let t01 := cos1 * sin2
    let t02 := -sin1
    let t10 := cos2 * sin0 * sin1 - cos0 * sin2
    let t11 := cos0 * cos2 + sin0 * sin1 * sin2
    let t12 := cos1 * sin0
    let t20 := sin0 * sin2 + cos0 * cos2 * sin1
    let t21 := cos0 * sin1 * sin2 - cos2 * sin0
    let t22 := cos0 * cos1
    match model with
    | .isotropic => old
    | .diagonal =>
      let c00 := ecf 0
      let c11 := ecf 4
      let c22 := ecf 8
      fun i => match i with
        | 0 => t00 * c00 * t00 + t10 * c11 * t10 + t20 * c22 * t20
        | 1 => t00 * c00 * t01 + t10 * c11 * t11 + t20 * c22 * t21
        | 2 => t00 * c00 * t02 + t10 * c11 * t12 + t20 * c22 * t22
        | 4 => t01 * c00 * t01 + t11 * c11 * t11 + t21 * c22 * t21
        | 5 => t01 * c00 * t02 + t11 * c11 * t12 + t21 * c22 * t22
        | 8 => t02 * c00 * t02 + t12 * c11 * t12 + t22 * c22 * t22
        | i => old i
    | .symmetric =>
      let c00 := ecf 0
      let c01 := ecf 1
      let c11 := ecf 4
      let c02 := ecf 2
      let c12 := ecf 5
      let c22 := ecf 8
      let a0 := t00 * c00 + t10 * c01 + t20 * c02
      let b0 := t00 * c01 + t10 * c11 + t20 * c12
      let e0 := t00 * c02 + t10 * c12 + t20 * c22
      let a1 := t01 * c00 + t11 * c01 + t21 * c02
      let b1 := t01 * c01 + t11 * c11 + t21 * c12
      let e1 := t01 * c02 + t11 * c12 + t21 * c22
      let a2 := t02 * c00 + t12 * c01 + t22 * c02
      let b2 := t02 * c01 + t12 * c11 + t22 * c12
      let e2 := t02 * c02 + t12 * c12 + t22 * c22
      fun i => match i with
        | 0 => a0 * t00 + b0 * t10 + e0 * t20
        | 1 => a0 * t01 + b0 * t11 + e0 * t21
        | 2 => a0 * t02 + b0 * t12 + e0 * t22
        | 4 => a1 * t01 + b1 * t11 + e1 * t21
        | 5 => a1 * t02 + b1 * t12 + e1 * t22
        | 8 => a2 * t02 + b2 * t12 + e2 * t22
        | i => old i
    | .anisotropic =>
      let c00 := ecf 0
      let c10 := ecf 3
      let c20 := ecf 6
      let c01 := ecf 1
      let c11 := ecf 4
      let c21 := ecf 7
      let c02 := ecf 2
      let c12 := ecf 5
      let c22 := ecf 8
      let a0 := t00 * c00 + t10 * c10 + t20 * c20
      let b0 := t00 * c01 + t10 * c11 + t20 * c21
      let e0 := t00 * c02 + t10 * c12 + t20 * c22
      let a1 := t01 * c00 + t11 * c10 + t21 * c20
      let b1 := t01 * c01 + t11 * c11 + t21 * c21
      let e1 := t01 * c02 + t11 * c12 + t21 * c22
      let a2 := t02 * c00 + t12 * c10 + t22 * c20
      let b2 := t02 * c01 + t12 * c11 + t22 * c21
      let e2 := t02 * c02 + t12 * c12 + t22 * c22
      fun i => match i with
        | 0 => a0 * t00 + b0 * t10 + e0 * t20
        | 1 => a0 * t01 + b0 * t11 + e0 * t21
        | 2 => a0 * t02 + b0 * t12 + e0 * t22
        | 3 => a1 * t00 + b1 * t10 + e1 * t20
        | 4 => a1 * t01 + b1 * t11 + e1 * t21
        | 5 => a1 * t02 + b1 * t12 + e1 * t22
        | 6 => a2 * t00 + b2 * t10 + e2 * t20
        | 7 => a2 * t01 + b2 * t11 + e2 * t21
        | 8 => a2 * t02 + b2 * t12 + e2 * t22
        | i => old i
  else ecf

/-- `ConductivityKernel<ndim>`. -/
def conductivity (dim : Nat) (rotated : Bool) (model : Conduct) (ecf rot old : Nat → K) : Nat → K :=
  match dim with
  | 2 => conductivity2 rotated model ecf rot old
  | _ => conductivity3 rotated model ecf rot old

/-- The material of an element: `Conductivity::activate` (op.conductivity.h:20-29): the isotropic material is never rotated; the values of the
expressions in the points of the reference element. -/
structure Material (K : Type) where
  model : Conduct
  isRotated : Bool
  ecf : List K → Nat → K
  cossin : List K → Nat → K

/-- `rotated` (op.conductivity.h:26). -/
def Material.rotated (m : Material K) : Bool := m.isRotated && decide (m.model ≠ .isotropic)

/-- The model given to the matrix (heattransfer.cpp:250-260). -/
def Material.matrixModel (m : Material K) : Conduct := if m.rotated then m.model.rotated else m.model

/-- `ThicknessToGp::simd` (op.thickness.h:57-63). -/
def thicknessAt (nodes : Nat) (tab : List (K × List K)) (thickness : Nat → K) : K :=
  (List.range nodes).foldl (fun s n => s + valueOf tab n * thickness n) 0

/-- The matrix `element.K` of one element (heattransfer/kernel.h:327-369) without advection; `old` is the initial content of `conductivity`. -/
def elementConductivity (sqrt : K → K) (c : Code) (gps : Nat) (m : Material K) (thickness : Nat → K) (old : Nat → K) (coords : Nat → Nat → K) :
    Option (List K) := do
  let pts ← rulePoints sqrt c gps
  let (A, _) ← pts.foldlM (fun (A, cond) p => do
    let tab ← setAt c gps p.1
    let g ← integrate (edim c) (nodes c) (slopeOf tab) coords
    let cond := conductivity (edim c) m.rotated m.model (m.ecf p.1) (m.cossin p.1) cond
    let A ← matrixConductivity (edim c) m.matrixModel (nodes c) (thicknessAt (nodes c) tab thickness) g.det p.2 cond g.dND A
    pure (A, cond)) (List.replicate (nodes c * nodes c) 0, old)
  pure A

end Verif.Fem
