import Verif.Model.Conductivity
/-!
The element matrix of the structural mechanics: `MaterialStructuralMechanicsKernel` for the Kirchhoff material
(`src/analysis/assembler/structuralmechanics/op.material.h:79-153, 325-372, 665-671`), `MatrixElasticityKernel`
(`structuralmechanics/op.matrix.elasticity.h`), the products of `general/math.h:18-111` and the loop over the integration points of `runElementKernel`
(`structuralmechanics/kernel.h:405-450`).

Simplifications: one lane of the SIMD vectors; exact arithmetic; arrays that are only read are functions of their indices, arrays that are written in
loops (`B`, `BL`, `KS`, `K`, `nf`) are lists with checked indices; the default constructor of a SIMD vector is zero; a division by zero is `none` (the code
goes on with infinity); the values of the expressions (`youngModulus[0]`, `poissonRatio[0]`) are functions of the integration point; the thickness is
interpolated in every point.
-/
namespace Verif.Fem

variable {K : Type} [Field K] [DecidableEq K]

/-- `res = 0; for (k = 0; k < n; ++k) res = res + f(k)`. -/
def sumLoop (n : Nat) (f : Nat → K) : K := (List.range n).foldl (fun s k => s + f k) 0

/-- `multAB` with one column (math.h:18-29): the result for a target that is zero and the scale one. -/
def multAB1 (common : Nat) (A B : Nat → K) (r : Nat) : K := 0 + 1 * sumLoop common fun k => A (r * common + k) * B k

/-- `multAtB<n, n, n>` of square matrices (math.h:32-43): the entry `(r, c)` for a target that is zero and the scale one. -/
def multAtBEntry (n : Nat) (A B : Nat → K) (r c : Nat) : K := 0 + 1 * sumLoop n fun k => A (k * n + r) * B (k * n + c)

/-- `multAtB<rows, common, 1>` (math.h:32-43). -/
def multAtB1 (rows common : Nat) (C : List K) (A B : Nat → K) (scale : K) : Option (List K) :=
  (List.range rows).foldlM (fun C r => addTo C r (scale * sumLoop common fun k => A (k * rows + r) * B k)) C

/-- `multAtBA` (math.h:74-91). -/
def multAtBA (rows cols : Nat) (C : List K) (A B : Nat → K) (scale : K) : Option (List K) :=
  (List.range cols).foldlM (fun C r =>
    let AtB := fun i => sumLoop rows fun j => A (j * cols + r) * B (j * rows + i)
    (List.range cols).foldlM (fun C c => addTo C (r * cols + c) (scale * sumLoop rows fun k => AtB k * A (k * cols + c))) C) C

/-- `multABAt` (math.h:94-111). -/
def multABAt (rows cols : Nat) (C : List K) (A B : Nat → K) (scale : K) : Option (List K) :=
  (List.range rows).foldlM (fun C n =>
    let AB := fun j => sumLoop cols fun i => A (n * cols + i) * B (i * cols + j)
    (List.range rows).foldlM (fun C m => addTo C (n * rows + m) (scale * sumLoop cols fun k => AB k * A (m * cols + k))) C) C

/-- A sequence of assignments `A[i] = v`. -/
def assign (l : List (Nat × K)) (A : List K) : Option (List K) := l.foldlM (fun A p => wr A p.1 p.2) A

/-- `StructuralMechanicsGlobalSettings::ELEMENT_BEHAVIOUR`. -/
inductive Behaviour
  | planeStrain
  | planeStress
  | planeStressThickness
  | axisymmetric
deriving DecidableEq, Repr

/-- `B` of plane elements (op.matrix.elasticity.h:74-79). -/
def strain2 (nodes : Nat) (dND : Nat → Nat → K) : Option (List K) :=
  assign ((List.range nodes).flatMap fun n => [
    (0 * 2 * nodes + 0 * nodes + n, dND n 0),
    (1 * 2 * nodes + 1 * nodes + n, dND n 1),
    (2 * 2 * nodes + 0 * nodes + n, dND n 1), (2 * 2 * nodes + 1 * nodes + n, dND n 0)]) (List.replicate (3 * 2 * nodes) 0)

/-- `B` of axisymmetric elements (op.matrix.elasticity.h:91-97). -/
def strainAxi (nodes : Nat) (N : Nat → K) (radius : K) (dND : Nat → Nat → K) : Option (List K) :=
  if radius = 0 then none else
  assign ((List.range nodes).flatMap fun n => [
    (0 * 2 * nodes + 0 * nodes + n, dND n 0),
    (1 * 2 * nodes + 1 * nodes + n, dND n 1),
    (2 * 2 * nodes + 0 * nodes + n, N n / radius),
    (3 * 2 * nodes + 0 * nodes + n, dND n 1), (3 * 2 * nodes + 1 * nodes + n, dND n 0)]) (List.replicate (4 * 2 * nodes) 0)

/-- `B` in space (op.matrix.elasticity.h:144-152). -/
def strain3 (nodes : Nat) (dND : Nat → Nat → K) : Option (List K) :=
  assign ((List.range nodes).flatMap fun n => [
    (0 * 3 * nodes + 0 * nodes + n, dND n 0),
    (1 * 3 * nodes + 1 * nodes + n, dND n 1),
    (2 * 3 * nodes + 2 * nodes + n, dND n 2),
    (3 * 3 * nodes + 0 * nodes + n, dND n 1), (3 * 3 * nodes + 1 * nodes + n, dND n 0),
    (4 * 3 * nodes + 1 * nodes + n, dND n 2), (4 * 3 * nodes + 2 * nodes + n, dND n 1),
    (5 * 3 * nodes + 0 * nodes + n, dND n 2), (5 * 3 * nodes + 2 * nodes + n, dND n 0)]) (List.replicate (6 * 3 * nodes) 0)

/-- `BL` of plane elements (op.matrix.elasticity.h:49-56). -/
def green2 (nodes : Nat) (F : Nat → K) (dND : Nat → Nat → K) : Option (List K) :=
  assign ((List.range nodes).flatMap fun n => (List.range 2).flatMap fun j => [
    (0 * 2 * nodes + n + j * nodes, F (j * 2 + 0) * dND n 0),
    (1 * 2 * nodes + n + j * nodes, F (j * 2 + 1) * dND n 1),
    (2 * 2 * nodes + n + j * nodes, F (j * 2 + 0) * dND n 1 + F (j * 2 + 1) * dND n 0)]) (List.replicate (3 * 2 * nodes) 0)

/-- `BL` in space (op.matrix.elasticity.h:118-128). -/
def green3 (nodes : Nat) (F : Nat → K) (dND : Nat → Nat → K) : Option (List K) :=
  assign ((List.range nodes).flatMap fun n => (List.range 3).flatMap fun j => [
    (0 * 3 * nodes + n + j * nodes, F (j * 3 + 0) * dND n 0),
    (1 * 3 * nodes + n + j * nodes, F (j * 3 + 1) * dND n 1),
    (2 * 3 * nodes + n + j * nodes, F (j * 3 + 2) * dND n 2),
    (3 * 3 * nodes + n + j * nodes, F (j * 3 + 0) * dND n 1 + F (j * 3 + 1) * dND n 0),
    (4 * 3 * nodes + n + j * nodes, F (j * 3 + 1) * dND n 2 + F (j * 3 + 2) * dND n 1),
    (5 * 3 * nodes + n + j * nodes, F (j * 3 + 0) * dND n 2 + F (j * 3 + 2) * dND n 0)]) (List.replicate (6 * 3 * nodes) 0)

/-- `voigt3ToMatrix22` (math.h): the matrix of the vector `(11, 22, 12)`. -/
def voigt3ToMatrix22 (v : Nat → K) (i : Nat) : K :=
  match i with
  | 0 => v 0
  | 1 => v 2
  | 2 => v 2
  | 3 => v 1
  | _ => 0

/-- `voigt6ToMatrix33` (math.h): the matrix of the vector `(11, 22, 33, 12, 23, 13)`. -/
def voigt6ToMatrix33 (v : Nat → K) (i : Nat) : K :=
  match i with
  | 0 => v 0
  | 1 => v 3
  | 2 => v 5
  | 3 => v 3
  | 4 => v 1
  | 5 => v 4
  | 6 => v 5
  | 7 => v 4
  | 8 => v 2
  | _ => 0

/-- The loops that add `KS` to the diagonal blocks of `K` (op.matrix.elasticity.h:64-69, 135-141). -/
def addBlocks (dim nodes : Nat) (KS A : List K) : Option (List K) :=
  (List.range nodes).foldlM (fun A n => (List.range nodes).foldlM (fun A m => (List.range dim).foldlM (fun A d => do
    let v ← KS[n * nodes + m]?
    addTo A ((n + d * nodes) * dim * nodes + m + d * nodes) v) A) A) A

/-- The deformation gradient `F` (op.material.h:82-91, 328-338): `u n d` is `displacement[n][d]`. -/
def deformation (dim nodes : Nat) (u dND : Nat → Nat → K) (i : Nat) : K :=
  (if i / dim = i % dim then 1 else 0) + sumLoop nodes fun n => u n (i / dim) * dND n (i % dim)

/-- The right Cauchy-Green tensor `C2` (op.material.h:95-96, 342-343). -/
def cauchyGreen (dim : Nat) (F : Nat → K) (i : Nat) : K := multAtBEntry dim F F (i / dim) (i % dim)

/-- `vC4` of the Kirchhoff material in a plane (op.material.h:98-133). -/
def kirchhoff2 (b : Behaviour) (ex mi : K) : Option (Nat → K) :=
  match b with
  | .planeStrain =>
    if (1 + mi) * (1 - 2 * mi) = 0 ∨ 1 - mi = 0 ∨ 2 * (1 - mi) = 0 then none else
    let k := ex * (1 - mi) / ((1 + mi) * (1 - 2 * mi))
    some fun i => match i with
      | 0 => k
      | 4 => k
      | 3 => k * (mi / (1 - mi))
      | 1 => k * (mi / (1 - mi))
      | 8 => k * ((1 - 2 * mi) / (2 * (1 - mi)))
      | _ => 0
  | .axisymmetric =>
    if (1 + mi) * (1 - 2 * mi) = 0 then none else
    let k := ex / ((1 + mi) * (1 - 2 * mi))
    some fun i => match i with
      | 0 => k * (1 - mi)
      | 5 => k * (1 - mi)
      | 10 => k * (1 - mi)
      | 4 => k * mi
      | 1 => k * mi
      | 8 => k * mi
      | 2 => k * mi
      | 9 => k * mi
      | 6 => k * mi
      | 15 => k * (1 - 2 * mi) * (1 / 2)
      | _ => 0
  | _ =>
    if 1 - mi * mi = 0 then none else
    let k := ex / (1 - mi * mi)
    some fun i => match i with
      | 0 => k
      | 4 => k
      | 3 => k * mi
      | 1 => k * mi
      | 8 => k * ((1 - mi) * (1 / 2))
      | _ => 0

/-- `vS` of the Kirchhoff material in a plane (op.material.h:135-140). -/
def stress2 (vC4 C2 : Nat → K) (i : Nat) : K :=
  let eVec : Nat → K := fun i => match i with
    | 0 => 1 / 2 * (C2 0 - 1)
    | 1 => 1 / 2 * (C2 3 - 1)
    | _ => C2 1
  multAB1 3 vC4 eVec i

/-- The upper triangle of `vC4` of the Kirchhoff material in space (op.material.h:349-355). -/
def kirchhoff3 (lambda mu : K) (i : Nat) : K :=
  match i with
  | 0 => lambda + 2 * mu
  | 7 => lambda + 2 * mu
  | 14 => lambda + 2 * mu
  | 1 => lambda
  | 2 => lambda
  | 8 => lambda
  | 21 => mu
  | 28 => mu
  | 35 => mu
  | _ => 0

/-- `vS` of the Kirchhoff material in space (op.material.h:357-363). -/
def stress3 (lambda mu : K) (C2 : Nat → K) (i : Nat) : K :=
  let al0 := 1 / 2 * (C2 0 + C2 4 + C2 8) * lambda - mu - 1 / 2 * 3 * lambda
  match i with
  | 0 => al0 + mu * C2 0
  | 1 => al0 + mu * C2 4
  | 2 => al0 + mu * C2 8
  | 3 => mu * C2 1
  | 4 => mu * C2 5
  | 5 => mu * C2 2
  | _ => 0

/-- "make the elasticity symmetric" (op.material.h:665-671). -/
def symmetrize (c : Nat → K) (i : Nat) : K :=
  match i with
  | 6 => c 1
  | 12 => c 2
  | 13 => c 8
  | 18 => c 3
  | 19 => c 9
  | 20 => c 15
  | 24 => c 4
  | 25 => c 10
  | 26 => c 16
  | 27 => c 22
  | 30 => c 5
  | 31 => c 11
  | 32 => c 17
  | 33 => c 23
  | 34 => c 29
  | i => c i

/-- `MaterialStructuralMechanicsKernel::simd` for the Kirchhoff material: `vC4` and `vS`. -/
def kirchhoff (dim : Nat) (b : Behaviour) (ex mi : K) (C2 : Nat → K) : Option ((Nat → K) × (Nat → K)) :=
  match dim with
  | 2 => do
    let vC4 ← kirchhoff2 b ex mi
    pure (vC4, stress2 vC4 C2)
  | 3 =>
    if (1 + mi) * (1 - 2 * mi) = 0 ∨ 2 + 2 * mi = 0 then none else
    let lambda := ex * mi / ((1 + mi) * (1 - 2 * mi))
    let mu := ex / (2 + 2 * mi)
    some (symmetrize (kirchhoff3 lambda mu), stress3 lambda mu C2)
  | _ => none

/-- `MatrixElasticityKernel::simd` for small displacements (op.matrix.elasticity.h:72-80, 88-98, 143-153): `N` and `r` are the base functions and the first
coordinate of the point. -/
def matrixElasticity (dim : Nat) (b : Behaviour) (pi : K) (nodes : Nat) (N : Nat → K) (r det w : K) (vC4 : Nat → K) (dND : Nat → Nat → K) (A : List K) :
    Option (List K) :=
  match dim with
  | 2 =>
    if b = .axisymmetric then do
      let B ← strainAxi nodes N r dND
      multAtBA 4 (2 * nodes) A (fun i => (B[i]?).getD 0) vC4 (det * w * (2 * pi) * r)
    else do
      let B ← strain2 nodes dND
      multAtBA 3 (2 * nodes) A (fun i => (B[i]?).getD 0) vC4 (det * w)
  | 3 => do
    let B ← strain3 nodes dND
    multAtBA 6 (3 * nodes) A (fun i => (B[i]?).getD 0) vC4 (det * w)
  | _ => none

/-- `MatrixElasticityKernel::simd` for large displacements (op.matrix.elasticity.h:47-70, 86-87, 116-142): the matrix and the vector of the inner forces. -/
def matrixElasticityLarge (dim : Nat) (b : Behaviour) (nodes : Nat) (thickness det w : K) (F vC4 vS : Nat → K) (dND : Nat → Nat → K) (x : List K × List K) :
    Option (List K × List K) :=
  match dim with
  | 2 =>
    if b = .axisymmetric then none else do
      let BL ← green2 nodes F dND
      let scale := thickness * det * w
      let A ← multAtBA 3 (2 * nodes) x.1 (fun i => (BL[i]?).getD 0) vC4 scale
      let nf ← multAtB1 (2 * nodes) 3 x.2 (fun i => (BL[i]?).getD 0) vS scale
      let KS ← multABAt nodes 2 (List.replicate (nodes * nodes) 0) (fun i => dND (i / 2) (i % 2)) (voigt3ToMatrix22 vS) scale
      let A ← addBlocks 2 nodes KS A
      pure (A, nf)
  | 3 => do
      let BL ← green3 nodes F dND
      let scale := det * w
      let A ← multAtBA 6 (3 * nodes) x.1 (fun i => (BL[i]?).getD 0) vC4 scale
      let nf ← multAtB1 (3 * nodes) 6 x.2 (fun i => (BL[i]?).getD 0) vS scale
      let KS ← multABAt nodes 3 (List.replicate (nodes * nodes) 0) (fun i => dND (i / 3) (i % 3)) (voigt6ToMatrix33 vS) scale
      let A ← addBlocks 3 nodes KS A
      pure (A, nf)
  | _ => none

/-- `CoordinatesToGPsKernel::simd` (general/op.coordinates.h:71-82): the coordinate `d` of a point. -/
def pointCoordinate (nodes : Nat) (tab : List (K × List K)) (coords : Nat → Nat → K) (d : Nat) : K := sumLoop nodes fun n => valueOf tab n * coords n d

/-- The material of an interval: the behaviour of the elements, the modulus and the ratio in the points. -/
structure Elastic (K : Type) where
  behaviour : Behaviour
  young : List K → K
  poisson : List K → K

/-- The work of an integration point for small displacements (kernel.h:405-437). -/
def elasticityPoint (pi : K) (c : Code) (gps : Nat) (m : Elastic K) (u coords : Nat → Nat → K) (A : List K) (p : List K × K) : Option (List K) := do
  let tab ← setAt c gps p.1
  let g ← integrate (edim c) (nodes c) (slopeOf tab) coords
  let r := pointCoordinate (nodes c) tab coords 0
  let F := deformation (edim c) (nodes c) u g.dND
  let s ← kirchhoff (edim c) m.behaviour (m.young p.1) (m.poisson p.1) (cauchyGreen (edim c) F)
  matrixElasticity (edim c) m.behaviour pi (nodes c) (valueOf tab) r g.det p.2 s.1 g.dND A

/-- The matrix of an element for small displacements (kernel.h:405-450). -/
def elementElasticity (sqrt : K → K) (pi : K) (c : Code) (gps : Nat) (m : Elastic K) (u coords : Nat → Nat → K) : Option (List K) := do
  let pts ← rulePoints sqrt c gps
  pts.foldlM (elasticityPoint pi c gps m u coords) (List.replicate (edim c * nodes c * (edim c * nodes c)) 0)

/-- The work of an integration point for large displacements (kernel.h:405-437). -/
def elasticityPointLarge (c : Code) (gps : Nat) (m : Elastic K) (thickness : Nat → K) (u coords : Nat → Nat → K) (x : List K × List K) (p : List K × K) :
    Option (List K × List K) := do
  let tab ← setAt c gps p.1
  let g ← integrate (edim c) (nodes c) (slopeOf tab) coords
  let F := deformation (edim c) (nodes c) u g.dND
  let s ← kirchhoff (edim c) m.behaviour (m.young p.1) (m.poisson p.1) (cauchyGreen (edim c) F)
  matrixElasticityLarge (edim c) m.behaviour (nodes c) (thicknessAt (nodes c) tab thickness) g.det p.2 F s.1 s.2 g.dND x

/-- The matrix of an element and its inner forces for large displacements (kernel.h:405-450). -/
def elementElasticityLarge (sqrt : K → K) (c : Code) (gps : Nat) (m : Elastic K) (thickness : Nat → K) (u coords : Nat → Nat → K) :
    Option (List K × List K) := do
  let pts ← rulePoints sqrt c gps
  pts.foldlM (elasticityPointLarge c gps m thickness u coords)
    (List.replicate (edim c * nodes c * (edim c * nodes c)) 0, List.replicate (edim c * nodes c) 0)

end Verif.Fem
