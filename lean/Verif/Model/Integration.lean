import Verif.Model.BaseFunctions
/-!
The Jacobian of an element and the derivatives by the coordinates of the mesh: `IntegrationKernel`
(`src/analysis/assembler/general/op.integration.h`) with `inv22`, `inv33` (`general/math.h`).

Simplifications: one lane of the SIMD vectors (the lanes are independent); exact arithmetic; the arrays of fixed size are functions of
their indices (`dN n d`, `coords n d`, `dND n d` for `dND[n * ndim + d]`); a division by zero (an infinity or NaN in the code) gives `none`.
-/
namespace Verif.Fem

variable {K : Type} [Field K] [DecidableEq K]

/-- A matrix `SIMD[4]`, row by row. -/
@[ext]
structure M22 (K : Type) where
  (a0 a1 a2 a3 : K)
deriving DecidableEq, Repr

/-- A matrix `SIMD[9]`, row by row. -/
@[ext]
structure M33 (K : Type) where
  (a0 a1 a2 a3 a4 a5 a6 a7 a8 : K)
deriving DecidableEq, Repr

/-- `determinant22` (math.h:122-125). -/
def det22 (J : M22 K) : K := J.a0 * J.a3 - J.a1 * J.a2

/-- `inv22` (math.h:127-135). -/
def inv22 (A : M22 K) : Option (K × M22 K) :=
  let det := det22 A
  if det = 0 then none else
    let scale := 1 / det
    some (det, ⟨scale * A.a3, -scale * A.a1, -scale * A.a2, scale * A.a0⟩)

/-- `determinant33` (math.h:142-147). -/
def det33 (J : M33 K) : K :=
  J.a0 * J.a4 * J.a8 + J.a1 * J.a5 * J.a6 + J.a2 * J.a3 * J.a7
    - J.a2 * J.a4 * J.a6 - J.a1 * J.a3 * J.a8 - J.a0 * J.a5 * J.a7

/-- `inv33` (math.h:149-162). -/
def inv33 (A : M33 K) : Option (K × M33 K) :=
  let det := det33 A
  if det = 0 then none else
    let scale := 1 / det
    some (det, {
      a0 := scale * (A.a8 * A.a4 - A.a7 * A.a5)
      a1 := scale * (-A.a8 * A.a1 + A.a7 * A.a2)
      a2 := scale * (A.a5 * A.a1 - A.a4 * A.a2)
      a3 := scale * (-A.a8 * A.a3 + A.a6 * A.a5)
      a4 := scale * (A.a8 * A.a0 - A.a6 * A.a2)
      a5 := scale * (-A.a5 * A.a0 + A.a3 * A.a2)
      a6 := scale * (A.a7 * A.a3 - A.a6 * A.a4)
      a7 := scale * (-A.a7 * A.a0 + A.a6 * A.a1)
      a8 := scale * (A.a4 * A.a0 - A.a3 * A.a1) })

/-- The loop over the nodes (op.integration.h:28-40). -/
def jacobian2 (nodes : Nat) (dN coords : Nat → Nat → K) : M22 K :=
  (List.range nodes).foldl (fun J n =>
    let coordsX := coords n 0
    let coordsY := coords n 1
    let dNX := dN n 0
    let dNY := dN n 1
    { a0 := J.a0 + dNX * coordsX
      a2 := J.a2 + dNX * coordsY
      a1 := J.a1 + dNY * coordsX
      a3 := J.a3 + dNY * coordsY }) ⟨0, 0, 0, 0⟩

/-- The loop over the nodes (op.integration.h:114-132). -/
def jacobian3 (nodes : Nat) (dN coords : Nat → Nat → K) : M33 K :=
  (List.range nodes).foldl (fun J n =>
    let coordsX := coords n 0
    let coordsY := coords n 1
    let coordsZ := coords n 2
    let dNX := dN n 0
    let dNY := dN n 1
    let dNZ := dN n 2
    { a0 := J.a0 + dNX * coordsX
      a3 := J.a3 + dNX * coordsY
      a6 := J.a6 + dNX * coordsZ
      a1 := J.a1 + dNY * coordsX
      a4 := J.a4 + dNY * coordsY
      a7 := J.a7 + dNY * coordsZ
      a2 := J.a2 + dNZ * coordsX
      a5 := J.a5 + dNZ * coordsY
      a8 := J.a8 + dNZ * coordsZ }) ⟨0, 0, 0, 0, 0, 0, 0, 0, 0⟩

/-- The determinant and the derivatives `dND n d` of an element in a point. -/
structure Geometry (K : Type) where
  det : K
  dND : Nat → Nat → K

/-- `IntegrationKernel<nodes, 2, 2>::coords` (op.integration.h:26-50); `coordsInNodes` (80-104) is the same with `dNN[node]`. -/
def integrate2 (nodes : Nat) (dN coords : Nat → Nat → K) : Option (Geometry K) := do
  let (det, invJ) ← inv22 (jacobian2 nodes dN coords)
  pure {
    det := det
    dND := fun n d =>
      let dNX := dN n 0
      let dNY := dN n 1
      match d with
      | 0 => invJ.a0 * dNX + invJ.a2 * dNY
      | _ => invJ.a1 * dNX + invJ.a3 * dNY }

/-- `IntegrationKernel<nodes, 3, 3>::coords` (op.integration.h:112-144); `coordsInNodes` (182-214) is the same with `dNN[node]`. -/
def integrate3 (nodes : Nat) (dN coords : Nat → Nat → K) : Option (Geometry K) := do
  let (det, invJ) ← inv33 (jacobian3 nodes dN coords)
  pure {
    det := det
    dND := fun n d =>
      let dNX := dN n 0
      let dNY := dN n 1
      let dNZ := dN n 2
      match d with
      | 0 => invJ.a0 * dNX + invJ.a3 * dNY + invJ.a6 * dNZ
      | 1 => invJ.a1 * dNX + invJ.a4 * dNY + invJ.a7 * dNZ
      | _ => invJ.a2 * dNX + invJ.a5 * dNY + invJ.a8 * dNZ }

/-- `IntegrationKernel<nodes, ndim, edim>` of an element of the mesh (`ndim = edim`). -/
def integrate (dim nodes : Nat) (dN coords : Nat → Nat → K) : Option (Geometry K) :=
  match dim with
  | 2 => integrate2 nodes dN coords
  | 3 => integrate3 nodes dN coords
  | _ => none

/-- `displacement` (op.integration.h:53-77, 147-179): the same in the deformed coordinates. -/
def integrateMoved (dim nodes : Nat) (dN coords displacement : Nat → Nat → K) : Option (Geometry K) :=
  integrate dim nodes dN fun n d => coords n d + displacement n d

/-- The determinant and the normal of a boundary element. -/
structure Surface (K : Type) where
  det : K
  normal : Nat → K

/-- `IntegrationKernel<nodes, 3, 2>::coords` (op.integration.h:222-250), with the square root as a parameter. -/
def face3 (sqrt : K → K) (nodes : Nat) (dN coords : Nat → Nat → K) : Option (Surface K) :=
  let D := (List.range nodes).foldl (fun (D : K × K × K × K × K × K) n =>
    let coordsX := coords n 0
    let coordsY := coords n 1
    let coordsZ := coords n 2
    let dNX := dN n 0
    let dNY := dN n 1
    (D.1 + dNX * coordsX, D.2.1 + dNX * coordsY, D.2.2.1 + dNX * coordsZ,
      D.2.2.2.1 + dNY * coordsX, D.2.2.2.2.1 + dNY * coordsY, D.2.2.2.2.2 + dNY * coordsZ)) (0, 0, 0, 0, 0, 0)
  let (dND0, dND1, dND2, dND3, dND4, dND5) := D
  let x := dND1 * dND5 - dND2 * dND4
  let y := dND2 * dND3 - dND0 * dND5
  let z := dND0 * dND4 - dND1 * dND3
  let det := sqrt (x * x + y * y + z * z)
  if det = 0 then none else
    some { det := det, normal := fun d => match d with | 0 => x / det | 1 => y / det | _ => z / det }

/-- `IntegrationKernel<nodes, 2, 1>::coords` (op.integration.h:284-302). -/
def edge2 (sqrt : K → K) (nodes : Nat) (dN coords : Nat → Nat → K) : Option (Surface K) :=
  let D := (List.range nodes).foldl (fun (D : K × K) n =>
    let coordsX := coords n 0
    let coordsY := coords n 1
    let dNX := dN n 0
    (D.1 + dNX * coordsX, D.2 + dNX * coordsY)) (0, 0)
  let (dND0, dND1) := D
  let det := sqrt (dND0 * dND0 + dND1 * dND1)
  if det = 0 then none else
    some { det := det, normal := fun d => match d with | 0 => -dND1 / det | _ => dND0 / det }

/-- `IntegrationKernel<nodes, 3, 1>::coords` (op.integration.h:258-276): the determinant. -/
def edge3 (sqrt : K → K) (nodes : Nat) (dN coords : Nat → Nat → K) : K :=
  let D := (List.range nodes).foldl (fun (D : K × K × K) n =>
    let coordsX := coords n 0
    let coordsY := coords n 1
    let coordsZ := coords n 2
    let dNX := dN n 0
    (D.1 + dNX * coordsX, D.2.1 + dNX * coordsY, D.2.2 + dNX * coordsZ)) (0, 0, 0)
  let (dND0, dND1, dND2) := D
  sqrt (dND0 * dND0 + dND1 * dND1 + dND2 * dND2)

end Verif.Fem
