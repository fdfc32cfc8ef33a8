import Verif.Model.Conductivity
import Mathlib.Data.Matrix.Mul
import Mathlib.LinearAlgebra.Matrix.Notation
/-!
What the element matrix of the heat conduction should be.
-/
namespace Verif.Fem

variable {K : Type} [Field K] [DecidableEq K]

/-- The tensor of a material given by the values of the expressions (row by row; the comments of op.conductivity.h:52-53, 119-121). -/
def tensorOf (d : Nat) (model : Conduct) (c : Nat → K) : Matrix (Fin d) (Fin d) K :=
  match model with
  | .isotropic => fun i j => if i = j then c 0 else 0
  | .diagonal => fun i j => if i = j then c (i * d + i) else 0
  | .symmetric => fun i j => c (min (i : Nat) j * d + max (i : Nat) j)
  | .anisotropic => fun i j => c (i * d + j)

/-- The rotation by the angle with the given cosine and sine. -/
def rotation2 (rot : Nat → K) : Matrix (Fin 2) (Fin 2) K := !![rot 0, -rot 1; rot 1, rot 0]

/-- The rotation by the first angle around `x`, then by the second around `y`, then by the third around `z`. -/
def rotation3 (rot : Nat → K) : Matrix (Fin 3) (Fin 3) K :=
  !![rot 2, -rot 5, 0; rot 5, rot 2, 0; 0, 0, 1] * (!![rot 1, 0, rot 4; 0, 1, 0; -rot 4, 0, rot 1] * !![1, 0, 0; 0, rot 0, -rot 3; 0, rot 3, rot 0])

/-- The tensor in the coordinates of the mesh: turned with the coordinate system of the material. -/
def Material.tensor (m : Material K) (d : Nat) (p : List K) : Matrix (Fin d) (Fin d) K :=
  if m.rotated then
    match d with
    | 2 => rotation2 (m.cossin p) * tensorOf 2 m.model (m.ecf p) * (rotation2 (m.cossin p)).transpose
    | 3 => rotation3 (m.cossin p) * tensorOf 3 m.model (m.ecf p) * (rotation3 (m.cossin p)).transpose
    | d => tensorOf d m.model (m.ecf p)
  else tensorOf d m.model (m.ecf p)

/-- The table of the functions in a point. -/
def tabAt (c : Code) (gps : Nat) (p : List K) : List (K × List K) := (setAt c gps p).getD []

/-- The geometry of an element in a point. -/
def geometryAt (c : Code) (gps : Nat) (coords : Nat → Nat → K) (p : List K) : Geometry K :=
  (integrate (edim c) (nodes c) (slopeOf (tabAt c gps p)) coords).getD ⟨0, fun _ _ => 0⟩

/-- The gradient of nodal values in a point of an element. -/
def gradientAt (c : Code) (gps : Nat) (coords : Nat → Nat → K) (u : Nat → K) (p : List K) (i : Fin (edim c)) : K :=
  ∑ n ∈ Finset.range (nodes c), u n * (geometryAt c gps coords p).dND n i

/-- The thickness in a point: only plane elements have one. -/
def thickAt (c : Code) (gps : Nat) (thickness : Nat → K) (p : List K) : K :=
  if edim c = 2 then ∑ n ∈ Finset.range (nodes c), valueOf (tabAt c gps p) n * thickness n else 1

/-- `∫ t ∇S · C ∇T` by the quadrature of the element. -/
def conductionForm (c : Code) (gps : Nat) (m : Material K) (thickness : Nat → K) (coords : Nat → Nat → K) (pts : List (List K × K)) (S T : Nat → K) : K :=
  (pts.map fun p => thickAt c gps thickness p.1 * (geometryAt c gps coords p.1).det * p.2 *
    ∑ i, ∑ j, gradientAt c gps coords S p.1 i * m.tensor (edim c) p.1 i j * gradientAt c gps coords T p.1 j).sum

end Verif.Fem
