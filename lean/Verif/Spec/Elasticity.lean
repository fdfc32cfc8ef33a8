import Verif.Model.Elasticity
import Verif.Spec.Conductivity
import Mathlib.LinearAlgebra.Matrix.Trace
/-!
What the element matrix and the inner forces of an elastic body should be.
-/
namespace Verif.Fem

variable {K : Type} [Field K] [DecidableEq K]

/-- The gradient of a displacement in a point: the component `j` of node `n` is stored on the position `j * nodes + n`. -/
def displacementGradient (d N : Nat) (dND : Nat → Nat → K) (U : Nat → K) : Matrix (Fin d) (Fin d) K :=
  fun j i => ∑ n ∈ Finset.range N, U (j * N + n) * dND n i

/-- The linear part of the strain in the direction `G` at the deformation gradient `F`; the strain of small displacements for `F = 1`. -/
def strainOf {ι : Type} [Fintype ι] (F G : Matrix ι ι K) : Matrix ι ι K := (1 / 2 : K) • (F.transpose * G + G.transpose * F)

/-- The Green-Lagrange strain of the deformation gradient `F`. -/
def greenStrain {ι : Type} [Fintype ι] [DecidableEq ι] (F : Matrix ι ι K) : Matrix ι ι K := (1 / 2 : K) • (F.transpose * F - 1)

/-- Hooke's law. -/
def hooke {ι : Type} [Fintype ι] [DecidableEq ι] (lambda mu : K) (e : Matrix ι ι K) : Matrix ι ι K :=
  (lambda * e.trace) • (1 : Matrix ι ι K) + (2 * mu) • e

/-- The double contraction of two tensors. -/
def contract {ι : Type} [Fintype ι] (a b : Matrix ι ι K) : K := ∑ i, ∑ j, a i j * b i j

/-- The second parameter of Lamé. -/
def lameMu (ex mi : K) : K := ex / (2 * (1 + mi))

/-- The first parameter of Lamé; with plane stress, the one of a plate that is free to contract. -/
def lameLambda (dim : Nat) (b : Behaviour) (ex mi : K) : K :=
  if dim = 2 ∧ (b = .planeStress ∨ b = .planeStressThickness) then ex * mi / ((1 + mi) * (1 - mi)) else ex * mi / ((1 + mi) * (1 - 2 * mi))

/-- The law of the material in a point. -/
def Elastic.law (m : Elastic K) (d : Nat) {ι : Type} [Fintype ι] [DecidableEq ι] (p : List K) (e : Matrix ι ι K) : Matrix ι ι K :=
  hooke (lameLambda d m.behaviour (m.young p) (m.poisson p)) (lameMu (m.young p) (m.poisson p)) e

/-- The gradient of a displacement in a point of an element. -/
def gradAt (c : Code) (gps : Nat) (coords : Nat → Nat → K) (U : Nat → K) (p : List K) : Matrix (Fin (edim c)) (Fin (edim c)) K :=
  displacementGradient (edim c) (nodes c) (geometryAt c gps coords p).dND U

/-- The strain of small displacements in a point. -/
def strainAt (c : Code) (gps : Nat) (coords : Nat → Nat → K) (U : Nat → K) (p : List K) : Matrix (Fin (edim c)) (Fin (edim c)) K :=
  strainOf 1 (gradAt c gps coords U p)

/-- `∫ σ(U) : ε(V)` by the quadrature of the element. -/
def elasticForm (c : Code) (gps : Nat) (m : Elastic K) (coords : Nat → Nat → K) (pts : List (List K × K)) (U V : Nat → K) : K :=
  (pts.map fun p => (geometryAt c gps coords p.1).det * p.2 *
    contract (m.law (edim c) p.1 (strainAt c gps coords U p.1)) (strainAt c gps coords V p.1)).sum

/-- The distance of a point of an element from the axis. -/
def radiusAt (c : Code) (gps : Nat) (coords : Nat → Nat → K) (p : List K) : K :=
  ∑ n ∈ Finset.range (nodes c), valueOf (tabAt c gps p) n * coords n 0

/-- The strain of a body of revolution: the circles around the axis get longer with the displacement from the axis. -/
def strainAround (c : Code) (gps : Nat) (coords : Nat → Nat → K) (U : Nat → K) (p : List K) : Matrix (Fin 3) (Fin 3) K :=
  let G := displacementGradient 2 (nodes c) (geometryAt c gps coords p).dND U
  !![G 0 0, (G 0 1 + G 1 0) / 2, 0;
     (G 0 1 + G 1 0) / 2, G 1 1, 0;
     0, 0, (∑ n ∈ Finset.range (nodes c), valueOf (tabAt c gps p) n * U n) / radiusAt c gps coords p]

/-- `∫ 2 π r σ(U) : ε(V)` of a body of revolution by the quadrature of the element. -/
def elasticFormAround (pi : K) (c : Code) (gps : Nat) (m : Elastic K) (coords : Nat → Nat → K) (pts : List (List K × K)) (U V : Nat → K) : K :=
  (pts.map fun p => 2 * pi * radiusAt c gps coords p.1 * (geometryAt c gps coords p.1).det * p.2 *
    contract (m.law 3 p.1 (strainAround c gps coords U p.1)) (strainAround c gps coords V p.1)).sum

/-- The deformation gradient in a point. -/
def deformationAt (c : Code) (gps : Nat) (coords : Nat → Nat → K) (u : Nat → K) (p : List K) : Matrix (Fin (edim c)) (Fin (edim c)) K :=
  1 + gradAt c gps coords u p

/-- The energy of a displacement: `∫ t ½ S : E`. -/
def strainEnergy (c : Code) (gps : Nat) (m : Elastic K) (thickness : Nat → K) (coords : Nat → Nat → K) (pts : List (List K × K)) (u : Nat → K) : K :=
  (pts.map fun p => thickAt c gps thickness p.1 * (geometryAt c gps coords p.1).det * p.2 *
    (1 / 2 * contract (m.law (edim c) p.1 (greenStrain (deformationAt c gps coords u p.1))) (greenStrain (deformationAt c gps coords u p.1)))).sum

/-- The virtual work of the inner forces: `∫ t S : δE(V)`. -/
def innerWork (c : Code) (gps : Nat) (m : Elastic K) (thickness : Nat → K) (coords : Nat → Nat → K) (pts : List (List K × K)) (u V : Nat → K) : K :=
  (pts.map fun p => thickAt c gps thickness p.1 * (geometryAt c gps coords p.1).det * p.2 *
    contract (m.law (edim c) p.1 (greenStrain (deformationAt c gps coords u p.1)))
      (strainOf (deformationAt c gps coords u p.1) (gradAt c gps coords V p.1))).sum

/-- The tangent: `∫ t (δE(U) : C : δE(V) + (∇U S) : ∇V)`. -/
def tangentForm (c : Code) (gps : Nat) (m : Elastic K) (thickness : Nat → K) (coords : Nat → Nat → K) (pts : List (List K × K)) (u U V : Nat → K) : K :=
  (pts.map fun p => thickAt c gps thickness p.1 * (geometryAt c gps coords p.1).det * p.2 *
    (contract (m.law (edim c) p.1 (strainOf (deformationAt c gps coords u p.1) (gradAt c gps coords U p.1)))
      (strainOf (deformationAt c gps coords u p.1) (gradAt c gps coords V p.1)) +
     contract (gradAt c gps coords U p.1 * m.law (edim c) p.1 (greenStrain (deformationAt c gps coords u p.1))) (gradAt c gps coords V p.1))).sum

end Verif.Fem
