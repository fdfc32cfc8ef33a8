import Mathlib.Algebra.MvPolynomial.Eval
import Mathlib.Analysis.SpecialFunctions.Integrals.Basic
/-!
What an integration rule of an element is for: the integrals of polynomials over the reference domain.
-/
namespace Verif.Fem

/-- The reference domains of the elements. -/
inductive Shape
  | line | square | cube | triangle | tetra | prism
deriving DecidableEq

/-- The integral over a reference domain: the lines, squares and cubes are `[-1, 1]ᵈ`, the triangle and the tetrahedron have the vertices `0` and
the unit vectors, the prism is the triangle times `[-1, 1]`. -/
noncomputable def Shape.integral : Shape → (List ℝ → ℝ) → ℝ
  | .line, f => ∫ r in (-1 : ℝ)..1, f [r]
  | .square, f => ∫ r in (-1 : ℝ)..1, ∫ s in (-1 : ℝ)..1, f [r, s]
  | .cube, f => ∫ r in (-1 : ℝ)..1, ∫ s in (-1 : ℝ)..1, ∫ t in (-1 : ℝ)..1, f [r, s, t]
  | .triangle, f => ∫ r in (0 : ℝ)..1, ∫ s in (0 : ℝ)..(1 - r), f [r, s]
  | .tetra, f => ∫ r in (0 : ℝ)..1, ∫ s in (0 : ℝ)..(1 - r), ∫ t in (0 : ℝ)..(1 - r - s), f [r, s, t]
  | .prism, f => ∫ r in (0 : ℝ)..1, ∫ s in (0 : ℝ)..(1 - r), ∫ t in (-1 : ℝ)..1, f [r, s, t]

/-- `[-1, 1]ᵈ`. -/
def box : Nat → Shape
  | 1 => .line
  | 2 => .square
  | _ => .cube

/-- The value of a polynomial in a point. -/
noncomputable def polyAt {d : Nat} (P : MvPolynomial (Fin d) ℝ) (p : List ℝ) : ℝ := MvPolynomial.eval (fun i : Fin d => p.getD i 0) P

/-- The sum of a rule: the weighted values in its points. -/
noncomputable def ruleSum (pts : List (List ℝ × ℝ)) (f : List ℝ → ℝ) : ℝ := (pts.map fun p => p.2 * f p.1).sum

end Verif.Fem
