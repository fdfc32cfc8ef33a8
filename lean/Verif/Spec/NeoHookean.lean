import Mathlib.LinearAlgebra.Matrix.Determinant.Basic
import Mathlib.LinearAlgebra.Matrix.NonsingularInverse
import Mathlib.LinearAlgebra.Matrix.Trace
import Mathlib.Analysis.SpecialFunctions.Log.Deriv
/-!
The compressible neo-Hookean material: its stored energy as a function of the right Cauchy-Green tensor.
-/
namespace Verif.Fem

/-- The matrix of a symmetric tensor in the notation of Voigt `(11, 22, 33, 12, 23, 13)`. -/
def unvoigt (v : Nat → ℝ) : Matrix (Fin 3) (Fin 3) ℝ := !![v 0, v 3, v 5; v 3, v 1, v 4; v 5, v 4, v 2]

/-- The energy `mu/2 (tr C - 3) - mu log J + lambda/2 (log J)^2` with `J^2 = det C`. -/
noncomputable def neoEnergy (lambda mu : ℝ) (C : Matrix (Fin 3) (Fin 3) ℝ) : ℝ :=
  mu / 2 * (C.trace - 3) - mu * (Real.log C.det / 2) + lambda / 2 * (Real.log C.det / 2) ^ 2

/-- `S` is the second Piola-Kirchhoff stress of an energy in `C`: `S = 2 dW/dC`. -/
def IsStress (W : Matrix (Fin 3) (Fin 3) ℝ → ℝ) (C S : Matrix (Fin 3) (Fin 3) ℝ) : Prop :=
  S.IsSymm ∧ ∀ H : Matrix (Fin 3) (Fin 3) ℝ, H.IsSymm → HasDerivAt (fun t : ℝ => W (C + t • H)) (1 / 2 * ∑ i, ∑ j, S i j * H i j) 0

/-- The tensor of Voigt components `e` with the shears doubled, as the code stores strains. -/
noncomputable def halfChange (H : Matrix (Fin 3) (Fin 3) ℝ) (j : Nat) : ℝ :=
  match j with
  | 0 => 1 / 2 * H 0 0
  | 1 => 1 / 2 * H 1 1
  | 2 => 1 / 2 * H 2 2
  | 3 => H 0 1
  | 4 => H 1 2
  | _ => H 0 2

/-- The table `c` is the elasticity `2 dS/dC` of an energy in `C`: the change of the stress `S` for the change `H` of `C`, that is for the Green strain `H / 2`. -/
def IsElasticity (W : Matrix (Fin 3) (Fin 3) ℝ → ℝ) (C : Matrix (Fin 3) (Fin 3) ℝ) (c : Nat → ℝ) : Prop :=
  ∃ S : Matrix (Fin 3) (Fin 3) ℝ → Matrix (Fin 3) (Fin 3) ℝ, (∀ X : Matrix (Fin 3) (Fin 3) ℝ, X.IsSymm → 0 < X.det → IsStress W X (S X)) ∧
    ∀ H : Matrix (Fin 3) (Fin 3) ℝ, H.IsSymm → ∀ a b : Fin 3,
      HasDerivAt (fun t : ℝ => S (C + t • H) a b) (unvoigt (fun i => ∑ j ∈ Finset.range 6, c (i * 6 + j) * halfChange H j) a b) 0

end Verif.Fem
