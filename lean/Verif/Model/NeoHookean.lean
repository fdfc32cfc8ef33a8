import Verif.Model.Elasticity
/-!
The compressible neo-Hookean material in space: `MaterialStructuralMechanicsKernel<nodes, gps, 3>::simd`, case `NEO_HOOKEAN_CMP`
(`src/analysis/assembler/structuralmechanics/op.material.h:362-420`) and "make the elasticity symmetric" (665-671).

Simplifications: one lane; exact arithmetic; divisions by zero and logarithms outside of their domain give `none` (NaN or infinity in the code).
-/
namespace Verif.Fem

variable {K : Type} [Field K] [DecidableEq K]

/-- `J2` (op.material.h:369). -/
def neoJ2 (C2 : Nat → K) : K :=
  C2 0 * C2 4 * C2 8 + 2 * C2 1 * C2 5 * C2 2 - C2 0 * C2 2 * C2 2 - C2 4 * C2 5 * C2 5 - C2 8 * C2 1 * C2 1

/-- `vCinv` (op.material.h:371-378). -/
def neoInverse (C2 : Nat → K) (rJ2 : K) (i : Nat) : K :=
  match i with
  | 0 => (C2 4 * C2 8 - C2 2 * C2 2) * rJ2
  | 1 => (C2 0 * C2 8 - C2 5 * C2 5) * rJ2
  | 2 => (C2 0 * C2 4 - C2 1 * C2 1) * rJ2
  | 3 => (C2 5 * C2 2 - C2 8 * C2 1) * rJ2
  | 4 => (C2 1 * C2 2 - C2 4 * C2 5) * rJ2
  | _ => (C2 1 * C2 5 - C2 0 * C2 2) * rJ2

/-- `vS` (op.material.h:380-388). -/
def neoStress (lambda mu logJ2 : K) (v : Nat → K) (i : Nat) : K :=
  let al3 := 1 / 2 * (lambda * logJ2) - mu
  match i with
  | 0 => al3 * v 0 + mu
  | 1 => al3 * v 1 + mu
  | 2 => al3 * v 2 + mu
  | 3 => al3 * v 3
  | 4 => al3 * v 4
  | 5 => al3 * v 5
  | _ => 0

/-- `symodot_vCinv` in `(i, j)` with `i ≤ j` (op.material.h:392-412). -/
def symodot (v : Nat → K) (i j : Nat) : K :=
  match i, j with
  | 0, 0 => v 0 * v 0
  | 0, 1 => v 3 * v 3
  | 0, 2 => v 5 * v 5
  | 0, 3 => v 0 * v 3
  | 0, 4 => v 3 * v 5
  | 0, 5 => v 0 * v 5
  | 1, 1 => v 1 * v 1
  | 1, 2 => v 4 * v 4
  | 1, 3 => v 1 * v 3
  | 1, 4 => v 1 * v 4
  | 1, 5 => v 3 * v 4
  | 2, 2 => v 2 * v 2
  | 2, 3 => v 4 * v 5
  | 2, 4 => v 2 * v 4
  | 2, 5 => v 2 * v 5
  | 3, 3 => (v 0 * v 1 + v 3 * v 3) * (1 / 2)
  | 3, 4 => (v 3 * v 4 + v 1 * v 5) * (1 / 2)
  | 3, 5 => (v 0 * v 4 + v 3 * v 5) * (1 / 2)
  | 4, 4 => (v 1 * v 2 + v 4 * v 4) * (1 / 2)
  | 4, 5 => (v 2 * v 3 + v 4 * v 5) * (1 / 2)
  | 5, 5 => (v 0 * v 2 + v 5 * v 5) * (1 / 2)
  | _, _ => 0

/-- The upper triangle of `vC4` (op.material.h:414-420). -/
def neoElasticity (lambda mu logJ2 : K) (v : Nat → K) (i : Nat) : K :=
  let be6 := lambda
  let be7 := 2 * mu - lambda * logJ2
  if i / 6 ≤ i % 6 then be6 * v (i / 6) * v (i % 6) + be7 * symodot v (i / 6) (i % 6) else 0

/-- The case `NEO_HOOKEAN_CMP` (op.material.h:362-420, 665-671): `vC4` and `vS`. -/
def neoHookean (log : K → Option K) (ex mi : K) (C2 : Nat → K) : Option ((Nat → K) × (Nat → K)) :=
  if (1 + mi) * (1 - 2 * mi) = 0 ∨ 2 + 2 * mi = 0 then none else
  let lambda := ex * mi / ((1 + mi) * (1 - 2 * mi))
  let mu := ex / (2 + 2 * mi)
  if neoJ2 C2 = 0 then none else do
  let v := neoInverse C2 (1 / neoJ2 C2)
  let logJ2 ← log (neoJ2 C2)
  some (symmetrize (neoElasticity lambda mu logJ2 v), neoStress lambda mu logJ2 v)

end Verif.Fem
