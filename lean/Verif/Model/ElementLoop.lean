import Verif.Model.Integration
import Verif.Model.Quadrature
import Verif.Spec.ShapeFunctions
/-!
The loop over the integration points that measures an element: `setElementKernel` and `setBoundaryKernel`
(`src/analysis/assembler/heattransfer/kernel.h`, the same lines in `structuralmechanics/kernel.h`).

Simplifications: one lane, exact arithmetic; `integration.coords` is reduced to the determinant, since nothing else is read in the loop.
-/
namespace Verif.Fem

variable {K : Type} [Field K]

/-- `element.det` after `IntegrationKernel<nodes, ndim, ndim>::coords` (op.integration.h:26-44, 112-136). -/
def detOf (dim nodes : Nat) (dN coords : Nat → Nat → K) : K :=
  match dim with
  | 2 => det22 (jacobian2 nodes dN coords)
  | 3 => det33 (jacobian3 nodes dN coords)
  | _ => 0

/-- `volume = volume + element.det * load1(element.w[gp])` for all integration points (heattransfer/kernel.h:232-235,
structuralmechanics/kernel.h:284-287): one element. -/
def elementVolume (sqrt : K → K) (c : Code) (gps : Nat) (coords : Nat → Nat → K) : Option K := do
  let pts ← rulePoints sqrt c gps
  pts.foldlM (fun volume p => do
    let tab ← setAt c gps p.1
    pure (volume + detOf (edim c) (nodes c) (slopeOf tab) coords * p.2)) 0

end Verif.Fem
