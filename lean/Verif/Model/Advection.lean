import Verif.Model.Conductivity
import Mathlib.Algebra.Order.Field.Basic
/-!
The advection of heat (heattransfer/op.advection.h, kernel.h:316-377). Values are in an ordered field instead of `double`; `sqrt` is a parameter; a lane of the vectors is one element.
-/
namespace Verif.Advection

open Verif.Fem

variable {K : Type} [Field K] [LinearOrder K]

/-- `positive_guarded_recip` (wrappers/simd/simd.h:139-142, simd.sse2.h:143-149, simd.avx.h:149-157, simd.avx512.h:157-169; the versions for SVE return an estimate of the reciprocal of the root
instead and are not modelled). -/
def guardedRecip (x : K) : K := if 0 < x then 1 / x else 0

/-- The factor of the test functions along the flow and the added conductivity (op.advection.h:43-57, 85-99): `usq` and `besq` are the sums of squares, `k` is `conductivity[0]`. -/
def streamline (sqrt : K → K) (sigma usq besq k : K) : K × K :=
  let unorm := sqrt usq
  let benorm := sqrt besq
  let urnorm := guardedRecip unorm
  let bernorm := guardedRecip benorm
  let he := 2 * unorm * bernorm
  let rhe := benorm * (1 / 2) * urnorm
  let Pe := 2 * k * rhe * urnorm
  let tau := max 0 (1 - Pe)
  (1 / 2 * he * tau * urnorm, sigma * he * unorm)

/-- `AdvectionKernel<nodes, 2>::simd` (op.advection.h:30-67): the state is `element.K` and `element.conductivity`. -/
def advection2 (sqrt : K → K) (sigma : K) (nodes : Nat) (det w : K) (N : Nat → K) (v : Nat → K) (density capacity : K) (dND : Nat → Nat → K) (x : List K × (Nat → K)) : Option (List K × (Nat → K)) := do
  let ux := v 0 * density * capacity
  let uy := v 1 * density * capacity
  let usq := ux * ux + uy * uy
  let besq := (List.range nodes).foldl (fun s n => s + (ux * dND n 0 + uy * dND n 1) * (ux * dND n 0 + uy * dND n 1)) 0
  let f := streamline sqrt sigma usq besq (x.2 0)
  let cond : Nat → K := fun i => if i = 0 ∨ i = 3 then x.2 i + f.2 else x.2 i
  let A ← addFull nodes (fun n m => det * w * (N n + f.1 * (ux * dND n 0 + uy * dND n 1)) * (ux * dND m 0 + uy * dND m 1)) x.1
  pure (A, cond)

/-- `AdvectionKernel<nodes, 3>::simd` (op.advection.h:72-110): `dND[n * 2 + 0]` of line 104 is the place `(n * 2) % 3` of the node `n * 2 / 3` in the array with three values for each node. -/
def advection3 (sqrt : K → K) (sigma : K) (nodes : Nat) (det w : K) (N : Nat → K) (v : Nat → K) (density capacity : K) (dND : Nat → Nat → K) (x : List K × (Nat → K)) : Option (List K × (Nat → K)) := do
  let ux := v 0 * density * capacity
  let uy := v 1 * density * capacity
  let uz := v 2 * density * capacity
  let usq := ux * ux + uy * uy + uz * uz
  let besq := (List.range nodes).foldl (fun s n => s + (ux * dND n 0 + uy * dND n 1 + uz * dND n 2) * (ux * dND n 0 + uy * dND n 1 + uz * dND n 2)) 0
  let f := streamline sqrt sigma usq besq (x.2 0)
  let cond : Nat → K := fun i => if i = 0 ∨ i = 4 ∨ i = 8 then x.2 i + f.2 else x.2 i
  let A ← addFull nodes (fun n m => det * w * (N n + f.1 * (ux * dND ((n * 2) / 3) ((n * 2) % 3) + uy * dND n 1 + uz * dND n 2)) * (ux * dND m 0 + uy * dND m 1 + uz * dND m 2)) x.1
  pure (A, cond)

/-- `AdvectionKernel<nodes, ndim>`. -/
def advection (dim : Nat) (sqrt : K → K) (sigma : K) (nodes : Nat) (det w : K) (N : Nat → K) (v : Nat → K) (density capacity : K) (dND : Nat → Nat → K) (x : List K × (Nat → K)) : Option (List K × (Nat → K)) :=
  match dim with
  | 2 => advection2 sqrt sigma nodes det w N v density capacity dND x
  | 3 => advection3 sqrt sigma nodes det w N v density capacity dND x
  | _ => none

/-- The values of the expressions of the translation motion and of the material in the points of the reference element. -/
structure Flow (K : Type) where
  velocity : List K → Nat → K
  density : List K → K
  capacity : List K → K

/-- One integration point (kernel.h:327-360): the conductivity is computed again only if one of its expressions is not constant (`active`, op.conductivity.h:20-33, subkernel.h). -/
def transportPoint (sqrt : K → K) (c : Code) (gps : Nat) (sigma : K) (active : Bool) (m : Material K) (fl : Flow K) (thickness : Nat → K) (coords : Nat → Nat → K) (x : List K × (Nat → K)) (p : List K × K) :
    Option (List K × (Nat → K)) := do
  let tab ← setAt c gps p.1
  let g ← integrate (edim c) (nodes c) (slopeOf tab) coords
  let cond := if active then conductivity (edim c) m.rotated m.model (m.ecf p.1) (m.cossin p.1) x.2 else x.2
  let y ← advection (edim c) sqrt sigma (nodes c) g.det p.2 (valueOf tab) (fl.velocity p.1) (fl.density p.1) (fl.capacity p.1) g.dND (x.1, cond)
  let A ← matrixConductivity (edim c) m.matrixModel (nodes c) (thicknessAt (nodes c) tab thickness) g.det p.2 y.2 g.dND y.1
  pure (A, y.2)

/-- The matrix of one element and the content of `conductivity` after it (kernel.h:316-362); `cond` is the content before it. -/
def elementTransport (sqrt : K → K) (c : Code) (gps : Nat) (sigma : K) (active : Bool) (m : Material K) (fl : Flow K) (thickness : Nat → K) (coords : Nat → Nat → K) (cond : Nat → K) : Option (List K × (Nat → K)) := do
  let pts ← rulePoints sqrt c gps
  pts.foldlM (transportPoint sqrt c gps sigma active m fl thickness coords) (List.replicate (nodes c * nodes c) 0, cond)

/-- The elements of an interval one after another (kernel.h:316): the matrices start with zeros, `conductivity` is kept. -/
def transportAll (sqrt : K → K) (c : Code) (gps : Nat) (sigma : K) (active : Bool) (m : Material K) (fl : Flow K) (thickness : Nat → K) (cond : Nat → K) (elements : List (Nat → Nat → K)) :
    Option (List (List K) × (Nat → K)) :=
  elements.foldlM (fun x coords => do
    let y ← elementTransport sqrt c gps sigma active m fl thickness coords x.2
    pure (x.1 ++ [y.1], y.2)) ([], cond)

end Verif.Advection
