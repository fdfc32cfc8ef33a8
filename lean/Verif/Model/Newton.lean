import Verif.Model.Transient
/-!
Newton's method of the steady analyses (`src/analysis/physics/structuralmechanics.steadystate.nonlinear.cpp`, `heat.steadystate.nonlinear.cpp`).

The assembler is the parameter `ev`: from the time and the solution to the tangent, the loads, the inner forces and the prescribed values. The result of `solver->solve` is ignored by the code, so only
the solution is used. Prints, stores, the postprocessing and the deformed coordinates are left out.
-/
namespace Verif.Transient

variable {K : Type} [Field K]

/-- What `assembler.evaluate` leaves behind: `K`, `f`, `R` and the prescribed values. -/
structure Tangent (K : Type) where
  k : Mat K
  f : Vec K
  r : Vec K
  g : Vec K

/-- `structuralmechanics.steadystate.nonlinear.cpp` 193-210, 224-240: a solution of the tangent system; the new displacements, the correction and the right-hand side. -/
def newtonIteration (ev : Vec K → Tangent K) (solve : Solver K) (u : Vec K) : Vec K × Vec K × Vec K :=
  let e := ev u
  let b : Vec K := fun i => e.f i + -1 * e.r i
  let x := (solve e.k b fun i => e.g i + -1 * u i).2
  (fun i => u i + 1 * x i, x, b)

/-- `structuralmechanics.steadystate.nonlinear.cpp` 220-265: the iterations that remain; the displacements, whether they converged, and the number of iterations done. -/
def newtonLoop [LinearOrder K] (ev : Vec K → Tangent K) (solve : Solver K) (c : Criteria K) (eps : K) (norm bNorm : Vec K → K) (uNorm fNorm : K) : Nat → Vec K → Vec K × Bool × Nat
  | 0, u => (u, false, 0)
  | k + 1, u =>
    let r := newtonIteration ev solve u
    if criteria c eps (norm r.2.1) uNorm (bNorm r.2.2) fNorm then (r.1, true, 1)
    else
      let t := newtonLoop ev solve c eps norm bNorm uNorm fNorm k r.1
      (t.1, t.2.1, t.2.2 + 1)

/-- `structuralmechanics.steadystate.nonlinear.cpp` 187-265: a substep: the linear step and the iterations. -/
def newtonSubstep [LinearOrder K] (ev : Vec K → Tangent K) (solve : Solver K) (c : Criteria K) (eps : K) (norm bNorm : Vec K → K) (maxIterations : Nat) (u : Vec K) : Vec K × Bool × Nat :=
  let l := newtonIteration ev solve u
  newtonLoop ev solve c eps norm bNorm (norm l.1) (norm (ev u).f) maxIterations l.1

/-- `structuralmechanics.steadystate.nonlinear.cpp` 188-191: `time.current` in the substep `substep`. -/
def substepTime (substeps : Nat) (shift final current : K) (substep : Nat) : K := if substep + 1 = substeps then final else current + shift

/-- `structuralmechanics.steadystate.nonlinear.cpp` 179-267: the substeps from `substep` on, `todo` of them; the displacements, `converged`, and the times of the substeps done. -/
def newtonSubsteps [LinearOrder K] (ev : K → Vec K → Tangent K) (solve : Solver K) (c : Criteria K) (eps : K) (norm bNorm : Vec K → K) (maxIterations substeps : Nat) (shift final : K) :
    Nat → Nat → K → Vec K → Vec K × Bool × List K
  | 0, _, _, u => (u, true, [])
  | todo + 1, substep, current, u =>
    let now := substepTime substeps shift final current substep
    let r := newtonSubstep (ev now) solve c eps norm bNorm maxIterations u
    if r.2.1 then
      let t := newtonSubsteps ev solve c eps norm bNorm maxIterations substeps shift final todo (substep + 1) now r.1
      (t.1, t.2.1, now :: t.2.2)
    else (r.1, false, [now])

/-- `structuralmechanics.steadystate.nonlinear.cpp` 101-103, 135, 177-268: the load step. -/
def newtonRun [LinearOrder K] (ev : K → Vec K → Tangent K) (solve : Solver K) (c : Criteria K) (eps : K) (norm bNorm : Vec K → K) (maxIterations substeps : Nat) (start duration : K) (u : Vec K) :
    Vec K × Bool × List K :=
  newtonSubsteps ev solve c eps norm bNorm maxIterations substeps (duration / substeps) (start + duration) substeps 0 start u

/-- `heat.steadystate.nonlinear.cpp` 144-167, 172-193: the iterations that remain. -/
def heatNewtonLoop [LinearOrder K] (ev : Vec K → Tangent K) (solve : Solver K) (tol eps : K) (norm : Vec K → K) : Nat → Vec K → Vec K × Bool
  | 0, u => (u, false)
  | k + 1, u =>
    let e := ev u
    let dx := (solve e.k (fun i => e.f i + -1 * e.r i) fun i => e.g i + -1 * u i).2
    let x : Vec K := fun i => dx i + 1 * u i
    if norm dx / max (norm x) eps > tol then heatNewtonLoop ev solve tol eps norm k x else (x, true)

/-- `heat.steadystate.nonlinear.cpp` 123-169: the linear step from the initial temperature `u`, and the iterations. -/
def heatNewton [LinearOrder K] (ev : Vec K → Tangent K) (solve : Solver K) (tol eps : K) (norm : Vec K → K) (maxIterations : Nat) (u : Vec K) : Vec K × Bool :=
  let e := ev u
  heatNewtonLoop ev solve tol eps norm maxIterations (solve e.k e.f e.g).2

end Verif.Transient
