import Mathlib.Algebra.BigOperators.Group.Finset.Basic
import Mathlib.Algebra.Order.Field.Basic
/-!
Time integration (`src/analysis/physics/heat.transient.linear.cpp`, `structuralmechanics.transient.linear.cpp`, `structuralmechanics.transient.nonlinear.cpp`).

Vectors and matrices of the system are functions of the degrees of freedom; `set`, `copy`, `add`, `scale` and `apply` of the distributed objects are the operations of linear algebra. The assembler
and the solver of linear systems are parameters. Numbers are those of an ordered field. Prints and stores are left out.
-/
namespace Verif.Transient

open Finset

abbrev Vec (K : Type) := Nat → K
abbrev Mat (K : Type) := Nat → Nat → K

variable {K : Type} [Field K]

/-- `A->apply(1, x, 0, y)` for `n` degrees of freedom. -/
def mv (n : Nat) (A : Mat K) (x : Vec K) : Vec K := fun i => ∑ j ∈ range n, A i j * x j

/-- What `assembler.evaluate` leaves behind: the matrices, the right-hand side, the prescribed values, and `K->updated || M->updated`. -/
structure Assembled (K : Type) where
  k : Mat K
  m : Mat K
  f : Vec K
  g : Vec K
  updated : Bool

/-- `solver->update(step); solver->solve(step)`: from the matrix, the right-hand side and the prescribed values to the result and the solution. -/
abbrev Solver (K : Type) := Mat K → Vec K → Vec K → Bool × Vec K

/-! ### Heat transfer -/

/-- `heat.transient.linear.cpp` 144-148: the methods. -/
inductive FirstOrder (K : Type) where
  | crankNicolson
  | galerkin
  | backwardDiff
  | user (alpha : K)

/-- `heat.transient.linear.cpp` 143-150: `alpha`. -/
def FirstOrder.alpha : FirstOrder K → K
  | .crankNicolson => 1 / 2
  | .galerkin => 2 / 3
  | .backwardDiff => 1
  | .user a => a

/-- The variables of the loop: `U`, `V`, the matrix and its flag `updated`, `time.current`, `step.substep`, `solved`. -/
structure HeatState (K : Type) where
  u : Vec K
  v : Vec K
  a : Mat K
  aUpdated : Bool
  current : K
  substep : Nat
  solved : Bool

/-- `heat.transient.linear.cpp` 175-222: one pass of the loop. `keeps` is the flag `A->updated` after `solver->update` (`true` in the direct solvers, `false` in FETI). -/
def heatStep (n : Nat) (alpha h : K) (keeps : Bool) (ev : K → Vec K → Assembled K) (solve : Solver K) (s : HeatState K) : HeatState K :=
  let e := ev s.current s.u
  let a := if e.updated || s.aUpdated then fun i j => 0 + 1 * e.k i j + 1 / (alpha * h) * e.m i j else s.a
  let x : Vec K := fun i => 0 + 1 / (alpha * h) * s.u i + (1 - alpha) / alpha * s.v i
  let y := mv n e.m x
  let b : Vec K := fun i => e.f i + 1 * y i
  let r := solve a b e.g
  let dU : Vec K := fun i => r.2 i + -1 * s.u i
  { u := r.2
    v := fun i => -(1 - alpha) / alpha * s.v i + 1 / (alpha * h) * dU i
    a := a
    aUpdated := keeps
    current := s.current + h
    substep := s.substep + 1
    solved := r.1 }

/-- `heat.transient.linear.cpp` 111-141, 167-169: the state before the loop. `start` and `u0` come from the previous load step or the initial temperature; `V` is zero. `a0` and `aUpdated` are what the
solver has before the first step. -/
def heatInit (h start : K) (u0 : Vec K) (a0 : Mat K) (aUpdated : Bool) : HeatState K := ⟨u0, fun _ => 0, a0, aUpdated, start + h, 0, true⟩

/-- `heat.transient.linear.cpp` 170: the loop, at most `fuel` passes; `none` if they do not suffice. -/
def heatLoop [LinearOrder K] (n : Nat) (alpha h final precision : K) (keeps : Bool) (ev : K → Vec K → Assembled K) (solve : Solver K) : Nat → HeatState K → Option (HeatState K)
  | 0, s => if s.solved && s.current ≤ final + precision then none else some s
  | fuel + 1, s => if s.solved && s.current ≤ final + precision then heatLoop n alpha h final precision keeps ev solve fuel (heatStep n alpha h keeps ev solve s) else some s

/-! ### Structural mechanics, linear -/

/-- `U`, `V`, `W`, the matrix and its flag, `time.previous`, `time.shift`, `step.substep`, `solved`. -/
structure NewmarkState (K : Type) where
  u : Vec K
  v : Vec K
  w : Vec K
  a : Mat K
  aUpdated : Bool
  previous : K
  shift : K
  substep : Nat
  solved : Bool

/-- `structuralmechanics.transient.linear.cpp` 163-253: one pass of the loop. `cap` is `precice.timeStep`, `restart` is `precice.requiresReadingCheckpoint()`. -/
def newmarkStep (n : Nat) (alpha delta : K) (keeps : Bool) (cap : K → K) (restart : Bool) (ev : K → Vec K → Assembled K) (solve : Solver K) (s : NewmarkState K) : NewmarkState K :=
  let h := cap s.shift
  let current := s.previous + h
  let n0 := 1 / (delta * h * h)
  let n2 := 1 / (delta * h)
  let n3 := 1 / (2 * delta) - 1
  let n6 := h * (1 - alpha)
  let n7 := h * alpha
  let e := ev current s.u
  let a := if e.updated || s.aUpdated then fun i j => 0 + 1 * e.k i j + n0 * e.m i j else s.a
  let x : Vec K := fun i => 0 + n0 * s.u i + n2 * s.v i + n3 * s.w i
  let y := mv n e.m x
  let b : Vec K := fun i => e.f i + 1 * y i
  let r := solve a b e.g
  if restart then { s with a := a, aUpdated := keeps, shift := h, solved := r.1 }
  else
    let dU : Vec K := fun i => r.2 i + -1 * s.u i
    let z : Vec K := fun i => 0 + n0 * dU i + -n2 * s.v i + -n3 * s.w i
    { u := r.2
      v := fun i => s.v i + n6 * s.w i + n7 * z i
      w := z
      a := a
      aUpdated := keeps
      previous := current
      shift := h
      substep := s.substep + 1
      solved := r.1 }

/-- `structuralmechanics.transient.linear.cpp` 104-135: the state before the loop without a previous load step; `v0` is the initial velocity. -/
def newmarkInit (h : K) (v0 : Vec K) (a0 : Mat K) (aUpdated : Bool) : NewmarkState K := ⟨fun _ => 0, v0, fun _ => 0, a0, aUpdated, 0, h, 0, true⟩

/-- `structuralmechanics.transient.linear.cpp` 162-254: `k` passes of the loop without coupling. -/
def newmarkSteps (n : Nat) (alpha delta : K) (keeps : Bool) (ev : K → Vec K → Assembled K) (solve : Solver K) : Nat → NewmarkState K → NewmarkState K
  | 0, s => s
  | k + 1, s => newmarkStep n alpha delta keeps id false ev solve (newmarkSteps n alpha delta keeps ev solve k s)

/-! ### Structural mechanics, nonlinear -/

/-- `structuralmechanics.transient.nonlinear.cpp` 148-151: the parameters. -/
structure GenAlpha (K : Type) where
  alpha : K
  delta : K
  alphaM : K
  alphaF : K

/-- `structuralmechanics.transient.nonlinear.cpp` 156-158: `alpha *= (1 + nd) * (1 + nd); delta += nd`. -/
def GenAlpha.damped (p : GenAlpha K) (nd : K) : GenAlpha K := { p with alpha := p.alpha * ((1 + nd) * (1 + nd)), delta := p.delta + nd }

/-- `structuralmechanics.transient.nonlinear.cpp` 229-234. -/
structure Coefficients (K : Type) where
  a0 : K
  a1 : K
  a2 : K
  a3 : K
  a4 : K
  a5 : K

/-- `structuralmechanics.transient.nonlinear.cpp` 229-234. -/
def GenAlpha.coefficients (p : GenAlpha K) (h : K) : Coefficients K where
  a0 := (1 - p.alphaM) / (p.alpha * h * h)
  a1 := ((1 - p.alphaF) * h) / (p.alpha * h)
  a2 := (1 - p.alphaM) / (p.alpha * h * h) * h
  a3 := (1 - p.alphaM) / (2 * p.alpha) - 1
  a4 := ((1 - p.alphaF) * h) / p.alpha - 1
  a5 := (1 - p.alphaF) * (h / (2 * p.alpha) - 1) * h

/-- The displacements, velocities and accelerations. -/
structure Motion (K : Type) where
  u : Vec K
  v : Vec K
  a : Vec K

/-- The data of a step that do not change in its iterations: the mass and damping matrices, the loads, the old loads and inner forces, the prescribed displacements. -/
structure StepData (K : Type) where
  m : Mat K
  c : Mat K
  f : Vec K
  fOld : Vec K
  rOld : Vec K
  g : Vec K

/-- `structuralmechanics.transient.nonlinear.cpp` 244, 292: the matrix of the predictor and of the iterations; `k` is the tangent. -/
def effective (p : GenAlpha K) (h : K) (d : StepData K) (k : Mat K) : Mat K :=
  let co := p.coefficients h
  fun i j => 0 + co.a0 * d.m i j + co.a1 * d.c i j + (1 - p.alphaF) * k i j

/-- `structuralmechanics.transient.nonlinear.cpp` 247-249: the right-hand side of the predictor. -/
def predictorRhs (n : Nat) (p : GenAlpha K) (h : K) (d : StepData K) (old : Motion K) : Vec K :=
  let co := p.coefficients h
  fun i => 0 + (1 - p.alphaF) * d.f i + p.alphaF * d.fOld i + -1 * d.rOld i + mv n d.m (fun j => 0 + co.a2 * old.v j + co.a3 * old.a j) i
    + mv n d.c (fun j => 0 + co.a4 * old.v j + co.a5 * old.a j) i

/-- `structuralmechanics.transient.nonlinear.cpp` 241-273: the predictor; `d.rOld` are the inner forces `R` of the old displacements, `k` is their tangent. -/
def predictor (n : Nat) (p : GenAlpha K) (h : K) (d : StepData K) (k : Mat K) (solve : Solver K) (old : Motion K) : Motion K × Vec K :=
  let dU := (solve (effective p h d k) (predictorRhs n p h d old) fun i => d.g i + -1 * old.u i).2
  ({ u := fun i => old.u i + 1 * dU i
     v := fun i => 0 + p.delta / (p.alpha * h) * dU i + (-p.delta / p.alpha + 1) * old.v i + -h / 2 * (p.delta / p.alpha - 2) * old.a i
     a := fun i => 0 + 1 / (p.alpha * h * h) * dU i + -1 / (p.alpha * h) * old.v i + (-1 / (2 * p.alpha) - 1) * old.a i }, dU)

/-- `structuralmechanics.transient.nonlinear.cpp` 296-299: the right-hand side of an iteration. -/
def correctorRhs (n : Nat) (p : GenAlpha K) (d : StepData K) (r : Vec K) (old cur : Motion K) : Vec K := fun i =>
  0 + (1 - p.alphaF) * d.f i + (p.alphaF - 1) * r i + (p.alphaF - 1) * mv n d.c cur.v i + p.alphaF * d.fOld i + -p.alphaF * d.rOld i + -p.alphaF * mv n d.c old.v i
    + -1 * mv n d.m (fun j => 0 + (1 - p.alphaM) * cur.a j + p.alphaM * old.a j) i

/-- `structuralmechanics.transient.nonlinear.cpp` 288-320: an iteration; `inner u` are the inner forces and the tangent of the displacements `u`. -/
def corrector (n : Nat) (p : GenAlpha K) (h : K) (d : StepData K) (inner : Vec K → Vec K × Mat K) (solve : Solver K) (old cur : Motion K) : Motion K × Vec K × Vec K :=
  let b := correctorRhs n p d (inner cur.u).1 old cur
  let dU := (solve (effective p h d (inner cur.u).2) b fun i => d.g i + -1 * cur.u i).2
  let u : Vec K := fun i => cur.u i + 1 * dU i
  ({ u := u
     v := fun i => 0 + p.delta / (p.alpha * h) * u i + -p.delta / (p.alpha * h) * old.u i + (-p.delta / p.alpha + 1) * old.v i + -h / 2 * (p.delta / p.alpha - 2) * old.a i
     a := fun i => 0 + 1 / (p.alpha * h * h) * u i + -1 / (p.alpha * h * h) * old.u i + -1 / (p.alpha * h) * old.v i + (-1 / (2 * p.alpha) + 1) * old.a i }, dU, b)

/-- The settings of Newton's method: `check_first_residual`, `requested_first_residual`, `check_second_residual`, `requested_second_residual`. -/
structure Criteria (K : Type) where
  first : Bool
  firstTol : K
  second : Bool
  secondTol : K

/-- `structuralmechanics.transient.nonlinear.cpp` 367-400, `structuralmechanics.steadystate.nonlinear.cpp` 271-304: `checkDisplacement` and `checkStress` from the norms of the correction, of the
predictor, of the right-hand side and of the load; `eps` is 1e-3. -/
def criteria [LinearOrder K] (c : Criteria K) (eps xNorm uNorm bNorm fNorm : K) : Bool :=
  (!c.first || !(xNorm / max uNorm eps > c.firstTol)) && (!c.second || !(bNorm / (1 + fNorm) > c.secondTol))

/-- `structuralmechanics.transient.nonlinear.cpp` 284-333: the iterations that remain; the state, whether it converged, and the number of iterations done. `norm` is the norm of vectors,
`bNorm` is `rhs_without_dirichlet_norm`. -/
def genAlphaLoop [LinearOrder K] (n : Nat) (p : GenAlpha K) (h : K) (d : StepData K) (inner : Vec K → Vec K × Mat K) (solve : Solver K) (c : Criteria K) (eps : K) (norm bNorm : Vec K → K)
    (uNorm : K) (old : Motion K) : Nat → Motion K → Motion K × Bool × Nat
  | 0, cur => (cur, false, 0)
  | k + 1, cur =>
    let r := corrector n p h d inner solve old cur
    if criteria c eps (norm r.2.1) uNorm (bNorm r.2.2) (norm d.f) then (r.1, true, 1)
    else
      let t := genAlphaLoop n p h d inner solve c eps norm bNorm uNorm old k r.1
      (t.1, t.2.1, t.2.2 + 1)

/-- `structuralmechanics.transient.nonlinear.cpp` 241-333: the predictor and the iterations of a step. -/
def genAlphaStep [LinearOrder K] (n : Nat) (p : GenAlpha K) (h : K) (d : StepData K) (inner : Vec K → Vec K × Mat K) (solve : Solver K) (c : Criteria K) (eps : K) (norm bNorm : Vec K → K)
    (maxIterations : Nat) (old : Motion K) : Motion K × Bool × Nat :=
  let q := predictor n p h d (inner old.u).2 solve old
  genAlphaLoop n p h d inner solve c eps norm bNorm (norm q.2) old maxIterations q.1

end Verif.Transient
