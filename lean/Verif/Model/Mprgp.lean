import Verif.Model.FetiSolve
import Verif.Spec.BoxQP
import Mathlib.Order.WithBot
import Mathlib.Data.Finset.Fold
/-!
The modified proportioning with reduced gradient projections: `MPRGP` (`src/feti/iterativesolver/mprgp.cpp`) on vectors of all multipliers (`Model/MprgpProcess` has the vectors of the processes).

Simplifications: exact arithmetic in an ordered field; a division by zero ends with `none` (`1 / alpha` apart); `numeric_limits<double>::max()` of `getFeasibleStepLength` is `⊤`; prints and times are left out.
-/
namespace Verif.Mprgp

open Verif.Feti (divide)

variable {ι K : Type} [Fintype ι] [Field K] [LinearOrder K]

/-- The settings: `delta`, `gradproj`, `precision_set` and `max_iterations`. -/
structure Config (K : Type) where
  delta : K
  gradproj : Bool
  eps : K
  maxIterations : Nat

/-- `restrictToFeasibleSet` (66-72). -/
def restrictToBox (B : Box ι K) (x : ι → K) : ι → K := fun i => if B.bounded i then max (B.lb i) (min (B.ub i) (x i)) else x i

/-- `updateFreeAndActiveSet` (74-83): the free set, the active set is its complement. -/
def freeSet (B : Box ι K) (eps : K) (x : ι → K) : ι → Bool := fun i => if B.bounded i then decide (x i - B.lb i > eps) && decide (B.ub i - x i > eps) else true

/-- `updateReducedGradient` (85-103). -/
def reducedGradient (B : Box ι K) (g x : ι → K) (alpha : K) : ι → K :=
  let xp := restrictToBox B (x + (-alpha) • g)
  let r := (1 / alpha) • (x + (-1 : K) • xp)
  fun i => if B.bounded i && decide (r i * g i < 0) then 0 else r i

/-- `updateFreeGradient` (111-117), `multByFree` (119-125). -/
def masked (z : ι → K) (s : ι → Bool) : ι → K := fun i => if s i then z i else 0

/-- One bounded component of `getFeasibleStepLength` (132-137). -/
def stepLimit (B : Box ι K) (x p : ι → K) (i : ι) : WithTop K :=
  if B.bounded i then
    if 0 < p i then ((x i - B.lb i) / p i : K)
    else if p i < 0 then ((x i - B.ub i) / p i : K)
    else ⊤
  else ⊤

/-- `getFeasibleStepLength` (127-141). -/
def stepLength (B : Box ι K) (x p : ι → K) : WithTop K := Finset.univ.fold min ⊤ (stepLimit B x p)

/-- The variables of `run`. -/
structure State (ι K : Type) where
  x : ι → K
  g : ι → K
  gred : ι → K
  gstop : ι → K
  gfree : ι → K
  free : ι → Bool
  z : ι → K
  p : ι → K

/-- The steps. -/
inductive Kind where
  | cg | mixed | gproj
  deriving DecidableEq, Repr

/-- The problem: the bounds, the operators, the right-hand side and `alpha`. -/
structure Problem (ι K : Type) where
  B : Box ι K
  H : (ι → K) → ι → K
  Hprec : (ι → K) → ι → K
  b : ι → K
  alpha : K

/-- The gradients, the sets and a new direction at `x` (the end of the initialization and of the mixed and proportioning steps, 155-162, 219-224, 238-243, 246). -/
def restart (P : Problem ι K) (eps : K) (x g : ι → K) : State ι K :=
  let free := freeSet P.B eps x
  let gfree := masked g free
  let z := masked (P.Hprec gfree) free
  { x := x, g := g, gred := reducedGradient P.B g x P.alpha, gstop := reducedGradient P.B g x P.alpha, gfree := gfree, free := free, z := z, p := z }

/-- The initialization (151-162). -/
def begin (P : Problem ι K) (eps : K) (x0 : ι → K) : State ι K :=
  let g0 := (-1 : K) • P.b
  restart P eps x0 (P.H x0 + (1 : K) • g0)

/-- The conjugate gradient step (178-188). -/
def cgStep (P : Problem ι K) (eps : K) (s : State ι K) (Fp : ι → K) (pFp acg : K) : Option (State ι K) := do
  let x := s.x + (-acg) • s.p
  let g := s.g + (-acg) • Fp
  let free := freeSet P.B eps x
  let gfree := masked g free
  let z := masked (P.Hprec gfree) free
  let gamma ← divide (dot z Fp) pFp
  let p := z + (-gamma) • s.p
  some { x := x, g := g, gred := reducedGradient P.B g x P.alpha, gstop := reducedGradient P.B g x P.alpha, gfree := gfree, free := free, z := p, p := p }

/-- The half step (205-216). -/
def halfStep (P : Problem ι K) (cfg : Config K) (s : State ι K) (Fp : ι → K) (af : K) : State ι K :=
  let g0 := (-1 : K) • P.b
  let x := s.x + (-af) • s.p
  let g := s.g + (-af) • Fp
  let gred := reducedGradient P.B g x P.alpha
  let free := freeSet P.B cfg.eps x
  let x := if cfg.gradproj then x + (-P.alpha) • gred else x + (-P.alpha) • masked gred free
  restart P cfg.eps x (P.H x + (1 : K) • g0)

/-- The mixed step (191-224). -/
def mixedStep (P : Problem ι K) (cfg : Config K) (s : State ι K) (Fp : ι → K) (acg af : K) : State ι K :=
  let g0 := (-1 : K) • P.b
  let fx := 1 / 2 * dot s.x (g0 + (1 : K) • s.g)
  let nx := restrictToBox P.B (s.x + (-acg) • s.p)
  let ng := P.H nx + (1 : K) • g0
  let fnx := 1 / 2 * dot nx (ng + (1 : K) • g0)
  if fnx < fx then restart P cfg.eps nx ng
  else halfStep P cfg s Fp af

/-- The proportioning step (228-243). -/
def gprojStep (P : Problem ι K) (cfg : Config K) (s : State ι K) : State ι K :=
  let g0 := (-1 : K) • P.b
  let x := if cfg.gradproj then s.x + (-P.alpha) • s.gred else s.x + (-P.alpha) • masked s.gred fun i => !s.free i
  restart P cfg.eps x (P.H x + (1 : K) • g0)

/-- The body of the loop (166-247). -/
def mstep (P : Problem ι K) (cfg : Config K) (s : State ι K) : Option (State ι K × Kind) :=
  if 2 * cfg.delta * max 0 (dot s.gstop s.g) ≤ max 0 (dot s.gstop s.gfree) then do
    let Fp := P.H s.p
    let pFp := dot s.p Fp
    let acg ← divide (dot s.z s.g) pFp
    let af := stepLength P.B s.x s.p
    if (acg : WithTop K) ≤ af then do
      let n ← cgStep P cfg.eps s Fp pFp acg
      some (n, .cg)
    else some (mixedStep P cfg s Fp acg (af.untopD 0), .mixed)
  else some (gprojStep P cfg s, .gproj)

/-- `MPRGPSolverInfo`. -/
structure Info where
  iterations : Nat
  ncg : Nat
  nmixed : Nat
  ngproj : Nat
  deriving DecidableEq

def Info.count (i : Info) : Kind → Info
  | .cg => { i with ncg := i.ncg + 1 }
  | .mixed => { i with nmixed := i.nmixed + 1 }
  | .gproj => { i with ngproj := i.ngproj + 1 }

/-- The loop (165-248); `none`: not finished within `fuel` steps or a division by zero. -/
def mloop (P : Problem ι K) (cfg : Config K) (stop : (ι → K) → (ι → K) → Bool) : Nat → State ι K → Info → Option (State ι K × Info)
  | 0, _, _ => none
  | fuel + 1, s, info =>
      if stop s.x s.gstop then some (s, info)
      else
        let it := info.iterations
        let info := { info with iterations := info.iterations + 1 }
        if it < cfg.maxIterations then do
          let n ← mstep P cfg s
          mloop P cfg stop fuel n.1 (info.count n.2)
        else some (s, info)

/-- `run` (143-249). -/
def run (P : Problem ι K) (cfg : Config K) (stop : (ι → K) → (ι → K) → Bool) (fuel : Nat) (x0 : ι → K) (iterations : Nat) : Option (State ι K × Info) :=
  mloop P cfg stop fuel (begin P cfg.eps x0) ⟨iterations, 0, 0, 0⟩

/-- The report of `MPRGP::solve` (313-318): `converged` and whether the error is `MAX_ITERATIONS_REACHED`. -/
def report (cfg : Config K) (info : Info) : Bool × Bool :=
  let converged := decide (info.iterations < cfg.maxIterations)
  (converged, !converged && decide (cfg.maxIterations ≤ info.iterations))

end Verif.Mprgp
