import Verif.Model.Mprgp
/-!
The semimonotonic augmented Lagrangians: `SMALBE<double>::solve` (`src/feti/iterativesolver/smalbe.cpp` 62-245) on vectors of all multipliers.

Simplifications: exact arithmetic in an ordered field; `std::sqrt` is a parameter; the estimate of the greatest eigenvalue (`normPFP`) is an input; `-infinity` of the first `Lag0` is `none`; the numbers of steps in one run and the times are left out.
-/
namespace Verif.Mprgp

variable {ι κ K : Type} [Fintype ι] [Fintype κ] [Field K] [LinearOrder K]

/-- The settings of the outer loop and the square root. -/
structure SConfig (K : Type) extends Config K where
  sqrt : K → K
  precision : K
  precisionIn : K
  alpham : K
  rho : K
  eta : K
  beta : K
  M : K

/-- The data: `F`, the preconditioner (if it is set), `P->apply`, `P->apply_GtinvU`, `P->apply_invLG`, `P->apply_invL`, `P->apply_invU`, `P->e`, `F->d`, the bounds and the estimate of the norm of `P F P`. -/
structure SProblem (ι κ K : Type) where
  B : Box ι K
  F : (ι → K) → ι → K
  M : Option ((ι → K) → ι → K)
  P : (ι → K) → ι → K
  GtinvU : (κ → K) → ι → K
  invLG : (ι → K) → κ → K
  invL : (κ → K) → κ → K
  invU : (κ → K) → κ → K
  e : κ → K
  d : ι → K
  normPFP : K

/-- The bounds moved by `x_im` (80-83). -/
def Box.shift (B : Box ι K) (x : ι → K) : Box ι K :=
  { bounded := B.bounded, lb := fun i => if B.bounded i then B.lb i - x i else B.lb i, ub := fun i => if B.bounded i then B.ub i - x i else B.ub i }

/-- The homogenization (71-87): `x_im`, the right-hand side before the projection, the bounds and the initial guess. -/
def homogenize (S : SProblem ι κ K) (cfg : SConfig K) : (ι → K) × (ι → K) × Box ι K × (ι → K) :=
  let invLce := S.invL S.e
  if cfg.sqrt (dot invLce invLce) > 10 * cfg.precision then
    let xim := S.GtinvU invLce
    (xim, S.d + (-1 : K) • S.F xim, S.B.shift xim, 0 + (-1 : K) • xim)
  else (0, S.d, S.B, 0)

/-- `A_apply` (125-133). -/
def applyA (S : SProblem ι κ K) (rho : K) (v : ι → K) : ι → K :=
  let y := S.P v
  let z := S.F y
  ((1 / S.normPFP) • S.P z + rho • v) + (-rho) • y

/-- `Aprec_apply` (134-145). -/
def applyAprec (S : SProblem ι κ K) (rho : K) (v : ι → K) : ι → K :=
  match S.M with
  | some M =>
      let y := S.P v
      let z := M y
      (S.normPFP • S.P z + (1 / rho) • v) + (-(1 / rho)) • y
  | none => v

/-- `stop` (147-159); `maxEIG_H` is one. -/
def sstop (S : SProblem ι κ K) (cfg : SConfig K) (M normb : K) (x gstop : ι → K) : Bool :=
  let ng := cfg.sqrt (dot gstop gstop)
  let nx := cfg.sqrt (dot (S.invLG x) (S.invLG x))
  let cr0 := decide (ng ≤ min (M * nx) (cfg.eta * normb))
  let cr1 := decide (ng ≤ cfg.precisionIn * normb) && decide (nx ≤ cfg.precisionIn * normb / 1)
  cr0 || cr1

/-- What does not change in the outer loop. -/
structure SFixed (ι K : Type) where
  xim : ι → K
  B : Box ι K
  b : ι → K
  normb : K

/-- The variables of the outer loop. -/
structure SState (ι κ K : Type) where
  x0 : ι → K
  mu : κ → K
  bCtmu : ι → K
  M : K
  Lag0 : Option K
  iterations : Nat

/-- `b - Ct mu` (116-119, 201-204). -/
def ctmu (S : SProblem ι κ K) (b : ι → K) (mu : κ → K) : ι → K := (-1 : K) • S.GtinvU mu + (1 : K) • b

/-- The beginning (71-122, 161-169): the initial restriction of `mprgp.x` and its gradient are overwritten in `run`. -/
def sbegin (S : SProblem ι κ K) (cfg : SConfig K) : SFixed ι K × SState ι κ K :=
  let h := homogenize S cfg
  let b := (1 / S.normPFP) • S.P h.2.1
  ({ xim := h.1, B := h.2.2.1, b := b, normb := cfg.sqrt (dot b b) },
    { x0 := h.2.2.2, mu := 0, bCtmu := ctmu S b 0, M := cfg.M, Lag0 := none, iterations := 1 })

/-- The problem of one run. -/
def inner (S : SProblem ι κ K) (cfg : SConfig K) (f : SFixed ι K) (s : SState ι κ K) : Problem ι K :=
  { B := f.B, H := applyA S cfg.rho, Hprec := applyAprec S cfg.rho, b := s.bCtmu, alpha := cfg.alpham / 1 }

/-- The result of the outer loop: the multipliers, `mu`, the tested gradient, `invLG x`, whether it ended with `break`, the iterations. -/
structure SResult (ι κ K : Type) where
  x : ι → K
  mu : κ → K
  gstop : ι → K
  Gx : κ → K
  broke : Bool
  iterations : Nat

/-- The body of the outer loop (175-215): the next state and the values left in the variables, or the result after `break`; one run does at most `max_iterations + 1` tests. -/
def sbody (S : SProblem ι κ K) (cfg : SConfig K) (f : SFixed ι K) (s : SState ι κ K) : Option (SResult ι κ K × SState ι κ K) := do
  let A := inner S cfg f s
  let r ← run A cfg.toConfig (sstop S cfg s.M f.normb) (cfg.maxIterations + 2) s.x0 s.iterations
  let x := r.1.x
  let gstop := reducedGradient A.B r.1.g x A.alpha
  let Gx := S.invLG x
  let Lag1 := 1 / 2 * dot (r.1.g + (-1 : K) • s.bCtmu) x
  let nstop := cfg.sqrt (dot gstop gstop)
  let nGx := cfg.sqrt (dot Gx Gx)
  if nstop ≤ cfg.precision * f.normb ∧ nGx ≤ cfg.precision * f.normb / 1 then
    some ({ x := x, mu := s.mu, gstop := gstop, Gx := Gx, broke := true, iterations := r.2.iterations }, s)
  else
    let mu := s.mu + cfg.rho • Gx
    let M := match s.Lag0 with
      | some l => if Lag1 < l + cfg.rho * dot Gx Gx / 2 then cfg.beta * s.M else s.M
      | none => s.M
    some ({ x := x, mu := mu, gstop := gstop, Gx := Gx, broke := false, iterations := r.2.iterations },
      { x0 := x, mu := mu, bCtmu := ctmu S f.b mu, M := M, Lag0 := some Lag1, iterations := r.2.iterations })

/-- The outer loop (173-216). `none`: not finished within `fuel` runs or a division by zero. -/
def sloop (S : SProblem ι κ K) (cfg : SConfig K) (f : SFixed ι K) : Nat → SState ι κ K → SResult ι κ K → Option (SResult ι κ K)
  | 0, _, _ => none
  | fuel + 1, s, last =>
      if s.iterations ≤ cfg.maxIterations then do
        let n ← sbody S cfg f s
        if n.1.broke then some n.1 else sloop S cfg f fuel n.2 n.1
      else some last

/-- The final multipliers, amplitudes of the kernels, `info.converged` and whether the error is `MAX_ITERATIONS_REACHED` (221-244). -/
structure SReport (ι κ K : Type) where
  x : ι → K
  rbm : κ → K
  converged : Bool
  error : Bool

/-- The end (221-244): `info = mprgp_info` (234) overwrites `info.converged`. -/
def sfinish (S : SProblem ι κ K) (cfg : SConfig K) (f : SFixed ι K) (r : SResult ι κ K) : SReport ι κ K :=
  let x := r.x + (1 : K) • f.xim
  let b := S.F x + (-1 : K) • S.d
  let Gx := S.invLG b + (-S.normPFP) • r.mu
  let mprgpConverged := false
  { x := x, rbm := (-1 : K) • S.invU Gx, converged := mprgpConverged, error := decide (cfg.maxIterations < r.iterations) && !mprgpConverged }

/-- `SMALBE<double>::solve`. -/
def smalbe (S : SProblem ι κ K) (cfg : SConfig K) (fuel : Nat) : Option (SResult ι κ K × SReport ι κ K) := do
  let s := sbegin S cfg
  let A := inner S cfg s.1 s.2
  let x := restrictToBox s.1.B s.2.x0
  let r ← sloop S cfg s.1 fuel s.2 { x := x, mu := 0, gstop := reducedGradient A.B (A.H x + (-1 : K) • s.2.bCtmu) x A.alpha, Gx := S.invLG x, broke := false, iterations := 1 }
  some (r, sfinish S cfg s.1 r)

end Verif.Mprgp
