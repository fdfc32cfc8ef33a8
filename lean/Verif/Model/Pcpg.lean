import Verif.Base.Mem
import Verif.Spec.Pcpg
import Mathlib.Order.Defs.LinearOrder
/-!
The preconditioned conjugate projected gradient method (`src/feti/iterativesolver/pcpg.cpp` 66-146) and its stopping criteria (`iterativesolver.cpp` 83-164).

Simplifications: the dual vectors of all processes together are one vector of `V` (C61 is about the distributed vectors and their dot product); numbers are exact and `none` is a number or a
vector that is not finite (made by a division by zero); times and printing are left out; `size_t` is `Nat`.  The preconditioner, the projector and the dual operator are parameters.
-/
namespace Verif.Pcpg

/-- `IterativeSolverInfo`. -/
structure Info (K : Type) where
  error : Error
  iterations : Nat
  converged : Bool
  initial : Norm K
  criteria : Norm K
  buffer : List (Norm K)
  p : Nat

section norms
variable {K : Type} [Field K] [LinearOrder K]

/-- `a / b` for a number `a`. -/
def Norm.div (a : K) : Norm K → Norm K
  | .fin b => if b = 0 then (if a = 0 then .nan else .inf) else .fin (a / b)
  | .inf => .fin 0
  | .nan => .nan

/-- The norm of the criterion (`iterativesolver.cpp` 98-102, 124-128); `arioli` stays infinite. -/
def select (c : Criterion) (absolute relative : Norm K) : Norm K :=
  match c with
  | .absolute => absolute
  | .relative => relative
  | .arioli => .inf

/-- `std::sqrt(ww)`. -/
def root (cfg : Config K) : Option K → Norm K
  | none => .nan
  | some x => if x < 0 then .nan else .fin (cfg.sqrt x)

/-- `setInfo` (83-108). -/
def setInfo (cfg : Config K) (ww : Option K) : Info K :=
  let absolute := root cfg ww
  let criteria := select cfg.criterion absolute (.fin 1)
  { error := .ok, iterations := 1, converged := cfg.criterion == .absolute && absolute.less (.fin cfg.precision), initial := absolute, criteria := criteria,
    buffer := List.replicate cfg.maxStagnation criteria, p := 0 }

/-- `std::max(0., ww)` is zero for NaN. -/
def clamp : Option K → K
  | none => 0
  | some x => if 0 < x then x else 0

/-- `std::isnan`. -/
def Norm.isNan : Norm K → Bool
  | .nan => true
  | _ => false

/-- `updateInfo` (118-164); `none` for `max_stagnation == 0` (a write to an empty vector, a division by zero). -/
def updateInfo (cfg : Config K) (info : Info K) (ww : Option K) : Option (Info K) := do
  let absolute := cfg.sqrt (clamp ww)
  let relative := Norm.div absolute info.initial
  let criteria := select cfg.criterion (.fin absolute) relative
  let converged := criteria.less (.fin cfg.precision)
  let buffer ← wr info.buffer info.p criteria
  let p := (info.p + 1) % cfg.maxStagnation
  let old ← buffer[p]?
  let (error, converged) := if cfg.maxStagnation ≤ info.iterations ∧ old.less criteria then (Error.stagnation, true) else (info.error, converged)
  let (error, converged) := if info.iterations = cfg.maxIterations ∧ converged = false then (Error.maxIterations, true) else (error, converged)
  let (error, converged) := if criteria.isNan then (Error.invalidData, true) else (error, converged)
  some { info with error := error, iterations := if converged then info.iterations else info.iterations + 1, converged := converged, criteria := criteria, buffer := buffer, p := p }

end norms

variable {K V : Type} [Field K] [AddCommGroup V] [Module K V]

/-- The variables of the method. -/
structure State (K V : Type) where
  x : Option V
  r : Option V
  w : Option V
  p : Option V
  yw : Option K

/-- `math::add(y, a, x)`. -/
def axpy (y : Option V) (a : Option K) (x : Option V) : Option V := do
  let y ← y
  let a ← a
  let x ← x
  some (y + a • x)

/-- The dot product. -/
def inner (o : Ops K V) (a b : Option V) : Option K := do
  let a ← a
  let b ← b
  some (o.dot a b)

/-- `a / b`. -/
def quot [DecidableEq K] (a b : Option K) : Option K := do
  let a ← a
  let b ← b
  if b = 0 then none else some (a / b)

/-- The initialization (78-99). -/
def start (o : Ops K V) : State K V :=
  let r := (-1 : K) • o.F o.l + (1 : K) • o.d
  let w := o.Pt r
  let y := o.P (o.S w)
  { x := some o.l, r := some r, w := some w, p := some y, yw := some (o.dot y w) }

/-- The body of the loop without the check (106-140). -/
def iter [DecidableEq K] (o : Ops K V) (s : State K V) : State K V :=
  let Fp := s.p.map o.F
  let gamma := quot s.yw (inner o s.p Fp)
  let x := axpy s.x gamma s.p
  let r := axpy s.r (gamma.map fun g => -g) Fp
  let w := r.map o.Pt
  let y := (w.map o.S).map o.P
  let yw := inner o y w
  let beta := quot yw s.yw
  { x := x, r := r, w := w, p := axpy y beta s.p, yw := yw }

/-- The state after `k` passes through the loop. -/
def iterate [DecidableEq K] (o : Ops K V) : Nat → State K V
  | 0 => start o
  | k + 1 => iter o (iterate o k)

/-- The loop (105-144): the check uses the value of `yw` from before the step (142).  `none`: not finished within `fuel` steps (or undefined). -/
def loop [LinearOrder K] (o : Ops K V) (cfg : Config K) : Nat → State K V → Info K → Option (State K V × Info K)
  | 0, s, info => if info.converged then some (s, info) else none
  | fuel + 1, s, info =>
      if info.converged then some (s, info)
      else do
        let info ← updateInfo cfg info s.yw
        loop o cfg fuel (iter o s) info

/-- `PCPG::solve`. -/
def solve [LinearOrder K] (o : Ops K V) (cfg : Config K) (fuel : Nat) : Option (State K V × Info K) := loop o cfg fuel (start o) (setInfo cfg (start o).yw)

end Verif.Pcpg
