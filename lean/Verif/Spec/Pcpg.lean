import Mathlib.Algebra.Module.LinearMap.Defs
import Mathlib.Algebra.Field.Defs
import Mathlib.Order.Defs.LinearOrder
/-!
Specification of the dual problem of the FETI solver (C62, C63): multipliers `x` with `G x = e` and `Pt (d - F x) = 0`.
-/
namespace Verif.Pcpg

/-- The operators of the iterative solver on dual vectors: the dual operator `F`, the projector `P` and its transpose `Pt`, the preconditioner `S`, the right-hand side `d`, the initial
multipliers `l` and the dot product. -/
structure Ops (K V : Type) where
  F : V → V
  P : V → V
  Pt : V → V
  S : V → V
  d : V
  l : V
  dot : V → V → K

variable {K V : Type} [Field K] [AddCommGroup V] [Module K V]

/-- The operators are linear. -/
structure Linear (o : Ops K V) : Prop where
  F : IsLinearMap K o.F
  P : IsLinearMap K o.P
  Pt : IsLinearMap K o.Pt
  S : IsLinearMap K o.S

/-- `F` and `S` are symmetric, `P` is a projector and `Pt` is its transpose with respect to a symmetric bilinear `dot`. -/
structure Symmetric (o : Ops K V) : Prop where
  dot_add : ∀ a b v, o.dot (a + b) v = o.dot a v + o.dot b v
  dot_smul : ∀ (c : K) a v, o.dot (c • a) v = c * o.dot a v
  dot_comm : ∀ a b, o.dot a b = o.dot b a
  F : ∀ a b, o.dot (o.F a) b = o.dot a (o.F b)
  S : ∀ a b, o.dot (o.S a) b = o.dot a (o.S b)
  P : ∀ a b, o.dot (o.P a) b = o.dot a (o.Pt b)
  idem : ∀ a, o.P (o.P a) = o.P a

/-- `F` is definite on the range of the projector, the preconditioner is definite on the range of its transpose. -/
structure Definite (o : Ops K V) : Prop where
  F : ∀ a, o.P a ≠ 0 → o.dot (o.P a) (o.F (o.P a)) ≠ 0
  S : ∀ a, o.Pt a ≠ 0 → o.dot (o.S (o.Pt a)) (o.Pt a) ≠ 0

/-! ### Stopping -/

/-- `FETIConfiguration::STOPPING_CRITERION`. -/
inductive Criterion
  | relative
  | absolute
  | arioli
  deriving DecidableEq

/-- `IterativeSolverInfo::ERROR`. -/
inductive Error
  | ok
  | stagnation
  | maxIterations
  | invalidData
  deriving DecidableEq

/-- Values of norms: numbers, the infinity and NaN. -/
inductive Norm (K : Type)
  | fin (x : K)
  | inf
  | nan
  deriving DecidableEq

/-- The configuration; `sqrt` is `std::sqrt`. -/
structure Config (K : Type) where
  criterion : Criterion
  precision : K
  maxStagnation : Nat
  maxIterations : Nat
  sqrt : K → K

section stopping
variable {K : Type} [Field K] [LinearOrder K]

/-- `a < b`. -/
def Norm.less : Norm K → Norm K → Bool
  | .fin a, .fin b => decide (a < b)
  | .fin _, .inf => true
  | _, _ => false

/-- The positive part; a number that is not finite counts as zero (`std::max(0., NaN)` is zero). -/
def positive : Option K → K
  | none => 0
  | some x => max 0 x

/-- The norm of the first iterate: the square root of `yw` or NaN. -/
def initialNorm (cfg : Config K) : Option K → Norm K
  | none => .nan
  | some x => if 0 ≤ x then .fin (cfg.sqrt x) else .nan

/-- The measured quantity of an iterate with the value `yw`, where `yw0` is the value of the first iterate. -/
def measured (cfg : Config K) (yw0 yw : Option K) : Norm K :=
  match cfg.criterion with
  | .arioli => .inf
  | .absolute => .fin (cfg.sqrt (positive yw))
  | .relative =>
    match initialNorm cfg yw0 with
    | .nan => .nan
    | .inf => .fin 0
    | .fin n => if n ≠ 0 then .fin (cfg.sqrt (positive yw) / n) else if cfg.sqrt (positive yw) = 0 then .nan else .inf

/-- Why the check number `i` (from 1) of the quantities `c` stops: invalid numbers, the quantity is larger than `maxStagnation - 1` checks ago, it is below the precision, or it is the last allowed
check. -/
def stopReason (cfg : Config K) (c : Nat → Norm K) (i : Nat) : Option Error :=
  if c i = .nan then some .invalidData
  else if cfg.maxStagnation ≤ i ∧ (c (i + 1 - cfg.maxStagnation)).less (c i) = true then some .stagnation
  else if (c i).less (.fin cfg.precision) = true then some .ok
  else if i = cfg.maxIterations then some .maxIterations
  else none

/-- The criterion of a zero start: the absolute norm of the first iterate is below the precision. -/
def satisfiedAtStart (cfg : Config K) (yw0 : Option K) : Prop := cfg.criterion = .absolute ∧ (initialNorm cfg yw0).less (.fin cfg.precision) = true

end stopping

end Verif.Pcpg
