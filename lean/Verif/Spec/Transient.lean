import Verif.Model.Transient
/-!
What the time integration has to satisfy, independently of how it computes it.
-/
namespace Verif.Transient

open Finset

variable {K : Type} [Field K]

/-- `x` solves the system with the prescribed values: `x = g` in the rows `fixed` and `A x = b` in the others. -/
def Solves (n : Nat) (fixed : Nat → Prop) (A : Mat K) (b g x : Vec K) : Prop :=
  (∀ i, i < n → fixed i → x i = g i) ∧ ∀ i, i < n → ¬fixed i → ∑ j ∈ range n, A i j * x j = b i

/-- The contract of the solver: whenever it reports success, its result solves the system. -/
def SolverOk (n : Nat) (fixed : Nat → Prop) (solve : Solver K) : Prop := ∀ A b g, (solve A b g).1 = true → Solves n fixed A b g (solve A b g).2

/-- `M v + K u = f` in the free rows. -/
def HeatBalance (n : Nat) (fixed : Nat → Prop) (k m : Mat K) (f u v : Vec K) : Prop :=
  ∀ i, i < n → ¬fixed i → (∑ j ∈ range n, m i j * v j) + ∑ j ∈ range n, k i j * u j = f i

/-- The matrix of the step is `K + c M`: either it is computed again, or the stored one is that matrix. -/
def MatrixOk (c : K) (e : Assembled K) (aUpdated : Bool) (a : Mat K) : Prop := (e.updated || aUpdated) = true ∨ ∀ i j, a i j = e.k i j + c * e.m i j

/-- The flags of the assembler tell the truth: the matrices are reported in each evaluation, or they never change. -/
def FlagsOk (ev : K → Vec K → Assembled K) : Prop := (∀ t u, (ev t u).updated = true) ∨ ∀ t u t' u', (ev t u).k = (ev t' u').k ∧ (ev t u).m = (ev t' u').m

/-- `xᵀ A y`. -/
def form (n : Nat) (A : Mat K) (x y : Vec K) : K := ∑ i ∈ range n, x i * ∑ j ∈ range n, A i j * y j

/-- The matrix is symmetric. -/
def Symm (n : Nat) (A : Mat K) : Prop := ∀ i j, i < n → j < n → A i j = A j i

/-- The matrix is positive semidefinite. -/
def Psd [LinearOrder K] (n : Nat) (A : Mat K) : Prop := ∀ x, 0 ≤ form n A x x

/-- Newmark's formulas with the parameters `beta` and `gamma`. -/
def Newmark (beta gamma h : K) (u v w u' v' w' : Vec K) : Prop :=
  ∀ i, u' i = u i + h * v i + h ^ 2 * ((1 / 2 - beta) * w i + beta * w' i) ∧ v' i = v i + h * ((1 - gamma) * w i + gamma * w' i)

/-- The energy of a motion: kinetic and potential, and the term that makes it monotone for Newmark's method. -/
def energy (n : Nat) (k m : Mat K) (beta gamma h : K) (u v w : Vec K) : K :=
  form n m v v / 2 + form n k u u / 2 + h ^ 2 * (beta - gamma / 2) / 2 * form n m w w

/-- The displacements, velocities and accelerations vanish in the fixed rows and `M w + K u = 0` in the others. -/
structure FreeMotion (n : Nat) (fixed : Nat → Prop) (k m : Mat K) (u v w : Vec K) : Prop where
  rest : ∀ i, i < n → fixed i → u i = 0 ∧ v i = 0 ∧ w i = 0
  balance : ∀ i, i < n → ¬fixed i → (∑ j ∈ range n, m i j * w j) + ∑ j ∈ range n, k i j * u j = 0

/-- The equation of motion of the generalized-α method: the forces are taken at `1 - alphaF` of the step and the inertia at `1 - alphaM` of it. What is missing to the balance. -/
def imbalance (n : Nat) (p : GenAlpha K) (d : StepData K) (inner : Vec K → Vec K) (old cur : Motion K) (i : Nat) : K :=
  (1 - p.alphaF) * (d.f i - inner cur.u i - ∑ j ∈ range n, d.c i j * cur.v j) + p.alphaF * (d.fOld i - d.rOld i - ∑ j ∈ range n, d.c i j * old.v j)
    - ∑ j ∈ range n, d.m i j * ((1 - p.alphaM) * cur.a j + p.alphaM * old.a j)

/-- The contract of the solver of the nonlinear analyses, which ignore its report: it always solves the system. -/
def AlwaysSolves (n : Nat) (fixed : Nat → Prop) (solve : Solver K) : Prop := ∀ A b g, Solves n fixed A b g (solve A b g).2

end Verif.Transient
