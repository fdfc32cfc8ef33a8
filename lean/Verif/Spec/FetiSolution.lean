import Verif.Spec.FetiSystem
/-!
Specification of the problem solved by the FETI method (C68, C69), independent of the method: `K u + Bᵀ λ = f` in every domain and `B u = c`.
-/
namespace Verif.Dual

open Finset

variable {L R : Type} [DecidableEq L] [CommRing R]

/-- The equilibrium of the domains: `K u + Bᵀ X = f`. -/
def Equilibrium (nd : Nat) (dim : Nat → Nat) (all : Finset L) (entry : L → Nat → Nat → R) (Km : Nat → Nat → Nat → R) (f u : Nat → Nat → R) (X : L → R) : Prop :=
  ∀ d, d < nd → ∀ i, i < dim d → ∑ j ∈ range (dim d), Km d i j * u d j + timesBt all entry X d i = f d i

/-- The solution with its multipliers: the equilibrium and the constraints `B u = c`. -/
structure Solves (nd : Nat) (dim : Nat → Nat) (all : Finset L) (entry : L → Nat → Nat → R) (Km : Nat → Nat → Nat → R) (f : Nat → Nat → R) (c : L → R) (u : Nat → Nat → R) (X : L → R) : Prop where
  equilibrium : Equilibrium nd dim all entry Km f u X
  constraints : ∀ l ∈ all, timesB nd dim entry u l = c l

/-- The direct solvers apply matrices `Kp d`. -/
def SolvesBy (dim : Nat → Nat) (Kp : Nat → Nat → Nat → R) (solve : Nat → List R → List R) : Prop :=
  ∀ d v, v.length = dim d → solve d v = (List.range (dim d)).map fun i => ∑ j ∈ range (dim d), Kp d i j * v.getD j 0

/-- `Rm d` are vectors of the kernel of `Km d`, and `Kp d` solves all systems with a right-hand side orthogonal to them. -/
structure PseudoInverse (nd : Nat) (dim kdim : Nat → Nat) (Km Kp Rm : Nat → Nat → Nat → R) : Prop where
  kernel : ∀ d, d < nd → ∀ k, k < kdim d → ∀ i, i < dim d → ∑ j ∈ range (dim d), Km d i j * Rm d k j = 0
  inverse : ∀ d, d < nd → ∀ b : Nat → R, (∀ k, k < kdim d → ∑ i ∈ range (dim d), Rm d k i * b i = 0) →
    ∀ i, i < dim d → ∑ j ∈ range (dim d), Km d i j * ∑ m ∈ range (dim d), Kp d j m * b m = b i

/-- The numbering of the kernel vectors. -/
def Consecutive (kdim koff : Nat → Nat) : Prop := koff 0 = 0 ∧ ∀ d, koff (d + 1) = koff d + kdim d

/-- The dual right-hand side `B K⁺ f - c`. -/
def dualRhs (nd : Nat) (dim : Nat → Nat) (entry : L → Nat → Nat → R) (solve : Nat → List R → List R) (f : Nat → Nat → R) (c : L → R) (l : L) : R :=
  timesB nd dim entry (valuesOf fun d => solve d (vectorOf dim f d)) l - c l

/-- The residual `d - F X`. -/
def residualOf (nd : Nat) (dim : Nat → Nat) (all : Finset L) (entry : L → Nat → Nat → R) (solve : Nat → List R → List R) (f : Nat → Nat → R) (c X : L → R) (l : L) : R :=
  dualRhs nd dim entry solve f c l - timesBABt nd dim all entry solve X l

/-- The reconstructed solution `K⁺ (f - Bᵀ X) + Rᵀ W G r`. -/
def solutionOf (nd : Nat) (dim kdim koff : Nat → Nat) (all : Finset L) (entry : L → Nat → Nat → R) (solve : Nat → List R → List R) (Rm : Nat → Nat → Nat → R) (g : Nat → L → R) (W : Nat → Nat → R)
    (f : Nat → Nat → R) (X r : L → R) (d i : Nat) : R :=
  (solve d (vectorOf dim (fun d i => f d i - timesBt all entry X d i) d)).getD i 0 + timesRt kdim koff Rm (timesW (koff nd) W (timesG all g r)) d i

end Verif.Dual
