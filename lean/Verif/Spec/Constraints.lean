import Verif.Spec.Dual
import Mathlib.Algebra.Field.Defs
/-!
Specification of the equality constraints, independent of the code: a degree of freedom `g` has copies in the domains `copies g` (increasing); the multipliers are `glue g s` (on the first `s`
copies of `g`) and `fix g d` (the Dirichlet condition of the copy of `g` in the domain `d`).
-/
namespace Verif.Dual

/-- Multipliers of the equality constraints. -/
inductive Mult
  | glue (g s : Nat)
  | fix (g d : Nat)
  deriving DecidableEq

/-- The degree of freedom of a multiplier. -/
def Mult.dof : Mult → Nat
  | .glue g _ => g
  | .fix g _ => g

/-- The domains of a multiplier. -/
def Mult.doms (copies : Nat → List Nat) : Mult → List Nat
  | .glue g s => (copies g).take s
  | .fix _ d => [d]

/-- A problem decomposed to domains that are distributed to processes: the process `p` has the domains `first p, …, first (p + 1) - 1`, the degree of freedom `g` has copies in the domains
`copies g`, its copy in the domain `d` is the unknown `index d g` of `dim d`; the degrees of freedom with a Dirichlet condition are `fixed`. -/
structure Problem where
  np : Nat
  first : Nat → Nat
  nb : Nat → List Nat
  ndofs : Nat
  copies : Nat → List Nat
  index : Nat → Nat → Nat
  dim : Nat → Nat
  fixed : Nat → Bool

/-- What is assumed about the decomposition: all domains belong to processes, processes with a common degree of freedom are neighbours, the copies are ordered by the domains and different degrees
of freedom are different unknowns. -/
structure Problem.Ok (P : Problem) : Prop where
  zero : P.first 0 = 0
  mono : ∀ p, P.first p ≤ P.first (p + 1)
  nsorted : ∀ p, p < P.np → (P.nb p).Pairwise (· < ·)
  nrange : ∀ p, p < P.np → ∀ q ∈ P.nb p, q < P.np ∧ q ≠ p
  nsym : ∀ p q, p < P.np → q ∈ P.nb p → p ∈ P.nb q
  csorted : ∀ g, g < P.ndofs → (P.copies g).Pairwise (· < ·)
  crange : ∀ g, g < P.ndofs → ∀ d ∈ P.copies g, ∃ q, q < P.np ∧ Owns P.first q d
  neigh : ∀ g, g < P.ndofs → ∀ p q, p < P.np → q < P.np → touches P.first p (P.copies g) = true → touches P.first q (P.copies g) = true → q = p ∨ q ∈ P.nb p
  irange : ∀ g, g < P.ndofs → ∀ d ∈ P.copies g, P.index d g < P.dim d
  inj : ∀ d g g', g < P.ndofs → g' < P.ndofs → d ∈ P.copies g → d ∈ P.copies g' → P.index d g = P.index d g' → g = g'

/-- The degrees of freedom of the process `p`, in the global order. -/
def Problem.locals (P : Problem) (p : Nat) : List Nat := (List.range P.ndofs).filter fun g => touches P.first p (P.copies g)

/-- The degree of freedom with the local number `i`. -/
def Problem.dofAt (P : Problem) (p i : Nat) : Nat := (P.locals p).getD i 0

/-- The local numbers of the Dirichlet degrees of freedom. -/
def Problem.dirichlet (P : Problem) (p : Nat) : List Nat := (List.range (P.locals p).length).filter fun i => P.fixed (P.dofAt p i)

/-- The multipliers of the problem: one for every copy of a Dirichlet degree of freedom, one less than copies for other degrees of freedom. -/
def Problem.IsMult (P : Problem) : Mult → Prop
  | .glue g s => g < P.ndofs ∧ P.fixed g = false ∧ 2 ≤ s ∧ s ≤ (P.copies g).length
  | .fix g d => g < P.ndofs ∧ P.fixed g = true ∧ d ∈ P.copies g

end Verif.Dual
