import Mathlib.Data.Nat.Basic
import Mathlib.Algebra.BigOperators.Group.Finset.Basic
/-!
Specification of the multipliers of a distributed problem, independent of the code: processes `0, …, np - 1`, the process `p` has the domains `first p, …, first (p + 1) - 1`; a
multiplier (of any type `L`) acts on a list of domains; every process has a list of multipliers.
-/
namespace Verif.Dual

variable {L R : Type} [DecidableEq L]

/-- The process `p` has the domain `d`. -/
def Owns (first : Nat → Nat) (p d : Nat) : Prop := first p ≤ d ∧ d < first (p + 1)

instance (first : Nat → Nat) (p d : Nat) : Decidable (Owns first p d) := by unfold Owns; infer_instance

/-- One of the domains belongs to the process `p`. -/
def touches (first : Nat → Nat) (p : Nat) (ds : List Nat) : Bool := ds.any fun d => decide (Owns first p d)

/-- The distribution of multipliers: every process has, without repetition, multipliers acting on its domains only if it takes part in them, two processes have the same common multipliers in
the same order, and processes with a common multiplier are neighbours. -/
structure Shared (np : Nat) (first : Nat → Nat) (nb : Nat → List Nat) (lam : Nat → List L) (doms : L → List Nat) : Prop where
  mono : ∀ p, first p ≤ first (p + 1)
  sorted : ∀ p, p < np → ∀ l ∈ lam p, (doms l).Pairwise (· < ·)
  range : ∀ p, p < np → ∀ l ∈ lam p, ∀ d ∈ doms l, ∃ q, q < np ∧ Owns first q d ∧ (q = p ∨ q ∈ nb p)
  mine : ∀ p, p < np → ∀ l ∈ lam p, touches first p (doms l) = true
  nodup : ∀ p, p < np → (lam p).Nodup
  agree : ∀ p q, p < np → q < np → p ≠ q → (lam p).filter (fun l => touches first q (doms l)) = (lam q).filter (fun l => touches first p (doms l))
  nsorted : ∀ p, p < np → (nb p).Pairwise (· < ·)
  nrange : ∀ p, p < np → ∀ q ∈ nb p, q < np ∧ q ≠ p
  nsym : ∀ p q, p < np → q ∈ nb p → p ∈ nb q

/-- `cmap` describes the multipliers `lam`: groups of consecutive multipliers with the same domains, each written as their number, the number of the domains and the domains. -/
def Describes (cmap : List Nat) (lam : List L) (doms : L → List Nat) : Prop :=
  ∃ groups : List (Nat × List Nat), (∀ g ∈ groups, 0 < g.1) ∧ cmap = groups.flatMap (fun g => g.1 :: g.2.length :: g.2) ∧ groups.flatMap (fun g => List.replicate g.1 g.2) = lam.map doms

/-- The value of the multiplier `l` in the vector `vals` of a process with the multipliers `lam` (zero if it has not the multiplier). -/
def valueOf [Zero R] (lam : List L) (vals : List R) (l : L) : R := if l ∈ lam then vals.getD (lam.idxOf l) 0 else 0

/-- The intervals of the multipliers of the process `p`: each has first the multipliers of lower processes (the halo: the first domain is before the domains of `p`), then its own. -/
def Intervals (first : Nat → Nat) (p : Nat) (lam : List L) (doms : L → List Nat) (intervals : List (Nat × Nat)) : Prop :=
  ∃ parts : List (List L × List L), intervals = parts.map (fun x => (x.1.length, x.2.length)) ∧ lam = parts.flatMap (fun x => x.1 ++ x.2) ∧
    ∀ x ∈ parts, (∀ l ∈ x.1, (doms l).headD 0 < first p) ∧ ∀ l ∈ x.2, first p ≤ (doms l).headD 0

end Verif.Dual
