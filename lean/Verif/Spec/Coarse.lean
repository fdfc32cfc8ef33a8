import Verif.Spec.Dual
/-!
Specification of the coarse space, independent of the code: the multipliers of a domain, the domains known to a process and the domains with a common multiplier.
-/
namespace Verif.Dual

variable {L : Type}

/-- The positions of the elements with the property `f`. -/
def positions (lam : List L) (f : L → Bool) : List Nat := (List.range lam.length).filter fun k => (lam[k]?).any f

/-- The positions of the multipliers acting on the domain `d`. -/
def acting (lam : List L) (doms : L → List Nat) (d : Nat) : List Nat := positions lam fun l => decide (d ∈ doms l)

/-- The domains (of `N`) known to the process `p`: its own and those of its multipliers, in increasing order. -/
def known (first : Nat → Nat) (p : Nat) (lam : List L) (doms : L → List Nat) (N : Nat) : List Nat :=
  (List.range N).filter fun d => decide (Owns first p d) || lam.any fun l => decide (d ∈ doms l)

/-- The domains (of `N`) with a multiplier of `lam` that acts on `d`, in increasing order. -/
def adjacent (lam : List L) (doms : L → List Nat) (N d : Nat) : List Nat := (List.range N).filter fun e => lam.any fun l => decide (d ∈ doms l ∧ e ∈ doms l)

end Verif.Dual
