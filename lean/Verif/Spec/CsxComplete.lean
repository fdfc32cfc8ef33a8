import Verif.Spec.Csx
/-! Full matrices of which one triangle is stored. -/
namespace Verif.Csx

variable {T : Type}

/-- The entries of the full matrix that come from one stored entry; the mirrored one is changed by `conj`. -/
def mirrored (conj : T → T) (e : Nat × Nat × T) : List (Nat × Nat × T) := if e.1 = e.2.1 then [e] else [e, (e.2.1, e.1, conj e.2.2)]

/-- All stored entries are in one triangle: `low` for secondary ≤ primary. -/
def Triangular (low : Bool) (A : Csx T) : Prop := ∀ e ∈ A.entries, if low then e.2.1 ≤ e.1 else e.1 ≤ e.2.1

/-- The contract of `std::sort` for the comparison of rows and columns. -/
structure IsSort2 (sort : List (Nat × Nat × Nat) → List (Nat × Nat × Nat)) : Prop where
  perm : ∀ l, (sort l).Perm l
  ordered : ∀ l, (sort l).Pairwise fun a b => a.1 < b.1 ∨ (a.1 = b.1 ∧ a.2.1 ≤ b.2.1)

end Verif.Csx
