/-
Specification vocabulary for `serializededata`.
-/
namespace Verif.Serial
variable {D : Type _}

/-- The distribution has a border for each thread, starts with zero and does not decrease. -/
structure Distribution (d : List Nat) (threads : Nat) : Prop where
  length : d.length = threads + 1
  zero : d[0]? = some 0
  mono : d.Pairwise (· ≤ ·)

/-- Zero items are needed only by the last threads (or by the first one). -/
def ZeroSuffix (d : List Nat) : Prop :=
  ∀ t a, 0 < t → d[t]? = some a → d[t + 1]? = some a → d.getLast? = some a

/-- Boundaries and values of threads fit: they start with zero, do not decrease, and up to each thread there are as many values as
the last boundary says. -/
structure Consistent (bnd : List (List Nat)) (data : List (List D)) : Prop where
  length : bnd.length = data.length
  first : ∃ l bs, bnd = (0 :: l) :: bs
  mono : bnd.flatten.Pairwise (· ≤ ·)
  fit : ∀ t, t < bnd.length → ((bnd.take (t + 1)).flatten).getLast? = some (data.take (t + 1)).flatten.length

/-- Boundaries of all items: at least the leading zero, monotone, inside the values. -/
structure Items (ebnd : List Nat) (edata : List D) : Prop where
  zero : ebnd[0]? = some 0
  mono : ebnd.Pairwise (· ≤ ·)
  last : ebnd.getLast? = some edata.length

end Verif.Serial
