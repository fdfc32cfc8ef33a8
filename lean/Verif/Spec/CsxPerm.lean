import Verif.Spec.Csx
/-! Permuted matrices. -/
namespace Verif.Csx

variable {T P : Type}

/-- A permutation (`src/math/primitives_new/permutation_view_new.h` 20-22): `dst[i] = src[d2s[i]]` and `dst[s2d[i]] = src[i]`. -/
structure Perm where
  d2s : List Nat
  s2d : List Nat
deriving DecidableEq

/-- The contract of `std::sort` with a comparison of the first component. -/
structure IsSort (sort : List (Nat × P) → List (Nat × P)) : Prop where
  perm : ∀ l, (sort l).Perm l
  ordered : ∀ l, (sort l).Pairwise fun a b => a.1 ≤ b.1

/-- The two arrays are mutually inverse permutations of `0, ..., n - 1`. -/
structure IsPerm (P : Perm) (n : Nat) : Prop where
  dlen : P.d2s.length = n
  slen : P.s2d.length = n
  d2s : ∀ i, i < n → P.d2s.getD i 0 < n ∧ P.s2d.getD (P.d2s.getD i 0) 0 = i
  s2d : ∀ i, i < n → P.s2d.getD i 0 < n ∧ P.d2s.getD (P.s2d.getD i 0) 0 = i

/-- The new index of `i`. -/
def newIdx (P : Option Perm) (i : Nat) : Nat :=
  match P with
  | none => i
  | some P => P.s2d.getD i 0

/-- `none` is the identity. -/
def PermOk (P : Option Perm) (n : Nat) : Prop := ∀ p, P = some p → IsPerm p n

/-- `B` has the entries of `A` moved by the permutations: `B(P i, Q j) = A(i, j)`. -/
structure Permuted (A : Csx T) (P Q : Option Perm) (B : Csx T) : Prop where
  wf : WellFormed B
  np : B.np = A.np
  ns : B.ns = A.ns
  entries : B.entries.Perm (A.entries.map fun e => (newIdx P e.1, newIdx Q e.2.1, e.2.2))

/-- No slice has two entries with the same index. -/
def NoDup (A : Csx T) : Prop := ∀ p, p < A.np → ((A.row p).map (·.1)).Nodup

/-- The stored values for the unordered pair `{i, j}`: the entry at `(i, j)` and `(j, i)` of the symmetric matrix of which one triangle is stored. -/
def symAt (A : Csx T) (i j : Nat) : List T := (A.entries.filter fun e => (e.1 = i ∧ e.2.1 = j) ∨ (e.1 = j ∧ e.2.1 = i)).map fun e => e.2.2

end Verif.Csx
