import Verif.Base.Mpi
/-! Specification of the collective operations: what each rank has to hold, in terms of the data `d i` of rank `i`. -/
namespace Verif.Comm
open Verif.Mpi

/-- The contributions of the ranks `l, …, r - 1`, in rank order. -/
def contributions {A : Type} (l r : Nat) (d : Nat → A) : List A := (List.range' l (r - l)).map d

/-- Combination of all elements of a nonempty list (`none` for the empty list). -/
def combine {A : Type} (op : A → A → A) : List A → Option A
  | [] => none
  | a :: as => some (as.foldl op a)

/-- The ranks `l, …, r - 1` run the programs `p`; there are no messages yet. (Other indices are not ranks.) -/
def world {M R : Type} [Inhabited R] (l r : Nat) (p : Nat → Prog M R) : Cfg M R :=
  start fun i => if l ≤ i ∧ i < r then p i else .ret default

/-- The ranks `l, …, r - 1` have returned `res`, no message is left. -/
def finished {M R : Type} [Inhabited R] (l r : Nat) (res : Nat → R) : Cfg M R :=
  start fun i => .ret (if l ≤ i ∧ i < r then res i else default)

/-- Strictly increasing. -/
def Increasing {T : Type} (lt : T → T → Bool) (l : List T) : Prop := l.Pairwise fun a b => lt a b = true

/-- A message for the targeted all-to-all: target rank and payload. -/
abbrev Rec := Nat × List Int

/-- Its representation `[size, target, payload …]` in a buffer. -/
def encode (ms : List Rec) : List Int := ms.flatMap fun m => (m.2.length + 2 : Int) :: (m.1 : Int) :: m.2

/-- The messages for rank `k`. -/
def addressed (k : Nat) (ms : List Rec) : List Rec := ms.filter fun m => m.1 == k

/-- Borders of a distribution of `N` elements over `n` ranks: rank `i` has the elements `d[i], …, d[i + 1] - 1`. -/
structure Distribution (n N : Nat) (d : List Nat) : Prop where
  length : d.length = n + 1
  sorted : d.Pairwise (· ≤ ·)
  first : d.getD 0 0 = 0
  last : d.getD n 0 = N

end Verif.Comm
