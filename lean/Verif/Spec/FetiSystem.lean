import Verif.Spec.Dual
import Mathlib.Algebra.BigOperators.Group.Finset.Sigma
import Mathlib.Algebra.BigOperators.Ring.Finset
/-!
Specification of the operators of the FETI method, independent of the code and of the distribution to processes (C64-C67): the domains are `0, …, nd - 1`, the domain `d` has `dim d` unknowns, the
matrix `B` of the constraints has the entry `entry l d i` for the multiplier `l` and the unknown `i` of the domain `d`.
-/
namespace Verif.Dual

open Finset

variable {L R : Type} [DecidableEq L] [CommRing R]

/-- The multipliers of all processes. -/
def allMults (np : Nat) (lam : Nat → List L) : Finset L := (range np).biUnion fun p => (lam p).toFinset

/-- `B u`. -/
def timesB (nd : Nat) (dim : Nat → Nat) (entry : L → Nat → Nat → R) (u : Nat → Nat → R) (l : L) : R := ∑ d ∈ range nd, ∑ i ∈ range (dim d), entry l d i * u d i

/-- `Bᵀ X`. -/
def timesBt (all : Finset L) (entry : L → Nat → Nat → R) (X : L → R) (d i : Nat) : R := ∑ l ∈ all, entry l d i * X l

/-- The vector of the values `u` of the domain `d`. -/
def vectorOf (dim : Nat → Nat) (u : Nat → Nat → R) (d : Nat) : List R := (List.range (dim d)).map (u d)

/-- The values of a vector. -/
def valuesOf (v : Nat → List R) (d i : Nat) : R := (v d).getD i 0

/-- `B A Bᵀ X` for operators `A d` on the vectors of the domains. -/
def timesBABt (nd : Nat) (dim : Nat → Nat) (all : Finset L) (entry : L → Nat → Nat → R) (A : Nat → List R → List R) (X : L → R) : L → R :=
  timesB nd dim entry (valuesOf fun d => A d (vectorOf dim (timesBt all entry X) d))

/-- `G X` for a matrix with a row `g k` for each kernel vector `k`. -/
def timesG (all : Finset L) (g : Nat → L → R) (X : L → R) (k : Nat) : R := ∑ l ∈ all, g k l * X l

/-- `Gᵀ z` for `n` kernel vectors. -/
def timesGt (n : Nat) (g : Nat → L → R) (z : Nat → R) (l : L) : R := ∑ k ∈ range n, g k l * z k

/-- The product of a matrix `n × n` with a vector. -/
def timesW (n : Nat) (W : Nat → Nat → R) (z : Nat → R) (k : Nat) : R := ∑ m ∈ range n, W k m * z m

/-- `Q X = Gᵀ W G X`. -/
def coarse (n : Nat) (all : Finset L) (g : Nat → L → R) (W : Nat → Nat → R) (X : L → R) : L → R := timesGt n g (timesW n W (timesG all g X))

/-- `P X = X - Gᵀ W G X`. -/
def projected (n : Nat) (all : Finset L) (g : Nat → L → R) (W : Nat → Nat → R) (X : L → R) (l : L) : R := X l - coarse n all g W X l

/-- `G Gᵀ`. -/
def gram (all : Finset L) (g : Nat → L → R) (k m : Nat) : R := ∑ l ∈ all, g k l * g m l

/-- `W` is the inverse of `G Gᵀ`. -/
def IsInverse (n : Nat) (all : Finset L) (g : Nat → L → R) (W : Nat → Nat → R) : Prop :=
  ∀ k, k < n → ∀ m, m < n → ∑ i ∈ range n, gram all g k i * W i m = if k = m then 1 else 0

/-- `Rᵀ c` in the domain `d`: the domain has `kdim d` kernel vectors, the first of them has the number `koff d`. -/
def timesRt (kdim koff : Nat → Nat) (Rm : Nat → Nat → Nat → R) (c : Nat → R) (d i : Nat) : R := ∑ k ∈ range (kdim d), Rm d k i * c (koff d + k)

/-- `R f`: the value of the kernel vector with the number `k`. -/
def timesR (nd : Nat) (dim kdim koff : Nat → Nat) (Rm : Nat → Nat → Nat → R) (f : Nat → Nat → R) (k : Nat) : R :=
  ∑ d ∈ range nd, ∑ r ∈ range (kdim d), if koff d + r = k then ∑ i ∈ range (dim d), Rm d r i * f d i else 0

/-- The processes have the rows `roff p, …, roff (p + 1) - 1` of `G`: nothing is outside of the multipliers of the process. -/
structure RowsOf (np : Nat) (lam : Nat → List L) (roff : Nat → Nat) (g : Nat → L → R) : Prop where
  zero : roff 0 = 0
  mono : ∀ p, roff p ≤ roff (p + 1)
  outside : ∀ p, p < np → ∀ k, roff p ≤ k → k < roff (p + 1) → ∀ l ∈ allMults np lam, l ∉ lam p → g k l = 0

end Verif.Dual
