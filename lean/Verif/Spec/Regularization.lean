import Verif.Prop.CsxGemv
import Verif.Model.Pattern
import Mathlib.Algebra.BigOperators.Group.Finset.Basic
import Mathlib.Algebra.Order.Field.Basic
/-!
Specification of the regularization of a matrix (C90, C91): the values of a stored matrix, and a positive definite matrix whose inverse is a generalised inverse of the original one.
-/
namespace Verif.Regularization

open Finset Verif.Csx Verif.Pattern

variable {K : Type} [Field K] [LinearOrder K]

/-- The matrix is symmetric and positive definite. -/
structure Definite (n : Nat) (A : Nat → Nat → K) : Prop where
  symm : ∀ i < n, ∀ j < n, A i j = A j i
  pos : ∀ x : Nat → K, (∃ i < n, x i ≠ 0) → 0 < ∑ i ∈ range n, ∑ j ∈ range n, x i * A i j * x j

/-- `Rm` has `k` independent rows which are the kernel of the symmetric positive semidefinite matrix `Km`. -/
structure Kernel (n k : Nat) (Km Rm : Nat → Nat → K) : Prop where
  symm : ∀ i j, Km i j = Km j i
  pos : ∀ x : Nat → K, 0 ≤ ∑ i ∈ range n, ∑ j ∈ range n, x i * Km i j * x j
  zero : ∀ l < k, ∀ i < n, ∑ j ∈ range n, Km i j * Rm l j = 0
  span : ∀ x : Nat → K, ∑ i ∈ range n, ∑ j ∈ range n, x i * Km i j * x j = 0 → ∃ a : Nat → K, ∀ i < n, x i = ∑ l ∈ range k, a l * Rm l i

/-- The system with the matrix `A` has exactly one solution for every right-hand side, and it solves the system with `Km` for all right-hand sides orthogonal to the kernel.
`Kp` is the inverse matrix. -/
structure Regularizes (n k : Nat) (A Km Rm Kp : Nat → Nat → K) : Prop where
  definite : Definite n A
  unique : ∀ x y : Nat → K, (∀ i < n, ∑ j ∈ range n, A i j * x j = ∑ j ∈ range n, A i j * y j) → ∀ i < n, x i = y i
  inverse : ∀ b : Nat → K, ∀ i < n, ∑ j ∈ range n, A i j * ∑ m ∈ range n, Kp j m * b m = b i
  isymm : ∀ i j, Kp i j = Kp j i
  generalised : ∀ b : Nat → K, (∀ l < k, ∑ i ∈ range n, Rm l i * b i = 0) → ∀ i < n, ∑ j ∈ range n, Km i j * ∑ m ∈ range n, Kp j m * b m = b i

/-- `A` stores the matrix `Km` of size `n`: all entries, or the upper triangle of a symmetric matrix; the slices are sorted and contain the diagonal. -/
structure Stores (full : Bool) (n : Nat) (A : Csx K) (Km : Nat → Nat → K) : Prop where
  wf : WellFormed A
  np : A.np = n
  ns : A.ns = n
  sorted : A.Sorted
  upper : full = false → ∀ i < n, ∀ e ∈ A.row i, i ≤ e.1
  value : ∀ i < n, ∀ j < n, full = true ∨ i ≤ j → A.at i j = Km i j

/-- The diagonal is stored. -/
def Diagonal (n : Nat) (A : Csx K) : Prop := ∀ i < n, ∃ v, (i, v) ∈ A.row i

/-- The map of the degrees of freedom to the domain `dom` with `n` degrees of freedom: `m i` is the index in the domain of the degree of freedom `i`. -/
structure MapsTo (dmap : List (List DIndex)) (dom : Nat) (m : Nat → Nat) (n : Nat) : Prop where
  index : ∀ i dm, dmap[i]? = some dm → ∀ di ∈ dm, di.1 = dom → di.2 = some (m i) ∧ m i < n
  inj : ∀ i i' dm dm', dmap[i]? = some dm → dmap[i']? = some dm' → (∃ di ∈ dm, di.1 = dom) → (∃ di ∈ dm', di.1 = dom) → m i = m i' → i = i'
  onto : ∀ c < n, ∃ i dm, dmap[i]? = some dm ∧ (∃ di ∈ dm, di.1 = dom) ∧ m i = c

/-- The degree of freedom `i` belongs to the domain. -/
def InDomain (dmap : List (List DIndex)) (dom i : Nat) : Prop := ∃ dm, dmap[i]? = some dm ∧ ∃ di ∈ dm, di.1 = dom

/-- The contract of `std::sort` by a key. -/
def SortsBy (srt : (Nat → Nat) → List Nat → List Nat) : Prop := ∀ key l, (srt key l).Perm l ∧ (srt key l).Pairwise fun a b => key a ≤ key b

/-- The contract of the solver of LAPACK: it solves the systems with symmetric regular matrices. -/
def SolvesRegular (solve : Nat → (Nat → Nat → K) → (Nat → K) → Nat → K) : Prop :=
  ∀ k G, (∀ l < k, ∀ m < k, G l m = G m l) → (∀ a : Nat → K, (∀ l < k, ∑ m ∈ range k, G l m * a m = 0) → ∀ l < k, a l = 0) →
    ∀ b : Nat → K, ∀ l < k, ∑ m ∈ range k, G l m * solve k G b m = b l

end Verif.Regularization
