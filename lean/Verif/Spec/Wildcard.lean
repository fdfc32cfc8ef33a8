/-! Specification of the exchanges with unknown sources: messages are pairs of a rank and a buffer. -/
namespace Verif.Wildcard

/-- The buffers that belong to rank `k`, in order. -/
def buffersOf {M : Type} (l : List (Nat × M)) (k : Nat) : List M := (l.filter fun x => x.1 == k).map (·.2)

/-- Strictly increasing list of ranks, all below `n`: the precondition on lists of neighbours. -/
structure Neighbors (n : Nat) (nb : List Nat) : Prop where
  sorted : nb.Pairwise (· < ·)
  lt : ∀ j ∈ nb, j < n

/-- Everything that the ranks `0, …, n - 1` send to rank `i`, with the sources, in increasing order of the sources;
`msgs j` are the (target, buffer) pairs of rank `j`. -/
def incoming {M : Type} (n : Nat) (msgs : Nat → List (Nat × M)) (i : Nat) : List (Nat × M) :=
  (List.range n).flatMap fun j => (buffersOf (msgs j) i).map fun m => (j, m)

end Verif.Wildcard
