import Mathlib.Algebra.Group.Defs
import Mathlib.Algebra.BigOperators.Group.List.Defs
/-
Model of `Communication::exscan` (`src/wrappers/mpi/communication.hpp`, 990-1018 for a value, 1020-1050 for a vector) and `getDistribution` (1052-1068)
for native types.  The library collectives are modelled by what the MPI standard says about them, as functions of the values of all ranks `0, …, n - 1`
(`v i` on rank `i`).  Types with more members (`isnative` false) are not modelled: the scalar version then does nothing ("TODO" in the source).
-/
namespace Verif.Comm

variable {T : Type} [AddMonoid T]

/-- `MPI_Exscan` with `MPI_SUM`; the receive buffer of rank 0 is undefined after the call: `undef`. -/
def mpiExscan (undef : T) (v : Nat → T) (i : Nat) : T := if i = 0 then undef else ((List.range i).map v).sum

/-- `MPI_Bcast` from `root`: everybody has the value of `root`. -/
def mpiBcast {A : Type} (root : Nat) (v : Nat → A) (_i : Nat) : A := v root

/-- `MPI_Allgather` of one element of each rank to the first `n` elements of `result`. -/
def mpiAllgather {A : Type} (n : Nat) (v : Nat → A) (_i : Nat) : List A := (List.range n).map v

/-- `exscan(value)`: (returned size, new `value`) of rank `i`. -/
def exscan (n : Nat) (undef : T) (v : Nat → T) (i : Nat) : T × T :=
  if n = 1 then (v i, 0)
  else
    let value := mpiExscan undef v
    let size := fun i => value i + v i
    let size := mpiBcast (n - 1) size
    (size i, if i = 0 then 0 else value i)

/-- `exscan(sum, offset)` for vectors: (`sum`, `offset`) of rank `i`; `k` is the size of the vectors (the same on all ranks). -/
def exscanVec (n k : Nat) (undef : List T) (v : Nat → List T) (i : Nat) : List T × List T :=
  if n = 1 then (v i, (v i).map fun _ => 0)
  else
    let offset := fun i => (List.range k).map fun c => mpiExscan (undef.getD c 0) (fun j => (v j).getD c 0) i
    let sum := fun i => List.zipWith (· + ·) (offset i) (v i)
    let sum := mpiBcast (n - 1) sum
    (sum i, if i = 0 then (offset i).map fun _ => 0 else offset i)

/-- `getDistribution(size)` on rank `i`. -/
def getDistribution (n : Nat) (undef : T) (size : Nat → T) (i : Nat) : List T :=
  let esize := fun i => (exscan n undef size i).2
  let result := fun i => mpiAllgather n esize i ++ [esize i + size i]
  let back := mpiBcast (n - 1) fun i => (result i).getLast?.getD 0
  (result i).dropLast ++ [back i]

end Verif.Comm
