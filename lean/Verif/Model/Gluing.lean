import Verif.Model.Csx
import Mathlib.Algebra.Ring.Defs
/-!
The gluing operator of the FETI solver (`src/feti/common/applyB.h`): every domain `d` has a sparse matrix `B1[d]` (order CSR; the rows are the multipliers of the domain, the
columns its degrees of freedom) and the map `D2C[d]` from its multipliers to the multipliers of the process.  The values are from a commutative ring (exact arithmetic); the
indices are 0-based as in the code (`B1[d].rows[r]` is used without an indexing offset).
-/
namespace Verif.Feti

open Verif.Csx

variable {R : Type}

/-- `math::set(v, T{0})`. -/
def zeros [Zero R] (v : List R) : List R := v.map fun _ => 0

/-- `v[k] += a`. -/
def addAt [Add R] (v : List R) (k : Nat) (a : R) : Option (List R) := do
  let old ← v[k]?
  wr v k (old + a)

/-- `applyBt` (`applyB.h` 11-21) for the domain with the matrix `B` and the map `map`. -/
def applyBt [CommRing R] (B : Csx R) (map : List Nat) (x out : List R) (α : R) : Option (List R) :=
  forEntries B (zeros out) fun r i c out => do
    let v ← B.vals[i]?
    let k ← map[r]?
    let xv ← x[k]?
    addAt out c (α * v * xv)

/-- The body of the loop over the domains in `applyB` (`applyB.h` 38-42 and 51-55). -/
def applyBDomain [CommRing R] (B : Csx R) (map : List Nat) (x out : List R) : Option (List R) :=
  forEntries B out fun r i c out => do
    let v ← B.vals[i]?
    let k ← map[r]?
    let xv ← x[c]?
    addAt out k (v * xv)

/-- `feti.B1[d]`, `feti.D2C[d]` and `in[d]` for all domains. -/
abbrev Domains (R : Type) := List (Csx R × List Nat × List R)

/-- `applyB` (`applyB.h` 33-44). -/
def applyB [CommRing R] (D : Domains R) (out : List R) : Option (List R) :=
  forLoop 0 D.length (zeros out) fun d out => do
    let (B, map, x) ← D[d]?
    applyBDomain B map x out

/-- `applyB` with a filter (`applyB.h` 46-57). -/
def applyBFilter [CommRing R] (D : Domains R) (out : List R) (filter : List Nat) : Option (List R) :=
  forLoop 0 filter.length (zeros out) fun di out => do
    let d ← filter[di]?
    let (B, map, x) ← D[d]?
    applyBDomain B map x out

/-- `extractDomain` (`applyB.h` 23-30). -/
def extractDomain [CommRing R] (B : Csx R) (map : List Nat) (x out : List R) : Option (List R) :=
  forLoop 0 B.np (zeros out) fun r out => do
    let k ← map[r]?
    let xv ← x[k]?
    wr out r xv

/-- `insertDomains` (`applyB.h` 77-86). -/
def insertDomains [CommRing R] (D : Domains R) (out : List R) : Option (List R) :=
  forLoop 0 D.length (zeros out) fun d out => do
    let (B, map, x) ← D[d]?
    forLoop 0 B.np out fun r out => do
      let k ← map[r]?
      let xv ← x[r]?
      addAt out k xv

/-- The atomic additions of one domain in program order (`applyB.h` 65-72): the operands are read before the atomic statement and are not written by any thread. -/
def domainOps [CommRing R] (B : Csx R) (map : List Nat) (x : List R) : Option (List (Nat × R)) :=
  forEntries B [] fun r i c ops => do
    let v ← B.vals[i]?
    let k ← map[r]?
    let xv ← x[c]?
    some (ops ++ [(k, v * xv)])

/-- The program of thread `t` out of `T` (`#pragma omp parallel for schedule(static,1)`: the iterations `t, t + T, t + 2 T, ...`). -/
def threadOps [CommRing R] (D : Domains R) (T t : Nat) : Option (List (Nat × R)) :=
  forLoop 0 D.length [] fun d ops =>
    if d % T = t then do
      let (B, map, x) ← D[d]?
      let o ← domainOps B map x
      some (ops ++ o)
    else some ops

/-- The programs of all threads. -/
def allThreads [CommRing R] (D : Domains R) (T : Nat) : Option (List (List (Nat × R))) := (List.range T).mapM (threadOps D T)

/-- A step of the parallel loop: some thread that has not finished executes its next atomic `out[k] += a` (`none`: outside of the vector). -/
inductive Step [Add R] : List (List (Nat × R)) × List R → Option (List (List (Nat × R)) × List R) → Prop
  | mk {progs : List (List (Nat × R))} {out : List R} {t k : Nat} {a : R} {rest : List (Nat × R)} (h : progs[t]? = some ((k, a) :: rest)) :
      Step (progs, out) ((addAt out k a).map fun out' => (progs.set t rest, out'))

/-- Executions of the parallel loop that end (because every thread finished or because of an access outside of the vector). -/
inductive Run [Add R] : List (List (Nat × R)) × List R → Option (List R) → Prop
  | done {progs : List (List (Nat × R))} {out : List R} (h : ∀ p ∈ progs, p = []) : Run (progs, out) (some out)
  | fail {s : List (List (Nat × R)) × List R} (h : Step s none) : Run s none
  | step {s s' : List (List (Nat × R)) × List R} {r : Option (List R)} (h : Step s (some s')) (hr : Run s' r) : Run s r

end Verif.Feti
