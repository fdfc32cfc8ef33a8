import Verif.Model.DualMap
import Verif.Model.Pattern
import Mathlib.Algebra.Field.Defs
/-!
The equality constraints of the FETI solver (`src/analysis/linearsystem/constrains/equalityconstrains.cpp`): the multipliers that glue the copies of each degree of freedom and those that
prescribe the Dirichlet conditions, as seen by one process.

Simplifications: indices are `Nat`; values are from a field with the square root `sq` as a parameter (exact arithmetic); `std::sort` is a parameter `srt`; `feti.lambdas.cmap` and `feti.D2C` are
empty at the begin (`set` is called once, before the other constraints); `B1` is the matrix with one entry in each row (117-123), built by `oneEntryRows`.
-/
namespace Verif.Feti

open Verif.Csx Verif.Pattern

variable {K : Type}

/-- `l[j].push_back(v)`. -/
def pushAt {A : Type} (l : List (List A)) (j : Nat) (v : A) : Option (List (List A)) := do
  let x ← l[j]?
  wr l j (x ++ [v])

/-- `while (dindex < nnz && indices[dindex] < dof) { ++dindex; }` (30); `fuel = nnz` is enough as `dindex` grows. -/
def skipBelow (ind : List Nat) (dof : Nat) : Nat → Nat → Nat
  | 0, i => i
  | fuel + 1, i =>
      match ind[i]? with
      | some x => if x < dof then skipBelow ind dof fuel (i + 1) else i
      | none => i

/-- A Dirichlet degree of freedom (32-36): its index in each of the own domains. -/
def fixDof (D : Decomposition) (dm : List DIndex) (FIXED : List (List Nat)) : Option (List (List Nat)) :=
  dm.foldlM (m := Option) (fun FIXED di =>
    bif D.ismy di.1 then do
      let k ← di.2
      pushAt FIXED (di.1 - D.dbegin) k
    else some FIXED) FIXED

/-- `while (i < dmap->size() && !ismy(dmap->at(i).domain)) { ++i; }` (40). -/
def firstOwn (D : Decomposition) : List DIndex → Nat
  | [] => 0
  | di :: dm => bif D.ismy di.1 then 0 else firstOwn D dm + 1

/-- The state of the first loop: `dindex`, `FIXED`, `permutation` as pairs `(dof, size)`, `maxMultiplicity`. -/
structure Phase1 where
  dindex : Nat
  fixed : List (List Nat)
  perm : List (Nat × Nat)
  maxM : Nat

/-- The body of the first loop (30-44). -/
def phase1Step (D : Decomposition) (ind : List Nat) (dof : Nat) (dm : List DIndex) (st : Phase1) : Option Phase1 :=
  let dindex := skipBelow ind dof ind.length st.dindex
  if ind[dindex]? = some dof then do
    let fixed ← fixDof D dm st.fixed
    some { st with dindex := dindex, fixed := fixed }
  else
    let i := max (firstOwn D dm) 1
    some { st with dindex := dindex, perm := st.perm ++ (List.range' i (dm.length - i)).map (fun i => (dof, i + 1)), maxM := max st.maxM dm.length }

/-- The first loop (28-45). -/
def phase1 (D : Decomposition) (dmap : List (List DIndex)) (ind : List Nat) : Option Phase1 :=
  forLoop 0 dmap.length ⟨0, List.replicate (D.dend - D.dbegin) [], [], 2⟩ fun dof st => do
    let dm ← dmap[dof]?
    phase1Step D ind dof dm st

/-- The domain of the copy `k` of a degree of freedom (`dmap->at(k).domain`) in the comparison; never read out of range for pairs from the first loop. -/
def domAt (dmap : List (List DIndex)) (dof k : Nat) : Nat := ((dmap.getD dof []).getD k (0, none)).1

/-- The loop of the comparison (51-53): the first difference of the domains. -/
def firstDiff (dmap : List (List DIndex)) (a b : Nat × Nat) : Nat → Nat → Option Bool
  | 0, _ => none
  | n + 1, k => if domAt dmap a.1 k ≠ domAt dmap b.1 k then some (decide (domAt dmap a.1 k < domAt dmap b.1 k)) else firstDiff dmap a b n (k + 1)

/-- The comparison of `std::sort` (47-59). -/
def lambdaLess (dmap : List (List DIndex)) (a b : Nat × Nat) : Bool :=
  match firstDiff dmap a b (min a.2 b.2) 0 with
  | some r => r
  | none => if a.2 ≠ b.2 then decide (a.2 < b.2) else decide (a.1 < b.1)

/-- One row of the coefficients (64-70). -/
def coefRow [Field K] (sq : K → K) (maxM r : Nat) (vals : List K) : Option (List K) := do
  let nc := r + 1
  let scale := sq (1 + (nc : K) / ((nc * nc : Nat) : K))
  let vals ← forLoop 0 nc vals fun c vals => wr vals (r * maxM + c) (scale / ((nc + 1 : Nat) : K))
  wr vals (r * maxM + nc) (-scale * (nc : K) / ((nc + 1 : Nat) : K))

/-- The coefficients (61-70). -/
def coefficients [Field K] (sq : K → K) (maxM : Nat) : Option (List K) :=
  forLoop 0 (maxM - 1) (List.replicate ((maxM - 1) * maxM) 0) fun r vals => coefRow sq maxM r vals

/-- The state of the loops over multipliers: `cmap`, `lambdas.size`, `halo`, `D2C`, `COLS`, `VALS`. -/
structure Lambdas (K : Type) where
  cmap : List Nat
  size : Nat
  halo : Nat
  d2c : List (List Nat)
  cols : List (List Nat)
  vals : List (List K)

/-- A copy of the degree of freedom in a multiplier (81-87); `cmap` gets its domain. -/
def pushCopy (D : Decomposition) (coef : List K) (maxM r c : Nat) (di : DIndex) (st : Lambdas K) : Option (Lambdas K) :=
  let st := { st with cmap := st.cmap ++ [di.1] }
  bif D.ismy di.1 then do
    let j := di.1 - D.dbegin
    let d2c ← pushAt st.d2c j st.size
    let k ← di.2
    let cols ← pushAt st.cols j k
    let v ← coef[r * maxM + c]?
    let vals ← pushAt st.vals j v
    some { st with d2c := d2c, cols := cols, vals := vals }
  else some st

/-- Joining with the previous group (89-100): the new `cmap` and `prev`. -/
def joinGroup (cmap : List Nat) (prev cbegin : Nat) : Option (List Nat × Nat) := do
  let a ← cmap[prev + 1]?
  let b ← cmap[cbegin + 1]?
  if a = b ∧ cmap.drop (cbegin + 1) = (cmap.drop (prev + 1)).take (cmap.length - (cbegin + 1)) then
    if prev ≠ cbegin then do
      let n ← cmap[prev]?
      let cmap ← wr cmap prev (n + 1)
      some (cmap.take cbegin, prev)
    else some (cmap, prev)
  else some (cmap, cbegin)

/-- The body of the loop over the gluing multipliers (74-101); `s.2` is `prev`. -/
def glueStep (D : Decomposition) (dmap : List (List DIndex)) (coef : List K) (maxM : Nat) (s : Lambdas K × Nat) (l : Nat × Nat) : Option (Lambdas K × Nat) := do
  let (st, prev) := s
  let dm ← dmap[l.1]?
  let cbegin := st.cmap.length
  let d0 ← dm[0]?
  let st := { st with cmap := st.cmap ++ [1, l.2], halo := if d0.1 < D.dbegin then st.size + 1 else st.halo }
  let st ← forLoop 0 l.2 st fun c st => do
    let di ← dm[c]?
    pushCopy D coef maxM (l.2 - 2) c di st
  let (cmap, prev) ← joinGroup st.cmap prev cbegin
  some ({ st with cmap := cmap, size := st.size + 1 }, prev)

/-- The loop over the gluing multipliers (72-101). -/
def glueLoop (D : Decomposition) (dmap : List (List DIndex)) (coef : List K) (maxM : Nat) (perm : List (Nat × Nat)) : Option (Lambdas K) := do
  let n := D.dend - D.dbegin
  let (st, _) ← perm.foldlM (glueStep D dmap coef maxM) (⟨[], 0, 0, List.replicate n [], List.replicate n [], List.replicate n []⟩, 0)
  some st

/-- The Dirichlet multipliers of a domain (104-114); `s.2` is `doffset`. -/
def fixDomain [One K] (D : Decomposition) (FIXED : List (List Nat)) (d : Nat) (s : Lambdas K × List Nat) : Option (Lambdas K × List Nat) := do
  let doffset ← wr s.2 d s.1.size
  let f ← FIXED[d]?
  let st ← f.foldlM (m := Option) (fun st k => do
    let d2c ← pushAt st.d2c d st.size
    let cols ← pushAt st.cols d k
    let vals ← pushAt st.vals d 1
    some { st with size := st.size + 1, d2c := d2c, cols := cols, vals := vals }) s.1
  some ({ st with cmap := if f.length ≠ 0 then st.cmap ++ [f.length, 1, D.dbegin + d] else st.cmap }, doffset)

/-- `EqualityConstrains::set` (13-116): the multipliers and `doffset`. -/
def constraintsSet [Field K] (sq : K → K) (srt : List (Nat × Nat) → List (Nat × Nat)) (D : Decomposition) (dmap : List (List DIndex)) (ind : List Nat) : Option (Lambdas K × List Nat) := do
  let ph ← phase1 D dmap ind
  let coef ← coefficients sq ph.maxM
  let st ← glueLoop D dmap coef ph.maxM (srt ph.perm)
  forLoop 0 (D.dend - D.dbegin) (st, List.replicate (D.dend - D.dbegin) 0) fun d s => fixDomain D ph.fixed d s

/-- `feti.B1[d]` (119-124): `rows` is `0, 1, …`, one entry in each row; `ncols` is the number of the degrees of freedom of the domain. -/
def oneEntryRows (ncols : Nat) (cols : List Nat) (vals : List K) : Csx K := ⟨cols.length, ncols, List.range (cols.length + 1), cols, vals⟩

/-- `intervals.back()` (116-117): `(halo, size)`. -/
def equalityInterval (st : Lambdas K) : Nat × Nat := (st.halo, st.size - st.halo)

/-- The copies of a Dirichlet degree of freedom in `update` (139-143): the state is `(c, dindex)`. -/
def updateDof (D : Decomposition) (dm : List DIndex) (v : K) (st : List K × List Nat) : Option (List K × List Nat) :=
  dm.foldlM (m := Option) (fun st di =>
    bif D.ismy di.1 then do
      let j := di.1 - D.dbegin
      let k ← st.2[j]?
      let c ← wr st.1 k v
      let dindex ← wr st.2 j (k + 1)
      some (c, dindex)
    else some st) st

/-- `EqualityConstrains::update` (129-146) for the Dirichlet values `fix` (index and value); the iterator `map` is its position. -/
def constraintsUpdate [Zero K] (D : Decomposition) (dmap : List (List DIndex)) (doffset : List Nat) (fix : List (Nat × K)) (c : List K) : Option (List K) := do
  let (_, _, c, _) ← fix.foldlM (m := Option) (fun (s : Nat × Nat × List K × List Nat) f => do
    let (pos, prev, st) := s
    let pos := pos + f.1 - prev
    let dm ← dmap[pos]?
    let st ← updateDof D dm f.2 st
    some (pos, f.1, st)) (0, 0, c.map fun _ => 0, doffset)
  some c

/-- `EqualityConstrains::enforce` (149-163): the Dirichlet values are written to the solutions of the own domains. -/
def constraintsEnforce (D : Decomposition) (dmap : List (List DIndex)) (fix : List (Nat × K)) (x : List (List K)) : Option (List (List K)) := do
  let (_, _, x) ← fix.foldlM (m := Option) (fun (s : Nat × Nat × List (List K)) f => do
    let (pos, prev, x) := s
    let pos := pos + f.1 - prev
    let dm ← dmap[pos]?
    let x ← dm.foldlM (m := Option) (fun x di =>
      bif D.ismy di.1 then do
        let v ← x[di.1 - D.dbegin]?
        let k ← di.2
        let v ← wr v k f.2
        wr x (di.1 - D.dbegin) v
      else some x) x
    some (pos, f.1, x)) (0, 0, x)
  some x

end Verif.Feti
