import Verif.Model.Csx
/-!
Submatrices and block matrices: `submatrix_csx_csy.cpp`, `submatrix_csx_csy_map.cpp`, `quadrisect_csx_csy.cpp`, `concat_csx.cpp` in `src/math/operations`.
Rows and columns are named by the primary and secondary index of the source; the window is `[lp, hp) x [ls, hs)`.
-/
namespace Verif.Csx

variable {T P σ : Type}

/-- `while(i < stop && idxs[i] < bound) { body; i++; }`, `n = stop - i`. -/
def whileBelow (idxs : List Nat) (bound : Nat) (body : Nat → Nat → σ → Option σ) : Nat → Nat → σ → Option (Nat × σ)
  | 0, i, s => some (i, s)
  | n + 1, i, s => do
      let c ← idxs[i]?
      if c < bound then do
        let s ← body i c s
        whileBelow idxs bound body n (i + 1) s
      else some (i, s)

/-- The two loops over one slice (e.g. `submatrix_csx_csy.cpp` 72-81): indices below `ls` are skipped, `body` is done for those below `hs`. -/
def windowSlice (A : Csx T) (ls hs p : Nat) (s : σ) (body : Nat → Nat → σ → Option σ) : Option σ := do
  let start ← A.ptrs[p]?
  let stop ← A.ptrs[p + 1]?
  let (i, s) ← whileBelow A.idxs ls (fun _ _ s => some s) (stop - start) start s
  let (_, s) ← whileBelow A.idxs hs body (stop - i) i s
  some s

/-- `submatrix_csx_csy::setup` (69-83), `submatrix_csx_csy_map::setup`: the number of entries of the window. -/
def subCount (A : Csx T) (lp hp ls hs : Nat) : Option Nat := forLoop lp hp 0 fun p n => windowSlice A ls hs p n fun _ _ n => some (n + 1)

/-- `perform_same_order` (148-205), `submatrix_csx_csy_map::perform_pattern_same_order`: `pay i` is `src_vals[i]`, respectively `i` for the map. -/
def subSame (A : Csx T) (lp hp ls hs : Nat) (pay : Nat → Option P) (nnz : Nat) (ptrs idxs : List Nat) (pays : List P) : Option (Csx P) := do
  let (ptrs, idxs, pays, _) ← forLoop lp hp (ptrs, idxs, pays, 0) fun p (ptrs, st) => do
    let ptrs ← wr ptrs (p - lp) st.2.2
    let st ← windowSlice A ls hs p st fun i c (idxs, pays, curr) => do
      let v ← pay i
      let idxs ← wr idxs curr (c - ls)
      let pays ← wr pays curr v
      some (idxs, pays, curr + 1)
    some (ptrs, st)
  let ptrs ← wr ptrs (hp - lp) nnz
  some ⟨hp - lp, hs - ls, ptrs, idxs, pays⟩

/-- `perform_diff_order` (210-293): a counting sort as in `convert_csx_csy`, restricted to the window. -/
def subDiff (A : Csx T) (lp hp ls hs : Nat) (pay : Nat → Option P) (ptrs idxs : List Nat) (pays : List P) : Option (Csx P) := do
  let ptrs ← zeroPtrs (hs - ls) ptrs
  let ptrs ← forLoop lp hp ptrs fun p ptrs => windowSlice A ls hs p ptrs fun _ c ptrs => do
    let x ← ptrs[c - ls]?
    wr ptrs (c - ls) (x + 1)
  let ptrs ← sumPtrs (hs - ls) ptrs
  let (ptrs, idxs, pays) ← forLoop lp hp (ptrs, idxs, pays) fun p st => windowSlice A ls hs p st fun i c (ptrs, idxs, pays) => do
    let v ← pay i
    let d ← ptrs[c - ls]?
    let ptrs ← wr ptrs (c - ls) (d + 1)
    let idxs ← wr idxs d (p - lp)
    let pays ← wr pays d v
    some (ptrs, idxs, pays)
  let ptrs ← shiftPtrs (hs - ls) ptrs
  some ⟨hs - ls, hp - lp, ptrs, idxs, pays⟩

/-- The arrays of a destination matrix as they are handed over: allocated, with arbitrary contents. -/
structure Dest (T : Type) where
  ptrs : List Nat
  idxs : List Nat
  vals : List T

/-- `submatrix_csx_csy::perform` (111-131): `same` says that the destination has the order of the source.  The matrix has `d.idxs.length` entries as its `nnz`, which is compared
with the number announced by `setup` (119); the sizes of the matrix (118) are those of the window. -/
def submatrix (A : Csx T) (lp hp ls hs : Nat) (same : Bool) (d : Dest T) : Option (Csx T) := do
  let n ← subCount A lp hp ls hs
  if d.idxs.length ≠ n then none else
  match same with
  | true => subSame A lp hp ls hs (fun i => A.vals[i]?) n d.ptrs d.idxs d.vals
  | false => subDiff A lp hp ls hs (fun i => A.vals[i]?) d.ptrs d.idxs d.vals

/-- `submatrix_csx_csy_map::perform_pattern` (115-139): the pattern and, in the place of the values, the map. -/
def submatrixMap (A : Csx T) (lp hp ls hs : Nat) (same : Bool) (d : Dest Nat) : Option (Csx Nat) := do
  let n ← subCount A lp hp ls hs
  if d.idxs.length ≠ n then none else
  match same with
  | true => subSame A lp hp ls hs some n d.ptrs d.idxs d.vals
  | false => subDiff A lp hp ls hs some d.ptrs d.idxs d.vals

/-- One block of `quadrisect_csx_csy::perform` (146-149): a destination that is not given is skipped. -/
def block (A : Csx T) (lp hp ls hs : Nat) (d : Option (Bool × Dest T)) : Option (Option (Csx T)) :=
  match d with
  | none => some none
  | some (same, d) => (submatrix A lp hp ls hs same d).map some

/-- `quadrisect_csx_csy` (`setup` 46-62, `perform` 132-152) with the cuts `mp` and `ms` of the primary and secondary index.  The second block is the one with the first primary
and second secondary part (the block 12 for a source in row order, 21 in column order). -/
def quadrisect (A : Csx T) (mp ms : Nat) (d11 d12 d21 d22 : Option (Bool × Dest T)) : Option (Option (Csx T) × Option (Csx T) × Option (Csx T) × Option (Csx T)) := do
  if ¬ (mp ≤ A.np ∧ ms ≤ A.ns) then none else
  let b11 ← block A 0 mp 0 ms d11
  let b12 ← block A 0 mp ms A.ns d12
  let b21 ← block A mp A.np 0 ms d21
  let b22 ← block A mp A.np ms A.ns d22
  some (b11, b12, b21, b22)

/-- The conversion of a block to the order of the result (`concat_csx.cpp` 103-126); `d` are the arrays of the temporary matrix. -/
def toOrder (same : Bool) (M : Option (Csx T)) (d : Dest T) : Option (Option (Csx T)) :=
  match M, same with
  | none, _ => some none
  | some M, true => some (some M)
  | some M, false => (convert M d.ptrs d.idxs d.vals).map some

/-- `incorporate_matrix_part` (`concat_csx.cpp` 137-151): a block that is not given is skipped. -/
def putPart (M : Option (Csx T)) (ipd offp offs : Nat) (st : List Nat × List T × Nat) : Option (List Nat × List T × Nat) :=
  match M with
  | none => some st
  | some M => do
      let start ← M.ptrs[ipd - offp]?
      let stop ← M.ptrs[ipd - offp + 1]?
      forLoop start stop st fun i (idxs, vals, curr) => do
        let c ← M.idxs[i]?
        let v ← M.vals[i]?
        let idxs ← wr idxs curr (c + offs)
        let vals ← wr vals curr v
        some (idxs, vals, curr + 1)

/-- One slice of `concat_csx::perform` (155-163). -/
def concatSlice (mp ms : Nat) (M11 M12 M21 M22 : Option (Csx T)) (ipd : Nat) (st : List Nat × List T × Nat) : Option (List Nat × List T × Nat) :=
  if ipd < mp then do
    let st ← putPart M11 ipd 0 0 st
    putPart M12 ipd 0 ms st
  else do
    let st ← putPart M21 ipd mp 0 st
    putPart M22 ipd mp ms st

/-- `concat_csx::perform` (128-165) after the blocks were brought to the order of the result.  `M12` is the block with the first primary and second secondary half: it is
`A12` for `order == 'R'` and `A21` for `order == 'C'`. -/
def concat (np ns mp ms : Nat) (M11 M12 M21 M22 : Option (Csx T)) (ptrs idxs : List Nat) (vals : List T) : Option (Csx T) := do
  let (ptrs, idxs, vals, curr) ← forLoop 0 np (ptrs, idxs, vals, 0) fun ipd (ptrs, st) => do
    let ptrs ← wr ptrs ipd st.2.2
    let st ← concatSlice mp ms M11 M12 M21 M22 ipd st
    some (ptrs, st)
  let ptrs ← wr ptrs np curr
  some ⟨np, ns, ptrs, idxs, vals⟩

end Verif.Csx
