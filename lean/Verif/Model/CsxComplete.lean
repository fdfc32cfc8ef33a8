import Verif.Model.CsxSub
/-!
Completion of a triangular matrix: `src/math/operations/complete_csx_csy_map.cpp`.  The source and the destination are square, the destination gets the primary index of the
source as its own primary index also if the orders differ ("it will be symmetric anyway", 90-92).
-/
namespace Verif.Csx

variable {T : Type}

/-- `get_dst_nnz` (44-69). -/
def completeCount (A : Csx T) : Option Nat := do
  let diag ← forEntries A 0 fun ip _ is n => some (bif ip == is then n + 1 else n)
  some (2 * (A.idxs.length - diag) + diag)

/-- 94-109: every entry, the off-diagonal ones also mirrored; `all_entries` is appended to. -/
def completeEntries (A : Csx T) : Option (List (Nat × Nat × Nat)) :=
  forEntries A [] fun row i col out => some (bif row == col then out ++ [(row, col, i)] else out ++ [(row, col, i), (col, row, i)])

/-- 120-123: `while(prev_r != entry.r) { prev_r++; ptrs[prev_r] = i; }` with `next = prev_r + 1`. For `prev_r > entry.r` the loop runs out of the array. -/
def advance (ptrs : List Nat) (next r i : Nat) : Option (List Nat) := bif decide (r + 1 < next) then none else forLoop next (r + 1) ptrs fun p ptrs => wr ptrs p i

/-- `perform_pattern` (74-129); `sort` orders by row and column, the announced number of entries is the size of the destination arrays (110). The map is stored in place of
the values. -/
def completePattern (sort : List (Nat × Nat × Nat) → List (Nat × Nat × Nat)) (A : Csx T) (d : Dest Nat) : Option (Csx Nat) := do
  let all ← completeEntries A
  if all.length ≠ d.idxs.length then none else do
    let (ptrs, _, idxs, map) ← forLoop 0 (sort all).length (d.ptrs, 0, d.idxs, d.vals) fun i (ptrs, next, idxs, map) => do
      let e ← (sort all)[i]?
      let ptrs ← advance ptrs next e.1 i
      let idxs ← wr idxs i e.2.1
      let map ← wr map i e.2.2
      some (ptrs, e.1 + 1, idxs, map)
    let ptrs ← wr ptrs A.np d.idxs.length
    some ⟨A.np, A.np, ptrs, idxs, map⟩

/-- 145: `toggle`; the arguments say whether the orders are 'R' and whether `uplo` is 'L'. -/
def conjToggle (srcR dstR lower : Bool) : Bool := ((srcR == dstR) == dstR) == lower

/-- 144-158: conjugation of the values of the mirrored entries. -/
def completeConj (conj : T → T) (toggle : Bool) (M : Csx T) : Option (List T) :=
  forEntries M M.vals fun ip i is vals => bif decide (ip < is) == toggle then (do
    let v ← vals[i]?
    wr vals i (conj v)) else some vals

/-- `perform_values` (134-161): the values are gathered through the map, then conjugated if `conj` is given (`set_conj` for complex types). -/
def completeValues (conj : Option (T → T)) (toggle : Bool) (M : Csx Nat) (src dst : List T) : Option (Csx T) := do
  let vals ← mapValues M.vals src dst
  match conj with
  | none => some ⟨M.np, M.ns, M.ptrs, M.idxs, vals⟩
  | some conj => do
      let vals ← completeConj conj toggle (⟨M.np, M.ns, M.ptrs, M.idxs, vals⟩ : Csx T)
      some ⟨M.np, M.ns, M.ptrs, M.idxs, vals⟩

end Verif.Csx
