import Verif.Model.CsxSub
import Verif.Spec.CsxPerm
import Verif.Base.Mem
/-!
Permutations: `permutation_view_new.h`, `sorting_permutation.cpp`, `permute_csx_csx.cpp` and `permute_csx_csx_map.cpp` in `src/math`.
`std::sort` with a comparison of the keys is a parameter: any function that returns a rearrangement ordered by the key (the order of equal keys is not specified by the
standard).
-/
namespace Verif.Csx

variable {T P : Type}

/-- `PermutationView_new::invert` (50-55): `for(i = 0; i < size; i++) dst[src[i]] = i`. -/
def invert (src dst : List Nat) (size : Nat) : Option (List Nat) := forLoop 0 size dst fun i dst => do
  let j ← src[i]?
  wr dst j i

/-- `sorting_permutation::perform` (37-69); `sort` orders (value, index) pairs by the value, `junk` is the content of a freshly allocated cell. -/
def sortingPermutation {K : Type} (sort : List (K × Nat) → List (K × Nat)) (junk : K × Nat) (vec : List K) (d2s s2d : List Nat) : Option Perm := do
  let iv ← forLoop 0 vec.length (List.replicate vec.length junk) fun i iv => do
    let v ← vec[i]?
    wr iv i (v, i)
  let d2s ← forLoop 0 vec.length d2s fun i d2s => do
    let e ← (sort iv)[i]?
    wr d2s i e.2
  let s2d ← invert d2s s2d vec.length
  some ⟨d2s, s2d⟩

/-- `permute_csx_csx::perform_primary` (119-145). -/
def permPrimary (A : Csx T) (P : Perm) (d : Dest T) : Option (Csx T) := do
  let (ptrs, idxs, vals, curr) ← forLoop 0 A.np (d.ptrs, d.idxs, d.vals, 0) fun ipd (ptrs, st) => do
    let ptrs ← wr ptrs ipd st.2.2
    let ips ← P.d2s[ipd]?
    let start ← A.ptrs[ips]?
    let stop ← A.ptrs[ips + 1]?
    let st ← forLoop start stop st fun i (idxs, vals, curr) => do
      let c ← A.idxs[i]?
      let v ← A.vals[i]?
      let idxs ← wr idxs curr c
      let vals ← wr vals curr v
      some (idxs, vals, curr + 1)
    some (ptrs, st)
  let ptrs ← wr ptrs A.np curr
  some ⟨A.np, A.ns, ptrs, idxs, vals⟩

/-- The longest slice (162-168, 212-218). -/
def longest (A : Csx T) : Option Nat := forLoop 0 A.np 0 fun p m => do
  let start ← A.ptrs[p]?
  let stop ← A.ptrs[p + 1]?
  some (max m (stop - start))

/-- The entries of a slice with their new secondary indices are put to the buffer `ivs` (179-184, 231-236). -/
def loadSlice (A : Csx T) (Q : Perm) (start stop : Nat) (ivs : List (Nat × T)) : Option (List (Nat × T)) := forLoop start stop ivs fun i ivs => do
  let iss ← A.idxs[i]?
  let val ← A.vals[i]?
  let isd ← Q.s2d[iss]?
  wr ivs (i - start) (isd, val)

/-- `std::sort(ivs.vals, ivs.vals + n, ...)`. -/
def sortPrefix (sort : List (Nat × T) → List (Nat × T)) (n : Nat) (ivs : List (Nat × T)) : Option (List (Nat × T)) :=
  if n ≤ ivs.length then some (sort (ivs.take n) ++ ivs.drop n) else none

/-- `permute_csx_csx::perform_secdary` (150-196); `junk` is the content of a freshly allocated buffer cell. -/
def permSecondary (sort : List (Nat × T) → List (Nat × T)) (junk : Nat × T) (A : Csx T) (Q : Perm) (d : Dest T) : Option (Csx T) := do
  let src ← memcpyFrom A.ptrs 0 (A.np + 1)
  let ptrs ← memcpyTo d.ptrs 0 src
  let len ← longest A
  let (_, idxs, vals) ← forLoop 0 A.np (List.replicate len junk, d.idxs, d.vals) fun ip (ivs, idxs, vals) => do
    let start ← A.ptrs[ip]?
    let stop ← A.ptrs[ip + 1]?
    let ivs ← loadSlice A Q start stop ivs
    let ivs ← sortPrefix sort (stop - start) ivs
    let (idxs, vals) ← forLoop start stop (idxs, vals) fun i (idxs, vals) => do
      let e ← ivs[i - start]?
      let idxs ← wr idxs i e.1
      let vals ← wr vals i e.2
      some (idxs, vals)
    some (ivs, idxs, vals)
  some ⟨A.np, A.ns, ptrs, idxs, vals⟩

/-- `permute_csx_csx::perform_both` (201-250). -/
def permBoth (sort : List (Nat × T) → List (Nat × T)) (junk : Nat × T) (A : Csx T) (P Q : Perm) (d : Dest T) : Option (Csx T) := do
  let len ← longest A
  let (_, ptrs, idxs, vals, curr) ← forLoop 0 A.np (List.replicate len junk, d.ptrs, d.idxs, d.vals, 0) fun ipd (ivs, ptrs, st) => do
    let ptrs ← wr ptrs ipd st.2.2
    let ips ← P.d2s[ipd]?
    let start ← A.ptrs[ips]?
    let stop ← A.ptrs[ips + 1]?
    let ivs ← loadSlice A Q start stop ivs
    let ivs ← sortPrefix sort (stop - start) ivs
    let st ← forLoop start stop st fun i (idxs, vals, curr) => do
      let e ← ivs[i - start]?
      let idxs ← wr idxs curr e.1
      let vals ← wr vals curr e.2
      some (idxs, vals, curr + 1)
    some (ivs, ptrs, st)
  let ptrs ← wr ptrs A.np curr
  some ⟨A.np, A.ns, ptrs, idxs, vals⟩

/-- `permute_csx_csx::perform` (72-97) after the choice by the order: `P` permutes the primary and `Q` the secondary index, `none` is a null pointer.  `copy_csx` copies the
three arrays. -/
def permuteCsx (sort : List (Nat × T) → List (Nat × T)) (junk : Nat × T) (A : Csx T) (P Q : Option Perm) (d : Dest T) : Option (Csx T) :=
  match P, Q with
  | none, none => do
      let p ← memcpyFrom A.ptrs 0 (A.np + 1)
      let ptrs ← memcpyTo d.ptrs 0 p
      let i ← memcpyFrom A.idxs 0 A.idxs.length
      let idxs ← memcpyTo d.idxs 0 i
      let v ← memcpyFrom A.vals 0 A.idxs.length
      let vals ← memcpyTo d.vals 0 v
      some ⟨A.np, A.ns, ptrs, idxs, vals⟩
  | some P, none => permPrimary A P d
  | none, some Q => permSecondary sort junk A Q d
  | some P, some Q => permBoth sort junk A P Q d

/-- `(perm == nullptr) ? i : perm->src_to_dst[i]`. -/
def place (P : Option Perm) (i : Nat) : Option Nat :=
  match P with
  | none => some i
  | some P => P.s2d[i]?

/-- Where an entry goes in `permute_csx_csx_map` (88-89): `tri` is `none` for a general matrix and `some toggle` for a triangular one. -/
def triPlace (tri : Option Bool) (ipd isd : Nat) : Nat × Nat :=
  match tri with
  | none => (ipd, isd)
  | some toggle => bif (decide (isd < ipd) == toggle) then (ipd, isd) else (isd, ipd)

/-- `permute_csx_csx_map::perform_pattern` (82-91): the vectors `out_data`. -/
def permuteOut (A : Csx T) (P Q : Option Perm) (tri : Option Bool) : Option (List (List (Nat × Nat))) := forEntries A (List.replicate A.np []) fun ips i iss out => do
  let ipd ← place P ips
  let isd ← place Q iss
  let old ← out[(triPlace tri ipd isd).1]?
  wr out (triPlace tri ipd isd).1 (old ++ [((triPlace tri ipd isd).2, i)])

/-- `permute_csx_csx_map::perform_pattern` (55-109): the pattern, with the map in the place of the values. -/
def permuteMap (sort : List (Nat × Nat) → List (Nat × Nat)) (A : Csx T) (P Q : Option Perm) (tri : Option Bool) (d : Dest Nat) : Option (Csx Nat) := do
  let out ← permuteOut A P Q tri
  let out := out.map sort
  let (ptrs, idxs, map, curr) ← forLoop 0 A.np (d.ptrs, d.idxs, d.vals, 0) fun ipd (ptrs, st) => do
    let ptrs ← wr ptrs ipd st.2.2
    let row ← out[ipd]?
    let st ← forLoop 0 row.length st fun j (idxs, map, curr) => do
      let e ← row[j]?
      let idxs ← wr idxs curr e.1
      let map ← wr map curr e.2
      some (idxs, map, curr + 1)
    some (ptrs, st)
  let ptrs ← wr ptrs A.np curr
  some ⟨A.np, A.ns, ptrs, idxs, map⟩

end Verif.Csx
