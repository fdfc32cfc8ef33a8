import Verif.Proof.Offsets
import Verif.Proof.Merge
import Verif.Proof.Distribute
/-
C04-C09, C51: utilities of `basis/utilities/utils.hpp` and `tarray::distribute`.
-/
namespace Verif.Utils

/-- C04.  `sizesToOffsets` never leaves the range, replaces entry `i` by the start offset plus the sum of the sizes before `i` and
returns the start offset plus the sum of all sizes. -/
theorem C04_sizesToOffsets (v : List Int) (offset : Int) :
    ∃ w, sizesToOffsets v offset = some (w, offset + v.sum) ∧ w.length = v.length ∧
      ∀ i, i < v.length → w[i]? = some (offset + (v.take i).sum) :=
  sizesToOffsets_spec v offset

/-- C04.  With non-negative sizes the ranges `[w i, w i + v i)` tile `[offset, result)`: every point in it lies in exactly one
range. -/
theorem C04_ranges_tile (v : List Int) (offset : Int) (hv : ∀ x ∈ v, 0 ≤ x) (w : List Int) (s : Int)
    (h : sizesToOffsets v offset = some (w, s)) (p : Int) :
    (offset ≤ p ∧ p < s) ↔
      ∃ i : Nat, (∃ a n, w[i]? = some a ∧ v[i]? = some n ∧ a ≤ p ∧ p < a + n) ∧
        ∀ j : Nat, (∃ a n, w[j]? = some a ∧ v[j]? = some n ∧ a ≤ p ∧ p < a + n) → j = i := by
  obtain ⟨w', e, hl, hw⟩ := sizesToOffsets_spec v offset
  rw [e] at h
  simp only [Option.some.injEq, Prod.mk.injEq] at h
  obtain ⟨rfl, rfl⟩ := h
  have hmono : ∀ i j, i ≤ j → (v.take i).sum ≤ (v.take j).sum := by
    intro i j hij
    induction hij with
    | refl => exact Int.le_refl _
    | @step m _ ih =>
        by_cases hm : m < v.length
        · rw [sum_take_succ v m hm]
          have := hv _ (List.getElem_mem hm)
          omega
        · rw [List.take_of_length_le (by omega : v.length ≤ m + 1)]
          rw [List.take_of_length_le (by omega : v.length ≤ m)] at ih
          exact ih
  constructor
  · rintro ⟨h1, h2⟩
    have key : ∀ n, n ≤ v.length → p < offset + (v.take n).sum →
        ∃ i, i < n ∧ offset + (v.take i).sum ≤ p ∧ p < offset + (v.take (i + 1)).sum := by
      intro n
      induction n with
      | zero => intro _ h; simp at h; omega
      | succ n ih =>
          intro hn hp
          by_cases hc : p < offset + (v.take n).sum
          · obtain ⟨i, hi, ha, hb⟩ := ih (by omega) hc
            exact ⟨i, by omega, ha, hb⟩
          · exact ⟨n, by omega, by omega, hp⟩
    obtain ⟨i, hi, ha, hb⟩ := key v.length (Nat.le_refl _) (by simpa using h2)
    refine ⟨i, ⟨_, _, hw i hi, List.getElem?_eq_getElem hi, ha, ?_⟩, ?_⟩
    · rw [sum_take_succ v i hi] at hb; omega
    · rintro j ⟨a, n, ea, en, ha', hb'⟩
      obtain ⟨hj, rfl⟩ := List.getElem?_eq_some_iff.1 en
      rw [hw j hj] at ea; cases ea
      have hb'' : p < offset + (v.take (j + 1)).sum := by rw [sum_take_succ v j hj]; omega
      rcases Nat.lt_trichotomy i j with h | h | h
      · have := hmono (i + 1) j h; omega
      · exact h.symm
      · have := hmono (j + 1) i h; omega
  · rintro ⟨i, ⟨a, n, ea, en, ha, hb⟩, -⟩
    obtain ⟨hi, rfl⟩ := List.getElem?_eq_some_iff.1 en
    rw [hw i hi] at ea; cases ea
    have h1 := hmono 0 i (Nat.zero_le _)
    have h2 := hmono (i + 1) v.length hi
    rw [sum_take_succ v i hi, List.take_length] at h2
    simp only [List.take_zero, List.sum_nil] at h1
    omega

/-- C04, two-level variant: `n` columns over all threads. -/
theorem C04_sizesToOffsets_threads (sizes : List (List Int)) (offsets : List Int) (n : Nat)
    (hne : sizes ≠ []) (hn : ∀ r ∈ sizes, r.length = n) (ho : n ≤ offsets.length) :
    ∃ sizes' sum, sizesToOffsets2 sizes offsets = some (sizes', sum) ∧
      sizes'.length = sizes.length ∧ (∀ r ∈ sizes', r.length = n) ∧ sum.length = offsets.length ∧
      (∀ t i, t < sizes.length → i < n →
        rd2 sizes' t i = (offsets[i]?).map (· + colSum sizes t i)) ∧
      (∀ i, i < n → sum[i]? = (offsets[i]?).map (· + colSum sizes sizes.length i)) ∧
      (∀ i, n ≤ i → sum[i]? = offsets[i]?) :=
  sizesToOffsets2_spec sizes offsets n hne hn ho

/-- C05.  Whatever chunk size the floating-point ceiling produces, the borders are `0 = d 0 ≤ d 1 ≤ ... ≤ d threads = size`. -/
theorem C05_distribute_partition (threads size chunk : Nat) (ht : 0 < threads) :
    ∃ d, distributeChunk threads size chunk = some d ∧ d.length = threads + 1 ∧ d[0]? = some 0 ∧
      d[threads]? = some size ∧ d.Pairwise (· ≤ ·) := by
  obtain ⟨d, e, hl, h1, h2⟩ := distributeChunk_spec threads size chunk ht
  refine ⟨d, e, hl, by rw [h1 0 ht]; simp, h2, ?_⟩
  rw [List.pairwise_iff_getElem]
  intro i j hi hj hij
  have gi : d[i]? = some d[i] := List.getElem?_eq_getElem hi
  have gj : d[j]? = some d[j] := List.getElem?_eq_getElem hj
  have hi' : i < threads := by omega
  rw [h1 i hi'] at gi
  simp only [Option.some.injEq] at gi
  by_cases hj' : j < threads
  · rw [h1 j hj'] at gj
    simp only [Option.some.injEq] at gj
    have := Nat.mul_le_mul_right chunk (show i ≤ j by omega)
    omega
  · have : j = threads := by omega
    subst this
    rw [h2] at gj
    simp only [Option.some.injEq] at gj
    omega

/-- C05.  With the exact ceiling no thread gets more than `max (ceil (size / threads)) minchunk` items. -/
theorem C05_distribute_balanced (threads size minchunk : Nat) (ht : 0 < threads) :
    ∃ d, distribute threads size minchunk = some d ∧
      ∀ t a b, d[t]? = some a → d[t + 1]? = some b →
        a ≤ b ∧ b - a ≤ max ((size + threads - 1) / threads) minchunk := by
  obtain ⟨d, e, hl, h1, h2⟩ := distributeChunk_spec threads size (chunkSize threads size minchunk) ht
  refine ⟨d, e, ?_⟩
  intro t a b ha hb
  have htl := (List.getElem?_eq_some_iff.1 hb).1
  have htl' : t < threads := by omega
  rw [h1 t htl'] at ha
  simp only [Option.some.injEq] at ha
  change a ≤ b ∧ b - a ≤ chunkSize threads size minchunk
  generalize hc : chunkSize threads size minchunk = c at *
  have hcs : size ≤ threads * c := by
    have : (size + threads - 1) / threads ≤ c := by rw [← hc]; exact Nat.le_max_left _ _
    have h3 := Nat.mul_le_mul_left threads this
    have h4 := Nat.div_add_mod (size + threads - 1) threads
    have h5 := Nat.mod_lt (size + threads - 1) ht
    omega
  have hmul : (t + 1) * c = t * c + c := by rw [Nat.add_mul, Nat.one_mul]
  by_cases hlt : t + 1 < threads
  · rw [h1 (t + 1) hlt] at hb
    simp only [Option.some.injEq] at hb
    omega
  · have : t + 1 = threads := by omega
    rw [this, h2] at hb
    simp only [Option.some.injEq] at hb
    rw [← this] at hcs
    omega

/-- C06.  `sortAndRemoveDuplicates` keeps the first `begin` entries and replaces the rest by the strictly increasing list of
exactly the values that occurred there. -/
theorem C06_sortAndRemoveDuplicates {α : Type} [LinearOrder α] (data : List α) (begin : Nat) (h : begin ≤ data.length) :
    ∃ C, sortAndRemoveDuplicates data begin = some (data.take begin ++ C) ∧ C.Pairwise (· < ·) ∧
      ∀ x, x ∈ C ↔ x ∈ data.drop begin :=
  sortAndRemoveDuplicates_spec data begin h

/-- C06.  Merging threaded data: sorted set of everything. -/
theorem C06_mergeThreadedUniqueData {α : Type} [LinearOrder α] (data : List (List α)) (hne : data ≠ []) :
    ∃ C, mergeThreadedUniqueData data = some C ∧ C.Pairwise (· < ·) ∧ ∀ x, x ∈ C ↔ ∃ d ∈ data, x ∈ d :=
  mergeThreadedUniqueData_spec data hne

/-- C07.  `sortWithInplaceMerge` sorts for any number of parts and any part sizes; all its reads of the padded distribution and all
preconditions of `std::inplace_merge` hold. -/
theorem C07_sortWithInplaceMerge {α : Type} [LinearOrder α] (data : List α) (dist : List Nat)
    (h0 : dist.head? = some 0) (hmono : dist.Pairwise (· ≤ ·)) (hlast : dist.getLast? = some data.length) :
    ∃ data', sortWithInplaceMerge data dist = some data' ∧ data'.Perm data ∧ data'.Pairwise (· ≤ ·) :=
  sortWithInplaceMerge_spec data dist h0 hmono hlast

/-- C07.  `inplaceMerge` of already sorted parts. -/
theorem C07_inplaceMerge {α : Type} [LinearOrder α] (data : List α) (dist : List Nat)
    (h0 : dist.head? = some 0) (hmono : dist.Pairwise (· ≤ ·)) (hlast : dist.getLast? = some data.length)
    (hs : PartsSorted data dist) :
    ∃ data', inplaceMerge data dist = some data' ∧ data'.Perm data ∧ data'.Pairwise (· ≤ ·) :=
  inplaceMerge_spec data dist h0 hmono hlast hs

/-- C07.  The variant on per-thread vectors. -/
theorem C07_sortWithInplaceMerge_threads {α : Type} [LinearOrder α] (data : List (List α)) (hne : data ≠ []) :
    ∃ data', sortWithInplaceMergeThreads data = some data' ∧ data'.Perm data.flatten ∧ data'.Pairwise (· ≤ ·) := by
  obtain ⟨dist, ed, h0, hmono, hlast, -, -⟩ := appendThreads_spec data hne
  obtain ⟨d, e, h⟩ := sortWithInplaceMerge_spec data.flatten dist h0 hmono hlast
  exact ⟨d, by simp only [sortWithInplaceMergeThreads, ed, Option.bind_eq_bind, Option.bind_some, e], h⟩

/-- C07.  `inplaceMerge` on per-thread sorted vectors. -/
theorem C07_inplaceMerge_threads {α : Type} [LinearOrder α] (data : List (List α)) (hne : data ≠ [])
    (hs : ∀ d ∈ data, d.Pairwise (· ≤ ·)) :
    ∃ data', inplaceMergeThreads data = some data' ∧ data'.Perm data.flatten ∧ data'.Pairwise (· ≤ ·) := by
  obtain ⟨dist, ed, h0, hmono, hlast, hdl, hparts⟩ := appendThreads_spec data hne
  obtain ⟨d, e, h⟩ := inplaceMerge_spec data.flatten dist h0 hmono hlast (by
    intro k a b h1 h2
    have hk : k < data.length := by
      have := (List.getElem?_eq_some_iff.1 h2).1; omega
    obtain ⟨a', b', ea, eb, es⟩ := hparts k hk
    rw [ea] at h1; rw [eb] at h2; cases h1; cases h2
    exact hs _ (List.mem_of_getElem? es.symm))
  exact ⟨d, by simp only [inplaceMergeThreads, ed, Option.bind_eq_bind, Option.bind_some, e], h⟩

/-- C07.  `sortWithUniqueMerge` returns the sorted set of all values of all threads. -/
theorem C07_sortWithUniqueMerge {α : Type} [LinearOrder α] (data : List (List α)) (hne : data ≠ []) :
    ∃ C, sortWithUniqueMerge data = some C ∧ C.Pairwise (· < ·) ∧ ∀ x, x ∈ C ↔ ∃ d ∈ data, x ∈ d :=
  sortWithUniqueMerge_spec data hne

/-- C08.  `mergeAppendedData`: first part `[0, tail₀)` sorted and the appended parts sorted; the result is the sorted
permutation.  (`distribution[0]` is not used by the code.) -/
theorem C08_mergeAppendedData {α : Type} [LinearOrder α] (data : List α) (d0 : Nat) (tail : List Nat) (hne : tail ≠ [])
    (hmono : tail.Pairwise (· ≤ ·)) (hlast : tail.getLast? = some data.length)
    (hfirst : Sorted (seg data 0 (tail.head hne))) (hs : PartsSorted data tail) :
    ∃ data', mergeAppendedData data (d0 :: tail) = some data' ∧ data'.Perm data ∧ data'.Pairwise (· ≤ ·) :=
  mergeAppendedData_spec data d0 tail hne hmono hlast hfirst hs

/-- C09.  `permute` puts element `perm i` (all `es` components in order) at place `i`; nothing is read or written out of
range. -/
theorem C09_permute_elements {α : Type} (zero : α) (data : List α) (perm : List Nat) (es n : Nat) (hes : 0 < es)
    (hn : data.length = es * n) (hp : perm.length = n) (hb : ∀ p ∈ perm, p < n) :
    permute zero data perm es = some (perm.flatMap fun p => (data.drop (es * p)).take es) := by
  obtain ⟨d, e, hl, h⟩ := permute_spec zero data perm es n hes hn hp hb
  rw [e, permute_eq_flatMap hn hp hb hl h]

/-- C09.  With a permutation nothing is lost. -/
theorem C09_permute_perm {α : Type} (zero : α) (data : List α) (perm : List Nat) (es n : Nat) (hes : 0 < es)
    (hn : data.length = es * n) (hp : perm.Perm (List.range n)) :
    ∃ d, permute zero data perm es = some d ∧ d.Perm data := by
  refine ⟨_, C09_permute_elements zero data perm es n hes hn (by rw [hp.length_eq]; simp)
    (fun p h => by simpa using hp.mem_iff.1 h), ?_⟩
  refine (List.Perm.flatMap_right _ hp).trans ?_
  rw [chunks_take, List.take_of_length_le (by omega)]

/-- C09.  Permuting by the inverse restores the data. -/
theorem C09_permute_inverse {α : Type} (zero : α) (data : List α) (perm inv : List Nat) (es n : Nat) (hes : 0 < es)
    (hn : data.length = es * n) (hp : perm.length = n) (hb : ∀ p ∈ perm, p < n)
    (hi : inv.length = n) (hib : ∀ p ∈ inv, p < n) (hinv : ∀ i p : Nat, inv[i]? = some p → perm[p]? = some i) :
    ∃ d, permute zero data perm es = some d ∧ permute zero d inv es = some data := by
  obtain ⟨d, e, hl, h⟩ := permute_spec zero data perm es n hes hn hp hb
  refine ⟨d, e, ?_⟩
  obtain ⟨d', e', hl', h'⟩ := permute_spec zero d inv es n hes (by omega) hi hib
  rw [e']
  congr 1
  apply List.ext_getElem?
  intro k
  by_cases hk : k < data.length
  · have hk1 : k / es < n := by rw [hn] at hk; exact Nat.div_lt_of_lt_mul hk
    have hk2 : k = es * (k / es) + k % es := (Nat.div_add_mod k es).symm
    have hk3 : k % es < es := Nat.mod_lt _ hes
    have ei : inv[k / es]? = some inv[k / es] := List.getElem?_eq_getElem (by omega)
    rw [hk2, h' _ _ _ hk3 ei, h _ _ _ hk3 (hinv _ _ ei)]
  · rw [List.getElem?_eq_none (by omega), List.getElem?_eq_none (by omega)]

/-- C51.  Per-thread local borders (inclusive prefix sums of the local item sizes, also for threads without items) become the
borders of the concatenated items. -/
theorem C51_threadDistribution (sizes : List (List Int)) :
    ∃ r, threadDistribution (sizes.map (borders 0)) = some r ∧ r.flatten = borders 0 sizes.flatten ∧
      r.length = sizes.length ∧ ∀ t : Nat, (r[t]?).map List.length = (sizes[t]?).map List.length :=
  threadDistribution_spec sizes

/-- C51.  The variant on one array: `data[0]` is kept, `data[1..]` holds the local borders part after part. -/
theorem C51_threadDistribution_flat (c : Int) (sizes : List (List Int)) :
    threadDistributionFlat (c :: (sizes.map (borders 0)).flatten)
      ((List.range (sizes.length + 1)).map (partStart sizes)) = some (c :: borders 0 sizes.flatten) :=
  threadDistributionFlat_spec c sizes

/-! Non-vacuity. -/
example : ([0, 2, 2, 5] : List Nat).Pairwise (· ≤ ·) ∧ ([0, 2, 2, 5] : List Nat).getLast? = some [3, 1, 5, 4, 1].length := by
  decide
example : PartsSorted ([1, 3, 1, 4, 5] : List Nat) [0, 2, 2, 5] := by
  intro k a b h1 h2
  match k with
  | 0 => simp at h1 h2; subst h1 h2; decide
  | 1 => simp at h1 h2; subst h1 h2; decide
  | 2 => simp at h1 h2; subst h1 h2; decide
  | k + 3 => simp at h2
example : (∀ p ∈ [2, 0, 1], p < 3) ∧ ([2, 0, 1].Perm (List.range 3)) := by decide
example : ∀ i p : Nat, ([1, 2, 0] : List Nat)[i]? = some p → ([2, 0, 1] : List Nat)[p]? = some i := by
  intro i p h
  match i with
  | 0 => simp at h; subst h; rfl
  | 1 => simp at h; subst h; rfl
  | 2 => simp at h; subst h; rfl
  | i + 3 => simp at h
example : borders 0 [2, 0, 3] = [2, 2, 5] := by decide
example : (∀ r ∈ [[1, 2], [3, 4], [5, (6 : Int)]], r.length = 2) := by decide

end Verif.Utils
