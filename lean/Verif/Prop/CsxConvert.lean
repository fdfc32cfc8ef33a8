import Verif.Proof.CsxConvert
import Verif.Proof.CsxEntries
/-! C37, C38: conversion between CSR and CSC, transposition, and their maps. -/
namespace Verif.Csx

variable {T P : Type}

theorem entries_pairwise (A : Csx T) : A.entries.Pairwise fun a b => a.1 ≤ b.1 := by
  unfold Csx.entries
  rw [List.flatMap_def, List.pairwise_flatten]
  constructor
  · intro l hl
    obtain ⟨p, _, rfl⟩ := List.mem_map.1 hl
    rw [List.pairwise_map]
    exact List.pairwise_of_forall fun _ _ => Nat.le_refl _
  · rw [List.pairwise_map]
    refine (List.pairwise_lt_range (n := A.np)).imp ?_
    intro a b hab x hx y hy
    obtain ⟨_, _, rfl⟩ := List.mem_map.1 hx
    obtain ⟨_, _, rfl⟩ := List.mem_map.1 hy
    exact Nat.le_of_lt hab

theorem entries_sorted {A : Csx T} (h : A.Sorted) : A.entries.Pairwise fun a b => a.1 < b.1 ∨ a.1 = b.1 ∧ a.2.1 < b.2.1 := by
  unfold Csx.entries
  rw [List.flatMap_def, List.pairwise_flatten]
  constructor
  · intro l hl
    obtain ⟨p, hp, rfl⟩ := List.mem_map.1 hl
    rw [List.pairwise_map]
    exact (h p (List.mem_range.1 hp)).imp fun hab => Or.inr ⟨rfl, hab⟩
  · rw [List.pairwise_map]
    refine (List.pairwise_lt_range (n := A.np)).imp ?_
    intro a b hab x hx y hy
    obtain ⟨_, _, rfl⟩ := List.mem_map.1 hx
    obtain ⟨_, _, rfl⟩ := List.mem_map.1 hy
    exact Or.inl hab

theorem Converted.entries {A B : Csx T} (hA : WellFormed A) (h : Converted A B) : (B.entries.map swapEntry).Perm A.entries := by
  have e : B.entries.map swapEntry = (List.range A.ns).flatMap fun c => A.entries.filter fun e => e.2.1 = c := by
    unfold Csx.entries
    rw [List.map_flatMap, h.np]
    apply flatMap_congr'
    intro p hp
    rw [h.row p (List.mem_range.1 hp)]
    unfold column
    rw [List.map_map, List.map_map]
    conv => rhs; rw [← List.map_id (List.filter _ _)]
    apply List.map_congr_left
    intro x hx
    have := (List.mem_filter.1 hx).2
    simp only [decide_eq_true_eq] at this
    show (x.1, p, x.2.2) = x
    rw [← this]
  rw [e]
  exact flatMap_filter_perm (fun e : Nat × Nat × T => e.2.1) A.entries A.ns fun x hx => (entries_range hA hx).2

theorem Converted.nondecreasing {A B : Csx T} (h : Converted A B) : ∀ p, p < B.np → (B.row p).Pairwise fun a b => a.1 ≤ b.1 := by
  intro p hp
  rw [h.row p (by rw [← h.np]; exact hp)]
  unfold column
  rw [List.pairwise_map]
  exact (entries_pairwise A).filter _

theorem Converted.sorted {A B : Csx T} (h : Converted A B) (hs : A.Sorted) : B.Sorted := by
  intro p hp
  rw [h.row p (by rw [← h.np]; exact hp)]
  unfold column
  rw [List.pairwise_map]
  refine ((entries_sorted hs).filter _).imp_of_mem ?_
  intro a b ha hb hab
  have ha := (List.mem_filter.1 ha).2
  have hb := (List.mem_filter.1 hb).2
  simp only [decide_eq_true_eq] at ha hb
  simp only
  omega

theorem Converted.back {A B C : Csx T} (hA : WellFormed A) (hs : A.Sorted) (h : Converted A B) (h' : Converted B C) : C = A := by
  refine csx_ext_perm h'.wf hA (h'.sorted (h.sorted hs)) hs (by rw [h'.np, h.ns]) (by rw [h'.ns, h.np]) ?_
  have h1 := h.entries hA
  have h2 := (h'.entries h.wf).map swapEntry
  rw [List.map_map] at h2
  have : (C.entries.map (swapEntry ∘ swapEntry)) = C.entries := List.map_id _
  rw [this] at h2
  exact h2.trans h1

theorem colsOf_row (ns : Nat) (rows : List (List (Nat × T))) (pf : Nat × Nat × Nat × T → P) {p : Nat} (hp : p < ns) :
    (ofRows rows.length (colsOf ns pf rows)).row p = bucket eKey (fun e => (e.1, pf e)) (enumFrom 0 0 rows) p := by
  apply ofRows_row
  unfold colsOf
  rw [List.getElem?_map, List.getElem?_range hp]; rfl

theorem colsOf_wf (ns : Nat) (rows : List (List (Nat × T))) (pf : Nat × Nat × Nat × T → P) : WellFormed (ofRows rows.length (colsOf ns pf rows)) := by
  apply ofRows_wf
  intro row hr e he
  unfold colsOf at hr
  obtain ⟨c, _, rfl⟩ := List.mem_map.1 hr
  unfold bucket at he
  obtain ⟨x, hx, rfl⟩ := List.mem_map.1 he
  have hx := (List.mem_filter.1 hx).1
  have := congrArg (fun l => (x.1, x.2.2.1, x.2.2.2) ∈ l) (enumFrom_entries rows 0 0)
  have := this.mp (List.mem_map.2 ⟨x, hx, rfl⟩)
  obtain ⟨y, hy, hy2⟩ := List.mem_flatMap.1 this
  obtain ⟨z, _, hz⟩ := List.mem_map.1 hy2
  have := List.mem_zipIdx hy
  simp only [Prod.mk.injEq] at hz
  rw [← hz.1]; omega

theorem column_ofRows (ns : Nat) (rows : List (List (Nat × T))) (p : Nat) :
    column (ofRows ns rows) p = bucket eKey (fun e => (e.1, e.2.2.2)) (enumFrom 0 0 rows) p := by
  unfold column
  rw [entries_ofRows, ← enumFrom_entries rows 0 0, List.filter_map, List.map_map]
  rfl

theorem enumFrom_pay (rows : List (List (Nat × T))) (A : Csx T) (h : A = ofRows A.ns rows) : ∀ e ∈ enumFrom 0 0 rows, A.vals[e.2.1]? = some e.2.2.2 := by
  intro e he
  rw [h]
  exact enumFrom_val _ _ e he

/-- **C37**: every well-formed matrix is converted to the other order without an access out of range, whatever the destination arrays contained before: the slice `p` of
the result lists exactly the entries with secondary index `p`, in the order of their primary index. -/
theorem C37_convert (A : Csx T) (hA : WellFormed A) (ptrs idxs : List Nat) (vals : List T) (h1 : ptrs.length = A.ns + 1) (h2 : idxs.length = A.idxs.length)
    (h3 : vals.length = A.idxs.length) : ∃ B, convert A ptrs idxs vals = some B ∧ Converted A B := by
  obtain ⟨rows, hc, e, hn⟩ : ∃ rows : List (List (Nat × T)), (∀ row ∈ rows, ∀ e ∈ row, e.1 < A.ns) ∧ A = ofRows A.ns rows ∧ rows.length = A.np :=
    ⟨A.rows, wf_cols hA, wf_eq hA, rows_length A⟩
  have hi : A.idxs.length = rows.flatten.length := by
    have := congrArg (fun B => B.idxs.length) e
    exact this.trans (List.length_map _)
  have hpay := enumFrom_pay rows A e
  have := convertCore_eq A.ns rows hc (fun i => A.vals[i]?) (fun e => e.2.2.2) hpay ptrs idxs vals h1 (by omega) (by omega)
  rw [← e] at this
  refine ⟨ofRows rows.length (colsOf A.ns (fun e => e.2.2.2) rows), ?_, colsOf_wf _ _ _, ?_, hn, ?_⟩
  · unfold convert
    rw [this, ← hn]
    show some _ = some _
    congr 1
    unfold ofRows
    simp only [Csx.mk.injEq, and_true]
    unfold colsOf
    simp
  · show (colsOf _ _ _).length = _
    unfold colsOf; simp
  · intro p hp
    rw [colsOf_row _ _ _ hp]
    conv => rhs; rw [e]
    exact (column_ofRows _ _ p).symm

/-- The converted matrix has the same entries, its slices are ordered (strictly for a sorted source), and converting back gives the original sorted matrix. -/
theorem C37_entries (A : Csx T) (hA : WellFormed A) (ptrs idxs : List Nat) (vals : List T) (B : Csx T) (h : convert A ptrs idxs vals = some B)
    (h1 : ptrs.length = A.ns + 1) (h2 : idxs.length = A.idxs.length) (h3 : vals.length = A.idxs.length) :
    (B.entries.map swapEntry).Perm A.entries ∧ (∀ p, p < B.np → (B.row p).Pairwise fun a b => a.1 ≤ b.1) ∧ (A.Sorted → B.Sorted) := by
  obtain ⟨B', e, hB⟩ := C37_convert A hA ptrs idxs vals h1 h2 h3
  obtain rfl : B = B' := by rw [h] at e; exact Option.some.inj e
  exact ⟨hB.entries hA, hB.nondecreasing, hB.sorted⟩

/-- Converting there and back gives the original sorted matrix. -/
theorem C37_back (A : Csx T) (hA : WellFormed A) (hs : A.Sorted) (ptrs idxs ptrs' idxs' : List Nat) (vals vals' : List T) (B : Csx T)
    (h : convert A ptrs idxs vals = some B) (h1 : ptrs.length = A.ns + 1) (h2 : idxs.length = A.idxs.length) (h3 : vals.length = A.idxs.length)
    (h1' : ptrs'.length = A.np + 1) (h2' : idxs'.length = A.idxs.length) (h3' : vals'.length = A.idxs.length) : convert B ptrs' idxs' vals' = some A := by
  obtain ⟨B', e, hB⟩ := C37_convert A hA ptrs idxs vals h1 h2 h3
  obtain rfl : B = B' := by rw [h] at e; exact Option.some.inj e
  have hlen : B.idxs.length = A.idxs.length := by
    have hp := (hB.entries hA).length_eq
    have cnt : ∀ M : Csx T, WellFormed M → M.entries.length = M.idxs.length := by
      intro M hM
      have e1 := wf_eq hM
      have : M.entries.length = M.rows.flatten.length := by
        unfold Csx.entries Csx.rows
        rw [List.length_flatMap, List.length_flatten, List.map_map]
        congr 1
        apply List.map_congr_left
        intro p _
        exact List.length_map _
      rw [this, e1, ofRows_rows]
      exact (List.length_map _).symm
    rw [List.length_map, cnt _ hB.wf, cnt _ hA] at hp
    exact hp
  obtain ⟨C, e2, hC⟩ := C37_convert B hB.wf ptrs' idxs' vals' (by rw [hB.ns]; exact h1') (by rw [hlen]; exact h2') (by rw [hlen]; exact h3')
  rw [e2, hB.back hA hs hC]

theorem mapValues_eq (map : List Nat) (src dst : List T) (out : List T) (hl : dst.length = map.length) (ho : out.length = map.length)
    (h : ∀ i, i < map.length → ∃ j, map[i]? = some j ∧ src[j]? = out[i]?) : mapValues map src dst = some out := by
  unfold mapValues
  obtain ⟨s, e, h1, h2⟩ := forLoop_inv (Nat.zero_le map.length) dst (fun i dst => do
      let j ← map[i]?
      let v ← src[j]?
      wr dst i v) (fun k s => s.length = map.length ∧ ∀ i, i < k → s[i]? = out[i]?) ⟨hl, by intro i hi; omega⟩ (by
      intro i _ hi s ⟨hs, hv⟩
      obtain ⟨j, e1, e2⟩ := h i hi
      have hv' : out[i]? = some out[i] := List.getElem?_eq_getElem (by omega)
      refine ⟨s.set i out[i], ?_, by rw [List.length_set]; exact hs, ?_⟩
      · rw [e1]
        show Option.bind src[j]? _ = _
        rw [e2, hv']
        exact wr_eq_some (by omega)
      · intro k hk
        rw [getElem?_set' _ _ _ _ (by omega)]
        by_cases hik : i = k
        · rw [if_pos hik, ← hv', hik]
        · rw [if_neg hik]; exact hv k (by omega))
  rw [e]
  congr 1
  apply List.ext_getElem?
  intro i
  by_cases hi : i < map.length
  · exact h2 i hi
  · rw [List.getElem?_eq_none (by omega), List.getElem?_eq_none (by omega)]

/-- The enumeration depends on the values only in the last component. -/
theorem enumFrom_revalue {Q : Type} : ∀ (rows : List (List (Nat × T))) (rows' : List (List (Nat × Q))) (r i : Nat),
    rows.map (fun row => row.map (·.1)) = rows'.map (fun row => row.map (·.1)) →
    (enumFrom r i rows).map (fun e => (e.1, e.2.1, e.2.2.1)) = (enumFrom r i rows').map (fun e => (e.1, e.2.1, e.2.2.1)) := by
  intro rows
  induction rows with
  | nil =>
      intro rows' r i h
      cases rows' with
      | nil => rfl
      | cons _ _ => simp at h
  | cons row rows ih =>
      intro rows' r i h
      cases rows' with
      | nil => simp at h
      | cons row' rows' =>
          simp only [List.map_cons, List.cons.injEq] at h
          have hlen : row.length = row'.length := by have := congrArg List.length h.1; simpa using this
          unfold enumFrom
          rw [List.map_append, List.map_append, hlen, ih rows' (r + 1) (i + row'.length) h.2, List.map_map, List.map_map]
          congr 1
          apply List.ext_getElem?
          intro k
          rw [List.getElem?_map, List.getElem?_map, List.getElem?_zipIdx, List.getElem?_zipIdx]
          have := congrArg (·[k]?) h.1
          simp only [List.getElem?_map] at this
          cases h1 : row[k]? with
          | none => rw [h1] at this; cases h2 : row'[k]? with
            | none => rfl
            | some y => rw [h2] at this; simp at this
          | some x => rw [h1] at this; cases h2 : row'[k]? with
            | none => rw [h2] at this; simp at this
            | some y =>
                rw [h2] at this
                simp only [Option.map_some, Option.some.injEq] at this
                simp [this]

/-- **C38**: the map of `convert_csx_csy_map` / `transpose_csx_csx_map` is a permutation of the positions of the stored entries, and for every later value array `vals`
the pattern together with the values gathered through the map is the converted (transposed) matrix of these values. -/
theorem C38_map (A : Csx T) (hA : WellFormed A) (ptrs idxs map : List Nat) (h1 : ptrs.length = A.ns + 1) (h2 : idxs.length = A.idxs.length)
    (h3 : map.length = A.idxs.length) : ∃ M, convertMap A ptrs idxs map = some M ∧ M.vals.Perm (List.range A.idxs.length) ∧
      ∀ (Q : Type) (vals dst : List Q), vals.length = A.idxs.length → dst.length = A.idxs.length →
        ∃ out, mapValues M.vals vals dst = some out ∧ Converted ⟨A.np, A.ns, A.ptrs, A.idxs, vals⟩ ⟨M.np, M.ns, M.ptrs, M.idxs, out⟩ := by
  obtain ⟨rows, hc, e, hn⟩ : ∃ rows : List (List (Nat × T)), (∀ row ∈ rows, ∀ e ∈ row, e.1 < A.ns) ∧ A = ofRows A.ns rows ∧ rows.length = A.np :=
    ⟨A.rows, wf_cols hA, wf_eq hA, rows_length A⟩
  have hi : A.idxs.length = rows.flatten.length := by
    have := congrArg (fun B => B.idxs.length) e
    exact this.trans (List.length_map _)
  have hcore := convertCore_eq A.ns rows hc some (fun e => e.2.1) (fun e _ => rfl) ptrs idxs map h1 (by omega) (by omega)
  rw [← e] at hcore
  have hcols : ∀ {Q R : Type} (rows : List (List (Nat × Q))) (f : Nat × Nat × Nat × Q → R), (colsOf A.ns f rows).length = A.ns := by
    intro Q R rows f; unfold colsOf; simp
  have hM : convertMap A ptrs idxs map = some (ofRows rows.length (colsOf A.ns (fun e => e.2.1) rows)) := by
    unfold convertMap
    rw [hcore, ← hn]
    show some _ = some _
    congr 1
    unfold ofRows
    simp only [Csx.mk.injEq, and_true]
    exact (hcols _ _).symm
  have hkey : ∀ e ∈ enumFrom 0 0 rows, eKey e < A.ns := by
    intro x hx
    apply hA.range
    rw [show A.idxs = rows.flatten.map (·.1) from congrArg Csx.idxs e, ← enumFrom_key rows 0 0]
    exact List.mem_map.2 ⟨x, hx, rfl⟩
  refine ⟨_, hM, ?_, ?_⟩
  · show (List.map _ (List.flatten (colsOf A.ns (fun e => e.2.1) rows))).Perm _
    unfold colsOf
    rw [← List.flatMap_def, List.map_flatMap]
    have hp := (flatMap_filter_perm eKey (enumFrom 0 0 rows) A.ns hkey).map (fun e => e.2.1)
    rw [List.map_flatMap, enumFrom_pos, ← hi, ← List.range_eq_range'] at hp
    refine (List.Perm.of_eq ?_).trans hp
    apply flatMap_congr'
    intro c _
    rw [bucket_map]; rfl
  · intro Q vals dst hv hd
    have hA' : WellFormed (⟨A.np, A.ns, A.ptrs, A.idxs, vals⟩ : Csx Q) := ⟨hA.plen, hA.first, hA.mono, hA.last, hv, hA.range⟩
    obtain ⟨B, eB, hB⟩ := C37_convert (⟨A.np, A.ns, A.ptrs, A.idxs, vals⟩ : Csx Q) hA' ptrs idxs dst h1 h2 hd
    -- the rows of the revalued matrix
    obtain ⟨rows', hc', e', hn'⟩ : ∃ rows' : List (List (Nat × Q)), (∀ row ∈ rows', ∀ e ∈ row, e.1 < A.ns) ∧
        (⟨A.np, A.ns, A.ptrs, A.idxs, vals⟩ : Csx Q) = ofRows A.ns rows' ∧ rows'.length = A.np := ⟨_, wf_cols hA', wf_eq hA', rows_length _⟩
    have hi' : A.idxs.length = rows'.flatten.length := by
      have := congrArg (fun B => B.idxs.length) e'
      exact this.trans (List.length_map _)
    have hpay' := enumFrom_pay rows' ⟨A.np, A.ns, A.ptrs, A.idxs, vals⟩ e'
    have hcore' := convertCore_eq A.ns rows' hc' (fun i => vals[i]?) (fun e => e.2.2.2) hpay' ptrs idxs dst h1 (by omega) (by omega)
    rw [← e'] at hcore'
    have hBeq : B = ofRows rows'.length (colsOf A.ns (fun e => e.2.2.2) rows') := by
      unfold convert at eB
      simp only [hcore', Option.bind_eq_bind, Option.bind_some] at eB
      rw [← Option.some.inj eB, hn']
      unfold ofRows
      simp only [Csx.mk.injEq, and_true]
      exact (hcols _ _).symm
    -- the same pattern
    have hpat : rows.map (fun row => row.map (·.1)) = rows'.map (fun row => row.map (·.1)) := by
      have r1 : ∀ {Q : Type} (M : Csx Q), WellFormed M → M.rows.map (fun row => row.map (·.1)) =
          (List.range M.np).map fun p => (M.idxs.drop (M.ptrs.getD p 0)).take (M.ptrs.getD (p + 1) 0 - M.ptrs.getD p 0) := by
        intro Q M hM
        unfold Csx.rows
        rw [List.map_map]
        apply List.map_congr_left
        intro p _
        show (M.row p).map (·.1) = _
        unfold Csx.row
        rw [List.map_take, List.map_drop]
        have : List.map (fun x => x.1) (M.idxs.zip M.vals) = M.idxs := by
          show List.map Prod.fst _ = _
          exact List.map_fst_zip (by rw [hM.vlen]; exact Nat.le_refl _)
        rw [this]
      have a1 : rows = A.rows := by rw [e, ofRows_rows]
      have a2 : rows' = (⟨A.np, A.ns, A.ptrs, A.idxs, vals⟩ : Csx Q).rows := by rw [e', ofRows_rows]
      rw [a1, a2, r1 A hA, r1 _ hA']
    have henum := enumFrom_revalue rows rows' 0 0 hpat
    have hbk : ∀ {R : Type} (h : Nat × Nat × Nat → R) (c : Nat), bucket eKey (fun e => h (e.1, e.2.1, e.2.2.1)) (enumFrom 0 0 rows) c =
        bucket eKey (fun e => h (e.1, e.2.1, e.2.2.1)) (enumFrom 0 0 rows') c := by
      intro R h c
      have : ∀ {Q : Type} (l : List (Nat × Nat × Nat × Q)), bucket eKey (fun e => h (e.1, e.2.1, e.2.2.1)) l c =
          ((l.map fun e => (e.1, e.2.1, e.2.2.1)).filter fun x => x.2.2 = c).map h := by
        intro Q l
        unfold bucket
        rw [List.filter_map, List.map_map]
        rfl
      rw [this, this, henum]
    have hMpat : (ofRows rows.length (colsOf A.ns (fun e => e.2.1) rows)) = ofRows rows'.length (colsOf A.ns (fun e => e.2.1) rows') := by
      rw [hn, hn']
      congr 1
      unfold colsOf
      apply List.map_congr_left
      intro c _
      exact hbk (fun x => (x.1, x.2.1)) c
    rw [hMpat]
    refine ⟨B.vals, ?_, ?_⟩
    · have hmv : (ofRows rows'.length (colsOf A.ns (fun e => e.2.1) rows')).vals = (List.range A.ns).flatMap (bucket eKey (fun e => e.2.1) (enumFrom 0 0 rows')) := by
        show List.map _ (List.flatten (colsOf A.ns _ rows')) = _
        unfold colsOf
        rw [← List.flatMap_def, List.map_flatMap]
        apply flatMap_congr'
        intro c _
        rw [bucket_map]
      have hbv : B.vals = (List.range A.ns).flatMap (bucket eKey (fun e => e.2.2.2) (enumFrom 0 0 rows')) := by
        rw [hBeq]
        show List.map _ (List.flatten (colsOf A.ns _ rows')) = _
        unfold colsOf
        rw [← List.flatMap_def, List.map_flatMap]
        apply flatMap_congr'
        intro c _
        rw [bucket_map]
      have hml : (ofRows rows'.length (colsOf A.ns (fun e => e.2.1) rows')).vals.length = A.idxs.length := by
        rw [← hMpat]
        have : (ofRows rows.length (colsOf A.ns (fun e => e.2.1) rows)).vals.Perm (List.range A.idxs.length) := by
          show (List.map _ (List.flatten (colsOf A.ns (fun e => e.2.1) rows))).Perm _
          unfold colsOf
          rw [← List.flatMap_def, List.map_flatMap]
          have hp := (flatMap_filter_perm eKey (enumFrom 0 0 rows) A.ns hkey).map (fun e => e.2.1)
          rw [List.map_flatMap, enumFrom_pos, ← hi, ← List.range_eq_range'] at hp
          refine (List.Perm.of_eq ?_).trans hp
          apply flatMap_congr'
          intro c _
          rw [bucket_map]; rfl
        rw [this.length_eq, List.length_range]
      -- both arrays are images of one list of entries
      let L := (List.range A.ns).flatMap fun c => (enumFrom 0 0 rows').filter fun e => eKey e = c
      have hL1 : (ofRows rows'.length (colsOf A.ns (fun e => e.2.1) rows')).vals = L.map fun e => e.2.1 := by
        rw [hmv]; show _ = List.map _ (List.flatMap _ _); rw [List.map_flatMap]; rfl
      have hL2 : B.vals = L.map fun e => e.2.2.2 := by
        rw [hbv]; show _ = List.map _ (List.flatMap _ _); rw [List.map_flatMap]; rfl
      have hLmem : ∀ x ∈ L, x ∈ enumFrom 0 0 rows' := by
        intro x hx
        obtain ⟨c, _, hx⟩ := List.mem_flatMap.1 hx
        exact (List.mem_filter.1 hx).1
      have hLlen : L.length = A.idxs.length := by rw [← hml, hL1, List.length_map]
      apply mapValues_eq
      · rw [hml]; exact hd
      · rw [hL2, hL1, List.length_map, List.length_map]
      · intro i hi
        rw [hL1, List.length_map] at hi
        refine ⟨L[i].2.1, by rw [hL1, List.getElem?_map, List.getElem?_eq_getElem hi]; rfl, ?_⟩
        rw [hL2, List.getElem?_map, List.getElem?_eq_getElem hi]
        exact hpay' _ (hLmem _ (List.getElem_mem hi))
    · have : (⟨(ofRows rows'.length (colsOf A.ns (fun e => e.2.1) rows')).np, (ofRows rows'.length (colsOf A.ns (fun e => e.2.1) rows')).ns,
          (ofRows rows'.length (colsOf A.ns (fun e => e.2.1) rows')).ptrs, (ofRows rows'.length (colsOf A.ns (fun e => e.2.1) rows')).idxs, B.vals⟩ : Csx Q) = B := by
        rw [hBeq]
        unfold ofRows
        simp only [Csx.mk.injEq, and_true, true_and]
        refine ⟨by rw [hcols, hcols], ?_, ?_⟩
        · rw [hcols, hcols]
          apply List.map_congr_left
          intro k _
          unfold colsOf
          rw [← List.map_take, ← List.map_take, ← List.flatMap_def, ← List.flatMap_def, List.length_flatMap, List.length_flatMap]
          congr 1
          apply List.map_congr_left
          intro c _
          unfold bucket
          rw [List.length_map, List.length_map]
        · unfold colsOf
          rw [← List.flatMap_def, ← List.flatMap_def, List.map_flatMap, List.map_flatMap]
          apply flatMap_congr'
          intro c _
          rw [bucket_map, bucket_map]
      rw [this]
      exact hB

/-! ### A concrete case -/

/-- A 3 x 4 matrix with an empty row and an unsorted row. -/
def exMat : Csx Int := ⟨3, 4, [0, 3, 3, 5], [2, 0, 3, 1, 2], [10, 20, 30, 40, 50]⟩

theorem exMat_wf : WellFormed exMat := ⟨rfl, rfl, by decide, rfl, rfl, by decide⟩

example : convert exMat [9, 9, 9, 9, 9] [7, 7, 7, 7, 7] [0, 0, 0, 0, 0] = some ⟨4, 3, [0, 1, 2, 4, 5], [0, 2, 0, 2, 0], [20, 40, 10, 50, 30]⟩ := by decide

example : ∃ B, convert exMat [9, 9, 9, 9, 9] [7, 7, 7, 7, 7] [0, 0, 0, 0, 0] = some B ∧ Converted exMat B :=
  C37_convert exMat exMat_wf _ _ _ rfl rfl rfl

example : convertMap exMat [9, 9, 9, 9, 9] [7, 7, 7, 7, 7] [0, 0, 0, 0, 0] = some ⟨4, 3, [0, 1, 2, 4, 5], [0, 2, 0, 2, 0], [1, 3, 0, 4, 2]⟩ := by decide

end Verif.Csx
