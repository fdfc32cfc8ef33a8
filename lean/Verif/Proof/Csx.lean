import Verif.Model.Csx
/-! Matrices given by their slices; loops over the entries. -/
namespace Verif.Csx

variable {T : Type}

/-- The matrix with given slices. -/
def ofRows (ns : Nat) (rows : List (List (Nat × T))) : Csx T where
  np := rows.length
  ns := ns
  ptrs := (List.range (rows.length + 1)).map fun k => (rows.take k).flatten.length
  idxs := rows.flatten.map (·.1)
  vals := rows.flatten.map (·.2)

theorem getD_some {l : List Nat} {i : Nat} (h : i < l.length) : l[i]? = some (l.getD i 0) := by
  rw [List.getD_eq_getElem?_getD, List.getElem?_eq_getElem h]; rfl

theorem ofRows_ptr (ns : Nat) (rows : List (List (Nat × T))) {k : Nat} (h : k ≤ rows.length) : (ofRows ns rows).ptrs[k]? = some (rows.take k).flatten.length := by
  show (List.map _ _)[k]? = _
  rw [List.getElem?_map, List.getElem?_range (by omega)]; rfl

theorem ofRows_ptr' (ns : Nat) (rows : List (List (Nat × T))) {k : Nat} (h : k ≤ rows.length) : (ofRows ns rows).ptrs.getD k 0 = (rows.take k).flatten.length := by
  rw [List.getD_eq_getElem?_getD, ofRows_ptr ns rows h]; rfl

theorem take_flatten_mono {A : Type} (rows : List (List A)) {a b : Nat} (h : a ≤ b) : (rows.take a).flatten.length ≤ (rows.take b).flatten.length := by
  have e : rows.take b = rows.take a ++ (rows.drop a).take (b - a) := by rw [← List.take_add, show a + (b - a) = b by omega]
  rw [e, List.flatten_append, List.length_append]; omega

theorem zip_map_fst_snd {A B : Type} (l : List (A × B)) : (l.map (·.1)).zip (l.map (·.2)) = l := by
  induction l with
  | nil => rfl
  | cons a l ih => rw [List.map_cons, List.map_cons, List.zip_cons_cons, ih]

theorem flatten_slice {A : Type} (rows : List (List A)) {k : Nat} {row : List A} (h : rows[k]? = some row) :
    (rows.flatten.drop (rows.take k).flatten.length).take row.length = row ∧ (rows.take (k + 1)).flatten.length = (rows.take k).flatten.length + row.length := by
  have e : rows = rows.take k ++ row :: rows.drop (k + 1) := by
    rw [← (List.getElem?_eq_some_iff.1 h).2]; simp
  have ek : rows.take (k + 1) = rows.take k ++ [row] := by
    rw [List.take_add_one, h]; rfl
  constructor
  · conv => lhs; arg 2; arg 2; rw [e]
    rw [List.flatten_append, List.drop_left, List.flatten_cons, List.take_left]
  · rw [ek, List.flatten_append, List.length_append]; simp

theorem ofRows_row (ns : Nat) (rows : List (List (Nat × T))) {k : Nat} {row : List (Nat × T)} (h : rows[k]? = some row) : (ofRows ns rows).row k = row := by
  have hk := (List.getElem?_eq_some_iff.1 h).1
  obtain ⟨h1, h2⟩ := flatten_slice rows h
  unfold Csx.row
  rw [ofRows_ptr' ns rows (by omega), ofRows_ptr' ns rows (by omega), h2, Nat.add_sub_cancel_left]
  show List.take _ (List.drop _ (List.zip (List.map _ _) (List.map _ _))) = _
  rw [zip_map_fst_snd, h1]

theorem ofRows_rows (ns : Nat) (rows : List (List (Nat × T))) : (ofRows ns rows).rows = rows := by
  unfold Csx.rows
  apply List.ext_getElem?
  intro k
  rw [List.getElem?_map, show (ofRows ns rows).np = rows.length from rfl]
  by_cases hk : k < rows.length
  · rw [List.getElem?_range hk, List.getElem?_eq_getElem hk, Option.map_some, ofRows_row ns rows (List.getElem?_eq_getElem hk)]
  · rw [List.getElem?_eq_none (by simpa using hk), List.getElem?_eq_none (by omega)]; rfl

theorem ofRows_wf (ns : Nat) (rows : List (List (Nat × T))) (h : ∀ row ∈ rows, ∀ e ∈ row, e.1 < ns) : WellFormed (ofRows ns rows) where
  plen := by simp [ofRows]
  first := by rw [ofRows_ptr' ns rows (Nat.zero_le _)]; rfl
  mono := by
    show List.Pairwise _ (List.map _ _)
    rw [List.pairwise_map]
    exact (List.pairwise_lt_range (n := rows.length + 1)).imp fun hab => take_flatten_mono rows (by omega)
  last := by
    show (ofRows ns rows).ptrs.getD rows.length 0 = _
    rw [ofRows_ptr' ns rows (Nat.le_refl _), List.take_length]
    exact (List.length_map _).symm
  vlen := (List.length_map _).trans (List.length_map _).symm
  range := by
    intro c hc
    obtain ⟨e, he, rfl⟩ := List.mem_map.1 hc
    obtain ⟨row, hr, he⟩ := List.mem_flatten.1 he
    exact h row hr e he

theorem wf_mono {A : Csx T} (h : WellFormed A) {a b : Nat} (hab : a ≤ b) (hb : b ≤ A.np) : A.ptrs.getD a 0 ≤ A.ptrs.getD b 0 := by
  have hl := h.plen
  rcases Nat.lt_or_eq_of_le hab with h' | h'
  · have hal : a < A.ptrs.length := by omega
    have hbl : b < A.ptrs.length := by omega
    have := List.pairwise_iff_getElem.1 h.mono a b hal hbl h'
    rw [List.getD_eq_getElem?_getD, List.getD_eq_getElem?_getD, List.getElem?_eq_getElem hal, List.getElem?_eq_getElem hbl]; exact this
  · rw [h']; exact Nat.le_refl _

theorem wf_row_length {A : Csx T} (h : WellFormed A) {p : Nat} (hp : p < A.np) : (A.row p).length = A.ptrs.getD (p + 1) 0 - A.ptrs.getD p 0 := by
  unfold Csx.row
  have h1 := wf_mono h (show p ≤ p + 1 by omega) (by omega)
  have h2 := wf_mono h (show p + 1 ≤ A.np by omega) (Nat.le_refl _)
  rw [h.last] at h2
  rw [List.length_take, List.length_drop, List.length_zip, h.vlen]; omega

theorem wf_prefix {A : Csx T} (h : WellFormed A) : ∀ k, k ≤ A.np → (A.rows.take k).flatten = (A.idxs.zip A.vals).take (A.ptrs.getD k 0) := by
  intro k
  induction k with
  | zero => intro _; rw [h.first]; rfl
  | succ k ih =>
      intro hk
      have e : A.rows[k]? = some (A.row k) := by
        unfold Csx.rows
        rw [List.getElem?_map, List.getElem?_range (by omega)]; rfl
      have h1 := wf_mono h (show k ≤ k + 1 by omega) hk
      rw [List.take_add_one, e, List.flatten_append, ih (by omega)]
      show _ ++ List.flatten [A.row k] = _
      rw [List.flatten_cons, List.flatten_nil, List.append_nil]
      unfold Csx.row
      rw [← List.take_add, show A.ptrs.getD k 0 + (A.ptrs.getD (k + 1) 0 - A.ptrs.getD k 0) = A.ptrs.getD (k + 1) 0 by omega]

theorem rows_length (A : Csx T) : A.rows.length = A.np := by unfold Csx.rows; simp

theorem wf_eq {A : Csx T} (h : WellFormed A) : A = ofRows A.ns A.rows := by
  have hfl : A.rows.flatten = A.idxs.zip A.vals := by
    have := wf_prefix h A.np (Nat.le_refl _)
    rw [h.last, List.take_of_length_le (by rw [rows_length]; exact Nat.le_refl _), List.take_of_length_le (by rw [List.length_zip, h.vlen]; omega)] at this
    exact this
  have hp : A.ptrs = (List.range (A.rows.length + 1)).map fun k => (A.rows.take k).flatten.length := by
    apply List.ext_getElem?
    intro k
    rw [List.getElem?_map]
    by_cases hk : k < A.np + 1
    · rw [List.getElem?_range (by rw [rows_length]; exact hk), getD_some (by rw [h.plen]; exact hk), Option.map_some, wf_prefix h k (by omega), List.length_take, List.length_zip, h.vlen]
      have := wf_mono h (show k ≤ A.np by omega) (Nat.le_refl _)
      rw [h.last] at this
      congr 1; omega
    · rw [List.getElem?_eq_none (by rw [h.plen]; omega), List.getElem?_eq_none (by rw [List.length_range, rows_length]; omega)]; rfl
  have hi : A.idxs = A.rows.flatten.map (·.1) := by
    rw [hfl]
    show _ = List.map Prod.fst _
    rw [List.map_fst_zip]
    exact Nat.le_of_eq h.vlen.symm
  have hv : A.vals = A.rows.flatten.map (·.2) := by
    rw [hfl]
    show _ = List.map Prod.snd _
    rw [List.map_snd_zip]
    exact Nat.le_of_eq h.vlen
  have hn := rows_length A
  generalize A.rows = R at *
  obtain ⟨np, ns, ptrs, idxs, vals⟩ := A
  unfold ofRows
  simp only [Csx.mk.injEq, true_and]
  exact ⟨hn.symm, hp, hi, hv⟩

theorem wf_cols {A : Csx T} (h : WellFormed A) : ∀ row ∈ A.rows, ∀ e ∈ row, e.1 < A.ns := by
  intro row hr e he
  have hi : A.idxs = A.rows.flatten.map (·.1) := by
    have := congrArg Csx.idxs (wf_eq h); exact this
  refine h.range _ ?_
  rw [hi]
  exact List.mem_map.2 ⟨e, List.mem_flatten.2 ⟨row, hr, he⟩, rfl⟩

theorem entries_ofRows (ns : Nat) (rows : List (List (Nat × T))) :
    (ofRows ns rows).entries = rows.zipIdx.flatMap fun x => x.1.map fun e => (x.2, e.1, e.2) := by
  unfold Csx.entries
  have : rows.zipIdx = (List.range rows.length).map fun p => ((ofRows ns rows).row p, p) := by
    apply List.ext_getElem?
    intro k
    rw [List.getElem?_zipIdx, List.getElem?_map]
    by_cases hk : k < rows.length
    · rw [List.getElem?_range hk, List.getElem?_eq_getElem hk]
      simp only [Option.map_some, Nat.zero_add]
      rw [ofRows_row ns rows (List.getElem?_eq_getElem hk)]
    · rw [List.getElem?_eq_none (by omega), List.getElem?_eq_none (by simpa using hk)]; rfl
  rw [this, List.flatMap_map]
  rfl

/-! ### Loops -/

/-- A loop that reads an array. -/
theorem forLoop_read {σ A : Type} (f : Nat → A → σ → Option σ) : ∀ (row a b : List A) (s : σ),
    forLoop a.length (a.length + row.length) s (fun i s => (a ++ row ++ b)[i]?.bind fun x => f i x s) =
      (row.zipIdx a.length).foldlM (fun s x => f x.2 x.1 s) s := by
  intro row
  induction row with
  | nil => intro a b s; exact forLoop_ge _ _ (Nat.le_refl _)
  | cons x row ih =>
      intro a b s
      rw [forLoop_lt _ _ (by rw [List.length_cons]; omega)]
      have e : (a ++ x :: row ++ b)[a.length]? = some x := by
        rw [List.append_assoc, List.getElem?_append_right (Nat.le_refl _), Nat.sub_self]; rfl
      rw [e, Option.bind_some, List.zipIdx_cons, List.foldlM_cons]
      show (f a.length x s).bind _ = (f a.length x s).bind _
      congr 1
      funext s'
      have := ih (a ++ [x]) b s'
      rw [List.length_append, List.length_singleton] at this
      rw [show a.length + (x :: row).length = a.length + 1 + row.length by rw [List.length_cons]; omega]
      rw [← this]
      congr 1
      funext i s
      rw [List.append_assoc a [x] row, List.singleton_append]

theorem forLoop_list {σ A : Type} (l : List A) (f : A → σ → Option σ) (s : σ) :
    forLoop 0 l.length s (fun i s => l[i]?.bind fun x => f x s) = l.foldlM (fun s x => f x s) s := by
  have := forLoop_read (fun _ x s => f x s) l [] [] s
  rw [List.nil_append, List.append_nil, List.length_nil, Nat.zero_add] at this
  rw [this]
  have gen : ∀ (l : List A) (k : Nat) (s : σ), (l.zipIdx k).foldlM (fun s x => f x.1 s) s = l.foldlM (fun s x => f x s) s := by
    intro l
    induction l with
    | nil => intro k s; rfl
    | cons a l ih =>
        intro k s
        rw [List.zipIdx_cons, List.foldlM_cons, List.foldlM_cons]
        show (f a s).bind _ = (f a s).bind _
        congr 1; funext s'
        exact ih (k + 1) s'
  exact gen l 0 s

/-- All entries (primary, position, secondary, value) of the slices, the first slice has number `r` and position `i`. -/
def enumFrom (r i : Nat) : List (List (Nat × T)) → List (Nat × Nat × Nat × T)
  | [] => []
  | row :: rows => ((row.zipIdx i).map fun x => (r, x.2, x.1.1, x.1.2)) ++ enumFrom (r + 1) (i + row.length) rows

theorem foldlM_map' {σ A B : Type} (g : A → B) (f : σ → B → Option σ) : ∀ (l : List A) (s : σ), (l.map g).foldlM f s = l.foldlM (fun s a => f s (g a)) s := by
  intro l
  induction l with
  | nil => intro s; rfl
  | cons a l ih =>
      intro s
      rw [List.map_cons, List.foldlM_cons, List.foldlM_cons]
      congr 1; funext s'; exact ih s'

theorem forEntries_eq {σ : Type} (ns : Nat) (rows : List (List (Nat × T))) (f : Nat → Nat → Nat → σ → Option σ) (s : σ) :
    forEntries (ofRows ns rows) s f = (enumFrom 0 0 rows).foldlM (fun s x => f x.1 x.2.1 x.2.2.1 s) s := by
  have key : ∀ (suf pre : List (List (Nat × T))) (s : σ), rows = pre ++ suf →
      forLoop pre.length rows.length s (fun r s => do
        let start ← (ofRows ns rows).ptrs[r]?
        let stop ← (ofRows ns rows).ptrs[r + 1]?
        forLoop start stop s fun i s => do
          let c ← (ofRows ns rows).idxs[i]?
          f r i c s) = (enumFrom pre.length pre.flatten.length suf).foldlM (fun s x => f x.1 x.2.1 x.2.2.1 s) s := by
    intro suf
    induction suf with
    | nil =>
        intro pre s h
        rw [forLoop_ge _ _ (by rw [h]; simp)]; rfl
    | cons row suf ih =>
        intro pre s h
        have hl : rows.length = pre.length + (suf.length + 1) := by rw [h]; simp
        rw [forLoop_lt _ _ (by omega)]
        simp only [Option.bind_eq_bind]
        rw [ofRows_ptr ns rows (by omega), ofRows_ptr ns rows (by omega)]
        have t1 : (rows.take pre.length) = pre := by rw [h, List.take_left]
        have t2 : (rows.take (pre.length + 1)) = pre ++ [row] := by
          rw [h, List.take_append, List.take_of_length_le (by omega), Nat.add_sub_cancel_left]; rfl
        rw [t1, t2]
        simp only [Option.bind_some]
        have e : (ofRows ns rows).idxs = pre.flatten.map (·.1) ++ row.map (·.1) ++ suf.flatten.map (·.1) := by
          show rows.flatten.map _ = _
          rw [h]; simp
        have hlen : (pre ++ [row]).flatten.length = (pre.flatten.map (·.1)).length + (row.map (·.1)).length := by
          rw [List.flatten_append, List.length_append, List.length_map, List.length_map]; simp
        have hlen0 : pre.flatten.length = (pre.flatten.map (·.1)).length := (List.length_map _).symm
        have inner := forLoop_read (fun i c s => f pre.length i c s) (row.map (·.1)) (pre.flatten.map (·.1)) (suf.flatten.map (·.1)) s
        rw [← hlen, ← hlen0, ← e] at inner
        rw [inner]
        unfold enumFrom
        rw [List.foldlM_append, foldlM_map']
        have zm : ((row.map (·.1)).zipIdx pre.flatten.length) = (row.zipIdx pre.flatten.length).map fun x => (x.1.1, x.2) := by
          rw [List.zipIdx_map]; rfl
        rw [zm, foldlM_map']
        show Option.bind _ _ = Option.bind _ _
        congr 1
        funext s'
        have := ih (pre ++ [row]) s' (by rw [h]; simp)
        rw [List.length_append, List.length_singleton] at this
        simp only [Option.bind_eq_bind] at this
        rw [this]
        congr 2
        simp
  have := key rows [] s rfl
  exact this

end Verif.Csx
