import Verif.Proof.CoarseSpace
import Mathlib.Order.Interval.Finset.Nat
/-! The loops of the product G Gᵀ on lists. -/
namespace Verif.Feti

open Verif.Csx Finset OMap

variable {R : Type} [CommRing R]

/-! ### The upper triangle -/

/-- The entries of a row: the vertex and the number of the kernel vector of the column. -/
def upsOf (m : OMap Vertex) (edges : OMap (List Nat)) (v : Nat × Vertex) (kr : Nat) : List (Vertex × Nat) :=
  ((edges.find v.1).getD []).flatMap fun e =>
    ((List.range ((m.find e).getD {}).size).filter fun kc => decide (v.2.goffset + kr ≤ ((m.find e).getD {}).goffset + kc)).map fun kc => ((m.find e).getD {}, kc)

theorem upperRow_spec {σ : Type} (m : OMap Vertex) (edges : OMap (List Nat)) (v : Nat × Vertex) (kr : Nat) (f : Vertex → Nat → σ → Option σ) (s : σ) :
    upperRow m edges v kr f s = (upsOf m edges v kr).foldlM (fun s x => f x.1 x.2 s) s := by
  unfold upperRow upsOf
  rw [foldlM_flatMap']
  apply foldlM_congr
  intro e _ s
  dsimp only
  rw [foldlM_map', foldlM_filter', forLoop_range s fun kc s => if v.2.goffset + kr ≤ ((m.find e).getD {}).goffset + kc then f ((m.find e).getD {}) kc s else some s]
  apply foldlM_congr
  intro kc _ s
  by_cases h : v.2.goffset + kr ≤ ((m.find e).getD {}).goffset + kc
  · rw [if_pos h, if_pos (decide_eq_true h)]
  · rw [if_neg h, if_neg (by simpa using h)]

theorem countUpper_spec (D : Decomposition) (m : OMap Vertex) (edges : OMap (List Nat)) :
    countUpper D m edges = some ((rowsIdx (ownVertices D m)).flatMap fun x => upsOf m edges x.1 x.2).length := by
  unfold countUpper
  rw [foldlM_rows _ fun v kr s => upperRow m edges v kr (fun _ _ s => some (s + 1)) s]
  refine foldlM_prefix (fun s (x : (Nat × Vertex) × Nat) => upperRow m edges x.1 x.2 (fun _ _ s => some (s + 1)) s) (fun pre => (pre.flatMap fun x => upsOf m edges x.1 x.2).length) _ ?_
  intro pre x post _
  rw [upperRow_spec, List.flatMap_append, List.flatMap_singleton, List.length_append]
  have := foldlM_prefix (fun (s : Nat) (_ : Vertex × Nat) => some (s + 1)) (fun done => (pre.flatMap fun x => upsOf m edges x.1 x.2).length + done.length) (upsOf m edges x.1 x.2) (by
    intro done a _ _
    rw [List.length_append, List.length_singleton, Nat.add_assoc])
  exact this

/-- The columns of a row. -/
def upperCols (m : OMap Vertex) (edges : OMap (List Nat)) (x : (Nat × Vertex) × Nat) : List Nat := (upsOf m edges x.1 x.2).map fun y => y.1.goffset + y.2

theorem setGGt_spec (idx total roffset offset nnz : Nat) (D : Decomposition) (m : OMap Vertex) (edges : OMap (List Nat))
    (hrow : ∀ pre x post, rowsIdx (ownVertices D m) = pre ++ x :: post → x.1.2.goffset + x.2 = roffset + pre.length)
    (htotal : roffset + (rowsIdx (ownVertices D m)).length ≤ total) (hnnz : offset + ((rowsIdx (ownVertices D m)).map (upperCols m edges)).flatten.length ≤ nnz) :
    setGGt idx total roffset offset nnz D m edges =
      some (splice (splice (List.replicate (total + 1) 0) 0 [idx]) roffset ((ptrsOf ((rowsIdx (ownVertices D m)).map (upperCols m edges))).map fun k => offset + k + idx),
        splice (List.replicate nnz 0) offset (((rowsIdx (ownVertices D m)).map (upperCols m edges)).flatten.map fun c => c + idx)) := by
  unfold setGGt
  have hl0 : (splice (List.replicate (total + 1) 0) 0 [idx]).length = total + 1 := by
    rw [splice_length (by rw [List.length_replicate, List.length_singleton]; omega), List.length_replicate]
  simp only [Option.bind_eq_bind]
  rw [wr_splice (by rw [List.length_replicate]; omega), Option.bind_some, wr_splice (by rw [hl0]; omega), Option.bind_some, foldlM_rows _ fun v kr st => patternUpperRow idx m edges v kr st]
  have := foldlM_prefix (fun st (x : (Nat × Vertex) × Nat) => patternUpperRow idx m edges x.1 x.2 st)
    (fun pre => (splice (splice (List.replicate (total + 1) 0) 0 [idx]) roffset ((ptrsOf (pre.map (upperCols m edges))).map fun k => offset + k + idx),
      splice (List.replicate nnz 0) offset ((pre.map (upperCols m edges)).flatten.map fun c => c + idx))) (rowsIdx (ownVertices D m)) (by
    intro pre x post e
    have hlen : pre.length + 1 ≤ (rowsIdx (ownVertices D m)).length := by rw [e, List.length_append, List.length_cons]; omega
    have hfl : (pre.map (upperCols m edges)).flatten.length + (upsOf m edges x.1 x.2).length ≤ ((rowsIdx (ownVertices D m)).map (upperCols m edges)).flatten.length := by
      rw [e, List.map_append, List.map_cons, List.flatten_append, List.flatten_cons, List.length_append, List.length_append]
      unfold upperCols
      rw [List.length_map]; omega
    have hpl : ((ptrsOf (pre.map (upperCols m edges))).map fun k => offset + k + idx).length = pre.length + 1 := by rw [List.length_map, ptrsOf_length, List.length_map]
    unfold patternUpperRow
    dsimp only
    rw [hrow pre x post e, splice_get (by rw [hpl, hl0]; omega), if_pos (by rw [hpl]; omega), Nat.add_sub_cancel_left, List.getElem?_map, ptrsOf_get _ (by rw [List.length_map]),
      List.take_of_length_le (by rw [List.length_map])]
    simp only [Option.bind_eq_bind, Option.map_some, Option.bind_some]
    have hw := splice_push (arr := splice (List.replicate (total + 1) 0) 0 [idx]) (xs := (ptrsOf (pre.map (upperCols m edges))).map fun k => offset + k + idx) (c := roffset)
      (x := offset + (pre.map (upperCols m edges)).flatten.length + idx) (by rw [hpl, hl0]; omega)
    rw [hpl, ← Nat.add_assoc] at hw
    rw [hw, Option.bind_some, Nat.add_sub_cancel, upperRow_spec]
    have := foldlM_prefix (fun st (y : Vertex × Nat) => patternEntry idx (roffset + pre.length) (y.1.goffset + y.2) st)
      (fun done => (splice (splice (List.replicate (total + 1) 0) 0 [idx]) roffset (((ptrsOf (pre.map (upperCols m edges))).map fun k => offset + k + idx) ++
          [offset + (pre.map (upperCols m edges)).flatten.length + idx + done.length]),
        splice (List.replicate nnz 0) offset (((pre.map (upperCols m edges)).flatten.map fun c => c + idx) ++ done.map fun y => y.1.goffset + y.2 + idx),
        offset + (pre.map (upperCols m edges)).flatten.length + done.length)) (upsOf m edges x.1 x.2) (by
      intro done y rest e'
      have hd : done.length + 1 ≤ (upsOf m edges x.1 x.2).length := by rw [e', List.length_append, List.length_cons]; omega
      unfold patternEntry
      dsimp only
      have hc := splice_push (arr := List.replicate nnz 0) (xs := ((pre.map (upperCols m edges)).flatten.map fun c => c + idx) ++ done.map fun y => y.1.goffset + y.2 + idx) (c := offset)
        (x := y.1.goffset + y.2 + idx) (by rw [List.length_append, List.length_map, List.length_map, List.length_replicate]; omega)
      rw [List.length_append, List.length_map, List.length_map, ← Nat.add_assoc] at hc
      have hr := splice_replace (arr := splice (List.replicate (total + 1) 0) 0 [idx]) (xs := (ptrsOf (pre.map (upperCols m edges))).map fun k => offset + k + idx) (c := roffset)
        (x := offset + (pre.map (upperCols m edges)).flatten.length + idx + done.length) (y := offset + (pre.map (upperCols m edges)).flatten.length + idx + done.length + 1) (by rw [hpl, hl0]; omega)
      rw [hpl, ← Nat.add_assoc] at hr
      rw [hc]
      simp only [Option.bind_eq_bind, Option.bind_some]
      rw [splice_get (by rw [List.length_append, hpl, List.length_singleton, hl0]; omega), if_pos (by rw [List.length_append, hpl, List.length_singleton]; omega),
        List.getElem?_append_right (by rw [hpl]; omega), hpl, show roffset + pre.length + 1 - roffset - (pre.length + 1) = 0 by omega]
      simp only [List.getElem?_cons_zero, Option.bind_some]
      rw [hr, Option.bind_some, List.length_append, List.length_singleton, List.map_append, List.append_assoc]
      rfl)
    simp only [List.length_nil, Nat.add_zero, List.map_nil, List.append_nil] at this
    rw [this, Option.bind_some, List.map_append, List.map_singleton, ptrsOf_push, List.map_append, List.map_singleton, List.flatten_append, List.flatten_singleton, List.map_append]
    have hu : (upperCols m edges x).length = (upsOf m edges x.1 x.2).length := List.length_map _
    have hu' : (upperCols m edges x).map (fun c => c + idx) = (upsOf m edges x.1 x.2).map fun y => y.1.goffset + y.2 + idx := List.map_map
    rw [hu, hu', show offset + (pre.map (upperCols m edges)).flatten.length + idx + (upsOf m edges x.1 x.2).length =
      offset + ((pre.map (upperCols m edges)).flatten.length + (upsOf m edges x.1 x.2).length) + idx by omega])
  rw [List.map_nil, ptrsOf_nil, List.flatten_nil, List.map_nil, splice_nil, List.map_singleton, Nat.add_zero] at this
  exact this

/-! ### The product of two rows -/

theorem advance_spec (cols : List Nat) {ke k' : Nat} (hke : ke ≤ cols.length) : ∀ (fuel k : Nat), fuel = ke - k → k ≤ ke → (k < ke → k' < cols.length) →
    ∃ r, advance cols ke k' fuel k = some r ∧ k ≤ r ∧ r ≤ ke ∧ (∀ i, k ≤ i → i < r → cols.getD i 0 < cols.getD k' 0) ∧ (r < ke → cols.getD k' 0 ≤ cols.getD r 0) := by
  intro fuel
  induction fuel with
  | zero =>
      intro k hf hk _
      refine ⟨k, ?_, Nat.le_refl _, hk, fun i h1 h2 => by omega, fun h => by omega⟩
      unfold advance
      rw [if_neg (by omega)]
  | succ fuel ih =>
      intro k hf hk hk'
      have hlt : k < ke := by omega
      have hk'' := hk' hlt
      unfold advance
      rw [if_pos hlt, getD_some (by omega : k < cols.length), getD_some hk'']
      simp only [Option.bind_eq_bind, Option.bind_some]
      by_cases h : cols.getD k 0 < cols.getD k' 0
      · rw [if_pos h]
        obtain ⟨r, h1, h2, h3, h4, h5⟩ := ih (k + 1) (by omega) (by omega) fun _ => hk''
        refine ⟨r, h1, by omega, h3, ?_, h5⟩
        intro i hi hir
        by_cases e : i = k
        · rw [e]; exact h
        · exact h4 i (by omega) hir
      · rw [if_neg h]
        exact ⟨k, rfl, Nat.le_refl _, hk, fun i h1 h2 => by omega, fun _ => by omega⟩

/-- The sum of the products of the entries with the same column. -/
def common (cols : List Nat) (vals : List R) (ke1 ke2 k1 k2 : Nat) : R :=
  ∑ i ∈ Ico k1 ke1, ∑ j ∈ Ico k2 ke2, if cols.getD i 0 = cols.getD j 0 then vals.getD i 0 * vals.getD j 0 else 0

theorem common_empty (cols : List Nat) (vals : List R) {ke1 ke2 k1 k2 : Nat} (h : ¬ (k1 < ke1 ∧ k2 < ke2)) : common cols vals ke1 ke2 k1 k2 = 0 := by
  unfold common
  by_cases h1 : k1 < ke1
  · apply sum_eq_zero
    intro i _
    rw [Ico_eq_empty (by omega), sum_empty]
  · rw [Ico_eq_empty (by omega), sum_empty]

theorem common_left (cols : List Nat) (vals : List R) {ke1 ke2 k1 k2 r1 : Nat} (h1 : k1 ≤ r1) (h2 : r1 ≤ ke1) (h : ∀ i j, k1 ≤ i → i < r1 → k2 ≤ j → j < ke2 → cols.getD i 0 ≠ cols.getD j 0) :
    common cols vals ke1 ke2 k1 k2 = common cols vals ke1 ke2 r1 k2 := by
  unfold common
  rw [← sum_Ico_consecutive _ h1 h2, sum_eq_zero, zero_add]
  intro i hi
  apply sum_eq_zero
  intro j hj
  rw [mem_Ico] at hi hj
  rw [if_neg (h i j hi.1 hi.2 hj.1 hj.2)]

theorem common_right (cols : List Nat) (vals : List R) {ke1 ke2 k1 k2 r2 : Nat} (h1 : k2 ≤ r2) (h2 : r2 ≤ ke2) (h : ∀ i j, k1 ≤ i → i < ke1 → k2 ≤ j → j < r2 → cols.getD i 0 ≠ cols.getD j 0) :
    common cols vals ke1 ke2 k1 k2 = common cols vals ke1 ke2 k1 r2 := by
  unfold common
  apply sum_congr rfl
  intro i hi
  rw [← sum_Ico_consecutive _ h1 h2, sum_eq_zero, zero_add]
  intro j hj
  rw [mem_Ico] at hi hj
  rw [if_neg (h i j hi.1 hi.2 hj.1 hj.2)]

theorem mergeRows_done (cols : List Nat) (vals : List R) {ke1 ke2 k1 k2 : Nat} (h : ¬ (k1 < ke1 ∧ k2 < ke2)) (fuel : Nat) (s : R) : mergeRows cols vals ke1 ke2 fuel k1 k2 s = some s := by
  cases fuel with
  | zero => unfold mergeRows; rw [if_neg h]
  | succ n => unfold mergeRows; rw [if_neg h]

theorem mergeRows_spec (cols : List Nat) (vals : List R) {ke1 ke2 : Nat} (h1 : ke1 ≤ cols.length) (h2 : ke2 ≤ cols.length) (hv : vals.length = cols.length) :
    ∀ (fuel k1 k2 : Nat) (s : R), ke1 - k1 + (ke2 - k2) ≤ fuel → (∀ i j, k1 ≤ i → i < j → j < ke1 → cols.getD i 0 < cols.getD j 0) → (∀ i j, k2 ≤ i → i < j → j < ke2 → cols.getD i 0 < cols.getD j 0) →
      ((k2 < ke2 → ke1 < cols.length) ∨ (k1 = k2 ∧ ke1 = ke2)) → mergeRows cols vals ke1 ke2 fuel k1 k2 s = some (s + common cols vals ke1 ke2 k1 k2) := by
  intro fuel
  induction fuel with
  | zero =>
      intro k1 k2 s hf _ _ _
      rw [mergeRows_done _ _ (by omega), common_empty _ _ (by omega), add_zero]
  | succ fuel ih =>
      intro k1 k2 s hf s1 s2 hr
      by_cases hlt : k1 < ke1 ∧ k2 < ke2
      · obtain ⟨r1, e1, a1, b1, c1, d1⟩ := advance_spec cols (ke := ke1) (k' := k2) h1 (ke1 - k1) k1 rfl (by omega) (fun _ => by omega)
        have hr1 : r1 < cols.length := by
          rcases hr with hr | ⟨hr, hr'⟩
          · have := hr hlt.2; omega
          · have : r1 = k1 := by
              rcases Nat.lt_or_ge k1 r1 with h | h
              · have := c1 k1 (Nat.le_refl _) h
                rw [hr] at this
                exact absurd this (Nat.lt_irrefl _)
              · omega
            omega
        obtain ⟨r2, e2, a2, b2, c2, d2⟩ := advance_spec cols (ke := ke2) (k' := r1) h2 (ke2 - k2) k2 rfl (by omega) (fun _ => hr1)
        have mono1 : ∀ i j, k1 ≤ i → i ≤ j → j < ke1 → cols.getD i 0 ≤ cols.getD j 0 := by
          intro i j hi hij hj
          rcases Nat.lt_or_ge i j with h | h
          · exact Nat.le_of_lt (s1 i j hi h hj)
          · rw [show i = j by omega]
        have mono2 : ∀ i j, k2 ≤ i → i ≤ j → j < ke2 → cols.getD i 0 ≤ cols.getD j 0 := by
          intro i j hi hij hj
          rcases Nat.lt_or_ge i j with h | h
          · exact Nat.le_of_lt (s2 i j hi h hj)
          · rw [show i = j by omega]
        have hc1 : common cols vals ke1 ke2 k1 k2 = common cols vals ke1 ke2 r1 k2 := common_left _ _ a1 b1 (by
          intro i j hi hi' hj hj'
          have := c1 i hi hi'
          have := mono2 k2 j (Nat.le_refl _) hj hj'
          omega)
        have hc2 : common cols vals ke1 ke2 r1 k2 = common cols vals ke1 ke2 r1 r2 := common_right _ _ a2 b2 (by
          intro i j hi hi' hj hj'
          have := c2 j hj hj'
          have := mono1 r1 i a1 hi hi'
          omega)
        unfold mergeRows
        rw [if_pos hlt, e1]
        simp only [Option.bind_eq_bind, Option.bind_some]
        rw [e2, Option.bind_some, hc1, hc2]
        by_cases hlt' : r1 < ke1 ∧ r2 < ke2
        · rw [if_pos hlt', getD_some (by omega : r1 < cols.length), getD_some (by omega : r2 < cols.length)]
          simp only [Option.bind_some]
          have hle := d2 hlt'.2
          by_cases heq : cols.getD r1 0 = cols.getD r2 0
          · rw [if_pos heq, getD_get (by omega : r1 < vals.length), getD_get (by omega : r2 < vals.length)]
            simp only [Option.bind_some]
            rw [ih (r1 + 1) (r2 + 1) _ (by omega) (fun i j hi => s1 i j (by omega)) (fun i j hi => s2 i j (by omega))]
            · rw [add_assoc]
              congr 2
              have hs : common cols vals ke1 ke2 r1 r2 = vals.getD r1 0 * vals.getD r2 0 + common cols vals ke1 ke2 (r1 + 1) r2 := by
                unfold common
                rw [sum_eq_sum_Ico_succ_bot hlt'.1]
                congr 1
                rw [sum_eq_single r2]
                · rw [if_pos heq]
                · intro j hj hne
                  rw [mem_Ico] at hj
                  have := s2 r2 j a2 (by omega) hj.2
                  rw [if_neg (by omega)]
                · intro h
                  exact absurd (mem_Ico.2 ⟨Nat.le_refl _, hlt'.2⟩) h
              rw [hs]
              congr 1
              symm
              apply common_right _ _ (by omega) (by omega)
              intro i j hi hi' hj hj'
              have hj : j = r2 := by omega
              have := s1 r1 i a1 (by omega) hi'
              rw [hj]; omega
            · rcases hr with hr | ⟨hr, hr'⟩
              · exact Or.inl fun h => hr (by omega)
              · right
                refine ⟨?_, hr'⟩
                have e : r1 = k1 := by
                  rcases Nat.lt_or_ge k1 r1 with h | h
                  · have := c1 k1 (Nat.le_refl _) h
                    rw [hr] at this
                    exact absurd this (Nat.lt_irrefl _)
                  · omega
                have e' : r2 = k2 := by
                  rcases Nat.lt_or_ge k2 r2 with h | h
                  · have := c2 k2 (Nat.le_refl _) h
                    rw [e, hr] at this
                    exact absurd this (Nat.lt_irrefl _)
                  · omega
                omega
          · rw [if_neg heq]
            have hprog : k1 + k2 < r1 + r2 := by
              rcases Nat.lt_or_ge (k1 + k2) (r1 + r2) with h | h
              · exact h
              · have ea : r1 = k1 := by omega
                have eb : r2 = k2 := by omega
                have := d1 hlt'.1
                rw [← eb] at this
                exact absurd (Nat.le_antisymm hle this) heq
            refine ih r1 r2 s (by omega) (fun i j hi => s1 i j (by omega)) (fun i j hi => s2 i j (by omega)) ?_
            rcases hr with hr | ⟨hr, hr'⟩
            · exact Or.inl fun h => hr (by omega)
            · exfalso
              have e : r1 = k1 := by
                rcases Nat.lt_or_ge k1 r1 with h | h
                · have := c1 k1 (Nat.le_refl _) h
                  rw [hr] at this
                  exact absurd this (Nat.lt_irrefl _)
                · omega
              have e' : r2 = k2 := by
                rcases Nat.lt_or_ge k2 r2 with h | h
                · have := c2 k2 (Nat.le_refl _) h
                  rw [e, hr] at this
                  exact absurd this (Nat.lt_irrefl _)
                · omega
              omega
        · rw [if_neg hlt', mergeRows_done _ _ hlt', common_empty _ _ hlt', add_zero]
      · rw [mergeRows_done _ _ hlt, common_empty _ _ hlt, add_zero]

/-- `_updateGGt`: the entries have the values `val`. -/
theorem updateGGt_spec (idx offset : Nat) (D : Decomposition) (m : OMap Vertex) (edges : OMap (List Nat)) (rows cols : List Nat) (gvals : List R) (grows : List Nat) (vals : List R)
    (val : (Nat × Vertex) × Nat → Vertex × Nat → R)
    (hrow : ∀ pre x post, rowsIdx (ownVertices D m) = pre ++ x :: post → grows[x.1.2.goffset + x.2]? = some (offset + (pre.flatMap fun x => upsOf m edges x.1 x.2).length + idx))
    (hval : ∀ x ∈ rowsIdx (ownVertices D m), ∀ y ∈ upsOf m edges x.1 x.2, ∃ k1 ke1 k2 ke2, rows[x.1.2.loffset + x.2]? = some k1 ∧ rows[x.1.2.loffset + x.2 + 1]? = some ke1 ∧
      rows[y.1.loffset + y.2]? = some k2 ∧ rows[y.1.loffset + y.2 + 1]? = some ke2 ∧ mergeRows cols gvals ke1 ke2 (ke1 - k1 + (ke2 - k2)) k1 k2 0 = some (val x y))
    (hlen : offset + ((rowsIdx (ownVertices D m)).flatMap fun x => upsOf m edges x.1 x.2).length ≤ vals.length) :
    updateGGt idx D m edges rows cols gvals grows vals = some (splice vals offset ((rowsIdx (ownVertices D m)).flatMap fun x => (upsOf m edges x.1 x.2).map (val x))) := by
  unfold updateGGt
  simp only [Option.bind_eq_bind]
  rw [foldlM_rows _ fun v kr vals => grows[v.2.goffset + kr]?.bind fun c => (upperRow m edges v kr (fun w kc st => productEntry rows cols gvals (v.2.loffset + kr) (w.loffset + kc) st) (vals, c - idx)).bind fun st => some st.1]
  have := foldlM_prefix (fun vals (x : (Nat × Vertex) × Nat) => grows[x.1.2.goffset + x.2]?.bind fun c =>
      (upperRow m edges x.1 x.2 (fun w kc st => productEntry rows cols gvals (x.1.2.loffset + x.2) (w.loffset + kc) st) (vals, c - idx)).bind fun st => some st.1)
    (fun pre => splice vals offset (pre.flatMap fun x => (upsOf m edges x.1 x.2).map (val x))) (rowsIdx (ownVertices D m)) (by
    intro pre x post e
    have hx : x ∈ rowsIdx (ownVertices D m) := by rw [e]; exact List.mem_append_right _ (List.mem_cons_self ..)
    have hpl : ∀ l : List ((Nat × Vertex) × Nat), (l.flatMap fun x => (upsOf m edges x.1 x.2).map (val x)).length = (l.flatMap fun x => upsOf m edges x.1 x.2).length := by
      intro l
      rw [List.length_flatMap, List.length_flatMap]
      congr 1
      apply List.map_congr_left
      intro y _
      exact List.length_map _
    have hfl : offset + ((pre.flatMap fun x => upsOf m edges x.1 x.2).length + (upsOf m edges x.1 x.2).length) ≤ vals.length := by
      rw [e, List.flatMap_append, List.flatMap_cons, List.length_append, List.length_append] at hlen; omega
    rw [hrow pre x post e, Option.bind_some, Nat.add_sub_cancel, upperRow_spec]
    have hw := foldlM_write (val x) (upsOf m edges x.1 x.2) (splice vals offset (pre.flatMap fun x => (upsOf m edges x.1 x.2).map (val x))) (offset + (pre.flatMap fun x => upsOf m edges x.1 x.2).length)
      (by rw [splice_length (by rw [hpl]; omega)]; omega)
    have hcongr : (upsOf m edges x.1 x.2).foldlM (fun st y => productEntry rows cols gvals (x.1.2.loffset + x.2) (y.1.loffset + y.2) st)
        (splice vals offset (pre.flatMap fun x => (upsOf m edges x.1 x.2).map (val x)), offset + (pre.flatMap fun x => upsOf m edges x.1 x.2).length) =
        (upsOf m edges x.1 x.2).foldlM (m := Option) (fun st y => (wr st.1 st.2 (val x y)).bind fun a => some (a, st.2 + 1))
        (splice vals offset (pre.flatMap fun x => (upsOf m edges x.1 x.2).map (val x)), offset + (pre.flatMap fun x => upsOf m edges x.1 x.2).length) := by
      apply foldlM_congr
      intro y hy st
      obtain ⟨k1, ke1, k2, ke2, g1, g2, g3, g4, g5⟩ := hval x hx y hy
      unfold productEntry
      rw [g1, g2, g3, g4]
      simp only [Option.bind_eq_bind, Option.bind_some]
      rw [g5, Option.bind_some]
    rw [hcongr, hw, Option.bind_some, List.flatMap_append, List.flatMap_singleton]
    congr 1
    have := splice_append (arr := vals) (xs := pre.flatMap fun x => (upsOf m edges x.1 x.2).map (val x)) (ys := (upsOf m edges x.1 x.2).map (val x)) (c := offset) (by rw [hpl, List.length_map]; exact hfl)
    rw [hpl] at this
    exact this)
  rw [List.flatMap_nil, splice_nil] at this
  exact this

end Verif.Feti
