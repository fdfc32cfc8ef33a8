import Verif.Proof.CsxRow
import Verif.Proof.CsxConvert
/-! Writing a matrix slice by slice. -/
namespace Verif.Csx

variable {T P σ : Type}

/-- Writes of one entry at the running position. -/
def putEntry (c : Nat) (v : P) (st : List Nat × List P × Nat) : Option (List Nat × List P × Nat) :=
  (wr st.1 st.2.2 c).bind fun idxs => (wr st.2.1 st.2.2 v).bind fun vals => some (idxs, vals, st.2.2 + 1)

/-- The entries written so far. -/
def Written (n : Nat) (done : List (Nat × P)) (st : List Nat × List P × Nat) : Prop :=
  st.1.length = n ∧ st.2.1.length = n ∧ st.2.2 = done.length ∧ st.1.take done.length = done.map (·.1) ∧ st.2.1.take done.length = done.map (·.2)

theorem put_step {n : Nat} {done : List (Nat × P)} {st : List Nat × List P × Nat} (h : Written n done st) (hn : done.length < n) (e : Nat × P) :
    ∃ st', putEntry e.1 e.2 st = some st' ∧ Written n (done ++ [e]) st' := by
  obtain ⟨h1, h2, h3, h4, h5⟩ := h
  unfold putEntry
  rw [wr_eq_some (by omega), Option.bind_some, wr_eq_some (by omega), Option.bind_some]
  refine ⟨_, rfl, by rw [List.length_set]; exact h1, by rw [List.length_set]; exact h2, by rw [List.length_append, h3]; rfl, ?_, ?_⟩
  · show List.take _ (st.1.set st.2.2 e.1) = _
    rw [List.length_append, List.length_singleton, List.take_add_one, h3, List.getElem?_set, if_pos rfl, if_pos (by omega), List.take_set_of_le (Nat.le_refl _), h4]
    simp
  · show List.take _ (st.2.1.set st.2.2 e.2) = _
    rw [List.length_append, List.length_singleton, List.take_add_one, h3, List.getElem?_set, if_pos rfl, if_pos (by omega), List.take_set_of_le (Nat.le_refl _), h5]
    simp

theorem put_all {n : Nat} : ∀ (l : List (Nat × P)) (done : List (Nat × P)) (st : List Nat × List P × Nat), Written n done st → done.length + l.length ≤ n →
    ∃ st', l.foldlM (fun st e => putEntry e.1 e.2 st) st = some st' ∧ Written n (done ++ l) st' := by
  intro l
  induction l with
  | nil => intro done st h _; exact ⟨st, rfl, by rw [List.append_nil]; exact h⟩
  | cons e l ih =>
      intro done st h hn
      rw [List.length_cons] at hn
      obtain ⟨st1, e1, h1⟩ := put_step h (by omega) e
      obtain ⟨st2, e2, h2⟩ := ih (done ++ [e]) st1 h1 (by rw [List.length_append, List.length_singleton]; omega)
      refine ⟨st2, ?_, by rw [List.append_assoc] at h2; exact h2⟩
      rw [List.foldlM_cons, e1]; exact e2

theorem emit_rows (ns : Nat) (rows : List (List (Nat × P))) (ptrs idxs : List Nat) (vals : List P) (h1 : ptrs.length = rows.length + 1)
    (h2 : idxs.length = rows.flatten.length) (h3 : vals.length = rows.flatten.length) (body : Nat → List Nat × (List Nat × List P × Nat) → Option (List Nat × (List Nat × List P × Nat)))
    (hb : ∀ i (hi : i < rows.length) s, body i s = (wr s.1 i s.2.2.2).bind fun ptrs => (rows[i].foldlM (fun st e => putEntry e.1 e.2 st) s.2).map fun st => (ptrs, st)) :
    ∃ ptrs', forLoop 0 rows.length (ptrs, (idxs, vals, 0)) body = some (ptrs', (ofRows ns rows).idxs, (ofRows ns rows).vals, rows.flatten.length) ∧
      ptrs'.length = rows.length + 1 ∧ ptrs'.set rows.length rows.flatten.length = (ofRows ns rows).ptrs := by
  obtain ⟨s, e, l1, p1, w1⟩ := forLoop_inv (Nat.zero_le rows.length) (ptrs, (idxs, vals, 0)) body
    (fun k s => s.1.length = rows.length + 1 ∧ (∀ i, i < k → s.1[i]? = some (rows.take i).flatten.length) ∧ Written rows.flatten.length (rows.take k).flatten s.2)
    ⟨h1, by intro i hi; omega, h2, h3, rfl, rfl, rfl⟩ (by
      intro i _ hi s ⟨l1, p1, w1⟩
      rw [hb i hi s, wr_eq_some (by omega), Option.bind_some]
      have htake : (rows.take (i + 1)).flatten = (rows.take i).flatten ++ rows[i] := by
        rw [List.take_add_one, List.getElem?_eq_getElem hi, List.flatten_append]; simp
      have hle : (rows.take i).flatten.length + rows[i].length ≤ rows.flatten.length := by
        have h := take_flatten_mono rows (show i + 1 ≤ rows.length by omega)
        rw [htake, List.length_append, List.take_length] at h; exact h
      obtain ⟨st', e', w'⟩ := put_all rows[i] _ s.2 w1 hle
      rw [e']
      refine ⟨_, rfl, by rw [List.length_set]; exact l1, ?_, by rw [htake]; exact w'⟩
      intro j hj
      show (s.1.set i s.2.2.2)[j]? = _
      rw [getElem?_set' _ _ _ _ (by omega)]
      by_cases hij : i = j
      · rw [if_pos hij, w1.2.2.1, hij]
      · rw [if_neg hij]; exact p1 j (by omega))
  rw [List.take_length] at w1
  obtain ⟨w1, w2, w3, w4, w5⟩ := w1
  rw [List.take_of_length_le (by omega)] at w4 w5
  refine ⟨s.1, ?_, l1, ?_⟩
  · rw [e]
    congr 1
    exact Prod.ext rfl (Prod.ext w4 (Prod.ext w5 w3))
  · apply List.ext_getElem?
    intro i
    rw [getElem?_set' _ _ _ _ (by omega)]
    by_cases hi : rows.length = i
    · rw [if_pos hi, ofRows_ptr _ _ (by omega), ← hi, List.take_length]
    · rw [if_neg hi]
      by_cases hlt : i < rows.length
      · rw [p1 i hlt, ofRows_ptr _ _ (by omega)]
      · rw [List.getElem?_eq_none (by omega), List.getElem?_eq_none (by simp [ofRows]; omega)]

/-- The counting sort on arbitrary entries. -/
theorem bucketSort {E : Type} (n m : Nat) (l : List E) (key row : E → Nat) (pay : E → P) (hkey : ∀ e ∈ l, key e < n) (p1 : List Nat) (l1 : p1.length = n + 1)
    (g1 : ∀ c, c ≤ n → p1[c]? = some ((l.map key).count c)) (idxs : List Nat) (pays : List P) (h2 : idxs.length = l.length) (h3 : pays.length = l.length) :
    ∃ p2 p3, sumPtrs n p1 = some p2 ∧
      l.foldlM (fun st e => scatterStep key row pay e st) (p2, idxs, pays) =
        some (p3, (ofRows m ((List.range n).map (bucket key (fun e => (row e, pay e)) l))).idxs, (ofRows m ((List.range n).map (bucket key (fun e => (row e, pay e)) l))).vals) ∧
      shiftPtrs n p3 = some (ofRows m ((List.range n).map (bucket key (fun e => (row e, pay e)) l))).ptrs := by
  obtain ⟨p2, e2, l2, g2⟩ := sumPtrs_spec n p1 _ l1 g1
  obtain ⟨p3, e3, l3, g3⟩ := scatter_spec n key row pay l [] (p2, idxs, pays) hkey l2 (by
    intro c hc
    show p2[c]? = _
    rw [g2 c hc]
    simp) (half_init n key row _ idxs hkey h2) (half_init n key pay _ pays hkey h3)
  obtain ⟨p4, e4, l4, g4⟩ := shiftPtrs_spec n p3 _ l3 g3
  rw [List.nil_append] at e3 g4
  have hi : (ofRows m ((List.range n).map (bucket key (fun e => (row e, pay e)) l))).idxs = (List.range n).flatMap (bucket key row l) := by
    show List.map _ (List.flatten _) = _
    rw [← List.flatMap_def, List.map_flatMap]
    apply flatMap_range_congr
    intro c _
    rw [bucket_map]
  have hv : (ofRows m ((List.range n).map (bucket key (fun e => (row e, pay e)) l))).vals = (List.range n).flatMap (bucket key pay l) := by
    show List.map _ (List.flatten _) = _
    rw [← List.flatMap_def, List.map_flatMap]
    apply flatMap_range_congr
    intro c _
    rw [bucket_map]
  refine ⟨p2, p3, e2, by rw [hi, hv]; exact e3, ?_⟩
  rw [e4]
  congr 1
  apply List.ext_getElem?
  intro k
  have hlen : ((List.range n).map (bucket key (fun e => (row e, pay e)) l)).length = n := by simp
  by_cases hk : k ≤ n
  · rw [g4 k hk, ofRows_ptr _ _ (by omega)]
    congr 1
    have htake : (((List.range n).map (bucket key (fun e => (row e, pay e)) l)).take k).flatten.length = startOf (fun c => (l.map key).count c) k := by
      rw [← List.map_take, List.take_range, Nat.min_eq_left hk, ← List.flatMap_def, flatMap_range_length]
      congr 1
      funext c
      exact bucket_length _ _ _ _
    rw [htake]
    cases k with
    | zero => rfl
    | succ k => rw [if_neg (by omega), Nat.add_sub_cancel, startOf_succ]
  · rw [List.getElem?_eq_none (by omega), List.getElem?_eq_none (by simp [ofRows]; omega)]

end Verif.Csx
