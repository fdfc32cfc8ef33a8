import Verif.Proof.DualOperator
/-! Lemmas about the Dirichlet preconditioner on one domain (C65). -/
namespace Verif.Feti

open Verif.Csx Verif.Dual Finset

variable {R : Type} [CommRing R]

/-! ### The unknowns with constraints -/

/-- The columns with an entry, in increasing order. -/
def boundaryOf (B : Csx R) : List Nat := (List.range B.ns).filter fun c => decide (c ∈ B.idxs)

theorem markColumns_spec {B : Csx R} (hB : WellFormed B) : markColumns B = some (mk B.ns fun c => if c ∈ B.idxs then 1 else 0) := by
  unfold markColumns
  obtain ⟨s, e, hs⟩ := forLoop_inv (Nat.zero_le B.idxs.length) (List.replicate B.ns 0) (fun i permutation => do
    let c ← B.idxs[i]?
    wr permutation c 1) (fun i s => s = mk B.ns fun c => if c ∈ B.idxs.take i then 1 else 0) (by
      rw [zero_mk]; exact mk_congr fun c _ => by simp) (by
      intro i _ hi s hs
      refine ⟨_, ?_, rfl⟩
      have hc := hB.range _ (List.getElem_mem hi)
      simp only [Option.bind_eq_bind]
      rw [List.getElem?_eq_getElem hi, Option.bind_some, hs, wr_mk _ _ hc]
      congr 1
      apply mk_congr
      intro c _
      unfold upd
      rw [List.take_add_one, List.getElem?_eq_getElem hi]
      simp only [List.mem_append, Option.toList_some, List.mem_singleton]
      by_cases h1 : c = B.idxs[i]
      · rw [if_pos h1, if_pos (Or.inr h1)]
      · rw [if_neg h1]
        by_cases h2 : c ∈ B.idxs.take i
        · rw [if_pos h2, if_pos (Or.inl h2)]
        · rw [if_neg h2, if_neg (by rintro (h | h); exacts [h2 h, h1 h])])
  rw [e, hs, List.take_length]

theorem boundaryIndices_spec {B : Csx R} (hB : WellFormed B) : boundaryIndices B = some (boundaryOf B) := by
  unfold boundaryIndices
  simp only [Option.bind_eq_bind]
  rw [markColumns_spec hB, Option.bind_some, mk_length]
  obtain ⟨s, e, hs⟩ := forLoop_inv (Nat.zero_le B.ns) ([] : List Nat) (fun i indices => (mk B.ns fun c => if c ∈ B.idxs then 1 else 0)[i]?.bind fun m =>
    if m = 1 then some (indices ++ [i]) else some indices) (fun i s => s = (List.range i).filter fun c => decide (c ∈ B.idxs)) rfl (by
      intro i _ hi s hs
      rw [mk_get _ hi, Option.bind_some, List.range_succ, List.filter_append, ← hs]
      by_cases h : i ∈ B.idxs
      · exact ⟨_, by rw [if_pos h, if_pos rfl], by simp [h]⟩
      · exact ⟨_, by rw [if_neg h, if_neg (by decide)], by simp [h]⟩)
  rw [e, hs]
  rfl

theorem boundaryOf_sorted (B : Csx R) : (boundaryOf B).Pairwise (· < ·) := List.Pairwise.filter _ List.pairwise_lt_range

theorem mem_boundaryOf {B : Csx R} (hB : WellFormed B) {c : Nat} : c ∈ boundaryOf B ↔ c ∈ B.idxs := by
  unfold boundaryOf
  rw [List.mem_filter, List.mem_range]
  simp only [decide_eq_true_eq]
  exact ⟨fun h => h.2, fun h => ⟨hB.range c h, h⟩⟩

/-- A column without an entry is zero. -/
theorem at_zero {B : Csx R} {r i : Nat} (h : i ∉ B.idxs) : B.at r i = 0 := by
  unfold Csx.at
  have : (B.row r).filter (fun e => e.1 = i) = [] := by
    rw [List.filter_eq_nil_iff]
    intro e he
    unfold Csx.row at he
    have h1 := List.mem_of_mem_drop (List.mem_of_mem_take he)
    intro h2
    have h2 : e.1 = i := by simpa using h2
    exact h (h2 ▸ (List.of_mem_zip (show (e.1, e.2) ∈ _ from h1)).1)
  simp only [this]
  simp

/-! ### Increasing lists of positions -/

theorem sorted_ge {l : List Nat} (h : l.Pairwise (· < ·)) {i : Nat} (hi : i < l.length) : i ≤ l[i] := by
  induction i with
  | zero => exact Nat.zero_le _
  | succ i ih =>
      have h1 := ih (by omega)
      have h2 := List.pairwise_iff_getElem.1 h i (i + 1) (by omega) hi (by omega)
      omega

theorem sorted_inj {l : List Nat} (h : l.Pairwise (· < ·)) {i j : Nat} (hi : i < l.length) (hj : j < l.length) (e : l[i] = l[j]) : i = j := by
  rcases Nat.lt_trichotomy i j with h1 | h1 | h1
  · have := List.pairwise_iff_getElem.1 h i j hi hj h1
    omega
  · exact h1
  · have := List.pairwise_iff_getElem.1 h j i hj hi h1
    omega

theorem compress_spec {idx : List Nat} (hs : idx.Pairwise (· < ·)) {n : Nat} (hr : ∀ c ∈ idx, c < n) (f : Nat → R) :
    compress idx (mk n f) = some (mk n fun k => if k < idx.length then f (idx.getD k 0) else f k) := by
  unfold compress
  obtain ⟨s, e, h⟩ := forLoop_inv (Nat.zero_le idx.length) (mk n f) (fun i v => do
    let k ← idx[i]?
    let a ← v[k]?
    wr v i a) (fun i s => s = mk n fun k => if k < i then f (idx.getD k 0) else f k) (mk_congr fun k _ => by simp) (by
      intro i _ hi s h
      refine ⟨_, ?_, rfl⟩
      have h1 := hr _ (List.getElem_mem hi)
      have h2 := sorted_ge hs hi
      simp only [Option.bind_eq_bind]
      rw [List.getElem?_eq_getElem hi, Option.bind_some, h, mk_get _ h1, Option.bind_some, wr_mk _ _ (by omega)]
      congr 1
      apply mk_congr
      intro k _
      unfold upd
      by_cases hk : k = i
      · rw [if_pos hk, if_neg (by omega), if_pos (by omega), hk, List.getD_eq_getElem?_getD, List.getElem?_eq_getElem hi]
        rfl
      · rw [if_neg hk]
        dsimp only
        by_cases hk2 : k < i
        · rw [if_pos hk2, if_pos (by omega)]
        · rw [if_neg hk2, if_neg (by omega)])
  rw [e, h]

theorem expand_spec {idx : List Nat} (hs : idx.Pairwise (· < ·)) {n : Nat} (hr : ∀ c ∈ idx, c < n) (f : Nat → R) :
    ∃ g, expand idx (mk n f) = some (mk n g) ∧ ∀ (a : Nat) (c : Nat), idx[a]? = some c → g c = f a := by
  unfold expand
  obtain ⟨s, e, g, h, hg, _⟩ := forLoop_inv (Nat.zero_le idx.length) (mk n f) (fun m v => do
    let i := idx.length - m
    let k ← idx[i - 1]?
    let a ← v[i - 1]?
    wr v k a) (fun m s => ∃ g, s = mk n g ∧ (∀ (a : Nat) (c : Nat), idx[a]? = some c → idx.length - m ≤ a → g c = f a) ∧ ∀ k, k < idx.length - m → g k = f k)
      ⟨f, rfl, fun a c ha hle => by have := (List.getElem?_eq_some_iff.1 ha).1; omega, fun _ _ => rfl⟩ (by
      rintro m _ hm s ⟨g, h, h1, h2⟩
      obtain ⟨i, hi⟩ : ∃ i, idx.length - m = i + 1 := ⟨idx.length - m - 1, by omega⟩
      have hil : i < idx.length := by omega
      have hc := hr _ (List.getElem_mem hil)
      have hge := sorted_ge hs hil
      refine ⟨mk n (upd g idx[i] (g i)), ?_, _, rfl, ?_, ?_⟩
      · simp only [Option.bind_eq_bind, hi, Nat.add_sub_cancel]
        rw [List.getElem?_eq_getElem hil, Option.bind_some, h, mk_get _ (by omega), Option.bind_some, wr_mk _ _ hc]
      · intro a c ha hle
        obtain ⟨hal, hac⟩ := List.getElem?_eq_some_iff.1 ha
        unfold upd
        by_cases e : c = idx[i]
        · have : a = i := sorted_inj hs hal hil (hac.trans e)
          rw [if_pos e, this]
          exact h2 i (by omega)
        · rw [if_neg e]
          refine h1 a c ha ?_
          by_contra hlt
          have : a = i := by omega
          subst this
          exact e hac.symm
      · intro k hk
        unfold upd
        rw [if_neg (by omega)]
        exact h2 k (by omega))
  exact ⟨g, by rw [e, h], fun a c ha => hg a c ha (by omega)⟩

theorem denseApply_spec {m n : Nat} (h : m ≤ n) (sc : Nat → Nat → R) (f g : Nat → R) :
    denseApply m sc (mk n f) (mk n g) = some (mk n fun i => if i < m then ∑ j ∈ range m, sc i j * f j else g i) := by
  unfold denseApply
  have inner : ∀ i, (forLoop 0 m (0 : R) fun j s => do
      let v ← (mk n f)[j]?
      some (s + sc i j * v)) = some (∑ j ∈ range m, sc i j * f j) := by
    intro i
    obtain ⟨s, e, hs⟩ := forLoop_inv (Nat.zero_le m) (0 : R) (fun j s => do
      let v ← (mk n f)[j]?
      some (s + sc i j * v)) (fun k s => s = ∑ j ∈ range k, sc i j * f j) rfl (by
        intro j _ hj s hs
        refine ⟨_, ?_, rfl⟩
        simp only [Option.bind_eq_bind]
        rw [mk_get _ (by omega), Option.bind_some, hs, sum_range_succ])
    rw [e, hs]
  obtain ⟨s, e, hs⟩ := forLoop_inv (Nat.zero_le m) (mk n g) (fun i y => do
    let s ← forLoop 0 m (0 : R) fun j s => do
      let v ← (mk n f)[j]?
      some (s + sc i j * v)
    wr y i s) (fun k s => s = mk n fun i => if i < k then ∑ j ∈ range m, sc i j * f j else g i) (mk_congr fun k _ => by simp) (by
      intro i _ hi s hs
      refine ⟨_, ?_, rfl⟩
      rw [inner i]
      simp only [Option.bind_eq_bind]
      rw [Option.bind_some, hs, wr_mk _ _ (by omega)]
      congr 1
      apply mk_congr
      intro k _
      unfold upd
      by_cases hk : k = i
      · rw [if_pos hk, if_pos (by omega), hk]
      · rw [if_neg hk]
        dsimp only
        by_cases hk2 : k < i
        · rw [if_pos hk2, if_pos (by omega)]
        · rw [if_neg hk2, if_neg (by omega)])
  rw [e, hs]

end Verif.Feti
