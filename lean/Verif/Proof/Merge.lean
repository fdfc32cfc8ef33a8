import Verif.Model.Utils
import Verif.Spec.Utils
import Mathlib.Order.Lattice
import Mathlib.Data.List.Forall2
namespace Verif.Utils

section
variable {α : Type}

theorem seg_eq (l : List α) (a b : Nat) : (l.take b).drop a = seg l a b := by
  unfold seg; rw [List.drop_take]

theorem length_seg (l : List α) {a b : Nat} (h2 : b ≤ l.length) : (seg l a b).length = b - a := by
  simp [seg]; omega

theorem seg_append (l : List α) {a m b : Nat} (h1 : a ≤ m) (h2 : m ≤ b) :
    seg l a m ++ seg l m b = seg l a b := by
  unfold seg
  have : b - a = (m - a) + (b - m) := by omega
  rw [this, List.take_add, List.drop_drop]
  congr 3
  omega

theorem take_seg_drop (l : List α) {a b : Nat} (h1 : a ≤ b) : l.take a ++ seg l a b ++ l.drop b = l := by
  unfold seg
  have : l.drop b = (l.drop a).drop (b - a) := by rw [List.drop_drop]; congr 1; omega
  rw [this, List.append_assoc, List.take_append_drop, List.take_append_drop]

theorem seg_full (l : List α) : seg l 0 l.length = l := by simp [seg]

/-- Replacing the segment `[a,b)` by `M` of the same length. -/
def repl (l : List α) (a b : Nat) (M : List α) : List α := l.take a ++ M ++ l.drop b

theorem length_repl (l : List α) {a b : Nat} {M : List α} (h1 : a ≤ b) (h2 : b ≤ l.length)
    (hM : M.length = b - a) : (repl l a b M).length = l.length := by
  simp [repl, hM]; omega

theorem seg_repl_left (l : List α) {a b c d : Nat} {M : List α} (h1 : a ≤ b) (h2 : b ≤ l.length)
    (hd : d ≤ a) : seg (repl l a b M) c d = seg l c d := by
  rw [← seg_eq, ← seg_eq, repl, List.append_assoc]
  rw [List.take_append_of_le_length (by simp; omega), List.take_take, Nat.min_eq_left hd]

theorem seg_repl_right (l : List α) {a b c d : Nat} {M : List α} (h1 : a ≤ b) (h2 : b ≤ l.length)
    (hM : M.length = b - a) (hc : b ≤ c) : seg (repl l a b M) c d = seg l c d := by
  unfold seg repl
  have hlen : (l.take a ++ M).length = b := by simp [hM]; omega
  rw [List.drop_append, List.drop_of_length_le (by omega), hlen, List.nil_append, List.drop_drop]
  congr 2; omega

theorem seg_repl_self (l : List α) {a b : Nat} {M : List α} (h1 : a ≤ b) (h2 : b ≤ l.length)
    (hM : M.length = b - a) : seg (repl l a b M) a b = M := by
  unfold seg repl
  have hlen : (l.take a).length = a := by simp; omega
  rw [List.append_assoc, List.drop_append, List.drop_of_length_le (by omega), hlen]
  simp only [Nat.sub_self, List.drop_zero, List.nil_append]
  rw [List.take_append_of_le_length (by omega), List.take_of_length_le (by omega)]

theorem repl_perm (l : List α) {a b : Nat} {M : List α} (h1 : a ≤ b) (hM : M.Perm (seg l a b)) :
    (repl l a b M).Perm l := by
  conv => rhs; rw [← take_seg_drop l h1]
  exact ((hM.append_left _).append_right _)

end

section
variable {α : Type} [LinearOrder α]

theorem sorted_merge {l r : List α} (hl : Sorted l) (hr : Sorted r) :
    Sorted (l.merge r (· ≤ ·)) := by
  have := List.pairwise_merge (le := fun a b : α => decide (a ≤ b))
    (fun a b c h1 h2 => by simp at *; exact le_trans h1 h2)
    (fun a b => by simp; exact le_total a b) l r (by simpa using hl) (by simpa using hr)
  simpa using this

theorem inplaceMergeRange_spec {data : List α} {a m b : Nat} (h1 : a ≤ m) (h2 : m ≤ b)
    (h3 : b ≤ data.length) (hl : Sorted (seg data a m)) (hr : Sorted (seg data m b)) :
    ∃ M, inplaceMergeRange data a m b = some (repl data a b M) ∧ M.length = b - a ∧
      M.Perm (seg data a b) ∧ Sorted M := by
  refine ⟨(seg data a m).merge (seg data m b) (· ≤ ·), ?_, ?_, ?_, sorted_merge hl hr⟩
  · unfold inplaceMergeRange
    rw [if_pos ⟨h1, h2, h3⟩]
    simp only [seg_eq]
    rw [if_pos ⟨hl, hr⟩]; rfl
  · rw [List.length_merge, length_seg _ (by omega), length_seg _ h3]; omega
  · rw [← seg_append data h1 h2]; exact List.merge_perm_append _

theorem alignUp_spec (align n : Nat) (h : 0 < align) :
    ∃ r, alignUp align n h = align * 2 ^ r ∧ n ≤ align * 2 ^ r := by
  fun_induction alignUp align n h with
  | case1 a ha hlt ih =>
      obtain ⟨r, e, hn⟩ := ih
      have h2 : a * 2 * 2 ^ r = a * 2 ^ (r + 1) := by
        rw [Nat.pow_succ, Nat.mul_assoc, Nat.mul_comm 2]
      exact ⟨r + 1, by rw [e, h2], by omega⟩
  | case2 a ha hlt => exact ⟨0, by simp, by simp; omega⟩


/-- Borders of the padded distribution, as a function on `0..align`. -/
structure Borders (dist : List Nat) (align len : Nat) (D : Nat → Nat) : Prop where
  get : ∀ k, k ≤ align → dist[k]? = some (D k)
  mono : ∀ i j, i ≤ j → j ≤ align → D i ≤ D j
  bound : ∀ k, k ≤ align → D k ≤ len

/-- All blocks of width `w` are sorted. -/
def BlocksSorted (data : List α) (D : Nat → Nat) (w n : Nat) : Prop :=
  ∀ s, s < n → Sorted (seg data (D (w * s)) (D (w * s + w)))

theorem mergeLevel_spec {dist : List Nat} {D : Nat → Nat} {w T : Nat} (data : List α) (hw : 0 < w)
    (hD : Borders dist (w * 2 * T) data.length D) (hs : BlocksSorted data D w (2 * T)) :
    ∃ data', mergeLevel data dist (w * 2 * T) (w * 2) = some data' ∧ data'.length = data.length ∧
      data'.Perm data ∧ BlocksSorted data' D (w * 2) T ∧
      (∀ x y, y ≤ D 0 → seg data' x y = seg data x y) := by
  have hdiv : w * 2 * T / (w * 2) = T := by rw [Nat.mul_div_cancel_left]; omega
  obtain ⟨d', e, hI⟩ := forLoop_inv (Nat.zero_le T) data
    (fun t data => do
      let a ← dist[w * 2 * t]?
      let m ← dist[w * 2 * t + w * 2 / 2]?
      let b ← dist[w * 2 * t + w * 2]?
      inplaceMergeRange data a m b)
    (fun t d => d.length = data.length ∧ d.Perm data ∧
      (∀ s, s < t → Sorted (seg d (D (w * 2 * s)) (D (w * 2 * s + w * 2)))) ∧
      (∀ s, 2 * t ≤ s → s < 2 * T → Sorted (seg d (D (w * s)) (D (w * s + w)))) ∧
      (∀ x y, y ≤ D 0 → seg d x y = seg data x y))
    ⟨rfl, List.Perm.refl _, by simp, by intro s _ h; exact hs s h, by simp⟩
    (by
      rintro t - ht d ⟨hl, hp, h1, h2, h0⟩
      have hk : w * 2 * t + w * 2 ≤ w * 2 * T := by
        have := Nat.mul_le_mul_left (w * 2) (show t + 1 ≤ T from ht)
        rw [Nat.mul_add] at this; omega
      have hw2 : w * 2 / 2 = w := by omega
      have ea := hD.get (w * 2 * t) (by omega)
      have em := hD.get (w * 2 * t + w) (by omega)
      have eb := hD.get (w * 2 * t + w * 2) hk
      have m1 : D (w * 2 * t) ≤ D (w * 2 * t + w) := hD.mono _ _ (by omega) (by omega)
      have m2 : D (w * 2 * t + w) ≤ D (w * 2 * t + w * 2) := hD.mono _ _ (by omega) hk
      have m3 : D (w * 2 * t + w * 2) ≤ d.length := by rw [hl]; exact hD.bound _ hk
      have s1 := h2 (2 * t) (Nat.le_refl _) (by omega)
      have s2 := h2 (2 * t + 1) (by omega) (by omega)
      have x1 : w * (2 * t) = w * 2 * t := by rw [Nat.mul_assoc]
      have x2 : w * (2 * t + 1) = w * 2 * t + w := by rw [Nat.mul_add, x1, Nat.mul_one]
      have x3 : w * 2 * t + w + w = w * 2 * t + w * 2 := by omega
      rw [x1] at s1
      rw [x2, x3] at s2
      obtain ⟨M, eM, hMl, hMp, hMs⟩ := inplaceMergeRange_spec m1 m2 m3 s1 s2
      have m13 := Nat.le_trans m1 m2
      refine ⟨_, ?_, length_repl d m13 m3 hMl ▸ hl, (repl_perm d m13 hMp).trans hp, ?_, ?_, ?_⟩
      · simp only [ea, hw2, em, eb, Option.bind_eq_bind, Option.bind_some, eM]
      · intro s hs'
        rcases Nat.lt_succ_iff_lt_or_eq.1 hs' with hlt | rfl
        · have : w * 2 * s + w * 2 ≤ w * 2 * t := by
            have := Nat.mul_le_mul_left (w * 2) (show s + 1 ≤ t from hlt)
            rw [Nat.mul_add] at this; omega
          rw [seg_repl_left d m13 m3 (hD.mono _ _ this (by omega))]
          exact h1 s hlt
        · rw [seg_repl_self d m13 m3 hMl]; exact hMs
      · intro s hs1 hs2
        have : w * 2 * t + w * 2 ≤ w * s := by
          have := Nat.mul_le_mul_left w (show 2 * t + 2 ≤ s by omega)
          rw [Nat.mul_add, x1] at this; omega
        have hs3 : w * s ≤ w * 2 * T := by
          rw [Nat.mul_assoc]; exact Nat.mul_le_mul_left w (by omega)
        rw [seg_repl_right d m13 m3 hMl (hD.mono _ _ this hs3)]
        exact h2 s (by omega) hs2
      · intro x y hy
        rw [seg_repl_left d m13 m3 (Nat.le_trans hy (hD.mono _ _ (Nat.zero_le _) (by omega)))]
        exact h0 x y hy)
  refine ⟨d', ?_, hI.1, hI.2.1, ?_, hI.2.2.2.2⟩
  · unfold mergeLevel; rw [hdiv]; exact e
  · intro s hs'; exact hI.2.2.1 s hs'

theorem mergeLevels_spec (r : Nat) : ∀ {dist : List Nat} {D : Nat → Nat} {w : Nat} (data : List α) (hw : 0 < w)
    (_ : Borders dist (w * 2 ^ r) data.length D) (_ : BlocksSorted data D w (2 ^ r)) (hi : 0 < w * 2),
    ∃ data', mergeLevels data dist (w * 2 ^ r) (w * 2) hi = some data' ∧ data'.length = data.length ∧
      data'.Perm data ∧ Sorted (seg data' (D 0) (D (w * 2 ^ r))) ∧
      (∀ x y, y ≤ D 0 → seg data' x y = seg data x y) := by
  induction r with
  | zero =>
      intro dist D w data hw hD hs hi
      refine ⟨data, ?_, rfl, List.Perm.refl _, ?_, by simp⟩
      · rw [mergeLevels, if_neg (by simp; omega)]
      · have := hs 0 (by simp); simpa using this
  | succ r ih =>
      intro dist D w data hw hD hs hi
      have e2 : w * 2 ^ (r + 1) = w * 2 * 2 ^ r := by rw [Nat.pow_succ, Nat.mul_assoc, Nat.mul_comm 2]
      rw [e2] at hD ⊢
      have hs' : BlocksSorted data D w (2 * 2 ^ r) := by
        rw [Nat.mul_comm, ← Nat.pow_succ]; exact hs
      obtain ⟨d1, e1, hl1, hp1, hb1, hz1⟩ := mergeLevel_spec data hw hD hs'
      have hpos : 0 < 2 ^ r := Nat.pow_pos (by omega)
      obtain ⟨d2, e3, hl2, hp2, hs2, hz2⟩ := ih d1 (w := w * 2) (by omega) (hl1 ▸ hD) hb1 (by omega)
      refine ⟨d2, ?_, by omega, hp2.trans hp1, hs2, fun x y h => (hz2 x y h).trans (hz1 x y h)⟩
      rw [mergeLevels, if_pos (Nat.le_mul_of_pos_right _ hpos), e1]
      exact e3

/-- The padded list of borders. -/
theorem padded_borders (dist : List Nat) (hne : dist ≠ []) (pad align len : Nat)
    (hp : dist.length + pad = align + 1)
    (hmono : dist.Pairwise (· ≤ ·)) (hb : ∀ x ∈ dist, x ≤ len) :
    ∃ D : Nat → Nat, Borders (dist ++ List.replicate pad (dist.getLast hne)) align len D ∧
      (∀ k (h : k < dist.length), D k = dist[k]) ∧
      (∀ k, dist.length ≤ k + 1 → D k = dist.getLast hne) := by
  have hpos : 0 < dist.length := List.length_pos_iff.2 hne
  refine ⟨fun k => if h : k < dist.length then dist[k] else dist.getLast hne, ⟨?_, ?_, ?_⟩, ?_, ?_⟩
  · intro k hk
    by_cases h : k < dist.length
    · rw [List.getElem?_append_left h]; simp [h]
    · simp only [h, dite_false]
      rw [List.getElem?_append_right (by omega), List.getElem?_replicate, if_pos (by omega)]
  · intro i j hij hj
    have hget := List.pairwise_iff_getElem.1 hmono
    by_cases h : j < dist.length
    · have hi : i < dist.length := by omega
      simp only [h, hi, dite_true]
      rcases Nat.lt_or_eq_of_le hij with h' | rfl
      · exact hget i j hi h h'
      · exact Nat.le_refl _
    · simp only [h, dite_false]
      by_cases hi : i < dist.length
      · simp only [hi, dite_true]
        rw [List.getLast_eq_getElem]
        rcases Nat.lt_or_eq_of_le (show i ≤ dist.length - 1 by omega) with h' | rfl
        · exact hget i _ hi (by omega) h'
        · exact Nat.le_refl _
      · simp only [hi, dite_false]; exact Nat.le_refl _
  · intro k hk
    by_cases h : k < dist.length
    · simp only [h, dite_true]; exact hb _ (List.getElem_mem h)
    · simp only [h, dite_false]; exact hb _ (List.getLast_mem hne)
  · intro k h; simp [h]
  · intro k h
    by_cases h' : k < dist.length
    · simp only [h', dite_true]
      rw [List.getLast_eq_getElem]; congr 1; omega
    · simp [h']

theorem seg_self (l : List α) (a : Nat) : seg l a a = [] := by simp [seg]

/-- Common core of `inplaceMerge` and `mergeAppendedData`. -/
theorem mergeTree_spec (data : List α) (dist : List Nat) (hne : dist ≠ []) (pad align : Nat)
    (halign : ∃ r, align = 2 ^ r) (hp : dist.length + pad = align + 1)
    (hmono : dist.Pairwise (· ≤ ·)) (hb : ∀ x ∈ dist, x ≤ data.length) (hs : PartsSorted data dist) :
    ∃ data', mergeLevels data (dist ++ List.replicate pad (dist.getLast hne)) align 2 (by omega) = some data' ∧
      data'.length = data.length ∧ data'.Perm data ∧
      Sorted (seg data' (dist.head hne) (dist.getLast hne)) ∧
      (∀ x y, y ≤ dist.head hne → seg data' x y = seg data x y) := by
  obtain ⟨r, rfl⟩ := halign
  obtain ⟨D, hB, hD1, hD2⟩ := padded_borders dist hne pad (2 ^ r) data.length hp hmono hb
  have hpos : 0 < dist.length := List.length_pos_iff.2 hne
  have hblocks : BlocksSorted data D 1 (2 ^ r) := by
    intro s hs'
    simp only [Nat.one_mul]
    by_cases h : s + 1 < dist.length
    · have := hs s dist[s] dist[s + 1] (by simp) (by simp [h])
      rwa [hD1 s (by omega), hD1 (s + 1) h]
    · rw [hD2 s (by omega), hD2 (s + 1) (by omega), seg_self]
      exact List.Pairwise.nil
  have hB' : Borders (dist ++ List.replicate pad (dist.getLast hne)) (1 * 2 ^ r) data.length D := by
    simpa using hB
  obtain ⟨d', e, hl, hp', hs', hz⟩ := mergeLevels_spec r data (w := 1) (by omega) hB' hblocks (by omega)
  have e0 : D 0 = dist.head hne := by
    rw [hD1 0 hpos, List.head_eq_getElem]
  refine ⟨d', ?_, hl, hp', ?_, by rw [← e0]; exact hz⟩
  · simpa using e
  · have e1 : D (2 ^ r) = dist.getLast hne := by
      by_cases h : 2 ^ r < dist.length
      · exact hD2 _ (by omega)
      · exact hD2 _ (by omega)
    simp only [Nat.one_mul] at hs'
    rwa [e0, e1] at hs'

theorem inplaceMerge_spec (data : List α) (dist : List Nat) (h0 : dist.head? = some 0)
    (hmono : dist.Pairwise (· ≤ ·)) (hlast : dist.getLast? = some data.length)
    (hs : PartsSorted data dist) :
    ∃ data', inplaceMerge data dist = some data' ∧ data'.Perm data ∧ Sorted data' := by
  have hne : dist ≠ [] := by rintro rfl; simp at h0
  have hl : dist.getLast hne = data.length := by
    rw [List.getLast?_eq_some_getLast hne] at hlast; simpa using hlast
  have hh : dist.head hne = 0 := by
    rw [List.head?_eq_some_head hne] at h0; simpa using h0
  have hb : ∀ x ∈ dist, x ≤ data.length := by
    intro x hx
    obtain ⟨i, hi, rfl⟩ := List.getElem_of_mem hx
    rw [← hl, List.getLast_eq_getElem]
    rcases Nat.lt_or_eq_of_le (show i ≤ dist.length - 1 by omega) with h' | h'
    · exact List.pairwise_iff_getElem.1 hmono i _ hi (by omega) h'
    · simp only [h']; exact Nat.le_refl _
  obtain ⟨r, er, hr⟩ := alignUp_spec 1 dist.length (by omega)
  have hpos : 0 < dist.length := List.length_pos_iff.2 hne
  rw [Nat.one_mul] at er hr
  obtain ⟨d', e, hl', hp', hs', -⟩ := mergeTree_spec data dist hne (2 ^ r - (dist.length - 1)) (2 ^ r) ⟨r, rfl⟩
    (by omega) hmono hb hs
  refine ⟨d', ?_, hp', ?_⟩
  · unfold inplaceMerge
    rw [List.getLast?_eq_some_getLast hne]
    simp only [Option.bind_eq_bind, Option.bind_some, er]
    exact e
  · rw [hh, hl, ← hl', seg_full] at hs'; exact hs'

theorem sorted_stdSort (l : List α) : Sorted (stdSort l) := by
  have := List.pairwise_mergeSort (le := fun a b : α => decide (a ≤ b))
    (fun a b c h1 h2 => by simp at *; exact le_trans h1 h2)
    (fun a b => by simp; exact le_total a b) l
  simpa [stdSort] using this

theorem stdSort_perm (l : List α) : (stdSort l).Perm l := List.mergeSort_perm _ _

theorem sortRange_spec (data : List α) {a b : Nat} (h1 : a ≤ b) (h2 : b ≤ data.length) :
    ∃ M, sortRange data a b = some (repl data a b M) ∧ M.length = b - a ∧ M.Perm (seg data a b) ∧ Sorted M := by
  refine ⟨stdSort (seg data a b), ?_, ?_, stdSort_perm _, sorted_stdSort _⟩
  · unfold sortRange; rw [if_pos ⟨h1, h2⟩, seg_eq]; rfl
  · rw [(stdSort_perm _).length_eq, length_seg _ h2]

theorem pairwise_le_of_le {dist : List Nat} (hmono : dist.Pairwise (· ≤ ·)) {i j a b : Nat} (hij : i ≤ j)
    (hi : dist[i]? = some a) (hj : dist[j]? = some b) : a ≤ b := by
  obtain ⟨hi1, rfl⟩ := List.getElem?_eq_some_iff.1 hi
  obtain ⟨hj1, rfl⟩ := List.getElem?_eq_some_iff.1 hj
  rcases Nat.lt_or_eq_of_le hij with h | rfl
  · exact List.pairwise_iff_getElem.1 hmono i j hi1 hj1 h
  · exact Nat.le_refl _

theorem le_last {dist : List Nat} (hmono : dist.Pairwise (· ≤ ·)) {n : Nat} (hlast : dist.getLast? = some n)
    {i a : Nat} (hi : dist[i]? = some a) : a ≤ n := by
  have hi1 := (List.getElem?_eq_some_iff.1 hi).1
  rw [List.getLast?_eq_getElem?] at hlast
  exact pairwise_le_of_le hmono (by omega) hi hlast

theorem sortWithInplaceMerge_spec (data : List α) (dist : List Nat) (h0 : dist.head? = some 0)
    (hmono : dist.Pairwise (· ≤ ·)) (hlast : dist.getLast? = some data.length) :
    ∃ data', sortWithInplaceMerge data dist = some data' ∧ data'.Perm data ∧ Sorted data' := by
  have hne : dist ≠ [] := by rintro rfl; simp at h0
  have hpos : 0 < dist.length := List.length_pos_iff.2 hne
  obtain ⟨d, e, hl, hp, hs⟩ := forLoop_inv (Nat.zero_le (dist.length - 1)) data
    (fun t data => do
      let a ← dist[t]?
      let b ← dist[t + 1]?
      sortRange data a b)
    (fun t d => d.length = data.length ∧ d.Perm data ∧
      ∀ k a b, k < t → dist[k]? = some a → dist[k + 1]? = some b → Sorted (seg d a b))
    ⟨rfl, List.Perm.refl _, by simp⟩
    (by
      rintro t - ht d ⟨hl, hp, hs⟩
      have ea : dist[t]? = some dist[t] := List.getElem?_eq_getElem (by omega)
      have eb : dist[t + 1]? = some dist[t + 1] := List.getElem?_eq_getElem (by omega)
      have hab := pairwise_le_of_le hmono (Nat.le_succ t) ea eb
      have hb : dist[t + 1] ≤ d.length := by rw [hl]; exact le_last hmono hlast eb
      obtain ⟨M, eM, hMl, hMp, hMs⟩ := sortRange_spec d hab hb
      refine ⟨_, ?_, (length_repl d hab hb hMl).trans hl, (repl_perm d hab hMp).trans hp, ?_⟩
      · simp only [ea, eb, Option.bind_eq_bind, Option.bind_some, eM]
      · intro k a b hk h1 h2
        rcases Nat.lt_succ_iff_lt_or_eq.1 hk with hlt | rfl
        · rw [seg_repl_left d hab hb (pairwise_le_of_le hmono (show k + 1 ≤ t by omega) h2 ea)]
          exact hs k a b hlt h1 h2
        · rw [ea] at h1; rw [eb] at h2; cases h1; cases h2
          rw [seg_repl_self d hab hb hMl]; exact hMs)
  obtain ⟨d', e', hp', hs'⟩ := inplaceMerge_spec d dist h0 hmono (by rw [hl]; exact hlast)
    (by
      intro k a b h1 h2
      have := (List.getElem?_eq_some_iff.1 h2).1
      exact hs k a b (by omega) h1 h2)
  refine ⟨d', ?_, hp'.trans hp, hs'⟩
  unfold sortWithInplaceMerge
  rw [if_neg (by omega), e]
  exact e'

/-- `appendThreads`: concatenation and borders. -/
theorem appendThreads_spec (data : List (List α)) (hne : data ≠ []) :
    ∃ dist, appendThreads data = some (data.flatten, dist) ∧ dist.head? = some 0 ∧ dist.Pairwise (· ≤ ·) ∧
      dist.getLast? = some data.flatten.length ∧ dist.length = data.length + 1 ∧
      (∀ k, k < data.length → ∃ a b, dist[k]? = some a ∧ dist[k + 1]? = some b ∧
        some (seg data.flatten a b) = data[k]?) := by
  have hpos : 0 < data.length := List.length_pos_iff.2 hne
  have e0 : data[0]? = some data[0] := List.getElem?_eq_getElem hpos
  obtain ⟨⟨d, dist⟩, e, hI⟩ := forLoop_inv (show 1 ≤ data.length by omega) (data[0], [0, (data[0]).length])
    (fun t (p : List α × List Nat) => do
      let dt ← data[t]?
      some (p.1 ++ dt, p.2 ++ [(p.1 ++ dt).length]))
    (fun t p => p.1 = (data.take t).flatten ∧ p.2.head? = some 0 ∧ p.2.Pairwise (· ≤ ·) ∧
      (∀ x ∈ p.2, x ≤ p.1.length) ∧
      p.2.getLast? = some p.1.length ∧ p.2.length = t + 1 ∧
      (∀ k, k < t → ∃ a b, p.2[k]? = some a ∧ p.2[k + 1]? = some b ∧ b ≤ p.1.length ∧
        some (seg p.1 a b) = data[k]?))
    (by
      refine ⟨?_, by simp, by simp, ?_, by simp, by simp, ?_⟩
      · cases data with
        | nil => simp at hpos
        | cons x xs => simp
      · intro x hx; simp at hx; rcases hx with rfl | rfl <;> simp
      · intro k hk
        have : k = 0 := by omega
        subst this
        exact ⟨0, data[0].length, by simp, by simp, by simp, by rw [seg_full]; simp⟩)
    (by
      rintro t ht1 ht ⟨d, dist⟩ ⟨h1, h2, h3, h4, h5, h6, h7⟩
      simp only at h1 h2 h3 h4 h5 h6 h7
      have et : data[t]? = some data[t] := List.getElem?_eq_getElem ht
      refine ⟨(d ++ data[t], dist ++ [(d ++ data[t]).length]), ?_, ?_, ?_, ?_, ?_, ?_, ?_, ?_⟩
      · simp only [et, Option.bind_eq_bind, Option.bind_some]
      · simp only [h1, List.take_succ_eq_append_getElem ht, List.flatten_append]; simp
      · simp only [List.head?_append, h2]; simp
      · simp only [List.pairwise_append]
        refine ⟨h3, by simp, ?_⟩
        intro a ha b hb
        have := h4 a ha
        simp only [List.mem_singleton] at hb
        rw [hb, List.length_append]; omega
      · intro x hx
        rw [List.mem_append] at hx
        rcases hx with hx | hx
        · have := h4 x hx; simp only [List.length_append]; omega
        · simp only [List.mem_singleton] at hx; rw [hx]
      · simp
      · simp only [List.length_append, List.length_singleton]; omega
      · intro k hk
        rcases Nat.lt_succ_iff_lt_or_eq.1 hk with hlt | rfl
        · obtain ⟨a, b, ea, eb, hb, es⟩ := h7 k hlt
          refine ⟨a, b, ?_, ?_, ?_, ?_⟩
          · simp only; rw [List.getElem?_append_left (by omega)]; exact ea
          · simp only; rw [List.getElem?_append_left (by omega)]; exact eb
          · simp only [List.length_append]; omega
          · rw [← es]; congr 1
            simp only [← seg_eq]
            rw [List.take_append_of_le_length hb]
        · refine ⟨d.length, (d ++ data[k]).length, ?_, ?_, Nat.le_refl _, ?_⟩
          · simp only
            rw [List.getElem?_append_left (by omega), ← h5, List.getLast?_eq_getElem?, h6]; simp
          · simp only
            rw [List.getElem?_append_right (by omega), h6]; simp
          · simp only [← seg_eq, List.take_length, et]
            rw [List.drop_append_of_le_length (Nat.le_refl _)]; simp)
  obtain ⟨h1, h2, h3, h4, h5, h6, h7⟩ := hI
  simp only [List.take_length] at h1 h2 h3 h4 h5 h6 h7
  subst h1
  refine ⟨dist, ?_, h2, h3, h5, h6, ?_⟩
  · simp only [appendThreads, e0, Option.bind_eq_bind, Option.bind_some]; exact e
  · intro k hk
    obtain ⟨a, b, ea, eb, _, es⟩ := h7 k hk
    exact ⟨a, b, ea, eb, es⟩

theorem mergeAppendedData_spec (data : List α) (d0 : Nat) (tail : List Nat) (hne : tail ≠ [])
    (hmono : tail.Pairwise (· ≤ ·)) (hlast : tail.getLast? = some data.length)
    (hfirst : Sorted (seg data 0 (tail.head hne))) (hs : PartsSorted data tail) :
    ∃ data', mergeAppendedData data (d0 :: tail) = some data' ∧ data'.Perm data ∧ Sorted data' := by
  have hpos : 0 < tail.length := List.length_pos_iff.2 hne
  have hl : tail.getLast hne = data.length := by
    rw [List.getLast?_eq_some_getLast hne] at hlast; simpa using hlast
  have hb : ∀ x ∈ tail, x ≤ data.length := by
    intro x hx
    obtain ⟨i, hi, rfl⟩ := List.getElem_of_mem hx
    exact le_last hmono hlast (List.getElem?_eq_getElem hi)
  obtain ⟨r, er, hr⟩ := alignUp_spec 1 tail.length (by omega)
  rw [Nat.one_mul] at er hr
  obtain ⟨d', e, hl', hp', hs', hz⟩ := mergeTree_spec data tail hne (2 ^ r + 2 - (d0 :: tail).length) (2 ^ r) ⟨r, rfl⟩
    (by simp only [List.length_cons]; omega) hmono hb hs
  have hh : tail.head hne ≤ tail.getLast hne := by rw [hl]; exact hb _ (List.head_mem hne)
  have hpad : 0 < 2 ^ r + 2 - (d0 :: tail).length := by simp only [List.length_cons]; omega
  obtain ⟨M, eM, hMl, hMp, hMs⟩ := inplaceMergeRange_spec (data := d') (Nat.zero_le _) hh (by omega)
    (by rw [hz _ _ (Nat.le_refl _)]; exact hfirst) hs'
  refine ⟨_, ?_, (repl_perm d' (Nat.zero_le _) hMp).trans hp', ?_⟩
  · simp only [mergeAppendedData, List.drop_succ_cons, List.drop_zero, List.getLast?_eq_some_getLast hne,
      List.head?_eq_some_head hne, Option.bind_eq_bind, Option.bind_some, er]
    rw [e]
    simp only [Option.bind_some]
    rw [List.getLast?_append, List.getLast?_replicate, if_neg (by omega)]
    simp only [Option.some_or, Option.bind_some]
    exact eM
  · have : repl d' 0 (tail.getLast hne) M = M := by rw [hl, ← hl']; simp [repl]
    rw [this]; exact hMs

/-! `removeDuplicates` -/

theorem take_set_succ (l : List α) (k : Nat) (x : α) (h : k < l.length) :
    (l.set k x).take (k + 1) = l.take k ++ [x] := by
  rw [List.take_succ_eq_append_getElem (by simpa using h)]
  simp [List.take_set_of_le]

theorem removeDuplicates_spec (A B : List α) (hB : Sorted B) :
    ∃ C, removeDuplicates (A ++ B) A.length = some (A ++ C) ∧ C.Pairwise (· < ·) ∧ ∀ x, x ∈ C ↔ x ∈ B := by
  by_cases hnil : B = []
  · subst hnil
    exact ⟨[], by simp [removeDuplicates], by simp, by simp⟩
  have hBpos : 0 < B.length := List.length_pos_iff.2 hnil
  obtain ⟨⟨d, u⟩, e, hI⟩ := forLoop_inv (show A.length + 1 ≤ (A ++ B).length by simp; omega)
    (A ++ B, A.length)
    (fun d (p : List α × Nat) => do
      let u ← p.1[p.2]?
      let x ← p.1[d]?
      if u ≠ x then
        let data ← wr p.1 (p.2 + 1) x
        some (data, p.2 + 1)
      else some (p.1, p.2))
    (fun d p => p.1.length = (A ++ B).length ∧ (∀ j, d ≤ j → p.1[j]? = (A ++ B)[j]?) ∧
      A.length ≤ p.2 ∧ p.2 < d ∧
      (∃ C y, p.1.take (p.2 + 1) = A ++ (C ++ [y]) ∧ (C ++ [y]).Pairwise (· < ·) ∧
        (∀ x, x ∈ C ++ [y] ↔ x ∈ B.take (d - A.length)) ∧ B[d - A.length - 1]? = some y))
    (by
      refine ⟨rfl, fun _ _ => rfl, Nat.le_refl _, by omega, ⟨[], B[0], ?_, by simp, ?_, ?_⟩⟩
      · simp only [List.nil_append]
        rw [List.take_append, List.take_of_length_le (by omega)]
        cases B with
        | nil => simp at hnil
        | cons b bs => simp
      · intro x
        cases B with
        | nil => simp at hnil
        | cons b bs => simp
      · simp only [Nat.add_sub_cancel_left, Nat.sub_self]; exact List.getElem?_eq_getElem hBpos)
    (by
      rintro i hi1 hi2 ⟨d, u⟩ ⟨hl, hrest, hu1, hu2, C, y, ht, hpw, hmem, hy⟩
      simp only at hl hrest hu1 hu2 ht
      have hi3 : i < A.length + B.length := by simpa using hi2
      have hk : i - A.length < B.length := by omega
      have hx : d[i]? = some B[i - A.length] := by
        rw [hrest i (Nat.le_refl _), List.getElem?_append_right (by omega), List.getElem?_eq_getElem hk]
      have hdu : d[u]? = some y := by
        have h1 : (d.take (u + 1))[u]? = d[u]? := by rw [List.getElem?_take]; simp
        have hlen : (d.take (u + 1)).length = u + 1 := by
          rw [List.length_take, hl, List.length_append]; omega
        rw [← h1, ht]
        rw [ht] at hlen
        simp only [List.length_append, List.length_singleton] at hlen
        rw [List.getElem?_append_right (by omega), List.getElem?_append_right (by omega)]
        have : u - A.length - C.length = 0 := by omega
        simp [this]
      have hyle : y ≤ B[i - A.length] := by
        obtain ⟨hy1, rfl⟩ := List.getElem?_eq_some_iff.1 hy
        exact List.pairwise_iff_getElem.1 hB _ _ hy1 hk (by omega)
      have htake : B.take (i + 1 - A.length) = B.take (i - A.length) ++ [B[i - A.length]] := by
        have : i + 1 - A.length = i - A.length + 1 := by omega
        rw [this, List.take_succ_eq_append_getElem hk]
      have hlast : B[i + 1 - A.length - 1]? = some B[i - A.length] := by
        have : i + 1 - A.length - 1 = i - A.length := by omega
        rw [this]; exact List.getElem?_eq_getElem hk
      by_cases hne : y = B[i - A.length]
      · refine ⟨(d, u), ?_, hl, ?_, hu1, by simp only; omega, C, y, ht, hpw, ?_, ?_⟩
        · simp only [hdu, hx, Option.bind_eq_bind, Option.bind_some]
          rw [if_neg (by simpa using hne)]
        · intro j hj; exact hrest j (by omega)
        · intro x
          have := hmem x
          rw [htake]
          simp only [List.mem_append, List.mem_singleton] at this ⊢
          rw [← this, ← hne]; grind
        · rw [hlast, hne]
      · have hlt : y < B[i - A.length] := lt_of_le_of_ne hyle hne
        have hul : u + 1 < d.length := by rw [hl, List.length_append]; omega
        refine ⟨(d.set (u + 1) B[i - A.length], u + 1), ?_, ?_, ?_, by simp only; omega, by simp only; omega,
          C ++ [y], B[i - A.length], ?_, ?_, ?_, hlast⟩
        · simp only [hdu, hx, Option.bind_eq_bind, Option.bind_some]
          rw [if_pos hne, wr_eq_some hul]; rfl
        · simpa using hl
        · intro j hj
          simp only [List.getElem?_set]
          rw [if_neg (by omega)]
          exact hrest j (by omega)
        · simp only
          rw [take_set_succ _ _ _ hul, ht]; simp
        · rw [List.pairwise_append]
          refine ⟨hpw, by simp, ?_⟩
          intro a ha b hb
          simp only [List.mem_singleton] at hb
          subst hb
          rw [List.mem_append, List.mem_singleton] at ha
          rcases ha with ha | rfl
          · rw [List.pairwise_append] at hpw
            exact lt_trans (hpw.2.2 a ha y (by simp)) hlt
          · exact hlt
        · intro x
          have := hmem x
          rw [htake]
          simp only [List.mem_append, List.mem_singleton] at this ⊢
          rw [← this])
  obtain ⟨hl, -, hu1, hu2, C, y, ht, hpw, hmem, -⟩ := hI
  simp only at hl hu1 hu2 ht
  refine ⟨C ++ [y], ?_, hpw, ?_⟩
  · unfold removeDuplicates
    rw [if_neg (by simp; omega), if_neg (by simp)]
    simp only [Option.bind_eq_bind]
    simp only [Option.bind_eq_bind] at e
    rw [e]
    simp only [Option.bind_some, ht]
  · intro x
    rw [hmem x]; simp

theorem sortAndRemoveDuplicates_spec (data : List α) (begin : Nat) (h : begin ≤ data.length) :
    ∃ C, sortAndRemoveDuplicates data begin = some (data.take begin ++ C) ∧ C.Pairwise (· < ·) ∧
      ∀ x, x ∈ C ↔ x ∈ data.drop begin := by
  have hseg : seg data begin data.length = data.drop begin := by rw [← seg_eq]; simp
  obtain ⟨M, eM, hMl, hMp, hMs⟩ := sortRange_spec data h (Nat.le_refl _)
  rw [hseg] at hMp
  obtain ⟨C, eC, hC, hmem⟩ := removeDuplicates_spec (data.take begin) M hMs
  refine ⟨C, ?_, hC, ?_⟩
  · unfold sortAndRemoveDuplicates
    rw [eM]
    have hlen : (data.take begin).length = begin := by simp; omega
    rw [hlen] at eC
    simp only [repl, List.drop_length, List.append_nil, Option.bind_eq_bind, Option.bind_some]
    exact eC
  · intro x; rw [hmem, hMp.mem_iff]

theorem mergeThreadedUniqueData_spec (data : List (List α)) (hne : data ≠ []) :
    ∃ C, mergeThreadedUniqueData data = some C ∧ C.Pairwise (· < ·) ∧
      ∀ x, x ∈ C ↔ ∃ d ∈ data, x ∈ d := by
  have hpos : 0 < data.length := List.length_pos_iff.2 hne
  have e0 : data[0]? = some data[0] := List.getElem?_eq_getElem hpos
  obtain ⟨d, e, hI⟩ := forLoop_inv (show 1 ≤ data.length by omega) data[0]
    (fun t d => do
      let dt ← data[t]?
      some (d ++ dt))
    (fun t d => d = (data.take t).flatten)
    (by cases data with
        | nil => simp at hpos
        | cons x xs => simp)
    (by
      rintro t - ht d rfl
      have et : data[t]? = some data[t] := List.getElem?_eq_getElem ht
      exact ⟨(data.take t).flatten ++ data[t], by simp only [et, Option.bind_eq_bind, Option.bind_some],
        by rw [List.take_succ_eq_append_getElem ht, List.flatten_append]; simp⟩)
  rw [List.take_length] at hI
  subst hI
  obtain ⟨C, eC, hC, hm⟩ := sortAndRemoveDuplicates_spec data.flatten 0 (Nat.zero_le _)
  refine ⟨C, ?_, hC, ?_⟩
  · unfold mergeThreadedUniqueData
    rw [e0]
    simp only [Option.bind_eq_bind, Option.bind_some] at e ⊢
    rw [e]; simpa using eC
  · intro x; rw [hm]; simp [List.mem_flatten]

theorem mapM_option_spec {β γ : Type} (f : β → Option γ) (P : β → γ → Prop) (h : ∀ x, ∃ y, f x = some y ∧ P x y) :
    ∀ l : List β, ∃ m, l.mapM f = some m ∧ List.Forall₂ P l m
  | [] => ⟨[], by simp, .nil⟩
  | x :: xs => by
      obtain ⟨y, ey, hy⟩ := h x
      obtain ⟨ys, eys, hys⟩ := mapM_option_spec f P h xs
      exact ⟨y :: ys, by simp [ey, eys], .cons hy hys⟩

theorem sortWithUniqueMerge_spec (data : List (List α)) (hne : data ≠ []) :
    ∃ C, sortWithUniqueMerge data = some C ∧ C.Pairwise (· < ·) ∧
      ∀ x, x ∈ C ↔ ∃ d ∈ data, x ∈ d := by
  obtain ⟨m, em, hm⟩ := mapM_option_spec (fun d : List α => sortAndRemoveDuplicates d 0)
    (fun d c => c.Pairwise (· < ·) ∧ ∀ x, x ∈ c ↔ x ∈ d)
    (fun d => by
      obtain ⟨C, e, h1, h2⟩ := sortAndRemoveDuplicates_spec d 0 (Nat.zero_le _)
      exact ⟨C, by simpa using e, h1, by simpa using h2⟩) data
  have hlen := hm.length_eq
  have hmne : m ≠ [] := by
    rintro rfl; simp at hlen; exact hne hlen
  obtain ⟨dist, ed, h0, hmono, hlast, hdl, hparts⟩ := appendThreads_spec m hmne
  have hsorted : ∀ c ∈ m, Sorted c := by
    intro c hc
    clear ed hparts hlast hmono h0 em hlen hdl hmne hne
    induction hm with
    | nil => simp at hc
    | cons h _ ih =>
        rcases List.mem_cons.1 hc with rfl | hc
        · exact h.1.imp (fun h => le_of_lt h)
        · exact ih hc
  have hmem : ∀ x, (∃ c ∈ m, x ∈ c) ↔ ∃ d ∈ data, x ∈ d := by
    intro x
    clear ed hparts hlast hmono h0 em hlen hdl hsorted hmne hne
    induction hm with
    | nil => simp
    | cons h _ ih => simp only [List.mem_cons, exists_eq_or_imp, ih, h.2 x]
  obtain ⟨d', e', hp', hs'⟩ := inplaceMerge_spec m.flatten dist h0 hmono hlast (by
    intro k a b h1 h2
    have hk : k < m.length := by
      have := (List.getElem?_eq_some_iff.1 h2).1; omega
    obtain ⟨a', b', ea, eb, es⟩ := hparts k hk
    rw [ea] at h1; rw [eb] at h2; cases h1; cases h2
    exact hsorted _ (List.mem_of_getElem? es.symm))
  obtain ⟨C, eC, hC, hCm⟩ := sortAndRemoveDuplicates_spec d' 0 (Nat.zero_le _)
  refine ⟨C, ?_, hC, ?_⟩
  · simp only [sortWithUniqueMerge, em, ed, e', Option.bind_eq_bind, Option.bind_some]
    simpa using eC
  · intro x; rw [hCm, List.drop_zero, hp'.mem_iff, ← hmem x]; simp [List.mem_flatten]

end
end Verif.Utils
