import Verif.Proof.Constraints
import Mathlib.Data.List.Lex
import Mathlib.Algebra.Field.Basic
/-! The order of the multipliers and their coefficients (C60). -/
namespace Verif.Feti

open Verif.Dual Verif.Pattern

/-! ### The order -/

/-- The order of the gluing multipliers: by the domains (lexicographically), then by the degree of freedom. -/
def glueLt (copies : Nat → List Nat) (a b : Nat × Nat) : Prop :=
  (copies a.1).take a.2 < (copies b.1).take b.2 ∨ ((copies a.1).take a.2 = (copies b.1).take b.2 ∧ a.1 < b.1)

/-- The first difference of two lists. -/
def listDiff : List Nat → List Nat → Option Bool
  | x :: u, y :: v => if x ≠ y then some (decide (x < y)) else listDiff u v
  | _, _ => none

theorem listDiff_spec : ∀ u v : List Nat,
    (∀ r, listDiff u v = some r → (u < v ↔ r = true) ∧ u ≠ v) ∧ (listDiff u v = none → (u < v ↔ u.length < v.length) ∧ (u = v ↔ u.length = v.length))
  | [], [] => by
      refine ⟨(by intro r h; cases h), fun _ => ⟨?_, by simp⟩⟩
      simp
  | [], y :: v => by
      refine ⟨(by intro r h; cases h), fun _ => ⟨?_, by simp⟩⟩
      simp
  | x :: u, [] => by
      refine ⟨(by intro r h; cases h), fun _ => ⟨?_, by simp⟩⟩
      simp
  | x :: u, y :: v => by
      have ih := listDiff_spec u v
      unfold listDiff
      by_cases h : x = y
      · subst h
        rw [if_neg (by simp)]
        refine ⟨?_, ?_⟩
        · intro r hr
          obtain ⟨h1, h2⟩ := ih.1 r hr
          rw [List.cons_lt_cons_iff, ← h1]
          refine ⟨by simp, ?_⟩
          intro e; cases e; exact h2 rfl
        · intro hr
          obtain ⟨h1, h2⟩ := ih.2 hr
          rw [List.cons_lt_cons_iff, List.length_cons, List.length_cons, Nat.add_lt_add_iff_right, ← h1]
          refine ⟨by simp, ?_⟩
          rw [List.cons.injEq, Nat.add_right_cancel_iff, ← h2]
          simp
      · rw [if_pos h]
        refine ⟨?_, by intro hr; cases hr⟩
        intro r hr
        cases hr
        rw [List.cons_lt_cons_iff, decide_eq_true_iff]
        refine ⟨by simp [h], ?_⟩
        intro e; cases e; exact h rfl

theorem firstDiff_spec (dmap : List (List DIndex)) (a b : Nat × Nat) : ∀ (u v : List Nat) (k : Nat), (∀ i x, u[i]? = some x → domAt dmap a.1 (k + i) = x) →
    (∀ i x, v[i]? = some x → domAt dmap b.1 (k + i) = x) → firstDiff dmap a b (min u.length v.length) k = listDiff u v
  | [], v, k, _, _ => by rw [List.length_nil, Nat.zero_min]; cases v <;> rfl
  | x :: u, [], k, _, _ => by rw [List.length_nil, Nat.min_zero]; rfl
  | x :: u, y :: v, k, hu, hv => by
      rw [List.length_cons, List.length_cons, Nat.add_min_add_right, firstDiff, listDiff]
      rw [show domAt dmap a.1 k = x from hu 0 x rfl, show domAt dmap b.1 k = y from hv 0 y rfl]
      rw [firstDiff_spec dmap a b u v (k + 1) (by intro i z hz; have := hu (i + 1) z hz; rw [← this]; congr 1; omega)
        (by intro i z hz; have := hv (i + 1) z hz; rw [← this]; congr 1; omega)]

theorem domAt_dmapOf {D : Decomposition} {n g k x : Nat} (copies : Nat → List Nat) (idx : Nat → Nat → Nat) (h : g < n) (hk : (copies g)[k]? = some x) : domAt (dmapOf D n copies idx) g k = x := by
  unfold domAt
  rw [List.getD_eq_getElem?_getD (l := dmapOf D n copies idx), dmapOf_get _ _ h, Option.getD_some, List.getD_eq_getElem?_getD, List.getElem?_map, hk]; rfl

theorem lambdaLess_iff {D : Decomposition} {n : Nat} {copies : Nat → List Nat} {idx : Nat → Nat → Nat} {a b : Nat × Nat} (ha : a.1 < n) (hb : b.1 < n) (ha' : a.2 ≤ (copies a.1).length)
    (hb' : b.2 ≤ (copies b.1).length) : lambdaLess (dmapOf D n copies idx) a b = true ↔ glueLt copies a b := by
  have hla : ((copies a.1).take a.2).length = a.2 := by rw [List.length_take]; omega
  have hlb : ((copies b.1).take b.2).length = b.2 := by rw [List.length_take]; omega
  have hu : ∀ (g s i x : Nat), g < n → ((copies g).take s)[i]? = some x → domAt (dmapOf D n copies idx) g (0 + i) = x := by
    intro g s i x hg hx
    rw [List.getElem?_take] at hx
    split at hx
    · rw [Nat.zero_add]; exact domAt_dmapOf _ _ hg hx
    · cases hx
  have hd := firstDiff_spec (dmapOf D n copies idx) a b ((copies a.1).take a.2) ((copies b.1).take b.2) 0 (fun i x => hu _ _ i x ha) (fun i x => hu _ _ i x hb)
  rw [hla, hlb] at hd
  obtain ⟨h1, h2⟩ := listDiff_spec ((copies a.1).take a.2) ((copies b.1).take b.2)
  unfold lambdaLess glueLt
  rw [hd]
  cases hl : listDiff ((copies a.1).take a.2) ((copies b.1).take b.2) with
  | some r =>
      obtain ⟨h3, h4⟩ := h1 r hl
      dsimp only
      rw [h3]
      simp [h4]
  | none =>
      obtain ⟨h3, h4⟩ := h2 hl
      dsimp only
      rw [h3, h4, hla, hlb]
      by_cases he : a.2 = b.2
      · rw [if_neg (by simpa using he)]; simp [he]
      · rw [if_pos he]; simp [he]

theorem glueLt_trans {copies : Nat → List Nat} {a b c : Nat × Nat} (h1 : glueLt copies a b) (h2 : glueLt copies b c) : glueLt copies a c := by
  unfold glueLt at *
  rcases h1 with h1 | ⟨e1, h1⟩
  · rcases h2 with h2 | ⟨e2, h2⟩
    · exact Or.inl (lt_trans h1 h2)
    · exact Or.inl (e2 ▸ h1)
  · rcases h2 with h2 | ⟨e2, h2⟩
    · exact Or.inl (e1 ▸ h2)
    · exact Or.inr ⟨e1.trans e2, Nat.lt_trans h1 h2⟩

theorem glueLt_irrefl {copies : Nat → List Nat} {a : Nat × Nat} : ¬ glueLt copies a a := by
  rintro (h | ⟨_, h⟩)
  · exact lt_irrefl _ h
  · exact Nat.lt_irrefl _ h

theorem glueLt_total {copies : Nat → List Nat} {a b : Nat × Nat} (ha : a.2 ≤ (copies a.1).length) (hb : b.2 ≤ (copies b.1).length) (h : ¬ glueLt copies b a) (hne : a ≠ b) : glueLt copies a b := by
  unfold glueLt at *
  rcases lt_trichotomy ((copies a.1).take a.2) ((copies b.1).take b.2) with hlt | he | hlt
  · exact Or.inl hlt
  · refine Or.inr ⟨he, ?_⟩
    rcases Nat.lt_trichotomy a.1 b.1 with h3 | h3 | h3
    · exact h3
    · exfalso
      apply hne
      have := congrArg List.length he
      rw [List.length_take, List.length_take] at this
      exact Prod.ext h3 (by omega)
    · exact absurd (Or.inr ⟨he.symm, h3⟩) h
  · exact absurd (Or.inl hlt) h

/-- The comparison is a strict weak order of the elements of the list. -/
def WeakOn (less : Nat × Nat → Nat × Nat → Bool) (l : List (Nat × Nat)) : Prop :=
  (∀ a ∈ l, less a a = false) ∧ (∀ a ∈ l, ∀ b ∈ l, ∀ c ∈ l, less a b = true → less b c = true → less a c = true) ∧
    ∀ a ∈ l, ∀ b ∈ l, ∀ c ∈ l, less a b = false → less b a = false → less b c = false → less c b = false → less a c = false ∧ less c a = false

/-- The contract of `std::sort` with the comparison: if the comparison is a strict weak order, the result is a permutation without inversions. -/
def Sorts (less : Nat × Nat → Nat × Nat → Bool) (srt : List (Nat × Nat) → List (Nat × Nat)) : Prop :=
  ∀ l, WeakOn less l → (srt l).Perm l ∧ (srt l).Pairwise fun a b => less b a = false

/-- The comparison of the multipliers is a strict weak order (even total). -/
theorem weak_permOf (D : Decomposition) (n : Nat) (copies : Nat → List Nat) (idx : Nat → Nat → Nat) (ind : List Nat) : WeakOn (lambdaLess (dmapOf D n copies idx)) (permOf D n copies ind) := by
  have hm : ∀ x ∈ permOf D n copies ind, x.1 < n ∧ x.2 ≤ (copies x.1).length := by
    intro x hx
    have := mem_permOf.1 hx
    exact ⟨this.1, this.2.2.2.1⟩
  have hiff : ∀ a ∈ permOf D n copies ind, ∀ b ∈ permOf D n copies ind, (lambdaLess (dmapOf D n copies idx) a b = true ↔ glueLt copies a b) := by
    intro a ha b hb
    exact lambdaLess_iff (hm a ha).1 (hm b hb).1 (hm a ha).2 (hm b hb).2
  have heq : ∀ a ∈ permOf D n copies ind, ∀ b ∈ permOf D n copies ind, lambdaLess (dmapOf D n copies idx) a b = false → lambdaLess (dmapOf D n copies idx) b a = false → a = b := by
    intro a ha b hb h1 h2
    by_cases hab : a = b
    · exact hab
    · have := (hiff a ha b hb).2 (glueLt_total (hm a ha).2 (hm b hb).2 (fun h => by rw [(hiff b hb a ha).2 h] at h2; cases h2) hab)
      rw [this] at h1; cases h1
  have hirr : ∀ a ∈ permOf D n copies ind, lambdaLess (dmapOf D n copies idx) a a = false := by
    intro a ha
    cases h : lambdaLess (dmapOf D n copies idx) a a with
    | false => rfl
    | true => exact absurd ((hiff a ha a ha).1 h) glueLt_irrefl
  refine ⟨hirr, ?_, ?_⟩
  · intro a ha b hb c hc h1 h2
    exact (hiff a ha c hc).2 (glueLt_trans ((hiff a ha b hb).1 h1) ((hiff b hb c hc).1 h2))
  · intro a ha b hb c hc h1 h2 h3 h4
    have e1 := heq a ha b hb h1 h2
    have e2 := heq b hb c hc h3 h4
    subst e1; subst e2
    exact ⟨hirr _ ha, hirr _ ha⟩

theorem sorted_permOf {D : Decomposition} {n : Nat} {copies : Nat → List Nat} {idx : Nat → Nat → Nat} {ind : List Nat} {srt : List (Nat × Nat) → List (Nat × Nat)}
    (hsrt : Sorts (lambdaLess (dmapOf D n copies idx)) srt) : (srt (permOf D n copies ind)).Pairwise (glueLt copies) := by
  obtain ⟨h1, h2⟩ := hsrt (permOf D n copies ind) (weak_permOf ..)
  have hnd : (srt (permOf D n copies ind)).Nodup := h1.nodup_iff.2 (permOf_nodup ..)
  have hm : ∀ x ∈ srt (permOf D n copies ind), x.1 < n ∧ x.2 ≤ (copies x.1).length := by
    intro x hx
    have := mem_permOf.1 (h1.mem_iff.1 hx)
    exact ⟨this.1, this.2.2.2.1⟩
  refine (List.Pairwise.and h2 hnd).imp_of_mem ?_
  intro a b ha hb hab
  obtain ⟨ha1, ha2⟩ := hm a ha
  obtain ⟨hb1, hb2⟩ := hm b hb
  refine glueLt_total ha2 hb2 ?_ hab.2
  intro hlt
  rw [(lambdaLess_iff hb1 ha1 hb2 ha2).2 hlt] at hab
  cases hab.1

/-! ### Coefficients -/

variable {K : Type} [Field K]

/-- The coefficient of the copy `c` in a multiplier on `s` copies. -/
def coef (sq : K → K) (s c : Nat) : K :=
  if c < s - 1 then sq (1 + ((s - 1 : Nat) : K) / (((s - 1) * (s - 1) : Nat) : K)) / ((s : Nat) : K)
  else -sq (1 + ((s - 1 : Nat) : K) / (((s - 1) * (s - 1) : Nat) : K)) * ((s - 1 : Nat) : K) / ((s : Nat) : K)

theorem coefRow_spec (sq : K → K) {maxM r : Nat} (hr : r + 1 < maxM) {vals : List K} (hl : vals.length = (maxM - 1) * maxM) :
    ∃ w, coefRow sq maxM r vals = some w ∧ w.length = vals.length ∧ ∀ i, w[i]? = if r * maxM ≤ i ∧ i < r * maxM + (r + 2) then some (coef sq (r + 2) (i - r * maxM)) else vals[i]? := by
  have hbound : r * maxM + maxM ≤ vals.length := by
    rw [hl, ← Nat.succ_mul]
    exact Nat.mul_le_mul_right _ (by omega)
  unfold coefRow
  dsimp only
  obtain ⟨u, h1, h2, h3⟩ := forLoop_inv (Nat.zero_le (r + 1)) vals (fun c vals => wr vals (r * maxM + c) (sq (1 + ((r + 1 : Nat) : K) / (((r + 1) * (r + 1) : Nat) : K)) / ((r + 1 + 1 : Nat) : K)))
    (fun c u => u.length = vals.length ∧ ∀ i, u[i]? = if r * maxM ≤ i ∧ i < r * maxM + c then some (coef sq (r + 2) (i - r * maxM)) else vals[i]?) (by
      refine ⟨rfl, ?_⟩
      intro i
      rw [if_neg (by omega)]) (by
      intro c _ hc u hu
      obtain ⟨u1, u2⟩ := hu
      rw [wr_eq_some (by omega)]
      refine ⟨_, rfl, by rw [List.length_set, u1], ?_⟩
      intro i
      rw [Verif.Csx.getElem?_set' _ _ _ _ (by omega), u2]
      by_cases hi : r * maxM + c = i
      · rw [if_pos hi, if_pos (by omega)]
        unfold coef
        rw [if_pos (by omega)]
        rfl
      · rw [if_neg hi]
        by_cases hi' : r * maxM ≤ i ∧ i < r * maxM + c
        · rw [if_pos hi', if_pos (by omega)]
        · rw [if_neg hi', if_neg (by omega)])
  rw [h1]
  simp only [Option.bind_eq_bind, Option.bind_some]
  rw [wr_eq_some (by omega)]
  refine ⟨_, rfl, by rw [List.length_set, h2], ?_⟩
  intro i
  rw [Verif.Csx.getElem?_set' _ _ _ _ (by omega), h3]
  by_cases hi : r * maxM + (r + 1) = i
  · rw [if_pos hi, if_pos (by omega)]
    unfold coef
    rw [if_neg (by omega)]
    rfl
  · rw [if_neg hi]
    by_cases hi' : r * maxM ≤ i ∧ i < r * maxM + (r + 1)
    · rw [if_pos hi', if_pos (by omega)]
    · rw [if_neg hi', if_neg (by omega)]

theorem coefficients_spec (sq : K → K) (maxM : Nat) : ∃ w, coefficients sq maxM = some w ∧ ∀ s c, 2 ≤ s → s ≤ maxM → c < s → w[(s - 2) * maxM + c]? = some (coef sq s c) := by
  unfold coefficients
  obtain ⟨w, h1, h2, h3⟩ := forLoop_inv (Nat.zero_le (maxM - 1)) (List.replicate ((maxM - 1) * maxM) (0 : K)) (fun r vals => coefRow sq maxM r vals)
    (fun r w => w.length = (maxM - 1) * maxM ∧ ∀ s c, 2 ≤ s → s - 2 < r → c < s → w[(s - 2) * maxM + c]? = some (coef sq s c)) (by
      refine ⟨List.length_replicate, by intro s c _ h; omega⟩) (by
      intro r _ hr u hu
      obtain ⟨w, w1, w2, w3⟩ := coefRow_spec sq (maxM := maxM) (r := r) (by omega) hu.1
      refine ⟨w, w1, by rw [w2, hu.1], ?_⟩
      intro s c hs hsr hc
      rw [w3]
      by_cases he : s - 2 = r
      · have : s = r + 2 := by omega
        subst this
        rw [Nat.add_sub_cancel, if_pos (by omega), Nat.add_sub_cancel_left]
      · have := Nat.mul_le_mul_right maxM (show s - 2 + 1 ≤ r by omega)
        rw [Nat.succ_mul] at this
        rw [if_neg (by omega), hu.2 s c hs (by omega) hc])
  refine ⟨w, h1, ?_⟩
  intro s c hs hsm hc
  exact h3 s c hs (by omega) hc

end Verif.Feti
