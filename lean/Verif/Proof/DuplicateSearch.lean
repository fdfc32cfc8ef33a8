import Verif.Proof.DuplicateSweep
/-! The loop over the leaves. -/
namespace Verif.KdTree

open Verif.Csx

variable {K : Type} [AddCommGroup K] [LinearOrder K] [IsOrderedAddMonoid K] {n : Nat} {perm : List Nat} {X : Nat → Nat} {coord : Nat → Nat → K} {eps : K} {L : Nat} {sp : List (Splitter K)}

omit [AddCommGroup K] [IsOrderedAddMonoid K] in
/-- Every point before a node is below `boxMin` of the node in some coordinate. -/
theorem boxMin_before (hT : TreeOk n perm X coord L sp) : ∀ (l i fuel : Nat) (min : Nat → K), l ≤ L → i < 2 ^ l → 2 ^ l + i < fuel →
    ∃ min', boxMin sp fuel (2 ^ l + i) min = some min' ∧ ∀ r, r < cut (idxOf sp) n l i → ∃ d, d < 3 ∧ coord (X r) d ≤ min' d := by
  intro l
  induction l with
  | zero =>
      intro i fuel min _ hi hf
      obtain ⟨f, rfl⟩ : ∃ f, fuel = f + 1 := ⟨fuel - 1, by omega⟩
      have : i = 0 := by simpa using hi
      subst this
      exact ⟨min, rfl, fun r h => absurd h (Nat.not_lt_zero _)⟩
  | succ l ih =>
      intro i fuel min hl hi hf
      obtain ⟨f, rfl⟩ : ∃ f, fuel = f + 1 := ⟨fuel - 1, by omega⟩
      have h2l : 2 ^ (l + 1) = 2 * 2 ^ l := by rw [Nat.pow_succ]; omega
      have h0 : 0 < 2 ^ l := Nat.two_pow_pos l
      obtain ⟨q, q1, q2, q3, q4, q5, q6, q7⟩ := hT.node l (i / 2) (by omega) (by omega)
      have hdiv : (2 ^ (l + 1) + i) / 2 = 2 ^ l + i / 2 := by omega
      unfold boxMin
      dsimp only
      rw [hdiv, if_neg (by omega)]
      by_cases hm : i % 2 = 0
      · rw [if_neg (by omega)]
        obtain ⟨min', a1, a2⟩ := ih (i / 2) f min (by omega) (by omega) (by omega)
        refine ⟨min', a1, ?_⟩
        intro r hr
        obtain ⟨j, rfl⟩ : ∃ j, i = 2 * j := ⟨i / 2, by omega⟩
        rw [cut_double] at hr
        rw [show 2 * j / 2 = j by omega] at a2
        exact a2 r hr
      · rw [if_pos (by omega)]
        simp only [Option.bind_eq_bind]
        rw [q1, Option.bind_some]
        obtain ⟨min', a1, a2⟩ := ih (i / 2) f (fun d => if d = q.d ∧ min q.d < q.value then q.value else min d) (by omega) (by omega) (by omega)
        refine ⟨min', a1, ?_⟩
        intro r hr
        obtain ⟨j, rfl⟩ : ∃ j, i = 2 * j + 1 := ⟨i / 2, by omega⟩
        rw [cut_odd] at hr
        rw [show (2 * j + 1) / 2 = j by omega] at a1 a2 q1 q2 q3 q6
        rw [idxOf_some q1] at hr
        by_cases hrl : r < cut (idxOf sp) n l j
        · exact a2 r hrl
        · obtain ⟨min'', b1, b2, _⟩ := boxMin_spec coord hT.node (fun _ _ _ _ h => h) l j f (fun d => if d = q.d ∧ min q.d < q.value then q.value else min d) (by omega) (by omega) (by omega)
          rw [a1] at b1
          injection b1 with b1
          subst b1
          have hcut : cut (idxOf sp) n l (j + 1) ≤ n := by
            conv => rhs; rw [← cut_last (idxOf sp) n l]
            exact mono_of_step (cut_step hT.node l (by omega)) _ _ (by omega) (Nat.le_refl _)
          refine ⟨q.d, q5, le_trans (q6 r _ (by omega) hr (hT.pts.get r (by omega))) (le_trans ?_ (b2 q.d))⟩
          by_cases hc : min q.d < q.value
          · rw [if_pos ⟨rfl, hc⟩]
          · rw [if_neg (fun h => hc h.2)]; exact not_lt.1 hc

theorem border_spec (hT : TreeOk n perm X coord L sp) {m : Nat} (hm : m < 2 ^ L) (min' : Nat → K) (hmin : ∀ r, r < cut (idxOf sp) n L m → ∃ d, d < 3 ∧ coord (X r) d ≤ min' d) (st : DupState)
    (hI : DInv n X coord eps (cut (idxOf sp) n L m) st) :
    ∃ st', borderPhase n coord eps perm sp (2 ^ L + m) (cut (idxOf sp) n L m) (cut (idxOf sp) n L (m + 1)) min' st = some st' ∧ DInv n X coord eps (cut (idxOf sp) n L m) st' ∧
      Keeps (cut (idxOf sp) n L m) st st' ∧ ∀ p q, cut (idxOf sp) n L m ≤ p → p < cut (idxOf sp) n L (m + 1) → q < cut (idxOf sp) n L m → Near coord eps (X p) (X q) → Dup st' p := by
  unfold borderPhase
  rw [hT.len]
  by_cases hL : 1 < 2 ^ L
  · rw [if_pos hL]
    have hL0 : L ≠ 0 := by intro h; subst h; exact absurd hL (by decide)
    have hLl : L < 2 ^ L := Nat.lt_two_pow_self
    obtain ⟨st', e1, e2, e3, e4⟩ := forLoop_inv (hT.mono m (m + 1) (by omega) (by omega)) st (fun p st => (pointAt n perm p).bind fun a =>
        if coord a 0 ≤ min' 0 + eps ∨ coord a 1 ≤ min' 1 + eps ∨ coord a 2 ≤ min' 2 + eps then treeSearch n coord eps perm sp (2 ^ L + m) p (2 ^ L) 1 st else some st)
      (fun c st' => DInv n X coord eps (cut (idxOf sp) n L m) st' ∧ Keeps (cut (idxOf sp) n L m) st st' ∧
        ∀ p q, cut (idxOf sp) n L m ≤ p → p < c → q < cut (idxOf sp) n L m → Near coord eps (X p) (X q) → Dup st' p)
      ⟨hI, Keeps.refl _ _, fun p q h1 h2 => by omega⟩ (by
        intro c c1 c2 s ⟨i1, i2, i3⟩
        have hcn : c < n := Nat.lt_of_lt_of_le c2 (hT.le (by omega))
        rw [hT.pts.pointAt hcn, Option.bind_some]
        by_cases hb : coord (X c) 0 ≤ min' 0 + eps ∨ coord (X c) 1 ≤ min' 1 + eps ∨ coord (X c) 2 ≤ min' 2 + eps
        · rw [if_pos hb]
          obtain ⟨s', a1, a2, a3, a4⟩ := treeSearch_spec hT hm hcn c1 (L - 1) 0 0 (2 ^ L) s (by omega) (by omega) (by omega) i1
          refine ⟨s', a1, a2, i2.trans (a3.keeps c1), ?_⟩
          intro p q h1 h2 h3 hn
          by_cases hp : p = c
          · subst hp
            obtain ⟨j, j1, j2, j3⟩ := find_range (c := cut (idxOf sp) n L) m q (by rw [cut_zero]; omega) h3
            have hpow : 2 ^ (L - 1 + 1) = 2 ^ L := by rw [show L - 1 + 1 = L by omega]
            exact a4 j q (by omega) (by rw [hpow]; omega) j1 j2 j3 hn
          · exact a3.dup (i3 p q h1 (by omega) h3 hn)
        · rw [if_neg hb]
          refine ⟨s, rfl, i1, i2, ?_⟩
          intro p q h1 h2 h3 hn
          by_cases hp : p = c
          · subst hp
            exfalso; apply hb
            obtain ⟨d, d1, d2⟩ := hmin q h3
            have hd := le_trans (hn d d1).1 (add_le_add_left d2 eps)
            match d, d1, hd with
            | 0, _, hd => exact Or.inl hd
            | 1, _, hd => exact Or.inr (Or.inl hd)
            | 2, _, hd => exact Or.inr (Or.inr hd)
          · exact i3 p q h1 (by omega) h3 hn)
    exact ⟨st', e1, e2, e3, e4⟩
  · rw [if_neg hL]
    have hm0 : m = 0 := by omega
    subst hm0
    refine ⟨st, rfl, hI, Keeps.refl _ _, ?_⟩
    intro p q _ _ h
    rw [cut_zero] at h; omega

theorem searchLeaf_spec (hT : TreeOk n perm X coord L sp) (heps : 0 ≤ eps) {m : Nat} (hm : m < 2 ^ L) (min : Nat → K) (st : DupState)
    (hI : DInv n X coord eps (cut (idxOf sp) n L m) st) (hC : ∀ p r, p < r → r < cut (idxOf sp) n L m → ¬ Dup st p → ¬ Dup st r → ¬ Near coord eps (X p) (X r)) :
    ∃ st', searchLeaf n L coord eps perm sp min (2 ^ L + m) st = some st' ∧ DInv n X coord eps (cut (idxOf sp) n L (m + 1)) st' ∧
      ∀ p r, p < r → r < cut (idxOf sp) n L (m + 1) → ¬ Dup st' p → ¬ Dup st' r → ¬ Near coord eps (X p) (X r) := by
  unfold searchLeaf
  simp only [Option.bind_eq_bind]
  rw [beginOf_cut sp n L m _ hm (by rw [hT.len]) (by omega), endOf_cut sp n L m _ hm (by rw [hT.len]) (by omega), Option.bind_some, Option.bind_some]
  have hmono := hT.mono m (m + 1) (by omega) (by omega)
  have hen := hT.le (i := m + 1) (by omega)
  by_cases hbe : cut (idxOf sp) n L m = cut (idxOf sp) n L (m + 1)
  · rw [if_pos hbe]
    refine ⟨st, rfl, by rw [← hbe]; exact hI, by rw [← hbe]; exact hC⟩
  · rw [if_neg hbe, Nat.max_eq_right (by omega)]
    obtain ⟨min', a1, a2⟩ := boxMin_before hT L m (2 ^ L + m + 1) min (Nat.le_refl _) hm (by omega)
    rw [a1, Option.bind_some]
    obtain ⟨st1, b1, b2, b3, b4⟩ := border_spec hT hm min' a2 st hI
    rw [b1, Option.bind_some]
    obtain ⟨st2, c1, c2, c3, c4⟩ := sweep_spec hT.pts heps (by omega) hen (hT.sorted m hm) st1 b2
    refine ⟨st2, c1, c2, ?_⟩
    intro p r h1 h2 hp hr hn
    have hp1 : ¬ Dup st1 p := fun h => hp (c3.2 p h)
    have hr1 : ¬ Dup st1 r := fun h => hr (c3.2 r h)
    by_cases hrb : r < cut (idxOf sp) n L m
    · exact hC p r h1 hrb (fun h => hp1 (b3.2 p h)) (fun h => hr1 (b3.2 r h)) hn
    · by_cases hpb : p < cut (idxOf sp) n L m
      · exact hr1 (b4 r p (by omega) h2 hpb hn.symm)
      · exact c4 p r (by omega) h1 h2 hp hr hn

omit [AddCommGroup K] [IsOrderedAddMonoid K] in
/-- The tree is as needed. -/
theorem kdtree_ok (n bucketsize : Nat) (hb : bucketsize ≠ 0) (orders : Nat → List Nat) (hord : ∀ ll, (orders ll).Perm (List.range (2 ^ ll)))
    (nth : (Nat → K) → List Nat → Nat → List Nat) (hnth : IsNth nth) (coord : Nat → Nat → K) (srt : List Nat → List Nat) (hsrt : IsSort coord srt) (zero : K) (dim : Nat → Nat)
    (hdim : ∀ l, dim l < 3) :
    ∃ levels perm sp leaf, kdBuild n bucketsize orders nth srt coord zero dim = some (perm, sp, leaf) ∧ levelsOf n bucketsize = some levels ∧ perm.Perm (List.range n) ∧
      TreeOk n perm (fun p => perm.getD p 0) coord levels sp := by
  obtain ⟨levels, perm, sp, leaf, bg, en, h1, h2, h3, h4, h5, h6, h7, _⟩ := C32_kdtree n bucketsize hb orders hord nth hnth coord srt hsrt zero dim
  refine ⟨levels, perm, sp, leaf, h1, h2, h5.perm, points_of_perm h5.perm, h3, ?_, ?_⟩
  · intro l i hl hi
    have hpw : 2 ^ (l + 1) ≤ 2 ^ levels := Nat.pow_le_pow_right (by omega) hl
    have h2l : 2 ^ (l + 1) = 2 * 2 ^ l := by rw [Nat.pow_succ]; omega
    have h2L : 2 ^ (levels + 1) = 2 * 2 ^ levels := by rw [Nat.pow_succ]; omega
    have h0 := Nat.two_pow_pos l
    have e1 := h4 (2 ^ l + i) (by omega) (by omega)
    rw [beginOf_cut sp n l i _ hi (by omega) (by omega), endOf_cut sp n l i _ hi (by omega) (by omega)] at e1
    obtain ⟨q, q1, q2, q3, q4⟩ := h6 (2 ^ l + i) (by omega) (by omega)
    have e2 := h5.split (2 ^ l + i) (by omega) (by omega)
    have e3 := h5.range (2 * (2 ^ l + i)) (by omega) (by omega)
    have e4 := h5.range (2 * (2 ^ l + i) + 1) (by omega) (by omega)
    have e5 := h5.left (2 ^ l + i) (by omega) (by omega)
    rw [idxOf_some q1] at e2 e5
    obtain ⟨b1, b2⟩ := e1
    injection b1 with b1
    injection b2 with b2
    refine ⟨q, q1, ?_, ?_, ?_, by show q.d < 3; rw [q2]; exact hdim _, ?_, ?_⟩
    · rw [b1]; omega
    · rw [b2]; omega
    · rw [b1, b2]; exact e5
    · rw [b1]
      intro p x p1 p2 hx
      exact q3 p x (by omega) (by omega) hx
    · rw [b2]
      intro p x p1 p2 hx
      exact q4 p x (by omega) (by omega) hx
  · intro i hi p r p1 p2 p3
    have h2L : 2 ^ (levels + 1) = 2 * 2 ^ levels := by rw [Nat.pow_succ]; omega
    have e1 := h4 (2 ^ levels + i) (by have := Nat.two_pow_pos levels; omega) (by omega)
    rw [beginOf_cut sp n levels i _ hi (by omega) (by omega), endOf_cut sp n levels i _ hi (by omega) (by omega)] at e1
    obtain ⟨b1, b2⟩ := e1
    injection b1 with b1
    injection b2 with b2
    have e3 := h5.range (2 ^ levels + i) (by have := Nat.two_pow_pos levels; omega) (by omega)
    have hP := points_of_perm h5.perm
    have := h7 (2 ^ levels + i) (by omega) (by omega) p r _ _ (by omega) p2 (by omega) (hP.get p (by omega)) (hP.get r (by omega))
    rcases this with h | ⟨h, _⟩
    · exact le_of_lt h
    · exact le_of_eq h

end Verif.KdTree
