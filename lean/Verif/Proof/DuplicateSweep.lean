import Verif.Proof.DuplicateNodes
/-! The sweep over a leaf and the loop over the leaves. -/
namespace Verif.KdTree

open Verif.Csx

variable {K : Type} [AddCommGroup K] [LinearOrder K] [IsOrderedAddMonoid K] {n : Nat} {perm : List Nat} {X : Nat → Nat} {coord : Nat → Nat → K} {eps : K}

omit [IsOrderedAddMonoid K] in
theorem moveLeft_spec (hP : Points n perm X) (dup : List (Option Nat)) (hd : dup.length = n) {right : Nat} (hr : right < n) : ∀ (k left : Nat), left + k = right →
    ∃ left', moveLeft n coord eps perm dup right k left = some left' ∧ left ≤ left' ∧ left' ≤ right ∧
      (∀ m, left ≤ m → m < left' → coord (X m) 0 + eps < coord (X right) 0 ∨ ∃ r, dup[m]? = some (some r)) ∧
      (left' < right → ¬ coord (X left') 0 + eps < coord (X right) 0) := by
  intro k
  induction k with
  | zero => intro left h; exact ⟨left, rfl, Nat.le_refl _, by omega, fun m h1 h2 => by omega, fun h2 => by omega⟩
  | succ k ih =>
      intro left h
      unfold moveLeft
      simp only [Option.bind_eq_bind]
      rw [hP.pointAt (by omega), hP.pointAt hr, Option.bind_some, Option.bind_some, List.getElem?_eq_getElem (by omega), Option.bind_some]
      by_cases hc : coord (X left) 0 + eps < coord (X right) 0 ∨ dup[left] ≠ none
      · rw [if_pos hc]
        obtain ⟨left', e1, e2, e3, e4, e5⟩ := ih (left + 1) (by omega)
        refine ⟨left', e1, by omega, e3, ?_, e5⟩
        intro m h1 h2
        by_cases hm : m = left
        · subst hm
          rcases hc with hc | hc
          · exact Or.inl hc
          · obtain ⟨r, hr'⟩ := Option.ne_none_iff_exists'.1 hc
            exact Or.inr ⟨r, by rw [List.getElem?_eq_getElem (by omega), hr']⟩
        · exact e4 m (by omega) h2
      · rw [if_neg hc]
        exact ⟨left, rfl, Nat.le_refl _, by omega, fun m h1 h2 => by omega, fun _ h => hc (Or.inl h)⟩

omit [IsOrderedAddMonoid K] in
theorem skipLow_spec (hP : Points n perm X) {right : Nat} (hr : right < n) : ∀ (k mid : Nat), mid + k = right →
    ∃ mid', skipLow n coord eps perm right k mid = some mid' ∧ mid ≤ mid' ∧ mid' ≤ right ∧ (∀ m, mid ≤ m → m < mid' → coord (X m) 1 + eps < coord (X right) 1) ∧
      (mid' < right → ¬ coord (X mid') 1 + eps < coord (X right) 1) := by
  intro k
  induction k with
  | zero => intro mid h; exact ⟨mid, rfl, Nat.le_refl _, by omega, fun m h1 h2 => by omega, fun h2 => by omega⟩
  | succ k ih =>
      intro mid h
      unfold skipLow
      simp only [Option.bind_eq_bind]
      rw [hP.pointAt (by omega), hP.pointAt hr, Option.bind_some, Option.bind_some]
      by_cases hc : coord (X mid) 1 + eps < coord (X right) 1
      · rw [if_pos hc]
        obtain ⟨mid', e1, e2, e3, e4, e5⟩ := ih (mid + 1) (by omega)
        refine ⟨mid', e1, by omega, e3, ?_, e5⟩
        intro m h1 h2
        by_cases hm : m = mid
        · subst hm; exact hc
        · exact e4 m (by omega) h2
      · rw [if_neg hc]
        exact ⟨mid, rfl, Nat.le_refl _, by omega, fun m h1 h2 => by omega, fun _ => hc⟩

omit [IsOrderedAddMonoid K] in
theorem skipHigh_spec (hP : Points n perm X) {right : Nat} (hr : right < n) : ∀ (k mid : Nat), mid + k = right →
    ∃ mid', skipHigh n coord eps perm right k mid = some mid' ∧ mid ≤ mid' ∧ mid' ≤ right ∧ (∀ m, mid ≤ m → m < mid' → coord (X right) 1 + eps < coord (X m) 1) ∧
      (mid < right → coord (X right) 1 + eps < coord (X mid) 1 → mid < mid') := by
  intro k
  induction k with
  | zero => intro mid h; exact ⟨mid, rfl, Nat.le_refl _, by omega, fun m h1 h2 => by omega, fun h2 => by omega⟩
  | succ k ih =>
      intro mid h
      unfold skipHigh
      simp only [Option.bind_eq_bind]
      rw [hP.pointAt (by omega), hP.pointAt hr, Option.bind_some, Option.bind_some]
      by_cases hc : coord (X right) 1 + eps < coord (X mid) 1
      · rw [if_pos hc]
        obtain ⟨mid', e1, e2, e3, e4, e5⟩ := ih (mid + 1) (by omega)
        refine ⟨mid', e1, by omega, e3, ?_, fun _ _ => by omega⟩
        intro m h1 h2
        by_cases hm : m = mid
        · subst hm; exact hc
        · exact e4 m (by omega) h2
      · rw [if_neg hc]
        exact ⟨mid, rfl, Nat.le_refl _, by omega, fun m h1 h2 => by omega, fun _ h => absurd h hc⟩

theorem midTest_spec (hP : Points n perm X) {right left mid : Nat} (hr : right < n) (hmid : mid < right) (hleft : left ≤ mid)
    (hx : ∀ m, left ≤ m → m < right → coord (X right) 0 ≤ coord (X m) 0 + eps ∧ coord (X m) 0 ≤ coord (X right) 0 + eps)
    (hlow : ¬ coord (X mid) 1 + eps < coord (X right) 1) (st : DupState) (hI : DInv n X coord eps right st) :
    ∃ mid' st', midTest n coord eps perm right mid st = some (mid', st') ∧ DInv n X coord eps right st' ∧ OnlyAt right st st' ∧
      ((mid' = mid + 1 ∧ (st.1[mid]? = some none → Near coord eps (X right) (X mid) → Dup st' right)) ∨ (mid' = mid ∧ st' = st ∧ coord (X right) 1 + eps < coord (X mid) 1)) := by
  unfold midTest
  rw [if_neg (by omega)]
  simp only [Option.bind_eq_bind]
  have hl : mid < st.1.length := by rw [hI.len]; omega
  rw [hP.pointAt (by omega), hP.pointAt hr, Option.bind_some, Option.bind_some]
  by_cases hc : coord (X mid) 1 - eps ≤ coord (X right) 1
  · rw [if_pos hc, List.getElem?_eq_getElem hl, Option.bind_some]
    by_cases hz : st.1[mid] = none ∧ coord (X right) 2 ≤ coord (X mid) 2 + eps ∧ coord (X mid) 2 - eps ≤ coord (X right) 2
    · rw [if_pos hz]
      have hn : Near coord eps (X right) (X mid) := by
        intro d hd
        match d, hd with
        | 0, _ => exact hx mid hleft hmid
        | 1, _ => exact ⟨not_lt.1 hlow, sub_le_iff_le_add.1 hc⟩
        | 2, _ => exact ⟨hz.2.1, sub_le_iff_le_add.1 hz.2.2⟩
      obtain ⟨st', e1, e2, e3, e4⟩ := mergeAt_spec hP hI hr (Nat.le_refl _) hmid hn
      rw [e1, Option.bind_some]
      exact ⟨mid + 1, st', rfl, e2, e3, Or.inl ⟨rfl, fun _ _ => e4⟩⟩
    · rw [if_neg hz, Option.bind_some]
      refine ⟨mid + 1, st, rfl, hI, OnlyAt.refl _ _, Or.inl ⟨rfl, ?_⟩⟩
      intro hd hn
      exfalso; apply hz
      injection hd with hd
      exact ⟨hd, (hn 2 (by omega)).1, sub_le_iff_le_add.2 (hn 2 (by omega)).2⟩
  · rw [if_neg hc]
    exact ⟨mid, st, rfl, hI, OnlyAt.refl _ _, Or.inr ⟨rfl, rfl, by rw [sub_le_iff_le_add] at hc; exact not_le.1 hc⟩⟩

theorem midLoop_spec (hP : Points n perm X) {right left : Nat} (hr : right < n)
    (hx : ∀ m, left ≤ m → m < right → coord (X right) 0 ≤ coord (X m) 0 + eps ∧ coord (X m) 0 ≤ coord (X right) 0 + eps) :
    ∀ (fuel mid : Nat) (st : DupState), left ≤ mid → mid ≤ right → right < mid + fuel → DInv n X coord eps right st →
    ∃ st', midLoop n coord eps perm right fuel mid st = some st' ∧ DInv n X coord eps right st' ∧ OnlyAt right st st' ∧
      ∀ m, mid ≤ m → m < right → st.1[m]? = some none → Near coord eps (X right) (X m) → Dup st' right := by
  intro fuel
  induction fuel with
  | zero => intro mid st _ _ h; omega
  | succ fuel ih =>
      intro mid st h1 h2 h3 hI
      unfold midLoop
      by_cases hm : mid = right
      · rw [if_pos hm]
        exact ⟨st, rfl, hI, OnlyAt.refl _ _, fun m m1 m2 => by omega⟩
      · rw [if_neg hm]
        simp only [Option.bind_eq_bind]
        obtain ⟨mid1, a1, a2, a3, a4, a5⟩ := skipLow_spec (coord := coord) (eps := eps) hP hr (right - mid) mid (by omega)
        rw [a1, Option.bind_some]
        by_cases hm1 : mid1 = right
        · -- nothing more
          have t1 : midTest n coord eps perm right mid1 st = some (mid1, st) := by unfold midTest; rw [if_pos hm1]
          rw [t1, Option.bind_some]
          dsimp only
          rw [hm1, Nat.sub_self]
          have t2 : skipHigh n coord eps perm right 0 right = some right := rfl
          rw [t2, Option.bind_some]
          have t3 : midLoop n coord eps perm right fuel right st = some st := by
            obtain ⟨f, rfl⟩ : ∃ f, fuel = f + 1 := ⟨fuel - 1, by omega⟩
            unfold midLoop; rw [if_pos rfl]
          refine ⟨st, t3, hI, OnlyAt.refl _ _, ?_⟩
          intro m m1 m2 _ hn
          exact absurd (hn 1 (by omega)).1 (not_le.2 (a4 m m1 (by omega)))
        · obtain ⟨mid2, st2, b1, b2, b3, b4⟩ := midTest_spec hP hr (by omega : mid1 < right) (by omega : left ≤ mid1) hx (a5 (by omega)) st hI
          rw [b1, Option.bind_some]
          dsimp only
          have hm2 : mid1 ≤ mid2 ∧ mid2 ≤ right := by rcases b4 with h | h <;> omega
          obtain ⟨mid3, c1, c2, c3, c4, c5⟩ := skipHigh_spec (coord := coord) (eps := eps) hP hr (right - mid2) mid2 (by omega)
          rw [c1, Option.bind_some]
          have hprog : mid < mid3 := by
            rcases b4 with h | ⟨h, _, h'⟩
            · omega
            · have := c5 (by omega) (by rw [h]; exact h'); omega
          obtain ⟨st3, d1, d2, d3, d4⟩ := ih mid3 st2 (by omega) c3 (by omega) b2
          refine ⟨st3, d1, d2, b3.trans d3, ?_⟩
          intro m m1 m2 hd hn
          by_cases q1 : m < mid1
          · exact absurd (hn 1 (by omega)).1 (not_le.2 (a4 m m1 q1))
          · by_cases q2 : m < mid2
            · rcases b4 with ⟨h, h'⟩ | ⟨h, _⟩
              · have : m = mid1 := by omega
                subst this
                exact d3.dup (h' hd hn)
              · omega
            · by_cases q3 : m < mid3
              · exact absurd (hn 1 (by omega)).2 (not_le.2 (c4 m (by omega) q3))
              · exact d4 m (by omega) m2 (by rw [b3.1 m (by omega)]; exact hd) hn

/-- Duplicates stay duplicates. -/
def Keeps (b : Nat) (st st' : DupState) : Prop := (∀ q, q < b → st'.1[q]? = st.1[q]?) ∧ ∀ q, Dup st q → Dup st' q

theorem Keeps.refl (b : Nat) (st : DupState) : Keeps b st st := ⟨fun _ _ => rfl, fun _ h => h⟩
theorem Keeps.trans {b : Nat} {st st' st'' : DupState} (h1 : Keeps b st st') (h2 : Keeps b st' st'') : Keeps b st st'' :=
  ⟨fun q hq => (h2.1 q hq).trans (h1.1 q hq), fun q h => h2.2 q (h1.2 q h)⟩
theorem OnlyAt.keeps {b p : Nat} {st st' : DupState} (h : OnlyAt p st st') (hb : b ≤ p) : Keeps b st st' := ⟨fun q hq => h.1 q (by omega), fun _ hd => h.dup hd⟩

theorem sweep_spec (hP : Points n perm X) (heps : 0 ≤ eps) {b e : Nat} (hbe : b < e) (he : e ≤ n) (hsort : ∀ p r, b ≤ p → p < r → r < e → coord (X p) 0 ≤ coord (X r) 0) (st : DupState)
    (hI : DInv n X coord eps b st) :
    ∃ st', sweep n coord eps perm b e st = some st' ∧ DInv n X coord eps e st' ∧ Keeps b st st' ∧
      ∀ m r, b ≤ m → m < r → r < e → ¬ Dup st' m → ¬ Dup st' r → ¬ Near coord eps (X m) (X r) := by
  unfold sweep
  simp only [Option.bind_eq_bind]
  obtain ⟨⟨left, st'⟩, e1, _, _, e4, e5, e6, _⟩ := forLoop_inv (show b + 1 ≤ e from hbe) (b, st) (fun right (x : Nat × DupState) =>
      (x.2.1[right]?).bind fun d => if d ≠ none then some x else
        (moveLeft n coord eps perm x.2.1 right (right - x.1) x.1).bind fun left => (midLoop n coord eps perm right (right - left + 1) left x.2).bind fun st => some (left, st))
    (fun right (x : Nat × DupState) => b ≤ x.1 ∧ x.1 < right ∧ DInv n X coord eps right x.2 ∧ Keeps b st x.2 ∧
      (∀ m r, b ≤ m → m < r → r < right → ¬ Dup x.2 m → ¬ Dup x.2 r → ¬ Near coord eps (X m) (X r)) ∧
      ∀ m, b ≤ m → m < x.1 → Dup x.2 m ∨ ∀ r, right ≤ r → r < e → coord (X m) 0 + eps < coord (X r) 0)
    ⟨Nat.le_refl _, by dsimp only; omega, hI.mono (by omega), Keeps.refl _ _, fun m r h1 h2 h3 => by omega, fun m h1 h2 => by dsimp only at h2; omega⟩ (by
      intro right r1 r2 ⟨left, st1⟩ ⟨i1, i2, i3, i4, i5, i6⟩
      dsimp only at i1 i2 i3 i4 i5 i6 ⊢
      have hl : right < st1.1.length := by rw [i3.len]; omega
      rw [List.getElem?_eq_getElem hl, Option.bind_some]
      by_cases hd : st1.1[right] ≠ none
      · rw [if_pos hd]
        have hdup : Dup st1 right := by
          obtain ⟨r, hr⟩ := Option.ne_none_iff_exists'.1 hd
          exact ⟨r, by rw [List.getElem?_eq_getElem hl, hr]⟩
        refine ⟨_, rfl, i1, by omega, i3.mono (by omega), i4, ?_, ?_⟩
        · intro m r h1 h2 h3 hm hr
          by_cases hrr : r = right
          · subst hrr; exact absurd hdup hr
          · exact i5 m r h1 h2 (by omega) hm hr
        · intro m h1 h2
          rcases i6 m h1 h2 with h | h
          · exact Or.inl h
          · exact Or.inr fun r hr => h r (by omega)
      · rw [if_neg hd]
        obtain ⟨left', a1, a2, a3, a4, a5⟩ := moveLeft_spec (coord := coord) (eps := eps) hP st1.1 i3.len (by omega : right < n) (right - left) left (by omega)
        rw [a1, Option.bind_some]
        have hx : ∀ m, left' ≤ m → m < right → coord (X right) 0 ≤ coord (X m) 0 + eps ∧ coord (X m) 0 ≤ coord (X right) 0 + eps := by
          intro m m1 m2
          constructor
          · refine le_trans (not_lt.1 (a5 (by omega))) (add_le_add_left ?_ eps)
            by_cases hm : left' = m
            · rw [hm]
            · exact hsort left' m (by omega) (by omega) (by omega)
          · exact le_trans (hsort m right (by omega) m2 r2) (le_add_of_nonneg_right heps)
        obtain ⟨st2, c1, c2, c3, c4⟩ := midLoop_spec hP (by omega : right < n) hx (right - left' + 1) left' st1 (Nat.le_refl _) a3 (by omega) i3
        rw [c1, Option.bind_some]
        refine ⟨_, rfl, by dsimp only; omega, by dsimp only; omega, c2.mono (by omega), i4.trans (c3.keeps (by omega)), ?_, ?_⟩
        · intro m r h1 h2 h3 hm hr hn
          dsimp only at hm hr
          have hm1 : ¬ Dup st1 m := fun h => hm (c3.dup h)
          have hr1 : ¬ Dup st1 r := fun h => hr (c3.dup h)
          by_cases hrr : r = right
          · subst hrr
            by_cases hml : m < left
            · rcases i6 m h1 hml with h | h
              · exact hm1 h
              · exact absurd (hn 0 (by omega)).2 (not_le.2 (h r (Nat.le_refl _) r2))
            · by_cases hml' : m < left'
              · rcases a4 m (by omega) hml' with h | h
                · exact absurd (hn 0 (by omega)).2 (not_le.2 h)
                · exact hm1 h
              · exact hr (c4 m (by omega) h2 (not_dup (by rw [i3.len]; omega) hm1) hn.symm)
          · exact i5 m r h1 h2 (by omega) hm1 hr1 hn
        · intro m h1 h2
          dsimp only at h2 ⊢
          by_cases hml : m < left
          · rcases i6 m h1 hml with h | h
            · exact Or.inl (c3.dup h)
            · exact Or.inr fun r hr => h r (by omega)
          · rcases a4 m (by omega) h2 with h | h
            · right
              intro r r3 r4
              exact lt_of_lt_of_le h (hsort right r (by omega) (by omega) r4)
            · exact Or.inl (c3.dup h))
  refine ⟨st', ?_, ?_, e5, e6⟩
  · have : ∀ o : Option (Nat × DupState), o = some (left, st') → (o.bind fun x => some x.2) = some st' := by intro o h; rw [h]; rfl
    exact this _ e1
  · exact e4

end Verif.KdTree
