import Verif.Model.Utils
import Verif.Spec.Utils
namespace Verif.Utils

theorem sum_take_succ (v : List Int) (i : Nat) (h : i < v.length) :
    (v.take (i + 1)).sum = (v.take i).sum + v[i] := by
  rw [List.take_succ_eq_append_getElem h, List.sum_append]; simp

theorem sizesToOffsets_spec (v : List Int) (offset : Int) :
    ∃ w, sizesToOffsets v offset = some (w, offset + v.sum) ∧ w.length = v.length ∧
      ∀ i, i < v.length → w[i]? = some (offset + (v.take i).sum) := by
  obtain ⟨⟨w, s⟩, e, hI⟩ := forLoop_inv (Nat.zero_le v.length) (v, offset)
    (fun i (p : List Int × Int) => do
      let tmp ← p.1[i]?
      let v ← wr p.1 i p.2
      some (v, p.2 + tmp))
    (fun i p => p.1.length = v.length ∧ p.2 = offset + (v.take i).sum ∧
      (∀ j, j < i → p.1[j]? = some (offset + (v.take j).sum)) ∧ (∀ j, i ≤ j → p.1[j]? = v[j]?))
    ⟨rfl, by simp, by simp, by simp⟩
    (by
      rintro i - hi ⟨w, s⟩ ⟨hl, hs, h1, h2⟩
      simp only at hl hs h1 h2
      have hv : w[i]? = some v[i] := by rw [h2 i (Nat.le_refl _)]; simp [hi]
      refine ⟨(w.set i s, s + v[i]), ?_, ?_, ?_, ?_, ?_⟩
      · simp [hv, wr_eq_some (l := w) (i := i) (v := s) (by omega)]
      · simpa using hl
      · simp only [hs, sum_take_succ v i hi]; omega
      · intro j hj
        simp only [List.getElem?_set]
        split
        · next h => subst h; simp [hl, hi, hs]
        · exact h1 j (by omega)
      · intro j hj
        simp only [List.getElem?_set]
        rw [if_neg (by omega)]
        exact h2 j (by omega))
  refine ⟨w, ?_, hI.1, ?_⟩
  · have : s = offset + v.sum := by simpa using hI.2.1
    subst this; exact e
  · intro i hi; exact hI.2.2.1 i hi

theorem colSum_succ (m : List (List Int)) (t i : Nat) (x : Int) (h : rd2 m t i = some x) :
    colSum m (t + 1) i = colSum m t i + x := by
  unfold rd2 at h
  cases hr : m[t]? with
  | none => simp [hr] at h
  | some r =>
    simp only [hr, Option.bind_some] at h
    have ht : t < m.length := (List.getElem?_eq_some_iff.1 hr).1
    have hrt : m[t] = r := (List.getElem?_eq_some_iff.1 hr).2
    unfold colSum
    rw [List.take_succ_eq_append_getElem ht]; simp [hrt, h]

theorem rd2_wr2 {α : Type} {m m' : List (List α)} {t i : Nat} {x : α} (h : wr2 m t i x = some m') :
    (∀ t' i', rd2 m' t' i' = if t' = t ∧ i' = i then some x else rd2 m t' i') ∧
    m'.length = m.length ∧ (∀ s : Nat, (m'[s]?).map List.length = (m[s]?).map List.length) := by
  unfold wr2 wr at h
  cases hr : m[t]? with
  | none => simp [hr] at h
  | some r =>
    have ht : t < m.length := (List.getElem?_eq_some_iff.1 hr).1
    simp only [hr, Option.bind_some] at h
    split at h
    · next hi =>
      simp only [Option.bind_some, if_pos ht, Option.some.injEq] at h
      subst h
      refine ⟨?_, by simp, ?_⟩
      · intro t' i'
        unfold rd2
        simp only [List.getElem?_set]
        by_cases h1 : t = t'
        · subst h1
          simp only [if_true, ht, Option.bind_some, List.getElem?_set, true_and]
          by_cases h2 : i = i'
          · subst h2; simp [hi]
          · rw [if_neg h2, if_neg (fun h => h2 h.symm)]; simp [hr]
        · rw [if_neg h1, if_neg (fun h => h1 h.1.symm)]
      · intro s
        simp only [List.getElem?_set]
        split
        · next h1 => subst h1; rw [hr]; simp [ht]
        · rfl
    · simp at h

theorem wr2_isSome {α : Type} {m : List (List α)} {t i : Nat} {x y : α} (h : rd2 m t i = some y) :
    ∃ m', wr2 m t i x = some m' := by
  unfold rd2 at h
  cases hr : m[t]? with
  | none => simp [hr] at h
  | some r =>
    simp only [hr, Option.bind_some] at h
    have ht : t < m.length := (List.getElem?_eq_some_iff.1 hr).1
    have hi : i < r.length := (List.getElem?_eq_some_iff.1 h).1
    exact ⟨m.set t (r.set i x), by simp only [wr2, hr, wr, Option.bind_some, if_pos hi, if_pos ht]⟩

theorem sizesToOffsets2_spec (sizes : List (List Int)) (offsets : List Int) (n : Nat)
    (hne : sizes ≠ []) (hn : ∀ r ∈ sizes, r.length = n) (ho : n ≤ offsets.length) :
    ∃ sizes' sum, sizesToOffsets2 sizes offsets = some (sizes', sum) ∧
      sizes'.length = sizes.length ∧ (∀ r ∈ sizes', r.length = n) ∧ sum.length = offsets.length ∧
      (∀ t i, t < sizes.length → i < n →
        rd2 sizes' t i = (offsets[i]?).map (· + colSum sizes t i)) ∧
      (∀ i, i < n → sum[i]? = (offsets[i]?).map (· + colSum sizes sizes.length i)) ∧
      (∀ i, n ≤ i → sum[i]? = offsets[i]?) := by
  have hrd : ∀ t i, t < sizes.length → i < n → ∃ x, rd2 sizes t i = some x := by
    intro t i ht hi
    refine ⟨(sizes[t])[i]'(by rw [hn _ (List.getElem_mem ht)]; exact hi), ?_⟩
    simp [rd2, List.getElem?_eq_getElem ht, hn _ (List.getElem_mem ht), hi]
  -- state invariant
  let Sh : List (List Int) × List Int → Prop := fun s =>
    s.1.length = sizes.length ∧ (∀ t : Nat, (s.1[t]?).map List.length = (sizes[t]?).map List.length) ∧
      s.2.length = offsets.length
  let I : Nat → List (List Int) × List Int → Prop := fun c s =>
    Sh s ∧
    (∀ t i, t < sizes.length → i < c → rd2 s.1 t i = (offsets[i]?).map (· + colSum sizes t i)) ∧
    (∀ t i, c ≤ i → rd2 s.1 t i = rd2 sizes t i) ∧
    (∀ i, i < c → s.2[i]? = (offsets[i]?).map (· + colSum sizes sizes.length i)) ∧
    (∀ i, c ≤ i → s.2[i]? = offsets[i]?)
  let J : Nat → Nat → List (List Int) × List Int → Prop := fun c k s =>
    Sh s ∧
    (∀ t i, t < sizes.length → (i < c ∨ (i = c ∧ t < k)) →
      rd2 s.1 t i = (offsets[i]?).map (· + colSum sizes t i)) ∧
    (∀ t i, (c < i ∨ (i = c ∧ k ≤ t)) → rd2 s.1 t i = rd2 sizes t i) ∧
    (∀ i, i < c → s.2[i]? = (offsets[i]?).map (· + colSum sizes sizes.length i)) ∧
    s.2[c]? = (offsets[c]?).map (· + colSum sizes k c) ∧
    (∀ i, c < i → s.2[i]? = offsets[i]?)
  have h0 : 0 < sizes.length := List.length_pos_iff.2 hne
  have hfront : sizes[0]? = some sizes[0] := List.getElem?_eq_getElem h0
  have hfl : (sizes[0]).length = n := hn _ (List.getElem_mem h0)
  obtain ⟨⟨sizes', sum⟩, e, hI⟩ := forLoop_inv (Nat.zero_le (sizes[0]).length) (sizes, offsets)
    (fun i s => forLoop 0 sizes.length s fun t (p : List (List Int) × List Int) => do
      let tmp ← rd2 p.1 t i
      let si ← p.2[i]?
      let sizes ← wr2 p.1 t i si
      let si ← p.2[i]?
      let sum ← wr p.2 i (si + tmp)
      some (sizes, sum)) I
    ⟨⟨rfl, fun _ => rfl, rfl⟩, by simp, by simp, by simp, by simp⟩
    (by
      rintro c - hc s ⟨hsh, h1, h2, h3, h4⟩
      rw [hfl] at hc
      have hoc : c < offsets.length := by omega
      obtain ⟨s', e, hJ⟩ := forLoop_inv (Nat.zero_le sizes.length) s
        (fun t (p : List (List Int) × List Int) => do
          let tmp ← rd2 p.1 t c
          let si ← p.2[c]?
          let sizes ← wr2 p.1 t c si
          let si ← p.2[c]?
          let sum ← wr p.2 c (si + tmp)
          some (sizes, sum)) (J c)
        ⟨hsh, by
          intro t i ht hi
          rcases hi with hi | ⟨_, hi⟩
          · exact h1 t i ht hi
          · omega,
         by intro t i hi
            exact h2 t i (by omega),
         h3, by rw [h4 c (Nat.le_refl _)]; simp [colSum], by intro i hi; exact h4 i (by omega)⟩
        (by
          rintro k - hk ⟨m, sm⟩ ⟨⟨hl, hrow, hsl⟩, j1, j2, j3, j4, j5⟩
          simp only at hl hrow hsl j1 j2 j3 j4 j5
          obtain ⟨x, hx⟩ := hrd k c hk hc
          have hx' : rd2 m k c = some x := by rw [j2 k c (by omega), hx]
          have hsm : sm[c]? = some (offsets[c] + colSum sizes k c) := by
            rw [j4]; simp [hoc]
          obtain ⟨m', hm'⟩ := wr2_isSome (x := offsets[c] + colSum sizes k c) hx'
          obtain ⟨r1, r2, r3⟩ := rd2_wr2 hm'
          refine ⟨(m', sm.set c (offsets[c] + colSum sizes k c + x)), ?_, ⟨?_, ?_, ?_⟩, ?_, ?_, ?_, ?_, ?_⟩
          · simp [hx', hsm, hm', wr_eq_some (l := sm) (i := c) (v := offsets[c] + colSum sizes k c + x) (by omega)]
          · simp only; omega
          · intro t; simp only [r3, hrow]
          · simp [hsl]
          · intro t i ht hi
            simp only [r1]
            split
            · next h => obtain ⟨rfl, rfl⟩ := h; simp [hoc]
            · next h =>
              apply j1 t i ht
              rcases hi with hi | ⟨hi, hi'⟩
              · exact Or.inl hi
              · refine Or.inr ⟨hi, ?_⟩
                have : t ≠ k := fun h' => h ⟨h', hi⟩
                omega
          · intro t i hi
            simp only [r1]
            rw [if_neg (by omega)]
            exact j2 t i (by omega)
          · intro i hi
            simp only [List.getElem?_set]
            rw [if_neg (by omega)]
            exact j3 i hi
          · simp only [List.getElem?_set]
            simp [colSum_succ sizes k c x hx, hsl, hoc, Int.add_assoc]
          · intro i hi
            simp only [List.getElem?_set]
            rw [if_neg (by omega)]
            exact j5 i hi)
      obtain ⟨k1, k2, k3, k4, k5, k6⟩ := hJ
      refine ⟨s', e, k1, ?_, ?_, ?_, ?_⟩
      · intro t i ht hi
        exact k2 t i ht (by omega)
      · intro t i hi
        by_cases hti : i = c
        · omega
        · exact k3 t i (Or.inl (by omega))
      · intro i hi
        by_cases hti : i = c
        · subst hti; exact k5
        · exact k4 i (by omega)
      · intro i hi; exact k6 i (by omega))
  obtain ⟨⟨hl, hrow, hsl⟩, i1, i2, i3, i4⟩ := hI
  refine ⟨sizes', sum, ?_, hl, ?_, hsl, ?_, ?_, ?_⟩
  · simp only [sizesToOffsets2, hfront, Option.bind_eq_bind, Option.bind_some]; exact e
  · intro r hr
    obtain ⟨t, ht, rfl⟩ := List.getElem_of_mem hr
    have := hrow t
    simp only at hl
    rw [List.getElem?_eq_getElem ht, List.getElem?_eq_getElem (by omega)] at this
    simp only [Option.map_some, Option.some.injEq] at this
    rw [this]; exact hn _ (List.getElem_mem _)
  · intro t i ht hi; exact i1 t i ht (by omega)
  · intro i hi; exact i3 i (by omega)
  · intro i hi; exact i4 i (by omega)

end Verif.Utils
