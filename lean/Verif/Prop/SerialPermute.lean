import Verif.Proof.SerialPermute
/-
C49: permutation of serialized data.
-/
namespace Verif.Serial
variable {D : Type}

theorem ends_slice (l : List (List D)) : ∀ (i : Nat) (x : List D) (b : Nat), l[i]? = some x →
    ∃ a e, (b :: ends b l)[i]? = some (b + a) ∧ (b :: ends b l)[i + 1]? = some (b + e) ∧ a ≤ e ∧ e ≤ l.flatten.length ∧
      (l.flatten.take e).drop a = x := by
  intro i x b h
  have hi := (List.getElem?_eq_some_iff.1 h).1
  have e1 : (l.take (i + 1)).flatten = (l.take i).flatten ++ x := by rw [List.take_add_one, h]; simp
  refine ⟨(l.take i).flatten.length, (l.take (i + 1)).flatten.length, ?_, ?_, ?_, flatten_take_le _ _, ?_⟩
  · cases i with
    | zero => simp
    | succ i => rw [List.getElem?_cons_succ, get_ends _ _ _ (by omega)]
  · rw [List.getElem?_cons_succ, get_ends _ _ _ hi]
  · rw [e1, List.length_append]; omega
  · rw [take_flatten_length, e1, List.drop_left]

/-- C49.  Non-uniform items.  For all boundaries and values, every list `perm` of existing items (a permutation, a selection, with
repetition) and every distribution of `perm` over threads: the code stays in bounds; the `i`-th item of the result has exactly the values
of item `perm i`; the new boundaries start with zero, do not decrease, end with the number of values and fit the values in each thread;
thread `t` gets exactly the items of its range.  The distribution may count items (first case) or boundaries (second case): the
code tells them apart by the last entry. -/
theorem C49_items (ebnd : List Nat) (edata : List D) (h : Items ebnd edata) (perm : List Nat)
    (hp : ∀ p ∈ perm, p + 1 < ebnd.length) (d provided : List Nat) (T : Nat) (h0 : 0 < T) (hd : Distribution d T)
    (hlast : d.getLast? = some perm.length)
    (hprov : (provided = d ∧ perm.length < ebnd.length) ∨
      (provided = d.take 1 ++ (d.drop 1).map (· + 1) ∧ ebnd.length ≤ perm.length + 1)) :
    ∃ bnd' data', permuteNonUniform ebnd ebnd.length edata perm provided = some (bnd', data') ∧
      bnd'.length = T ∧ Consistent bnd' data' ∧ bnd'.flatten.length = perm.length + 1 ∧
      (∀ i p a b, perm[i]? = some p → ebnd[p]? = some a → ebnd[p + 1]? = some b →
        ∃ a' b', bnd'.flatten[i]? = some a' ∧ bnd'.flatten[i + 1]? = some b' ∧ slice data'.flatten a' b' = slice edata a b) ∧
      ∀ t x, bnd'[t]? = some x → ∃ a b, d[t]? = some a ∧ d[t + 1]? = some b ∧
        x.length = (b - a) + if t = 0 then 1 else 0 := by
  have hc := permuteNonUniform_conc h perm hp d provided T h0 hd hlast hprov
  generalize hX : (List.range T).map (threadItems ebnd edata perm d) = X at *
  have hXl : X.length = T := by rw [← hX]; simp
  have hne : X ≠ [] := by rintro rfl; simp at hXl; omega
  have hXf : X.flatten = perm.map (itemAt ebnd edata) := by
    rw [← hX]; exact flatten_threads perm (itemAt ebnd edata) d T hd hlast
  have hbf : (conc X).bnd.flatten = 0 :: ends 0 (perm.map (itemAt ebnd edata)) := by
    show (bounds [0] 0 X).flatten = _
    rw [flatten_bounds _ _ _ hne, hXf]; rfl
  have hdf : (conc X).data.flatten = (perm.map (itemAt ebnd edata)).flatten := by
    show (X.map List.flatten).flatten = _
    rw [← List.flatten_flatten, hXf]
  refine ⟨_, _, hc, by show (bounds [0] 0 X).length = T; rw [length_bounds, hXl], consistent_conc X hne, ?_, ?_, ?_⟩
  · rw [hbf, List.length_cons, length_ends, List.length_map]
  · intro i p a b hi ha hb
    obtain ⟨ha', rfl⟩ := List.getElem?_eq_some_iff.1 ha
    obtain ⟨hb', rfl⟩ := List.getElem?_eq_some_iff.1 hb
    obtain ⟨a', e, h1, h2, h3, h4, h5⟩ := ends_slice (perm.map (itemAt ebnd edata)) i (itemAt ebnd edata p) 0 (by simp [hi])
    refine ⟨_, _, by rw [hbf]; exact h1, by rw [hbf]; exact h2, ?_⟩
    rw [Nat.zero_add, Nat.zero_add, hdf, slice_eq _ _ _ h3 h4, h5, (length_itemAt h hb').2]
  · intro t x hx
    change (bounds [0] 0 X)[t]? = some x at hx
    have htl : t < X.length := by
      have := (List.getElem?_eq_some_iff.1 hx).1
      rwa [length_bounds] at this
    have hsp : X = X.take t ++ X[t] :: X.drop (t + 1) := by simp
    have hXt : X[t] = threadItems ebnd edata perm d t := by simp [← hX]
    rw [hsp, bounds_append, List.getElem?_append_right (by rw [length_bounds, List.length_take]; omega), length_bounds, List.length_take,
      show t - min t X.length = 0 by omega] at hx
    simp only [bounds, List.getElem?_cons_zero, Option.some.injEq] at hx
    obtain ⟨a, ha⟩ := hd.get (t := t) (by omega)
    obtain ⟨b, hb⟩ := hd.get (t := t + 1) (by omega)
    obtain ⟨c, hcc⟩ := hd.get (t := T) (by omega)
    have hbc := hd.get_le (by omega) hb hcc
    rw [List.getLast?_eq_getElem?, hd.length, Nat.add_sub_cancel, hcc] at hlast
    cases hlast
    refine ⟨a, b, ha, hb, ?_⟩
    have hlen : X[t].length = b - a := by
      rw [hXt]
      unfold threadItems
      rw [List.length_map, List.length_drop, List.length_take, List.getD_eq_getElem?_getD, List.getD_eq_getElem?_getD, ha, hb]
      show min b perm.length - a = b - a
      omega
    rw [← hx, List.length_append, length_ends, hlen]
    by_cases h0 : t = 0
    · subst h0; simp; omega
    · have : X.take t ≠ [] := by
        intro hh
        have := congrArg List.length hh
        rw [List.length_take, List.length_nil] at this
        omega
      simp [h0, this]

/-- C49, a limit.  A distribution of items whose last entry reaches the number of old boundaries (items repeated by `perm`) is taken
for a distribution of boundaries: the last item is lost. -/
theorem C49_repeated_item_lost :
    permuteNonUniform [0, 1] 2 [7] [0, 0] [0, 2] = some ([[0, 1]], [[7]]) := by decide

/-- C49.  Uniform items of `esize` values: thread `t` gets the items `perm[d t], ..., perm[d (t + 1) - 1]` with all their values, in this
order. -/
theorem C49_uniform (esize n : Nat) (edata : List D) (hl : edata.length = esize * n) (perm : List Nat) (hp : ∀ p ∈ perm, p < n)
    (d : List Nat) (T : Nat) (hd : Distribution d T) (hlast : d.getLast? = some perm.length) :
    ∃ data', permuteUniform esize edata perm d = some data' ∧ data'.length = T ∧
      data'.flatten.length = esize * perm.length ∧
      (∀ i p, perm[i]? = some p →
        slice data'.flatten (esize * i) (esize * (i + 1)) = slice edata (esize * p) (esize * (p + 1))) ∧
      ∀ t x, data'[t]? = some x → ∃ a b, d[t]? = some a ∧ d[t + 1]? = some b ∧ x.length = esize * (b - a) := by
  let item : Nat → List D := fun p => (edata.take (esize * (p + 1))).drop (esize * p)
  have hbound : ∀ p, p < n → esize * p ≤ esize * (p + 1) ∧ esize * (p + 1) ≤ edata.length := by
    intro p hp
    have h1 := Nat.mul_le_mul_left esize (show p + 1 ≤ n by omega)
    have h2 := Nat.mul_le_mul_left esize (show p ≤ p + 1 by omega)
    omega
  have hsl : ∀ p ∈ perm, slice edata (esize * p) (esize * (p + 1)) = some (item p) := by
    intro p hpp
    exact slice_eq _ _ _ (hbound p (hp p hpp)).1 (hbound p (hp p hpp)).2
  have hil : ∀ p, p < n → (item p).length = esize := by
    intro p hp
    have := hbound p hp
    show ((edata.take (esize * (p + 1))).drop (esize * p)).length = esize
    rw [List.length_drop, List.length_take, Nat.mul_succ] at *
    omega
  let R : List (List D) := (List.range T).map fun t => ((perm.take (d.getD (t + 1) 0)).drop (d.getD t 0)).flatMap item
  have hrun : permuteUniform esize edata perm d = some R := by
    unfold permuteUniform
    rw [hd.length, Nat.add_sub_cancel]
    obtain ⟨s, e, hs⟩ := forLoop_inv (Nat.zero_le T) (List.replicate T ([] : List D)) (fun t pdata => do
        let a ← d[t]?
        let b ← d[t + 1]?
        let x ← forLoop a b [] fun i x => do
          let p ← perm[i]?
          let v ← slice edata (esize * p) (esize * (p + 1))
          some (x ++ v)
        wr pdata t x)
      (fun t s => s = ((List.range t).map fun t => ((perm.take (d.getD (t + 1) 0)).drop (d.getD t 0)).flatMap item) ++ List.replicate (T - t) [])
      (by simp) (by
        rintro t - ht s rfl
        obtain ⟨a, ha⟩ := hd.get (t := t) (by omega)
        obtain ⟨b, hb⟩ := hd.get (t := t + 1) (by omega)
        obtain ⟨c, hcc⟩ := hd.get (t := T) (by omega)
        have hab := hd.get_le (by omega) ha hb
        have hbc := hd.get_le (by omega) hb hcc
        rw [List.getLast?_eq_getElem?, hd.length, Nat.add_sub_cancel, hcc] at hlast
        cases hlast
        rw [ha, hb]
        simp only [Option.bind_eq_bind, Option.bind_some]
        have := gather_loop perm (fun p => slice edata (esize * p) (esize * (p + 1))) item a b hab hbc hsl []
        simp only [Option.bind_eq_bind] at this
        rw [this, Option.bind_some, List.nil_append]
        refine ⟨_, ?_, rfl⟩
        rw [show T - t = (T - (t + 1)) + 1 by omega, List.replicate_succ, wr_at' _ _ _ _ _ (by simp), List.range_succ, List.map_append]
        have hga : d.getD t 0 = a := by rw [List.getD_eq_getElem?_getD, ha]; rfl
        have hgb : d.getD (t + 1) 0 = b := by rw [List.getD_eq_getElem?_getD, hb]; rfl
        simp only [List.map_singleton, hga, hgb, List.append_assoc, List.singleton_append])
    rw [e, hs]
    simp [R]
  have hflat : R.flatten = (perm.map item).flatten := by
    rw [← flatten_threads perm item d T hd hlast, List.flatten_flatten, List.map_map]
    rfl
  have hflen : ∀ l : List Nat, (∀ p ∈ l, p < n) → (l.map item).flatten.length = esize * l.length := by
    intro l
    induction l with
    | nil => intro _; simp
    | cons p l ih =>
        intro h
        rw [List.map_cons, List.flatten_cons, List.length_append, hil p (h p (by simp)), ih (fun q hq => h q (by simp [hq])),
          List.length_cons, Nat.mul_succ]
        omega
  refine ⟨R, hrun, by simp [R], by rw [hflat, hflen perm hp], ?_, ?_⟩
  · intro i p hi
    have hmem := List.mem_of_getElem? hi
    have hil' := (List.getElem?_eq_some_iff.1 hi).1
    obtain ⟨a, e, h1, h2, h3, h4, h5⟩ := ends_slice (perm.map item) i (item p) 0 (by simp [hi])
    have hpre : ∀ k, k ≤ perm.length → (((perm.map item).take k).flatten).length = esize * k := by
      intro k hk
      rw [← List.map_take, hflen _ (fun q hq => hp q (List.mem_of_mem_take hq)), List.length_take, Nat.min_eq_left hk]
    have ha : a = esize * i := by
      cases i with
      | zero => simp at h1; omega
      | succ i =>
          rw [List.getElem?_cons_succ, get_ends _ _ _ (by simp; omega), hpre _ (by omega)] at h1
          have := Option.some.inj h1; omega
    have he : e = esize * (i + 1) := by
      rw [List.getElem?_cons_succ, get_ends _ _ _ (by simp; omega), hpre _ (by omega)] at h2
      have := Option.some.inj h2; omega
    rw [hsl p hmem, hflat, ← ha, ← he, slice_eq _ _ _ h3 h4, h5]
  · intro t x hx
    have htl := (List.getElem?_eq_some_iff.1 hx).1
    have htT : t < T := by simpa [R] using htl
    obtain ⟨a, ha⟩ := hd.get (t := t) (by omega)
    obtain ⟨b, hb⟩ := hd.get (t := t + 1) (by omega)
    obtain ⟨c, hcc⟩ := hd.get (t := T) (by omega)
    have hbc := hd.get_le (by omega) hb hcc
    rw [List.getLast?_eq_getElem?, hd.length, Nat.add_sub_cancel, hcc] at hlast
    cases hlast
    refine ⟨a, b, ha, hb, ?_⟩
    have hga : d.getD t 0 = a := by rw [List.getD_eq_getElem?_getD, ha]; rfl
    have hgb : d.getD (t + 1) 0 = b := by rw [List.getD_eq_getElem?_getD, hb]; rfl
    have : x = (((perm.take b).drop a).map item).flatten := by
      simp only [R, List.getElem?_map, List.getElem?_range htT, Option.map_some, Option.some.injEq, hga, hgb] at hx
      rw [← hx]; rfl
    rw [this, hflen _ (fun q hq => hp q (List.mem_of_mem_take (List.mem_of_mem_drop hq))), List.length_drop, List.length_take,
      Nat.min_eq_left hbc]

/-- The hypotheses are met: three items of sizes 2, 0, 3 reordered over two threads; a selection of two items. -/
example : Items [0, 2, 2, 5] [10, 20, 30, 40, 50] := ⟨rfl, by decide, rfl⟩
example : permuteNonUniform [0, 2, 2, 5] 4 [10, 20, 30, 40, 50] [2, 0, 1] [0, 1, 3] =
    some ([[0, 3], [5, 5]], [[30, 40, 50], [10, 20]]) := by decide
example : permuteNonUniform [0, 2, 2, 5] 4 [10, 20, 30, 40, 50] [2, 0, 1] [0, 2, 4] =
    some ([[0, 3], [5, 5]], [[30, 40, 50], [10, 20]]) := by decide
example : permuteNonUniform [0, 2, 2, 5] 4 [10, 20, 30, 40, 50] [2, 0] [0, 0, 2] =
    some ([[0], [3, 5]], [[], [30, 40, 50, 10, 20]]) := by decide
example : permuteUniform 2 [1, 2, 3, 4, 5, 6] [2, 0, 1] [0, 1, 3] = some [[5, 6], [1, 2, 3, 4]] := by decide

end Verif.Serial
