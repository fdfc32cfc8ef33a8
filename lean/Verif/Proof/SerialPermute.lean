import Verif.Proof.SerialItems
namespace Verif.Serial
variable {D : Type}

theorem gather_loop {β : Type} (perm : List Nat) (f : Nat → Option (List β)) (g : Nat → List β) (a b : Nat) (hab : a ≤ b)
    (hb : b ≤ perm.length) (hf : ∀ p ∈ perm, f p = some (g p)) (x : List β) :
    (forLoop a b x fun i x => do
      let p ← perm[i]?
      let v ← f p
      some (x ++ v)) = some (x ++ ((perm.take b).drop a).flatMap g) := by
  obtain ⟨s, e, hs⟩ := forLoop_inv hab x (fun i x => do
      let p ← perm[i]?
      let v ← f p
      some (x ++ v)) (fun i s => s = x ++ ((perm.take i).drop a).flatMap g) (by simp) (by
      rintro i h1 h2 s rfl
      have hg : perm[i]? = some (perm[i]'(by omega)) := List.getElem?_eq_getElem _
      refine ⟨_, ?_, rfl⟩
      rw [hg]
      simp only [Option.bind_eq_bind, Option.bind_some]
      rw [hf _ (List.getElem_mem _), Option.bind_some, List.take_add_one, hg, List.drop_append]
      have : a - (perm.take i).length = 0 := by rw [List.length_take]; omega
      rw [this]
      simp)
  rw [e, hs]

/-- Boundaries before the offsets of threads are added. -/
def raw (p : List Nat) : List (List (List D)) → List (List Nat)
  | [] => []
  | x :: X => (p ++ ends 0 x) :: raw [] X

theorem raw_append (X : List (List (List D))) (x : List (List D)) : ∀ p,
    raw p (X ++ [x]) = raw p X ++ [(if X = [] then p else []) ++ ends 0 x] := by
  induction X with
  | nil => intro p; simp [raw]
  | cons y X ih => intro p; simp only [List.cons_append, raw, ih]; simp

theorem map_ends (l : List (List D)) (o : Nat) : ∀ b, (ends b l).map (· + o) = ends (b + o) l := by
  induction l with
  | nil => intro b; rfl
  | cons x l ih =>
      intro b
      simp only [ends, List.map_cons, ih]
      rw [show b + x.length + o = b + o + x.length by omega]

theorem lastD_ends (l : List (List D)) (p : List Nat) (hp : p = [] ∨ p = [0]) : (p ++ ends 0 l).getLastD 0 = l.flatten.length := by
  have h := last_ends l 0
  rw [List.getLastD_eq_getLast?]
  rcases hp with rfl | rfl
  · rw [List.nil_append]
    rw [List.getLast?_cons] at h
    simp only [Nat.zero_add, Option.some.injEq] at h
    rw [← h]
  · rw [List.singleton_append, h]; simp

theorem offsets_raw (X : List (List (List D))) : ∀ (p : List Nat) (o : Nat), (p = [] ∨ (p = [0] ∧ o = 0)) →
    ((offsetsFrom o (raw p X)).zip (raw p X)).map (fun (o, b) => b.map (· + o)) = bounds p o X := by
  induction X with
  | nil => intro p o _; rfl
  | cons x X ih =>
      intro p o hp
      have hp' : p = [] ∨ p = [0] := by rcases hp with h | h; exact Or.inl h; exact Or.inr h.1
      have hm : (p ++ ends 0 x).map (· + o) = p ++ ends o x := by
        rw [List.map_append, map_ends, Nat.zero_add]
        rcases hp with rfl | ⟨rfl, rfl⟩ <;> simp
      simp only [raw, offsetsFrom, List.zip_cons_cons, List.map_cons, bounds, lastD_ends x p hp']
      rw [hm, ih [] _ (Or.inl rfl)]

/-- The item `i`. -/
def itemAt (ebnd : List Nat) (edata : List D) (i : Nat) : List D := (edata.take (ebnd.getD (i + 1) 0)).drop (ebnd.getD i 0)

theorem slice_eq (edata : List D) (a b : Nat) (h1 : a ≤ b) (h2 : b ≤ edata.length) : slice edata a b = some ((edata.take b).drop a) := by
  unfold slice; rw [if_pos ⟨h1, h2⟩]

theorem Items.le {ebnd : List Nat} {edata : List D} (h : Items ebnd edata) {i j : Nat} (hij : i ≤ j) (hj : j < ebnd.length) :
    ebnd[i]'(by omega) ≤ ebnd[j] := by
  rcases Nat.lt_or_eq_of_le hij with h1 | h1
  · exact List.pairwise_iff_getElem.1 h.mono i j _ _ h1
  · subst h1; exact Nat.le_refl _

theorem Items.le_length {ebnd : List Nat} {edata : List D} (h : Items ebnd edata) {i : Nat} (hi : i < ebnd.length) :
    ebnd[i] ≤ edata.length := by
  have hl := h.last
  rw [List.getLast?_eq_getElem?, List.getElem?_eq_getElem (by omega), Option.some.injEq] at hl
  rw [← hl]
  exact h.le (by omega) (by omega)

theorem length_itemAt {ebnd : List Nat} {edata : List D} (h : Items ebnd edata) {p : Nat} (hp : p + 1 < ebnd.length) :
    (itemAt ebnd edata p).length = ebnd[p + 1] - ebnd[p] ∧ slice edata ebnd[p] ebnd[p + 1] = some (itemAt ebnd edata p) := by
  have h1 : ebnd.getD p 0 = ebnd[p] := by rw [List.getD_eq_getElem?_getD, List.getElem?_eq_getElem (by omega)]; rfl
  have h2 : ebnd.getD (p + 1) 0 = ebnd[p + 1] := by rw [List.getD_eq_getElem?_getD, List.getElem?_eq_getElem (by omega)]; rfl
  have h3 := h.le_length hp
  unfold itemAt
  rw [h1, h2]
  refine ⟨?_, slice_eq _ _ _ (h.le (by omega) hp) h3⟩
  rw [List.length_drop, List.length_take]; omega

theorem permuteItem_eq {ebnd : List Nat} {edata : List D} (h : Items ebnd edata) (perm : List Nat) (e p : Nat)
    (hp : perm[e - 1]? = some p) (hb : p + 1 < ebnd.length) (pre : List Nat) (hpre : pre = [] ∨ pre = [0]) (x : List (List D)) :
    permuteItem ebnd edata perm e (pre ++ ends 0 x, x.flatten) =
      some (pre ++ ends 0 (x ++ [itemAt ebnd edata p]), (x ++ [itemAt ebnd edata p]).flatten) := by
  obtain ⟨h1, h2⟩ := length_itemAt h hb
  unfold permuteItem
  rw [hp]
  simp only [Option.bind_eq_bind, Option.bind_some]
  rw [List.getElem?_eq_getElem (show p < ebnd.length by omega), List.getElem?_eq_getElem hb]
  simp only [Option.bind_some]
  rw [h2, Option.bind_some, ← h1, ends_append]
  generalize itemAt ebnd edata p = it
  simp only [ends, Nat.zero_add]
  by_cases hl : pre ++ ends 0 x = []
  · have hpn : pre = [] := (List.append_eq_nil_iff.1 hl).1
    have hxn : x = [] := by
      have := congrArg List.length (List.append_eq_nil_iff.1 hl).2
      rw [length_ends] at this
      exact List.eq_nil_of_length_eq_zero this
    subst hpn hxn
    simp [ends]
  · have hlp : 0 < (pre ++ ends 0 x).length := List.length_pos_iff.2 hl
    rw [if_pos (by rw [List.length_append]; simp only [List.length_singleton]; omega)]
    have hlast : (pre ++ ends 0 x)[(pre ++ ends 0 x).length - 1]? = some x.flatten.length := by
      have := lastD_ends x pre hpre
      rw [List.getLastD_eq_getLast?, List.getLast?_eq_getElem?, List.getElem?_eq_getElem (by omega)] at this
      rw [List.getElem?_eq_getElem (by omega)]
      simpa using this
    generalize hL : pre ++ ends 0 x = L at *
    rw [show (L ++ [it.length]).length - 1 = L.length by simp, show (L ++ [it.length]).length - 2 = L.length - 1 by simp,
      get_at, Option.bind_some, List.getElem?_append_left (by omega), hlast, Option.bind_some, wr_at, Option.bind_some]
    rw [← List.append_assoc, hL, Nat.add_comm]
    simp

theorem permuteItems_loop {ebnd : List Nat} {edata : List D} (h : Items ebnd edata) (perm : List Nat)
    (hp : ∀ p ∈ perm, p + 1 < ebnd.length) (a b : Nat) (hab : a ≤ b) (hb : b ≤ perm.length) (pre : List Nat)
    (hpre : pre = [] ∨ pre = [0]) :
    forLoop (a + 1) (b + 1) (pre, []) (permuteItem ebnd edata perm) =
      some (pre ++ ends 0 (((perm.take b).drop a).map (itemAt ebnd edata)), (((perm.take b).drop a).map (itemAt ebnd edata)).flatten) := by
  obtain ⟨s, e, hs⟩ := forLoop_inv (show a + 1 ≤ b + 1 by omega) (pre, ([] : List D)) (permuteItem ebnd edata perm)
    (fun i s => s = (pre ++ ends 0 (((perm.take (i - 1)).drop a).map (itemAt ebnd edata)),
      (((perm.take (i - 1)).drop a).map (itemAt ebnd edata)).flatten))
    (by simp [ends]) (by
      rintro i h1 h2 s rfl
      have hg : perm[i - 1]? = some (perm[i - 1]'(by omega)) := List.getElem?_eq_getElem _
      refine ⟨_, permuteItem_eq h perm i _ hg (hp _ (List.getElem_mem _)) pre hpre _, ?_⟩
      have e1 : (perm.take (i + 1 - 1)).drop a = (perm.take (i - 1)).drop a ++ [perm[i - 1]'(by omega)] := by
        rw [show i + 1 - 1 = (i - 1) + 1 by omega, List.take_add_one, hg, List.drop_append]
        have : a - (perm.take (i - 1)).length = 0 := by rw [List.length_take]; omega
        rw [this]; rfl
      rw [e1, List.map_append]; rfl)
  rw [e, hs]; rfl

/-- Items of thread `t` after the permutation. -/
def threadItems (ebnd : List Nat) (edata : List D) (perm : List Nat) (d : List Nat) (t : Nat) : List (List D) :=
  ((perm.take (d.getD (t + 1) 0)).drop (d.getD t 0)).map (itemAt ebnd edata)

theorem permuteThreads_eq {ebnd : List Nat} {edata : List D} (h : Items ebnd edata) (perm : List Nat)
    (hp : ∀ p ∈ perm, p + 1 < ebnd.length) (d d' : List Nat) (T : Nat) (hd : Distribution d T)
    (hlast : d.getLast? = some perm.length) (hl : d'.length = d.length)
    (hd' : ∀ t a, 0 < t → d[t]? = some a → d'[t]? = some (a + 1)) :
    ∃ s, permuteThreads ebnd edata perm d' = some s ∧
      s.map Prod.fst = raw [0] ((List.range T).map (threadItems ebnd edata perm d)) ∧
      s.map Prod.snd = ((List.range T).map (threadItems ebnd edata perm d)).map List.flatten := by
  unfold permuteThreads
  rw [hl, hd.length, Nat.add_sub_cancel]
  refine forLoop_inv (Nat.zero_le T) _ _ (fun t (s : List (List Nat × List D)) =>
      s.map Prod.fst = raw [0] ((List.range t).map (threadItems ebnd edata perm d)) ∧
      s.map Prod.snd = ((List.range t).map (threadItems ebnd edata perm d)).map List.flatten) ⟨rfl, rfl⟩ ?_
  rintro t - ht s ⟨h1, h2⟩
  obtain ⟨a, ha⟩ := hd.get (t := t) (by omega)
  obtain ⟨b, hb⟩ := hd.get (t := t + 1) (by omega)
  obtain ⟨c, hc⟩ := hd.get (t := T) (by omega)
  have hab := hd.get_le (by omega) ha hb
  have hbc := hd.get_le (by omega) hb hc
  rw [List.getLast?_eq_getElem?, hd.length, Nat.add_sub_cancel, hc] at hlast
  cases hlast
  have hb' := hd' (t + 1) b (by omega) hb
  have hga : d.getD t 0 = a := by rw [List.getD_eq_getElem?_getD, ha]; rfl
  have hgb : d.getD (t + 1) 0 = b := by rw [List.getD_eq_getElem?_getD, hb]; rfl
  have hX : ((perm.take b).drop a).map (itemAt ebnd edata) = threadItems ebnd edata perm d t := by
    unfold threadItems; rw [hga, hgb]
  obtain ⟨a', ha'⟩ : ∃ a', d'[t]? = some a' := ⟨d'[t]'(by have := hd.length; omega), List.getElem?_eq_getElem _⟩
  have hstart : (if t = 0 then 1 else a') = a + 1 := by
    by_cases h0 : t = 0
    · subst h0; rw [hd.zero] at ha; cases ha; rfl
    · rw [if_neg h0]
      have := hd' t a (by omega) ha
      rw [ha'] at this
      exact Option.some.inj this
  rw [ha', hb']
  simp only [Option.bind_eq_bind, Option.bind_some]
  rw [hstart, permuteItems_loop h perm hp a b hab hbc _ (by by_cases h0 : t = 0 <;> simp [h0]), hX, Option.bind_some]
  refine ⟨_, rfl, ?_, ?_⟩
  · rw [List.map_append, h1, List.range_succ, List.map_append, List.map_singleton, List.map_singleton, raw_append]
    congr 2
    by_cases h0 : t = 0
    · subst h0; simp
    · simp [h0]
  · rw [List.map_append, h2, List.range_succ, List.map_append, List.map_singleton, List.map_singleton, List.map_append]; rfl

theorem flatten_threads (perm : List Nat) (g : Nat → List D) (d : List Nat) (T : Nat) (hd : Distribution d T)
    (hlast : d.getLast? = some perm.length) :
    ((List.range T).map fun t => ((perm.take (d.getD (t + 1) 0)).drop (d.getD t 0)).map g).flatten = perm.map g := by
  have key : ∀ t, t ≤ T → ((List.range t).map fun t => ((perm.take (d.getD (t + 1) 0)).drop (d.getD t 0)).map g).flatten =
      (perm.take (d.getD t 0)).map g := by
    intro t
    induction t with
    | zero =>
        intro _
        rw [List.getD_eq_getElem?_getD, hd.zero]; simp
    | succ t ih =>
        intro ht
        obtain ⟨a, ha⟩ := hd.get (t := t) (by omega)
        obtain ⟨b, hb⟩ := hd.get (t := t + 1) (by omega)
        have hab := hd.get_le (by omega) ha hb
        have hga : d.getD t 0 = a := by rw [List.getD_eq_getElem?_getD, ha]; rfl
        have hgb : d.getD (t + 1) 0 = b := by rw [List.getD_eq_getElem?_getD, hb]; rfl
        rw [List.range_succ, List.map_append, List.flatten_append, ih (by omega)]
        simp only [List.map_cons, List.map_nil, List.flatten_cons, List.flatten_nil, List.append_nil, hga, hgb]
        rw [← List.map_append]
        congr 1
        have : perm.take a = (perm.take b).take a := by rw [List.take_take, Nat.min_eq_left hab]
        rw [this, List.take_append_drop]
  rw [key T (Nat.le_refl _)]
  rw [List.getLast?_eq_getElem?, hd.length, Nat.add_sub_cancel] at hlast
  rw [List.getD_eq_getElem?_getD, hlast]
  simp

theorem permuteNonUniform_conc {ebnd : List Nat} {edata : List D} (h : Items ebnd edata) (perm : List Nat)
    (hp : ∀ p ∈ perm, p + 1 < ebnd.length) (d provided : List Nat) (T : Nat) (h0 : 0 < T) (hd : Distribution d T)
    (hlast : d.getLast? = some perm.length)
    (hprov : (provided = d ∧ perm.length < ebnd.length) ∨
      (provided = d.take 1 ++ (d.drop 1).map (· + 1) ∧ ebnd.length ≤ perm.length + 1)) :
    permuteNonUniform ebnd ebnd.length edata perm provided =
      some ((conc ((List.range T).map (threadItems ebnd edata perm d))).bnd, (conc ((List.range T).map (threadItems ebnd edata perm d))).data) := by
  have hshift : d.take 1 ++ (d.drop 1).map (· + 1) = d.take 1 ++ (d.drop 1).map (· + 1) := rfl
  generalize hS : d.take 1 ++ (d.drop 1).map (· + 1) = S at *
  have hSl : S.length = d.length := by
    rw [← hS, List.length_append, List.length_map, List.length_take, List.length_drop]; omega
  have hdl := hd.length
  have hSt : ∀ t a, 0 < t → d[t]? = some a → S[t]? = some (a + 1) := by
    intro t a h1 h2
    rw [← hS, List.getElem?_append_right (by rw [List.length_take]; omega), List.length_take, List.getElem?_map, List.getElem?_drop]
    rw [show 1 + (t - min 1 d.length) = t by omega, h2]; rfl
  have hSlast : S.getLast? = some (perm.length + 1) := by
    rw [List.getLast?_eq_getElem?, hSl, hdl, Nat.add_sub_cancel]
    apply hSt _ _ h0
    rw [List.getLast?_eq_getElem?, hdl, Nat.add_sub_cancel] at hlast
    exact hlast
  obtain ⟨s, e, h1, h2⟩ := permuteThreads_eq h perm hp d S T hd hlast hSl hSt
  have hpl : ¬ provided.length < 2 := by rcases hprov with h3 | h3 <;> rw [h3.1] <;> omega
  have hback : ∃ back, provided.getLast? = some back ∧
      (if back < ebnd.length then provided.take 1 ++ (provided.drop 1).map (· + 1) else provided) = S := by
    rcases hprov with ⟨h3, h4⟩ | ⟨h3, h4⟩
    · exact ⟨perm.length, by rw [h3, hlast], by rw [if_pos h4, h3, hS]⟩
    · exact ⟨perm.length + 1, by rw [h3, hSlast], by rw [if_neg (by omega), h3]⟩
  obtain ⟨back, hb1, hb2⟩ := hback
  unfold permuteNonUniform
  rw [hb1]
  simp only [Option.bind_eq_bind, Option.bind_some]
  rw [hb2, if_neg hpl, e, Option.bind_some, h1, h2, offsets_raw _ _ _ (Or.inr ⟨rfl, rfl⟩)]
  rfl

end Verif.Serial
