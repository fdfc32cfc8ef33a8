import Verif.Proof.Offsets
import Mathlib.Data.List.Perm.Basic
namespace Verif.Utils

theorem distributeChunk_spec (threads size chunk : Nat) (ht : 0 < threads) :
    ∃ d, distributeChunk threads size chunk = some d ∧ d.length = threads + 1 ∧
      (∀ t, t < threads → d[t]? = some (min (t * chunk) size)) ∧ d[threads]? = some size := by
  obtain ⟨d, e, hl, h1, h2⟩ := forLoop_inv (show 1 ≤ threads by omega) (List.replicate (threads + 1) 0)
    (fun t d => do
      let d ← wr d t (t * chunk)
      let x ← d[t]?
      if x > size then wr d t size else some d)
    (fun t d => d.length = threads + 1 ∧ (∀ j, j < t → d[j]? = some (min (j * chunk) size)) ∧
      (∀ j, t ≤ j → j ≤ threads → d[j]? = some 0))
    ⟨by simp, by intro j hj; have : j = 0 := by omega
                 subst this; simp, by intro j _ hj; rw [List.getElem?_replicate, if_pos (by omega)]⟩
    (by
      rintro t ht1 ht2 d ⟨hl, h1, h2⟩
      have hw : wr d t (t * chunk) = some (d.set t (t * chunk)) := wr_eq_some (by omega)
      have hg : (d.set t (t * chunk))[t]? = some (t * chunk) := by
        rw [List.getElem?_set]; simp; omega
      by_cases hc : t * chunk > size
      · refine ⟨(d.set t (t * chunk)).set t size, ?_, by simpa using hl, ?_, ?_⟩
        · simp only [hw, hg, Option.bind_eq_bind, Option.bind_some, if_pos hc]
          exact wr_eq_some (by simp; omega)
        · intro j hj
          simp only [List.set_set, List.getElem?_set]
          split
          · next h => subst h; rw [if_pos (by omega), Nat.min_eq_right (by omega)]
          · exact h1 j (by omega)
        · intro j hj hj2
          simp only [List.set_set, List.getElem?_set]
          rw [if_neg (by omega)]; exact h2 j (by omega) hj2
      · refine ⟨d.set t (t * chunk), ?_, by simpa using hl, ?_, ?_⟩
        · simp only [hw, hg, Option.bind_eq_bind, Option.bind_some, if_neg hc]
        · intro j hj
          simp only [List.getElem?_set]
          split
          · next h => subst h; rw [if_pos (by omega), Nat.min_eq_left (by omega)]
          · exact h1 j (by omega)
        · intro j hj hj2
          simp only [List.getElem?_set]
          rw [if_neg (by omega)]; exact h2 j (by omega) hj2)
  refine ⟨d.set threads size, ?_, by simpa using hl, ?_, ?_⟩
  · unfold distributeChunk
    rw [e]
    exact wr_eq_some (by omega)
  · intro t ht
    rw [List.getElem?_set, if_neg (by omega)]; exact h1 t ht
  · rw [List.getElem?_set]; simp; omega

/-! `permute` -/

theorem lin_inj {es i i' e e' : Nat} (h1 : e < es) (h2 : e' < es) (h : es * i + e = es * i' + e') :
    i = i' ∧ e = e' := by
  have hi : (es * i + e) / es = i := by
    rw [Nat.mul_add_div (by omega), Nat.div_eq_of_lt h1]; omega
  have hi' : (es * i' + e') / es = i' := by
    rw [Nat.mul_add_div (by omega), Nat.div_eq_of_lt h2]; omega
  have : i = i' := by rw [← hi, h, hi']
  subst this
  exact ⟨rfl, by omega⟩

theorem lin_lt {es n i e : Nat} (hi : i < n) (he : e < es) : es * i + e < es * n := by
  have := Nat.mul_le_mul_left es (show i + 1 ≤ n from hi)
  rw [Nat.mul_add] at this; omega

theorem permute_spec {α : Type} (zero : α) (data : List α) (perm : List Nat) (es n : Nat) (hes : 0 < es)
    (hn : data.length = es * n) (hp : perm.length = n) (hb : ∀ p ∈ perm, p < n) :
    ∃ d, permute zero data perm es = some d ∧ d.length = data.length ∧
      ∀ i e p, e < es → perm[i]? = some p → d[es * i + e]? = data[es * p + e]? := by
  obtain ⟨d, er, hl, h1⟩ := forLoop_inv (Nat.zero_le es) (List.replicate data.length zero)
    (fun e d => forLoop 0 (d.length / es) d fun i d => do
      let p ← perm[i]?
      let x ← data[es * p + e]?
      wr d (es * i + e) x)
    (fun c d => d.length = data.length ∧ ∀ i e p, e < c → perm[i]? = some p → d[es * i + e]? = data[es * p + e]?)
    ⟨by simp, by simp⟩
    (by
      rintro c - hc d ⟨hl, h1⟩
      obtain ⟨d', e', hl', h1', h2'⟩ := forLoop_inv (Nat.zero_le (d.length / es)) d
        (fun i d => do
          let p ← perm[i]?
          let x ← data[es * p + c]?
          wr d (es * i + c) x)
        (fun k d => d.length = data.length ∧
          (∀ i e p, e < c → perm[i]? = some p → d[es * i + e]? = data[es * p + e]?) ∧
          (∀ i p, i < k → perm[i]? = some p → d[es * i + c]? = data[es * p + c]?))
        ⟨hl, h1, by simp⟩
        (by
          rintro k - hk d ⟨hl2, h1, h2⟩
          have hk' : k < n := by
            rw [hl, hn, Nat.mul_div_cancel_left _ hes] at hk; exact hk
          have ep : perm[k]? = some perm[k] := List.getElem?_eq_getElem (by omega)
          have hpk : perm[k] < n := hb _ (List.getElem_mem _)
          have hx : es * perm[k] + c < data.length := by rw [hn]; exact lin_lt hpk hc
          have hw : es * k + c < d.length := by rw [hl2, hn]; exact lin_lt hk' hc
          refine ⟨d.set (es * k + c) data[es * perm[k] + c], ?_, by simpa using hl2, ?_, ?_⟩
          · simp only [ep, Option.bind_eq_bind, Option.bind_some, List.getElem?_eq_getElem hx, wr_eq_some hw]
          · intro i e p he hp
            rw [List.getElem?_set, if_neg (fun h => by have := lin_inj hc (by omega) h; omega)]
            exact h1 i e p he hp
          · intro i p hi hp'
            rw [List.getElem?_set]
            by_cases hik : i = k
            · subst hik
              rw [ep] at hp'; cases hp'
              simp [hw, List.getElem?_eq_getElem hx]
            · rw [if_neg (fun h => by have := lin_inj hc hc h; omega)]
              exact h2 i p (by omega) hp')
      refine ⟨d', e', hl', ?_⟩
      intro i e p he hp'
      rcases Nat.lt_succ_iff_lt_or_eq.1 he with h | rfl
      · exact h1' i e p h hp'
      · refine h2' i p ?_ hp'
        rw [hl, hn, Nat.mul_div_cancel_left _ hes]
        have := (List.getElem?_eq_some_iff.1 hp').1
        omega)
  exact ⟨d, er, hl, h1⟩

theorem chunks_take {α : Type} (l : List α) (es n : Nat) :
    (List.range n).flatMap (fun i => (l.drop (es * i)).take es) = l.take (es * n) := by
  induction n with
  | zero => simp
  | succ n ih =>
      rw [List.range_succ, List.flatMap_append, ih, Nat.mul_succ, List.take_add]
      simp

theorem permute_eq_flatMap {α : Type} {data d : List α} {perm : List Nat} {es n : Nat}
    (hn : data.length = es * n) (hp : perm.length = n) (hb : ∀ p ∈ perm, p < n) (hl : d.length = data.length)
    (h : ∀ i e p, e < es → perm[i]? = some p → d[es * i + e]? = data[es * p + e]?) :
    d = perm.flatMap fun p => (data.drop (es * p)).take es := by
  have hd : (List.range n).flatMap (fun i => (d.drop (es * i)).take es) = d := by
    rw [chunks_take, List.take_of_length_le (by omega)]
  have hperm : perm = (List.range n).map fun i => perm[i]?.getD 0 := by
    apply List.ext_getElem?
    intro i
    by_cases hi : i < n
    · simp [hi, hp]
    · rw [List.getElem?_eq_none (by omega), List.getElem?_eq_none (by simp; omega)]
  conv => rhs; rw [hperm, List.flatMap_map]
  rw [← hd]
  apply List.flatMap_congr
  intro i hi
  have hi : i < n := by simpa using hi
  have ep : perm[i]? = some perm[i] := List.getElem?_eq_getElem (by omega)
  rw [ep]
  apply List.ext_getElem?
  intro e
  simp only [List.getElem?_take, List.getElem?_drop, Option.getD_some]
  split
  · next he => exact h i e _ he ep
  · rfl

/-! `threadDistributionToFullDistribution` -/

theorem borders_append (s : Int) (a b : List Int) :
    borders s (a ++ b) = borders s a ++ borders (s + a.sum) b := by
  induction a generalizing s with
  | nil => simp [borders]
  | cons x xs ih => simp [borders, ih, Int.add_assoc]

theorem borders_shift (s t : Int) (a : List Int) : (borders s a).map (· + t) = borders (s + t) a := by
  induction a generalizing s with
  | nil => rfl
  | cons x xs ih =>
      simp only [borders, List.map_cons, ih]
      rw [show s + x + t = s + t + x by omega]

theorem borders_last (a : List Int) : (borders 0 a).getLast?.getD 0 = a.sum := by
  have : ∀ s, (borders s a).getLast?.getD s = s + a.sum := by
    induction a with
    | nil => intro s; simp [borders]
    | cons x xs ih =>
        intro s
        simp only [borders, List.sum_cons]
        rw [List.getLast?_cons, Option.getD_some, ih]; omega
  simpa using this 0

theorem threadDistribution_spec (sizes : List (List Int)) :
    ∃ r, threadDistribution (sizes.map (borders 0)) = some r ∧ r.flatten = borders 0 sizes.flatten ∧
      r.length = sizes.length ∧ ∀ t : Nat, (r[t]?).map List.length = (sizes[t]?).map List.length := by
  have hoff : (sizes.map (borders 0)).map (fun d => d.getLast?.getD 0) = sizes.map List.sum := by
    simp [borders_last]
  obtain ⟨w, ew, hwl, hw⟩ := sizesToOffsets_spec (sizes.map List.sum) 0
  have hwl : w.length = sizes.length := by simpa using hwl
  obtain ⟨r, er, hl, h1, h2⟩ := forLoop_inv (Nat.zero_le (sizes.map (borders 0)).length) (sizes.map (borders 0))
    (fun t dist => do
      let off ← w[t]?
      let d ← dist[t]?
      wr dist t (d.map (· + off)))
    (fun t (d : List (List Int)) => d.length = sizes.length ∧
      (∀ j, j < t → d[j]? = (sizes[j]?).map (borders ((sizes.take j).map List.sum).sum)) ∧
      (∀ j : Nat, t ≤ j → d[j]? = (sizes[j]?).map (borders 0)))
    ⟨by simp, by simp, by simp⟩
    (by
      rintro t - ht d ⟨hl, h1, h2⟩
      have ht : t < sizes.length := by simpa using ht
      have eo := hw t (by simpa using ht)
      have ed : d[t]? = some (borders 0 sizes[t]) := by rw [h2 t (Nat.le_refl _)]; simp [ht]
      refine ⟨d.set t (borders ((sizes.take t).map List.sum).sum sizes[t]), ?_, by simpa using hl, ?_, ?_⟩
      · simp only [eo, ed, Option.bind_eq_bind, Option.bind_some, borders_shift]
        rw [wr_eq_some (by omega), List.map_take]; simp
      · intro j hj
        rw [List.getElem?_set]
        split
        · next h => subst h; rw [if_pos (by omega)]; simp [ht]
        · exact h1 j (by omega)
      · intro j hj
        rw [List.getElem?_set, if_neg (by omega)]; exact h2 j (by omega))
  have hlen : (sizes.map (borders 0)).length = sizes.length := by simp
  rw [hlen] at h1
  refine ⟨r, ?_, ?_, hl, ?_⟩
  · unfold threadDistribution
    simp only [hoff, ew, Option.bind_eq_bind, Option.bind_some] at er ⊢
    exact er
  · have key : ∀ n, n ≤ sizes.length → (r.take n).flatten = borders 0 (sizes.take n).flatten := by
      intro n hn
      induction n with
      | zero => simp [borders]
      | succ n ih =>
          have e1 : r[n]? = some (borders ((sizes.take n).map List.sum).sum sizes[n]) := by
            rw [h1 n (by omega)]; simp [show n < sizes.length by omega]
          obtain ⟨hrn, e1⟩ := List.getElem?_eq_some_iff.1 e1
          rw [List.take_succ_eq_append_getElem hrn, List.take_succ_eq_append_getElem (by omega : n < sizes.length)]
          rw [List.flatten_append, ih (by omega), List.flatten_append, borders_append, e1, ← List.sum_flatten]
          simp
    have := key sizes.length (Nat.le_refl _)
    rwa [← hl, List.take_length, hl, List.take_length] at this
  · intro t
    by_cases ht : t < sizes.length
    · rw [h1 t ht]
      have : ∀ s (l : List Int), (borders s l).length = l.length := by
        intro s l; induction l generalizing s with
        | nil => rfl
        | cons x xs ih => simp [borders, ih]
      simp [ht, this]
    · rw [List.getElem?_eq_none (by omega), List.getElem?_eq_none (by omega)]

theorem addRange_spec (off : Int) : ∀ (M X Y : List Int),
    forLoop X.length (X.length + M.length) (X ++ M ++ Y) (fun i d => do
      let x ← d[i]?
      wr d i (x + off)) = some (X ++ M.map (· + off) ++ Y)
  | [], X, Y => by rw [forLoop_ge _ _ (by simp)]; simp
  | m :: M, X, Y => by
      rw [forLoop_lt _ _ (by simp)]
      have e1 : (X ++ m :: M ++ Y)[X.length]? = some m := by simp
      have e2 : wr (X ++ m :: M ++ Y) X.length (m + off) = some ((X ++ [m + off]) ++ M ++ Y) := by
        rw [wr_eq_some (by simp)]; simp
      simp only [e1, e2, Option.bind_eq_bind, Option.bind_some]
      have := addRange_spec off M (X ++ [m + off]) Y
      simp only [List.length_append, List.length_cons, List.length_nil, Nat.zero_add] at this ⊢
      rw [show X.length + (M.length + 1) = X.length + 1 + M.length by omega]
      simp only [Option.bind_eq_bind] at this
      rw [this]; simp

theorem length_borders (s : Int) (l : List Int) : (borders s l).length = l.length := by
  induction l generalizing s with
  | nil => rfl
  | cons x xs ih => simp [borders, ih]

theorem partStart_succ (sizes : List (List Int)) (t : Nat) (h : t < sizes.length) :
    partStart sizes (t + 1) = partStart sizes t + (sizes[t]).length := by
  unfold partStart
  rw [List.take_succ_eq_append_getElem h, List.flatten_append]; simp

theorem length_flatten_borders (sizes : List (List Int)) :
    ((sizes.map (borders 0)).flatten).length = sizes.flatten.length := by
  induction sizes with
  | nil => rfl
  | cons x xs ih => simp [length_borders] at ih ⊢; omega

theorem threadDistributionFlat_spec (c : Int) (sizes : List (List Int)) :
    threadDistributionFlat (c :: (sizes.map (borders 0)).flatten)
      ((List.range (sizes.length + 1)).map (partStart sizes)) = some (c :: borders 0 sizes.flatten) := by
  generalize hdist : (List.range (sizes.length + 1)).map (partStart sizes) = dist
  have hdl : dist.length = sizes.length + 1 := by simp [← hdist]
  have hdg : ∀ t, t ≤ sizes.length → dist[t]? = some (partStart sizes t) := by
    intro t ht; rw [← hdist]; simp [show t < sizes.length + 1 by omega]
  generalize hdata : c :: (sizes.map (borders 0)).flatten = data
  -- value read at the end of part `t`
  have hread : ∀ t (ht : t < sizes.length), sizes[t] ≠ [] → data[partStart sizes (t + 1)]? = some (sizes[t]).sum := by
    intro t ht hne
    have hsplit : data = (c :: ((sizes.take t).map (borders 0)).flatten) ++ borders 0 sizes[t]
        ++ ((sizes.drop (t + 1)).map (borders 0)).flatten := by
      rw [← hdata]
      conv => lhs; rw [← List.take_append_drop t sizes, List.drop_eq_getElem_cons ht]
      simp only [List.map_append, List.map_cons, List.flatten_append, List.flatten_cons, List.cons_append, List.append_assoc]
    have hX : (c :: ((sizes.take t).map (borders 0)).flatten).length = partStart sizes t + 1 := by
      rw [List.length_cons, length_flatten_borders]; rfl
    have hb : (borders 0 sizes[t]).length = (sizes[t]).length := length_borders _ _
    have hpos : 0 < (sizes[t]).length := List.length_pos_iff.2 hne
    rw [hsplit, partStart_succ sizes t ht, List.getElem?_append_left (by rw [List.length_append, hX, hb]; omega),
      List.getElem?_append_right (by omega), hX]
    have hl := borders_last sizes[t]
    rw [List.getLast?_eq_getElem?] at hl
    have : partStart sizes t + (sizes[t]).length - (partStart sizes t + 1) = (borders 0 sizes[t]).length - 1 := by omega
    rw [this, List.getElem?_eq_getElem (by omega)]
    rw [List.getElem?_eq_getElem (by omega)] at hl
    simpa using hl
  obtain ⟨offs, e1, ho1, ho2, ho3⟩ := forLoop_inv (Nat.zero_le sizes.length) (List.replicate dist.length (0 : Int))
    (fun t offsets => do
      let a ← dist[t]?
      let b ← dist[t + 1]?
      if a ≠ b then
        let x ← data[b]?
        wr offsets t x
      else some offsets)
    (fun t o => o.length = sizes.length + 1 ∧
      (∀ j (h : j < t) (h' : j < sizes.length), o[j]? = some (sizes[j]).sum) ∧
      (∀ j, t ≤ j → j < sizes.length + 1 → o[j]? = some 0))
    ⟨by simp [hdl], by simp, by intro j _ h; rw [List.getElem?_replicate, if_pos (by omega)]⟩
    (by
      rintro t - ht o ⟨h1, h2, h3⟩
      have ea := hdg t (by omega)
      have eb := hdg (t + 1) (by omega)
      by_cases hne : sizes[t] = []
      · refine ⟨o, ?_, h1, ?_, ?_⟩
        · have : partStart sizes (t + 1) = partStart sizes t := by
            rw [partStart_succ sizes t ht, hne]; rfl
          simp only [ea, eb, this, Option.bind_eq_bind, Option.bind_some]
          simp
        · intro j hj hj'
          rcases Nat.lt_succ_iff_lt_or_eq.1 hj with h | rfl
          · exact h2 j h hj'
          · rw [h3 j (Nat.le_refl _) (by omega), hne]; rfl
        · intro j hj hj'; exact h3 j (by omega) hj'
      · have hpos : 0 < (sizes[t]).length := List.length_pos_iff.2 hne
        refine ⟨o.set t (sizes[t]).sum, ?_, by simpa using h1, ?_, ?_⟩
        · simp only [ea, eb, Option.bind_eq_bind, Option.bind_some]
          rw [if_pos (by rw [partStart_succ sizes t ht]; omega), hread t ht hne]
          exact wr_eq_some (by omega)
        · intro j hj hj'
          rw [List.getElem?_set]
          split
          · next h => subst h; rw [if_pos (by omega)]
          · exact h2 j (by omega) hj'
        · intro j hj hj'
          rw [List.getElem?_set, if_neg (by omega)]; exact h3 j (by omega) hj')
  have hoffs : offs = sizes.map List.sum ++ [0] := by
    apply List.ext_getElem?
    intro j
    by_cases hj : j < sizes.length
    · rw [ho2 j hj hj, List.getElem?_append_left (by simpa using hj)]; simp [hj]
    · by_cases hj' : j = sizes.length
      · subst hj'; rw [ho3 _ (Nat.le_refl _) (by omega), List.getElem?_append_right (by simp)]; simp
      · rw [List.getElem?_eq_none (by omega), List.getElem?_eq_none (by simp; omega)]
  obtain ⟨w, ew, hwl, hw⟩ := sizesToOffsets_spec offs 0
  have hw' : ∀ t, t < sizes.length → w[t]? = some ((sizes.take t).flatten.sum) := by
    intro t ht
    rw [hw t (by rw [ho1]; omega), hoffs, List.take_append_of_le_length (by simp; omega), List.sum_flatten, List.map_take]
    simp
  obtain ⟨r, e2, hr⟩ := forLoop_inv (Nat.zero_le sizes.length) data
    (fun t data => do
      let off ← w[t]?
      let a ← dist[t]?
      let b ← dist[t + 1]?
      forLoop (a + 1) (b + 1) data fun i data => do
        let x ← data[i]?
        wr data i (x + off))
    (fun t d => d = c :: (borders 0 (sizes.take t).flatten ++ ((sizes.drop t).map (borders 0)).flatten))
    (by simp [borders, hdata])
    (by
      rintro t - ht d rfl
      refine ⟨_, ?_, rfl⟩
      simp only [hw' t ht, hdg t (by omega), hdg (t + 1) (by omega), Option.bind_eq_bind, Option.bind_some]
      have hX : (c :: borders 0 (sizes.take t).flatten).length = partStart sizes t + 1 := by
        simp [length_borders, partStart]
      have := addRange_spec ((sizes.take t).flatten.sum) (borders 0 sizes[t]) (c :: borders 0 (sizes.take t).flatten)
        (((sizes.drop (t + 1)).map (borders 0)).flatten)
      rw [hX, length_borders] at this
      rw [partStart_succ sizes t ht, List.drop_eq_getElem_cons ht]
      rw [show partStart sizes t + sizes[t].length + 1 = partStart sizes t + 1 + sizes[t].length by omega]
      simp only [Option.bind_eq_bind, List.cons_append, List.append_assoc] at this
      simp only [List.map_cons, List.flatten_cons]
      rw [this, List.take_succ_eq_append_getElem ht, List.flatten_append, borders_append, borders_shift]
      simp)
  rw [List.take_length, List.drop_length] at hr
  unfold threadDistributionFlat
  rw [if_neg (by omega), hdl]
  simp only [Nat.add_sub_cancel]
  rw [hdl] at e1
  rw [e1]
  simp only [Option.bind_eq_bind, Option.bind_some, ew] at e2 ⊢
  rw [e2, hr]; simp

end Verif.Utils
