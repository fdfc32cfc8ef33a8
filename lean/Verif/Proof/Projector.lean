import Verif.Model.Projector
import Verif.Proof.DualOperator
import Verif.Proof.MpiSeq
import Verif.Prop.Comm
/-! Lemmas about the projector (C66). -/
namespace Verif.Feti

open Verif.Csx Verif.Dual Verif.Comm Verif.Mpi Finset

variable {L R : Type} [DecidableEq L] [CommRing R]

/-! ### The rows of the threads -/

/-- The threads take all rows in order. -/
structure Covers (threads : Nat) (dist : List Nat) (size : Nat) : Prop where
  len : dist.length = threads + 1
  zero : dist.getD 0 0 = 0
  mono : ∀ t, t < threads → dist.getD t 0 ≤ dist.getD (t + 1) 0
  last : dist.getD threads 0 = size

theorem forThreads_spec {σ : Type} {threads : Nat} {dist : List Nat} {size : Nat} (h : Covers threads dist size) (s : σ) (f : Nat → σ → Option σ) :
    forThreads threads dist s f = forLoop 0 size s f := by
  unfold forThreads
  have key : ∀ n, n ≤ threads → forLoop 0 n s (fun t s => (dist[t]?.bind fun a => dist[t + 1]?.bind fun b => forLoop a b s f)) = forLoop 0 (dist.getD n 0) s f := by
    intro n
    induction n with
    | zero => intro _; rw [h.zero, forLoop_ge _ _ (Nat.le_refl _), forLoop_ge _ _ (Nat.le_refl _)]
    | succ n ih =>
        intro hn
        rw [forLoop_split (Nat.zero_le n) (Nat.le_succ n), ih (by omega), forLoop_split (Nat.zero_le (dist.getD n 0)) (h.mono n (by omega))]
        congr 1
        funext s'
        rw [forLoop_lt _ _ (Nat.lt_succ_self n), getD_some (show n < dist.length by rw [h.len]; omega), getD_some (show n + 1 < dist.length by rw [h.len]; omega)]
        simp only [Option.bind_some]
        cases forLoop (dist.getD n 0) (dist.getD (n + 1) 0) s' f with
        | none => rfl
        | some s'' => rw [Option.bind_some, forLoop_ge _ _ (Nat.le_refl _)]
  have := key threads (Nat.le_refl _)
  rw [h.last] at this
  exact this

theorem wr_getD {A : Type} (l : List A) (i : Nat) (v d : A) (h : i < l.length) : ∃ l', wr l i v = some l' ∧ l'.length = l.length ∧ ∀ k, k < l.length → l'.getD k d = if k = i then v else l.getD k d := by
  refine ⟨l.set i v, wr_eq_some h, List.length_set .., ?_⟩
  intro k hk
  rw [List.getD_eq_getElem?_getD, getElem?_set' _ _ _ _ h, List.getD_eq_getElem?_getD]
  by_cases e : k = i
  · rw [if_pos e, if_pos e.symm]; rfl
  · rw [if_neg e, if_neg fun h => e h.symm]

/-- `Vector_Kernel::set` gives every row to exactly one thread. -/
theorem kernelDistribution_spec {threads chunk : Nat} (ht : 0 < threads) (size : Nat) : ∃ dist, kernelDistribution threads chunk size = some dist ∧ Covers threads dist size := by
  unfold kernelDistribution
  obtain ⟨d, e, h1, h2, h3, h4⟩ := forLoop_inv (show 1 ≤ threads + 1 by omega) (List.replicate (threads + 1) 0) (fun t dist => distributionStep chunk (max (size / chunk) 1) size t dist)
    (fun t dist => dist.length = threads + 1 ∧ dist.getD 0 0 = 0 ∧ (∀ s, s + 1 < t → dist.getD s 0 ≤ dist.getD (s + 1) 0) ∧ ∀ s, s < t → dist.getD s 0 ≤ size)
    ⟨List.length_replicate .., by simp [List.getD_eq_getElem?_getD], by intro s hs; omega, by
      intro s hs
      have : s = 0 := by omega
      subst this
      simp [List.getD_eq_getElem?_getD]⟩ (by
    intro t h1 ht dist ⟨hl, h0, hm, hs⟩
    unfold distributionStep
    simp only [Option.bind_eq_bind]
    rw [getD_some (show t - 1 < dist.length by omega), Option.bind_some]
    generalize hv : (if size % chunk < t - 1 then dist.getD (t - 1) 0 + max (size / chunk) 1 * chunk + chunk else dist.getD (t - 1) 0 + max (size / chunk) 1 * chunk) = v
    have hge : dist.getD (t - 1) 0 ≤ v := by rw [← hv]; split <;> omega
    have hle := hs (t - 1) (by omega)
    obtain ⟨l, e, el, eg⟩ := wr_getD dist t (min v size) 0 (by omega)
    refine ⟨l, e, by omega, ?_, ?_, ?_⟩
    · rw [eg 0 (by omega), if_neg (by omega), h0]
    · intro s hst
      rw [eg s (by omega), eg (s + 1) (by omega), if_neg (by omega)]
      by_cases e' : s + 1 = t
      · rw [if_pos e']
        have : s = t - 1 := by omega
        rw [this]
        exact Nat.le_min.2 ⟨hge, hle⟩
      · rw [if_neg e']
        exact hm s (by omega)
    · intro s hst
      rw [eg s (by omega)]
      by_cases e' : s = t
      · rw [if_pos e']; exact Nat.min_le_right _ _
      · rw [if_neg e']; exact hs s (by omega))
  simp only [Option.bind_eq_bind]
  rw [e, Option.bind_some]
  obtain ⟨l, e', el, eg⟩ := wr_getD d (d.length - 1) size 0 (by omega)
  refine ⟨l, e', by omega, ?_, ?_, ?_⟩
  · rw [eg 0 (by omega), if_neg (by omega), h2]
  · intro t htt
    rw [eg t (by omega), eg (t + 1) (by omega), if_neg (by omega)]
    split
    · exact h4 t (by omega)
    · exact h3 t (by omega)
  · rw [eg threads (by omega), if_pos (by omega)]

/-! ### Local products -/

/-- A loop that writes one cell after another. -/
theorem write_loop (n : Nat) (out : List R) (offset : Nat) (ho : offset + n ≤ out.length) (body : Nat → List R → Option (List R)) (val : Nat → R)
    (h : ∀ r, r < n → ∀ f : Nat → R, body r (mk out.length f) = some (mk out.length (upd f (r + offset) (val r)))) :
    forLoop 0 n out body = some (mk out.length fun i => if offset ≤ i ∧ i < offset + n then val (i - offset) else out.getD i 0) := by
  obtain ⟨s, e, hs⟩ := forLoop_inv (Nat.zero_le n) out body (fun k s => s = mk out.length fun i => if offset ≤ i ∧ i < offset + k then val (i - offset) else out.getD i 0)
    (by
      conv_lhs => rw [mk_of_length out 0]
      apply mk_congr
      intro i _
      rw [if_neg (by omega)]) (by
    intro k _ hk s hs
    refine ⟨_, ?_, rfl⟩
    rw [hs, h k hk]
    congr 1
    apply mk_congr
    intro i _
    unfold upd
    by_cases e : i = k + offset
    · rw [if_pos e, if_pos (by omega), e, Nat.add_sub_cancel]
    · rw [if_neg e]
      dsimp only
      by_cases e' : offset ≤ i ∧ i < offset + k
      · rw [if_pos e', if_pos (by omega)]
      · rw [if_neg e', if_neg (by omega)])
  rw [e, hs]

theorem addAt_mk {n k : Nat} (f : Nat → R) (a : R) (h : k < n) : addAt (mk n f) k a = some (mk n (upd f k (f k + a))) := by
  unfold addAt
  simp only [Option.bind_eq_bind]
  rw [mk_get _ h, Option.bind_some, wr_mk _ _ h]

theorem upd_upd' {A : Type} (f : Nat → A) (k : Nat) (a b : A) : upd (upd f k a) k b = upd f k b := by
  funext i
  unfold upd
  split <;> rfl

theorem upd_self {A : Type} (f : Nat → A) (k : Nat) (a : A) : upd f k a k = a := if_pos rfl

theorem applyGLocal_spec {threads : Nat} {dist : List Nat} {G : Csx R} (hd : Covers threads dist G.np) (hG : WellFormed G) {offset : Nat} {x out : List R} (hx : x.length = G.ns)
    (ho : offset + G.np ≤ out.length) :
    applyGLocal threads dist offset G x out =
      some (mk out.length fun i => if offset ≤ i ∧ i < offset + G.np then ∑ j ∈ range G.ns, G.at (i - offset) j * x.getD j 0 else out.getD i 0) := by
  unfold applyGLocal
  rw [forThreads_spec hd]
  apply write_loop _ _ _ ho _ fun r => ∑ j ∈ range G.ns, G.at r j * x.getD j 0
  intro r hr f
  simp only [Option.bind_eq_bind]
  rw [wr_mk _ _ (by omega), Option.bind_some, wf_ptr hG (by omega), wf_ptr hG (by omega)]
  simp only [Option.bind_some]
  rw [row_loop' hG hr (fun c v out => x[c]?.bind fun xv => addAt out (r + offset) (v * xv))]
  have hcols := row_cols hG hr
  have key : ∀ (row : List (Nat × R)), (∀ e ∈ row, e.1 < G.ns) → ∀ (s : R), row.foldlM (fun out e => x[e.1]?.bind fun xv => addAt out (r + offset) (e.2 * xv)) (mk out.length (upd f (r + offset) s)) =
      some (mk out.length (upd f (r + offset) (s + (row.map fun e => e.2 * x.getD e.1 0).sum))) := by
    intro row
    induction row with
    | nil => intro _ s; rw [List.map_nil, List.sum_nil, add_zero]; rfl
    | cons e row ih =>
        intro h s
        rw [List.foldlM_cons, getD_get (show e.1 < x.length by rw [hx]; exact h e List.mem_cons_self), Option.bind_some, addAt_mk _ _ (by omega)]
        show List.foldlM _ _ row = _
        rw [upd_upd', upd_self, ih (fun e' he' => h e' (List.mem_cons_of_mem _ he')), List.map_cons, List.sum_cons, add_assoc]
  rw [key _ hcols, zero_add, sum_row _ (fun j => x.getD j 0) G.ns hcols]
  rfl

theorem sum_loop (n : Nat) (t : Nat → R) (body : Nat → R → Option R) (h : ∀ c, c < n → ∀ s, body c s = some (s + t c)) : forLoop 0 n (0 : R) body = some (∑ c ∈ range n, t c) := by
  obtain ⟨s, e, hs⟩ := forLoop_inv (Nat.zero_le n) (0 : R) body (fun k s => s = ∑ c ∈ range k, t c) (by simp) (by
    intro k _ hk s hs
    exact ⟨_, h k hk s, by rw [hs, sum_range_succ]⟩)
  rw [e, hs]

theorem applyRows_spec {threads : Nat} {dist : List Nat} {n : Nat} (hd : Covers threads dist n) {ncols : Nat} {a : List R} (A : Nat → Nat → R)
    (ha : ∀ r, r < n → ∀ c, c < ncols → a[ncols * r + c]? = some (A r c)) {x : List R} (hx : x.length = ncols) {yoff : Nat} {y : List R} (hy : yoff + n ≤ y.length) :
    applyRows threads dist ncols a x yoff y = some (mk y.length fun i => if yoff ≤ i ∧ i < yoff + n then ∑ c ∈ range ncols, A (i - yoff) c * x.getD c 0 else y.getD i 0) := by
  unfold applyRows
  rw [forThreads_spec hd]
  apply write_loop _ _ _ hy _ fun r => ∑ c ∈ range ncols, A r c * x.getD c 0
  intro r hr f
  simp only [Option.bind_eq_bind]
  rw [sum_loop ncols (fun c => A r c * x.getD c 0) _ (by
    intro c hc s
    rw [ha r hr c hc, Option.bind_some, getD_get (show c < x.length by omega), Option.bind_some]), Option.bind_some, wr_mk _ _ (by omega)]

theorem total_cols (G : Csx R) (hG : WellFormed G) (x : Nat → R) (i : Nat) :
    total (G.entries.map fun e => (e.2.1, e.2.2 * x e.1)) i = ∑ r ∈ range G.np, G.at r i * x r := by
  unfold Csx.entries
  rw [List.map_flatMap, total_flatMap, list_sum_range]
  apply sum_congr rfl
  intro r _
  rw [List.map_map]
  unfold Csx.at
  generalize G.row r = row
  induction row with
  | nil => simp [total]
  | cons e row ih =>
      rw [List.map_cons, total_cons, ih]
      by_cases h : e.1 = i
      · rw [List.filter_cons_of_pos (by simpa using h), List.map_cons, List.sum_cons, add_mul]
        simp [h]
      · rw [List.filter_cons_of_neg (by simpa using h)]
        simp [h]

theorem applyGtLocal_spec {G : Csx R} (hG : WellFormed G) {x out : List R} (α : R) (hx : x.length = G.np) (ho : out.length = G.ns) :
    applyGtLocal G x α out = some (mk G.ns fun i => out.getD i 0 + α * ∑ r ∈ range G.np, G.at r i * x.getD r 0) := by
  have e : applyGtLocal G x α out = runOps (G.entries.map fun e => (e.2.1, e.2.2 * (α * x.getD e.1 0))) out := by
    unfold applyGtLocal runOps
    simp only [Option.bind_eq_bind]
    rw [forEntries_entries hG (fun r c v out => x[r]?.bind fun z => addAt out c (α * v * z)), List.foldlM_map]
    apply Verif.Csx.foldlM_congr
    intro e he s
    obtain ⟨h1, _⟩ := entries_range hG he
    rw [getD_get (show e.1 < x.length by rw [hx]; exact h1), Option.bind_some]
    congr 1
    ring
  obtain ⟨w, h1, h2, h3⟩ := runOps_spec (G.entries.map fun e => (e.2.1, e.2.2 * (α * x.getD e.1 0))) out (by
    intro op hop
    obtain ⟨e, he, rfl⟩ := List.mem_map.1 hop
    rw [ho]
    exact (entries_range hG he).2)
  rw [e, h1]
  congr 1
  rw [mk_of_length w 0, h2, ho]
  apply mk_congr
  intro i hi
  rw [List.getD_eq_getElem?_getD, h3 i (by omega), Option.getD_some, total_cols G hG (fun r => α * x.getD r 0)]
  congr 1
  rw [mul_sum]
  apply sum_congr rfl
  intro r _
  ring

/-! ### Without the halo -/

theorem fill_loop (a b : Nat) (hab : a ≤ b) (n : Nat) (hb : b ≤ n) (f v : Nat → R) (body : Nat → List R → Option (List R))
    (h : ∀ k, a ≤ k → k < b → ∀ g : Nat → R, body k (mk n g) = some (mk n (upd g k (v k)))) :
    forLoop a b (mk n f) body = some (mk n fun i => if a ≤ i ∧ i < b then v i else f i) := by
  obtain ⟨s, e, hs⟩ := forLoop_inv hab (mk n f) body (fun k s => s = mk n fun i => if a ≤ i ∧ i < k then v i else f i)
    (mk_congr fun i _ => by rw [if_neg (by omega)]) (by
    intro k h1 h2 s hs
    refine ⟨_, ?_, rfl⟩
    rw [hs, h k h1 h2]
    congr 1
    apply mk_congr
    intro i _
    unfold upd
    by_cases e : i = k
    · rw [if_pos e, if_pos (by omega), e]
    · rw [if_neg e]
      dsimp only
      by_cases e' : a ≤ i ∧ i < k
      · rw [if_pos e', if_pos (by omega)]
      · rw [if_neg e', if_neg (by omega)])
  rw [e, hs]

theorem withoutHalo_parts (X : L → R) (own : L → Bool) (lam : List L) (dst : List R) (hdst : dst.length = lam.length) : ∀ (parts : List (List L × List L)) (pre : List L),
    lam = pre ++ parts.flatMap (fun x => x.1 ++ x.2) → (∀ x ∈ parts, (∀ l ∈ x.1, own l = false) ∧ ∀ l ∈ x.2, own l = true) →
    ∀ (f : Nat → R), (∀ k, k < pre.length → f k = ((lam.map fun l => if own l then X l else 0).getD k 0)) →
    ∃ p, (ivs pre.length (parts.map fun x => (x.1.length, x.2.length))).foldlM (fun st iv => withoutHaloStep (lam.map X) iv st) (mk lam.length f, pre.length) =
      some (lam.map fun l => if own l then X l else 0, p) := by
  intro parts
  induction parts with
  | nil =>
      intro pre hlam _ f hf
      rw [List.flatMap_nil, List.append_nil] at hlam
      refine ⟨pre.length, ?_⟩
      rw [List.map_nil, ivs, List.foldlM_nil]
      show some _ = some _
      congr 2
      rw [mk_of_length (lam.map fun l => if own l then X l else 0) 0, List.length_map]
      apply mk_congr
      intro k hk
      rw [hf k (by rw [← hlam]; exact hk)]
  | cons x parts ih =>
      intro pre hlam hparts f hf
      obtain ⟨hx1, hx2⟩ := hparts x List.mem_cons_self
      rw [List.flatMap_cons] at hlam
      have hlen : lam.length = pre.length + x.1.length + x.2.length + (parts.flatMap fun x => x.1 ++ x.2).length := by
        rw [hlam]; simp only [List.length_append]; omega
      have get1 : ∀ k, k < x.1.length → ∃ l, lam[pre.length + k]? = some l ∧ own l = false := by
        intro k hk
        refine ⟨x.1[k], ?_, hx1 _ (List.getElem_mem hk)⟩
        rw [hlam, List.getElem?_append_right (by omega), List.append_assoc, List.getElem?_append_left (by omega), Nat.add_sub_cancel_left, List.getElem?_eq_getElem hk]
      have get2 : ∀ k, k < x.2.length → ∃ l, lam[pre.length + x.1.length + k]? = some l ∧ own l = true := by
        intro k hk
        refine ⟨x.2[k], ?_, hx2 _ (List.getElem_mem hk)⟩
        rw [hlam, List.getElem?_append_right (by omega), List.append_assoc, List.getElem?_append_right (by omega), List.getElem?_append_left (by omega),
          show pre.length + x.1.length + k - pre.length - x.1.length = k by omega, List.getElem?_eq_getElem hk]
      rw [List.map_cons, ivs, List.foldlM_cons]
      have step : withoutHaloStep (lam.map X) (x.1.length + pre.length, x.1.length + pre.length + x.2.length) (mk lam.length f, pre.length) =
          some (mk lam.length fun k => if k < pre.length + x.1.length + x.2.length then (lam.map fun l => if own l then X l else 0).getD k 0 else f k, x.1.length + pre.length + x.2.length) := by
        unfold withoutHaloStep
        simp only [Option.bind_eq_bind]
        rw [fill_loop pre.length (x.1.length + pre.length) (by omega) _ (by omega) f (fun _ => 0) _ (fun k _ hk g => wr_mk _ _ (by omega)), Option.bind_some,
          fill_loop (x.1.length + pre.length) (x.1.length + pre.length + x.2.length) (by omega) _ (by omega) _ (fun k => (lam.map X).getD k 0) _ (by
            intro k _ hk g
            rw [getD_get (show k < (lam.map X).length by rw [List.length_map]; omega), Option.bind_some, wr_mk _ _ (by omega)]), Option.bind_some]
        congr 2
        apply mk_congr
        intro k hk
        by_cases h1 : k < pre.length
        · rw [if_neg (by omega), if_neg (by omega), if_pos (by omega), hf k h1]
        · by_cases h2 : k < pre.length + x.1.length
          · rw [if_neg (by omega), if_pos (by omega), if_pos (by omega)]
            obtain ⟨l, hl, ho⟩ := get1 (k - pre.length) (by omega)
            rw [show pre.length + (k - pre.length) = k by omega] at hl
            rw [List.getD_eq_getElem?_getD, List.getElem?_map, hl]
            simp [ho]
          · by_cases h3 : k < pre.length + x.1.length + x.2.length
            · rw [if_pos (by omega), if_pos (by omega)]
              obtain ⟨l, hl, ho⟩ := get2 (k - pre.length - x.1.length) (by omega)
              rw [show pre.length + x.1.length + (k - pre.length - x.1.length) = k by omega] at hl
              rw [List.getD_eq_getElem?_getD, List.getElem?_map, hl, List.getD_eq_getElem?_getD, List.getElem?_map, hl]
              simp [ho]
            · rw [if_neg (by omega), if_neg (by omega), if_neg (by omega)]
      simp only []
      rw [step]
      show ∃ p, List.foldlM _ _ _ = _
      have hpl : (pre ++ (x.1 ++ x.2)).length = x.1.length + pre.length + x.2.length := by simp only [List.length_append]; omega
      have := ih (pre ++ (x.1 ++ x.2)) (hlam.trans (List.append_assoc ..).symm) (fun y hy => hparts y (List.mem_cons_of_mem _ hy))
        (fun k => if k < pre.length + x.1.length + x.2.length then (lam.map fun l => if own l then X l else 0).getD k 0 else f k) (by
          intro k hk
          rw [if_pos (by rw [hpl] at hk; omega)])
      rw [hpl] at this
      exact this

variable {np : Nat} {first : Nat → Nat} {nb : Nat → List Nat} {lam : Nat → List L} {doms : L → List Nat}

theorem copyToWithoutHalo_spec (H : Shared np first nb lam doms) {p : Nat} (hp : p < np) {iv : List (Nat × Nat)} (hi : Intervals first p (lam p) doms iv) (X : L → R) (dst : List R)
    (hd : dst.length = (lam p).length) :
    copyToWithoutHalo (localIntervals iv) ((lam p).map X) dst = some ((lam p).map fun l => if Owns first p ((doms l).headD 0) then X l else 0) := by
  obtain ⟨parts, rfl, h2, h3⟩ := hi
  unfold copyToWithoutHalo
  rw [localIntervals_eq]
  have hmem : ∀ x ∈ parts, ∀ l, l ∈ x.1 ∨ l ∈ x.2 → l ∈ lam p := by
    intro x hx l hl
    rw [h2]
    exact List.mem_flatMap.2 ⟨x, hx, List.mem_append.2 hl⟩
  obtain ⟨q, e⟩ := withoutHalo_parts X (fun l => decide (Owns first p ((doms l).headD 0))) (lam p) dst hd parts [] (by rw [List.nil_append]; exact h2) (by
    intro x hx
    refine ⟨fun l hl => ?_, fun l hl => ?_⟩
    · have := (h3 x hx).1 l hl
      exact decide_eq_false fun h => by have := h.1; omega
    · exact decide_eq_true ((own_iff H hp (hmem x hx l (Or.inr hl))).1 ((h3 x hx).2 l hl))) (fun k => dst.getD k 0) (by intro k hk; simp at hk)
  simp only [List.length_nil] at e
  have hm : dst = mk (lam p).length fun k => dst.getD k 0 := by rw [← hd]; exact mk_of_length dst 0
  rw [← hm] at e
  rw [e]
  simp

/-! ### Communication -/

theorem world_orFail {M A B : Type} (o : Nat → Option A) (a : Nat → A) (k : Nat → A → Prog M (Option B)) (h : ∀ p, p < np → o p = some (a p)) :
    world 0 np (fun p => orFail (o p) (k p)) = world 0 np fun p => k p (a p) :=
  world_congr fun p _ hp => by rw [h p hp]; rfl

theorem world_andThen {M A B : Type} {P : Nat → Prog M (Option A)} (a : Nat → A) {k : Nat → A → Prog M (Option B)} {b : Nat → Option B}
    (h1 : Completes (world 0 np P) (finished 0 np fun p => some (a p))) (h2 : Completes (world 0 np fun p => k p (a p)) (finished 0 np b)) :
    Completes (world 0 np fun p => andThen (P p) (k p)) (finished 0 np b) :=
  world_bind h1 h2

/-- The synchronization of dual vectors works with `nmap`, `nsize`: the values of all processes are added. -/
def Synchronizes (R : Type) [CommRing R] (np : Nat) (nb : Nat → List Nat) (lam : Nat → List L) (nmap nsize : Nat → List Nat) : Prop :=
  ∀ (t : Nat) (v : Nat → L → R) (b : Nat → Buffers R), (∀ q, q < np → ∀ l ∈ allMults np lam, l ∉ lam q → v q l = 0) →
    (∀ p, p < np → (b p).send.map List.length = nsize p ∧ (b p).recv.map List.length = nsize p) →
    ∃ b' : Nat → Buffers R, (∀ p, p < np → (b' p).send.map List.length = nsize p ∧ (b' p).recv.map List.length = nsize p) ∧
      Completes (world 0 np fun p => syncDual t (nb p) (nmap p) ((lam p).map (v p)) (b p)) (finished 0 np fun p => some ((lam p).map fun l => ∑ q ∈ range np, v q l, b' p))

theorem synchronizes (H : Shared np first nb lam doms) (cmap : Nat → List Nat) (hc : ∀ p, p < np → Describes (cmap p) (lam p) doms) :
    ∃ nmap nsize : Nat → List Nat, (∀ p, p < np → dualMapSet (decOf first nb p) (cmap p) = some (nmap p, nsize p)) ∧ Synchronizes R np nb lam nmap nsize := by
  obtain ⟨nmap, nsize, h1, h2⟩ := C61_vector (R := R) H cmap hc
  refine ⟨nmap, nsize, h1, ?_⟩
  intro t v b hv hb
  obtain ⟨packed, received, hl, h3, h4, h5⟩ := h2 t (fun p => (lam p).map (v p)) (fun p => (b p).send) (fun p => (b p).recv) (fun p _ => List.length_map _) hb
  refine ⟨fun p => ⟨packed p, received p⟩, hl, ?_⟩
  unfold syncDual
  rw [world_orFail _ packed _ h3]
  refine world_andThen received h4 ?_
  rw [world_orFail _ (fun p => (lam p).map fun l => ∑ q ∈ range np, v q l)]
  · exact world_ret _ _ _
  intro p hp
  obtain ⟨z, hz, hzl, hzg⟩ := h5 p hp
  rw [hz]
  congr 1
  apply List.ext_getElem?
  intro k
  by_cases hk : k < (lam p).length
  · rw [hzg k _ (List.getElem?_eq_getElem hk), List.getElem?_map, List.getElem?_eq_getElem hk]
    show some _ = some _
    congr 1
    apply sum_congr rfl
    intro q hq
    by_cases hm : (lam p)[k] ∈ lam q
    · exact valueOf_map _ hm
    · unfold valueOf
      rw [if_neg hm, hv q (mem_range.1 hq) _ (mem_allMults.2 ⟨p, hp, List.getElem_mem hk⟩) hm]
  · rw [List.getElem?_eq_none (by omega), List.getElem?_eq_none (by rw [List.length_map]; omega)]

/-- The parts `roff p, …, roff (p + 1) - 1` of a vector. -/
theorem contributions_parts {A : Type} {roff : Nat → Nat} (h0 : roff 0 = 0) (hm : ∀ p, roff p ≤ roff (p + 1)) (f : Nat → A) (n : Nat) :
    (contributions 0 n fun p => mk (roff (p + 1) - roff p) fun r => f (roff p + r)).flatten = mk (roff n) f := by
  induction n with
  | zero => rw [h0]; rfl
  | succ n ih =>
      unfold contributions at ih ⊢
      rw [Nat.sub_zero] at ih ⊢
      rw [← List.range_eq_range'] at ih ⊢
      rw [List.range_succ, List.map_append, List.flatten_append, ih]
      simp only [List.map_cons, List.map_nil, List.flatten_cons, List.flatten_nil, List.append_nil]
      unfold mk
      have : roff (n + 1) = roff n + (roff (n + 1) - roff n) := by have := hm n; omega
      conv_rhs => rw [this, List.range_add, List.map_append, List.map_map]
      rfl

theorem syncKernel_spec (t : Nat) (hnp : 0 < np) {roff : Nat → Nat} (h0 : roff 0 = 0) (hm : ∀ p, roff p ≤ roff (p + 1)) (f : Nat → R) (old : Nat → Nat → R) :
    Completes (world 0 np fun p => syncKernel t p np (mk (roff np) fun i => if roff p ≤ i ∧ i < roff p + (roff (p + 1) - roff p) then f i else old p i) (roff p) (roff (p + 1) - roff p))
      (finished 0 np fun _ => some (mk (roff np) f)) := by
  have hp := fun n => contributions_parts h0 hm f n
  have hpl : ∀ n, (contributions 0 n fun p => mk (roff (p + 1) - roff p) fun r => f (roff p + r)).flatten.length = roff n := fun n => by rw [hp, mk_length]
  have := C53_allGatherInplace t np hnp (fun p => mk (roff (p + 1) - roff p) fun r => f (roff p + r))
    (fun p => mk (roff np) fun i => if roff p ≤ i ∧ i < roff p + (roff (p + 1) - roff p) then f i else old p i) (by
      intro i _
      rw [hpl, mk_length]) (by
      intro i hi
      have := first_mono hm (show i + 1 ≤ np from hi)
      have := hm i
      rw [hpl, mk_length]
      apply List.ext_getElem?
      intro k
      rw [List.getElem?_take, List.getElem?_drop]
      by_cases hk : k < roff (i + 1) - roff i
      · rw [if_pos hk, mk_get _ (by omega), mk_get _ hk, if_pos (by omega)]
      · rw [if_neg hk, List.getElem?_eq_none (by rw [mk_length]; omega)])
  simp only [hpl, hp, mk_length] at this
  unfold syncKernel
  exact world_andThen _ this (world_ret _ _ _)

end Verif.Feti
