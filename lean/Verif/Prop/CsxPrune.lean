import Verif.Model.CsxOps
import Verif.Proof.CsxRow
import Verif.Proof.CsxConvert
/-! C45: pruning of empty rows and columns.  C44: pivots and trails. -/
namespace Verif.Csx

variable {T : Type}

theorem select_loop (n : Nat) (b : Nat → Bool) (out : List Nat) (hl : out.length = ((List.range n).filter b).length) (f : Nat → List Nat × Nat → Option (List Nat × Nat))
    (hf : ∀ i, i < n → ∀ s, f i s = if b i then (wr s.1 s.2 i).map fun o => (o, s.2 + 1) else some s) :
    ∃ k, forLoop 0 n (out, 0) f = some ((List.range n).filter b, k) := by
  obtain ⟨s, e, h1, h2, h3⟩ := forLoop_inv (Nat.zero_le n) (out, 0) f
    (fun i s => s.2 = ((List.range i).filter b).length ∧ s.1.length = out.length ∧ s.1.take s.2 = (List.range i).filter b) ⟨rfl, rfl, rfl⟩ (by
      intro i _ hi s ⟨h1, h2, h3⟩
      rw [hf i hi s, List.range_succ, List.filter_append]
      by_cases hb : b i = true
      · have hlt : s.2 < s.1.length := by
          rw [h2, hl, h1]
          have : List.range n = List.range i ++ (i :: (List.range' (i + 1) (n - (i + 1)))) := by
            rw [List.range_eq_range', List.range_eq_range', ← List.range'_succ]
            have := List.range'_append_1 (s := 0) (m := i) (n := n - (i + 1) + 1)
            rw [Nat.zero_add] at this
            rw [this]; congr 1; omega
          rw [this, List.filter_append, List.length_append, List.filter_cons_of_pos hb, List.length_cons]; omega
        rw [if_pos hb, wr_eq_some hlt]
        refine ⟨_, rfl, ?_, ?_, ?_⟩
        · rw [List.length_append, List.filter_cons_of_pos hb, h1]; rfl
        · rw [List.length_set]; exact h2
        · show (s.1.set s.2 i).take (s.2 + 1) = _
          rw [List.filter_cons_of_pos hb, List.filter_nil, List.take_add_one, List.getElem?_set, if_pos rfl, if_pos hlt, List.take_set_of_le (Nat.le_refl _), h3]
          rfl
      · rw [if_neg hb, List.filter_cons_of_neg hb, List.filter_nil, List.append_nil]
        exact ⟨s, rfl, h1, h2, h3⟩)
  refine ⟨s.2, ?_⟩
  rw [e]
  congr 1
  rw [List.take_of_length_le (by omega)] at h3
  exact Prod.ext h3 rfl

theorem count_loop (n : Nat) (b : Nat → Bool) (f : Nat → Nat → Option Nat) (hf : ∀ i, i < n → ∀ k, f i k = some (if b i then k + 1 else k)) :
    forLoop 0 n 0 f = some ((List.range n).filter b).length := by
  obtain ⟨s, e, h⟩ := forLoop_inv (Nat.zero_le n) 0 f (fun i s => s = ((List.range i).filter b).length) rfl (by
    intro i _ hi s h
    refine ⟨_, hf i hi s, ?_⟩
    rw [List.range_succ, List.filter_append, List.length_append, h]
    by_cases hb : b i = true
    · rw [if_pos hb, List.filter_cons_of_pos hb]; rfl
    · rw [if_neg hb, List.filter_cons_of_neg hb]; rfl)
  rw [e, h]

/-- What is promised about a pruned list: the indices with the property `P`, increasing. -/
def Lists (n : Nat) (P : Nat → Prop) (out : List Nat) : Prop := out.Pairwise (· < ·) ∧ ∀ i, i ∈ out ↔ i < n ∧ P i

theorem lists_filter (n : Nat) (b : Nat → Bool) (P : Nat → Prop) (h : ∀ i, i < n → (b i = true ↔ P i)) : Lists n P ((List.range n).filter b) := by
  constructor
  · exact (List.pairwise_lt_range (n := n)).filter _
  · intro i
    rw [List.mem_filter, List.mem_range]
    constructor
    · rintro ⟨h1, h2⟩; exact ⟨h1, (h i h1).1 h2⟩
    · rintro ⟨h1, h2⟩; exact ⟨h1, (h i h1).2 h2⟩

theorem row_nonempty {A : Csx T} (hA : WellFormed A) {p : Nat} (hp : p < A.np) :
    decide (A.ptrs.getD (p + 1) 0 - A.ptrs.getD p 0 > 0) = true ↔ ∃ e ∈ A.entries, e.1 = p := by
  rw [decide_eq_true_eq, ← wf_row_length hA hp]
  constructor
  · intro h
    obtain ⟨e, he⟩ := List.exists_mem_of_length_pos h
    exact ⟨(p, e), mem_entries.2 ⟨hp, he⟩, rfl⟩
  · rintro ⟨e, he, rfl⟩
    exact List.length_pos_of_mem (mem_entries.1 he).2

/-- **C45** (primary dimension): the announced size is the length of the list written, and the list contains exactly the indices of the non-empty slices, increasing. -/
theorem C45_primary (A : Csx T) (hA : WellFormed A) : ∃ n, pruneCountPrimary A = some n ∧ ∀ out : List Nat, out.length = n →
    ∃ out', prunePrimary A out = some out' ∧ out'.length = n ∧ Lists A.np (fun p => ∃ e ∈ A.entries, e.1 = p) out' := by
  refine ⟨_, count_loop A.np (fun p => decide (A.ptrs.getD (p + 1) 0 - A.ptrs.getD p 0 > 0)) _ ?_, ?_⟩
  · intro i hi k
    simp only [Option.bind_eq_bind]
    rw [wf_ptr hA (by omega), wf_ptr hA (by omega)]
    simp only [Option.bind_some, decide_eq_true_eq]
  · intro out hl
    obtain ⟨k, e⟩ := select_loop A.np (fun p => decide (A.ptrs.getD (p + 1) 0 - A.ptrs.getD p 0 > 0)) out hl
      (fun ip (x : List Nat × Nat) => match x with
        | (out, k) => do
          let start ← A.ptrs[ip]?
          let stop ← A.ptrs[ip + 1]?
          if stop - start > 0 then
            let out ← wr out k ip
            some (out, k + 1)
          else some (out, k)) (by
        intro i hi s
        simp only [Option.bind_eq_bind]
        rw [wf_ptr hA (by omega), wf_ptr hA (by omega)]
        simp only [Option.bind_some, decide_eq_true_eq]
        by_cases hc : A.ptrs.getD (i + 1) 0 - A.ptrs.getD i 0 > 0
        · rw [if_pos hc, if_pos hc]; cases wr s.1 s.2 i <;> rfl
        · rw [if_neg hc, if_neg hc])
    refine ⟨_, ?_, rfl, lists_filter _ _ _ fun i hi => row_nonempty hA hi⟩
    unfold prunePrimary
    rw [e]; rfl

theorem pruneCounts_spec (A : Csx T) (hA : WellFormed A) : ∃ cnt, pruneCounts A = some cnt ∧ cnt.length = A.ns ∧ ∀ s, s < A.ns → cnt[s]? = some (A.idxs.count s) := by
  unfold pruneCounts
  have hr := hA.range
  generalize A.idxs = idxs at *
  have e := forLoop_list idxs (fun c (ptrs : List Nat) => ptrs[c]?.bind fun x => wr ptrs c (x + 1)) (List.replicate A.ns 0)
  have e' : (forLoop 0 idxs.length (List.replicate A.ns 0) fun i ptrs => do
      let c ← idxs[i]?
      let x ← ptrs[c]?
      wr ptrs c (x + 1)) = _ := e
  rw [e']
  clear e e'
  have gen : ∀ (idxs ptrs : List Nat) (g : Nat → Nat), (∀ c ∈ idxs, c < A.ns) → ptrs.length = A.ns → (∀ c, c < A.ns → ptrs[c]? = some (g c)) →
      ∃ p, idxs.foldlM (fun ptrs c => ptrs[c]?.bind fun x => wr ptrs c (x + 1)) ptrs = some p ∧ p.length = A.ns ∧ ∀ c, c < A.ns → p[c]? = some (g c + idxs.count c) := by
    intro idxs
    induction idxs with
    | nil => intro ptrs g _ hl hg; exact ⟨ptrs, rfl, hl, by intro c hc; rw [hg c hc]; rfl⟩
    | cons a idxs ih =>
        intro ptrs g h hl hg
        have ha := h a List.mem_cons_self
        obtain ⟨p, e, hpl, hp⟩ := ih (ptrs.set a (g a + 1)) (fun c => if a = c then g c + 1 else g c) (fun c hc => h c (List.mem_cons_of_mem _ hc))
          (by rw [List.length_set]; exact hl) (by
            intro c hc
            rw [getElem?_set' _ _ _ _ (by omega)]
            by_cases hac : a = c
            · rw [if_pos hac, if_pos hac, hac]
            · rw [if_neg hac, if_neg hac]; exact hg c hc)
        refine ⟨p, ?_, hpl, ?_⟩
        · rw [List.foldlM_cons, hg a (by omega)]
          show Option.bind (wr ptrs a (g a + 1)) _ = _
          rw [wr_eq_some (by omega)]; exact e
        · intro c hc
          rw [hp c hc, List.count_cons]
          by_cases hac : a = c
          · rw [if_pos hac, if_pos (by simpa using hac)]; congr 1; omega
          · rw [if_neg hac, if_neg (by simpa using hac)]; rfl
  obtain ⟨p, e1, e2, e3⟩ := gen idxs (List.replicate A.ns 0) (fun _ => 0) hr (by simp) (by intro c hc; rw [List.getElem?_replicate, if_pos hc])
  exact ⟨p, e1, e2, by intro s hs; rw [e3 s hs]; simp⟩

theorem mem_idxs {A : Csx T} (hA : WellFormed A) {s : Nat} : s ∈ A.idxs ↔ ∃ e ∈ A.entries, e.2.1 = s := by
  have hi : A.idxs = A.rows.flatten.map (·.1) := congrArg Csx.idxs (wf_eq hA)
  rw [hi]
  constructor
  · intro h
    obtain ⟨x, hx, rfl⟩ := List.mem_map.1 h
    obtain ⟨row, hr, hx⟩ := List.mem_flatten.1 hx
    unfold Csx.rows at hr
    obtain ⟨p, hp, rfl⟩ := List.mem_map.1 hr
    exact ⟨(p, x), mem_entries.2 ⟨List.mem_range.1 hp, hx⟩, rfl⟩
  · rintro ⟨e, he, rfl⟩
    obtain ⟨h1, h2⟩ := mem_entries.1 he
    exact List.mem_map.2 ⟨e.2, List.mem_flatten.2 ⟨A.row e.1, List.mem_map.2 ⟨e.1, List.mem_range.2 h1, rfl⟩, h2⟩, rfl⟩

/-- **C45** (secondary dimension): the same for the secondary index, counted through all entries. -/
theorem C45_secondary (A : Csx T) (hA : WellFormed A) : ∃ cnt n, pruneCounts A = some cnt ∧ pruneCountSecondary A cnt = some n ∧ ∀ out : List Nat, out.length = n →
    ∃ out', pruneSecondary A cnt out = some out' ∧ out'.length = n ∧ Lists A.ns (fun s => ∃ e ∈ A.entries, e.2.1 = s) out' := by
  obtain ⟨cnt, e0, l0, g0⟩ := pruneCounts_spec A hA
  refine ⟨cnt, _, e0, count_loop A.ns (fun s => decide (A.idxs.count s > 0)) _ ?_, ?_⟩
  · intro i hi k
    simp only [Option.bind_eq_bind]
    rw [g0 i hi]
    simp only [Option.bind_some, decide_eq_true_eq]
  · intro out hl
    obtain ⟨k, e⟩ := select_loop A.ns (fun s => decide (A.idxs.count s > 0)) out hl
      (fun is (x : List Nat × Nat) => match x with
        | (out, k) => do
          let c ← cnt[is]?
          if c > 0 then
            let out ← wr out k is
            some (out, k + 1)
          else some (out, k)) (by
        intro i hi s
        simp only [Option.bind_eq_bind]
        rw [g0 i hi]
        simp only [Option.bind_some, decide_eq_true_eq]
        by_cases hc : A.idxs.count i > 0
        · rw [if_pos hc, if_pos hc]; cases wr s.1 s.2 i <;> rfl
        · rw [if_neg hc, if_neg hc])
    refine ⟨_, ?_, rfl, lists_filter _ _ _ fun i hi => ?_⟩
    · unfold pruneSecondary
      rw [e]; rfl
    · rw [decide_eq_true_eq, gt_iff_lt, List.count_pos_iff]
      exact mem_idxs hA

/-! ### Pivots and trails -/

set_option linter.dupNamespace false in
/-- All slices are ordered (as after a conversion). -/
def Csx.Ordered (A : Csx T) : Prop := ∀ p, p < A.np → (A.row p).Pairwise fun a b => a.1 ≤ b.1

theorem vec_loop (n : Nat) (g : Nat → Int) (vec : List Int) (hl : vec.length = n) (f : Nat → List Int → Option (List Int))
    (hf : ∀ i, i < n → ∀ v, f i v = wr v i (g i)) : forLoop 0 n vec f = some ((List.range n).map g) := by
  obtain ⟨s, e, h1, h2⟩ := forLoop_inv (Nat.zero_le n) vec f (fun k s => s.length = n ∧ ∀ i, i < k → s[i]? = some (g i)) ⟨hl, by intro i hi; omega⟩ (by
    intro i _ hi s ⟨h1, h2⟩
    refine ⟨s.set i (g i), ?_, by rw [List.length_set]; exact h1, ?_⟩
    · rw [hf i hi, wr_eq_some (by omega)]
    · intro k hk
      rw [getElem?_set' _ _ _ _ (by omega)]
      by_cases hik : i = k
      · rw [if_pos hik, hik]
      · rw [if_neg hik]; exact h2 k (by omega))
  rw [e]
  congr 1
  apply List.ext_getElem?
  intro i
  rw [List.getElem?_map]
  by_cases hi : i < n
  · rw [h2 i hi, List.getElem?_range hi]; rfl
  · rw [List.getElem?_eq_none (by omega), List.getElem?_eq_none (by simpa using hi)]; rfl

/-- The first index of the slice, the secondary size when it is empty. -/
def pivotOf (A : Csx T) (p : Nat) : Int := match (A.row p).head? with
  | none => A.ns
  | some e => e.1

/-- The last index of the slice, the secondary size when it is empty. -/
def trailOf (A : Csx T) (p : Nat) : Int := match (A.row p).getLast? with
  | none => A.ns
  | some e => e.1

theorem C44_pivots_eq (A : Csx T) (hA : WellFormed A) (vec : List Int) (hl : vec.length = A.np) : pivots A vec = some ((List.range A.np).map (pivotOf A)) := by
  unfold pivots
  apply vec_loop A.np (pivotOf A) vec hl
  intro p hp v
  simp only [Option.bind_eq_bind]
  rw [wf_ptr hA (by omega), wf_ptr hA (by omega)]
  simp only [Option.bind_some]
  have hlen := wf_row_length hA hp
  have hm := wf_mono hA (show p ≤ p + 1 by omega) (by omega)
  unfold pivotOf
  cases hrow : A.row p with
  | nil =>
      rw [hrow, List.length_nil] at hlen
      rw [if_pos (by omega)]; rfl
  | cons e row =>
      rw [hrow, List.length_cons] at hlen
      rw [if_neg (by omega)]
      have := (row_get hA hp (k := 0) (c := e.1) (v := e.2) (by rw [hrow]; rfl)).1
      rw [Nat.add_zero] at this
      rw [this]; rfl

theorem C44_trails_eq (A : Csx T) (hA : WellFormed A) (vec : List Int) (hl : vec.length = A.np) : trails A vec = some ((List.range A.np).map (trailOf A)) := by
  unfold trails
  apply vec_loop A.np (trailOf A) vec hl
  intro p hp v
  simp only [Option.bind_eq_bind]
  rw [wf_ptr hA (by omega), wf_ptr hA (by omega)]
  simp only [Option.bind_some]
  have hlen := wf_row_length hA hp
  have hm := wf_mono hA (show p ≤ p + 1 by omega) (by omega)
  unfold trailOf
  rw [List.getLast?_eq_getElem?]
  by_cases h0 : (A.row p).length = 0
  · rw [if_pos (by omega), List.eq_nil_of_length_eq_zero h0]; rfl
  · rw [if_neg (by omega)]
    have hk : (A.row p).length - 1 < (A.row p).length := by omega
    rw [List.getElem?_eq_getElem hk]
    have := (row_get hA hp (k := (A.row p).length - 1) (c := ((A.row p)[(A.row p).length - 1]).1) (v := ((A.row p)[(A.row p).length - 1]).2) (List.getElem?_eq_getElem hk)).1
    rw [show A.ptrs.getD p 0 + ((A.row p).length - 1) = A.ptrs.getD (p + 1) 0 - 1 by omega] at this
    rw [this]; rfl

/-- **C44**: the pivot of a slice is its least stored index and the trail its greatest one; both are the secondary size exactly for empty slices. -/
theorem C44_bounds (A : Csx T) (hA : WellFormed A) (ho : A.Ordered) (vec : List Int) (hl : vec.length = A.np) :
    ∃ piv trl, pivots A vec = some piv ∧ trails A vec = some trl ∧ piv.length = A.np ∧ trl.length = A.np ∧
      ∀ p, p < A.np → ∃ a b, piv[p]? = some a ∧ trl[p]? = some b ∧
        ((A.row p = [] ∧ a = A.ns ∧ b = A.ns) ∨
          ((∃ e ∈ A.row p, a = (e.1 : Int)) ∧ (∃ e ∈ A.row p, b = (e.1 : Int)) ∧ ∀ e ∈ A.row p, a ≤ (e.1 : Int) ∧ (e.1 : Int) ≤ b)) := by
  refine ⟨_, _, C44_pivots_eq A hA vec hl, C44_trails_eq A hA vec hl, by simp, by simp, ?_⟩
  intro p hp
  refine ⟨pivotOf A p, trailOf A p, by rw [List.getElem?_map, List.getElem?_range hp]; rfl, by rw [List.getElem?_map, List.getElem?_range hp]; rfl, ?_⟩
  have hs := ho p hp
  unfold pivotOf trailOf
  cases hrow : A.row p with
  | nil => exact Or.inl ⟨rfl, rfl, rfl⟩
  | cons e row =>
      right
      rw [hrow] at hs
      have hlast := List.getLast?_eq_some_getLast (l := e :: row) (by simp)
      rw [hlast]
      refine ⟨⟨e, List.mem_cons_self, rfl⟩, ⟨_, List.getLast_mem (by simp), rfl⟩, ?_⟩
      intro x hx
      constructor
      · show (e.1 : Int) ≤ x.1
        rcases List.mem_cons.1 hx with rfl | hx
        · exact Int.le_refl _
        · have := (List.pairwise_cons.1 hs).1 x hx; omega
      · show (x.1 : Int) ≤ ((e :: row).getLast _).1
        obtain ⟨k, hk, rfl⟩ := List.mem_iff_getElem.1 hx
        rw [List.getLast_eq_getElem]
        rcases Nat.lt_or_ge k ((e :: row).length - 1) with h | h
        · have := List.pairwise_iff_getElem.1 hs k ((e :: row).length - 1) hk (by simp) h
          omega
        · have : k = (e :: row).length - 1 := by omega
          subst this; exact Int.le_refl _

/-- The value of a slice for the forward completion: empty slices count as `0`. -/
def fwd (endVal v : Int) : Int := if v = endVal then 0 else v

/-- The value of a slice for the backward completion: empty slices count as the last index. -/
def bwd (endVal v : Int) : Int := if v = endVal then endVal - 1 else v

/-- **C44**: forward completion is the running maximum (an empty slice contributes `0`). -/
theorem C44_forward (vec : List Int) (endVal : Int) (h0 : ∀ v ∈ vec, 0 ≤ v ∧ v ≤ endVal) : ∃ out, completeForward vec endVal = some out ∧ out.length = vec.length ∧
    (∀ (i : Nat) (v w : Int), vec[i]? = some v → out[i]? = some w → fwd endVal v ≤ w ∧ ∃ (j : Nat) (u : Int), j ≤ i ∧ vec[j]? = some u ∧ w = fwd endVal u) ∧
    out.Pairwise (· ≤ ·) := by
  unfold completeForward
  obtain ⟨s, e, h1, h2, h3, h4, h5, h6⟩ := forLoop_inv (Nat.zero_le vec.length) (vec, 0) (fun ip (s : List Int × Int) => do
      let b ← replaceForward s.1 endVal ip
      let vec ← bif b then wr s.1 ip s.2 else some s.1
      let v ← vec[ip]?
      some (vec, v))
    (fun k s => s.1.length = vec.length ∧ (∀ i, k ≤ i → s.1[i]? = vec[i]?) ∧ (k = 0 → s.2 = 0) ∧ (0 < k → s.1[k - 1]? = some s.2) ∧
      (∀ (i : Nat) (v w : Int), i < k → vec[i]? = some v → s.1[i]? = some w → 0 ≤ w ∧ fwd endVal v ≤ w ∧ ∃ (j : Nat) (u : Int), j ≤ i ∧ vec[j]? = some u ∧ w = fwd endVal u) ∧
      ∀ (i j : Nat) (v w : Int), i ≤ j → j < k → s.1[i]? = some v → s.1[j]? = some w → v ≤ w)
    ⟨rfl, fun _ _ => rfl, fun _ => rfl, by intro h; omega, by intro i v w h; omega, by intro i j v w _ h; omega⟩ (by
      intro k _ hk s ⟨h1, h2, h3, h4, h5, h6⟩
      obtain ⟨v, hv⟩ : ∃ v, vec[k]? = some v := ⟨_, List.getElem?_eq_getElem hk⟩
      have hsv : s.1[k]? = some v := by rw [h2 k (Nat.le_refl _), hv]
      have hv0 := h0 v (List.mem_of_getElem? hv)
      -- the new value
      have hnew : ∃ w, (do
          let b ← replaceForward s.1 endVal k
          let vec ← bif b then wr s.1 k s.2 else some s.1
          let v ← vec[k]?
          some (vec, v)) = some (s.1.set k w, w) ∧ 0 ≤ w ∧ fwd endVal v ≤ w ∧ (k = 0 ∨ s.2 ≤ w) ∧ (w = fwd endVal v ∨ 0 < k ∧ w = s.2) := by
        have hset : s.1.set k v = s.1 := by
          apply List.ext_getElem?
          intro j
          rw [getElem?_set' _ _ _ _ (by omega)]
          by_cases hj : k = j
          · rw [if_pos hj, ← hj, hsv]
          · rw [if_neg hj]
        unfold replaceForward
        rw [hsv]
        simp only [Option.bind_eq_bind, Option.bind_some]
        have hcell : ∀ w, (s.1.set k w)[k]? = some w := by
          intro w
          rw [getElem?_set' _ _ _ _ (by omega), if_pos rfl]
        by_cases hv1 : v = endVal
        · refine ⟨s.2, ?_, ?_⟩
          · rw [if_pos hv1]
            simp only [Option.bind_some, cond_true, wr_eq_some (show k < s.1.length by omega), hcell]
          · have hf : fwd endVal v = 0 := if_pos hv1
            by_cases hk0 : k = 0
            · rw [h3 hk0, hf]; omega
            · obtain ⟨v', hv'⟩ : ∃ v', vec[k - 1]? = some v' := ⟨_, List.getElem?_eq_getElem (by omega)⟩
              have := h5 (k - 1) v' s.2 (by omega) hv' (h4 (by omega))
              rw [hf]
              exact ⟨this.1, this.1, Or.inr (by omega), Or.inr ⟨by omega, rfl⟩⟩
        · have hf : fwd endVal v = v := if_neg hv1
          rw [if_neg hv1, hf]
          by_cases hk0 : k > 0
          · rw [if_pos hk0, h4 hk0]
            simp only [Option.bind_some]
            obtain ⟨v', hv'⟩ : ∃ v', vec[k - 1]? = some v' := ⟨_, List.getElem?_eq_getElem (by omega)⟩
            have hp := h5 (k - 1) v' s.2 (by omega) hv' (h4 (by omega))
            by_cases hlt : v < s.2
            · refine ⟨s.2, ?_, hp.1, by omega, Or.inr (by omega), Or.inr ⟨by omega, rfl⟩⟩
              simp only [hlt, decide_true, cond_true, wr_eq_some (show k < s.1.length by omega), hcell, Option.bind_some]
            · refine ⟨v, ?_, hv0.1, by omega, Or.inr (by omega), Or.inl rfl⟩
              simp only [hlt, decide_false, cond_false, hsv, Option.bind_some, hset]
          · rw [if_neg hk0]
            refine ⟨v, ?_, hv0.1, by omega, Or.inl (by omega), Or.inl rfl⟩
            simp only [cond_false, hsv, Option.bind_some, hset]
      obtain ⟨w, ew, w0, w1, w2, w3⟩ := hnew
      refine ⟨_, ew, by rw [List.length_set]; exact h1, ?_, by intro h; omega, ?_, ?_, ?_⟩
      · intro i hi
        show (s.1.set k w)[i]? = _
        rw [getElem?_set' _ _ _ _ (by omega), if_neg (by omega)]
        exact h2 i (by omega)
      · intro _
        show (s.1.set k w)[k]? = _
        rw [getElem?_set' _ _ _ _ (by omega), if_pos rfl]
      · intro i u x hi hu hx
        rw [getElem?_set' _ _ _ _ (by omega)] at hx
        by_cases hik : k = i
        · rw [if_pos hik] at hx
          obtain rfl := Option.some.inj hx
          subst hik
          obtain rfl : v = u := by rw [hv] at hu; exact Option.some.inj hu
          refine ⟨w0, w1, ?_⟩
          rcases w3 with h | ⟨hk0, h⟩
          · exact ⟨k, v, Nat.le_refl _, hv, h⟩
          · obtain ⟨v', hv'⟩ : ∃ v', vec[k - 1]? = some v' := ⟨_, List.getElem?_eq_getElem (by omega)⟩
            obtain ⟨_, _, j, u, hj, hju, hw⟩ := h5 (k - 1) v' s.2 (by omega) hv' (h4 (by omega))
            exact ⟨j, u, by omega, hju, by rw [h]; exact hw⟩
        · rw [if_neg hik] at hx
          exact h5 i u x (by omega) hu hx
      · intro i j x y hij hj hx hy
        rw [getElem?_set' _ _ _ _ (by omega)] at hx hy
        by_cases hjk : k = j
        · rw [if_pos hjk] at hy
          by_cases hik : k = i
          · rw [if_pos hik] at hx
            rw [hx] at hy; rw [Option.some.inj hy]; exact Int.le_refl _
          · rw [if_neg hik] at hx
            obtain rfl := Option.some.inj hy
            have := h6 i (k - 1) x s.2 (by omega) (by omega) hx (h4 (by omega))
            rcases w2 with h | h
            · omega
            · omega
        · rw [if_neg hjk] at hy
          rw [if_neg (by omega)] at hx
          exact h6 i j x y hij (by omega) hx hy)
  refine ⟨s.1, ?_, h1, ?_, ?_⟩
  · have : (forLoop 0 vec.length (vec, 0) fun ip (x : List Int × Int) => match x with
      | (vec, curr) => do
        let b ← replaceForward vec endVal ip
        let vec ← bif b then wr vec ip curr else some vec
        let v ← vec[ip]?
        some (vec, v)) = some s := e
    rw [this]; rfl
  · intro i v w hv hw
    exact (h5 i v w (List.getElem?_eq_some_iff.1 hv).1 hv hw).2
  · rw [List.pairwise_iff_getElem]
    intro i j hi hj hij
    exact h6 i j _ _ (by omega) (by omega) (List.getElem?_eq_getElem hi) (List.getElem?_eq_getElem hj)

/-- **C44**: backward completion is the running minimum from the end (an empty slice contributes the last index). -/
theorem C44_backward (vec : List Int) (endVal : Int) (h0 : ∀ v ∈ vec, v ≤ endVal) : ∃ out, completeBackward vec endVal = some out ∧ out.length = vec.length ∧
    (∀ (i : Nat) (v w : Int), vec[i]? = some v → out[i]? = some w → w ≤ bwd endVal v ∧ ∃ (j : Nat) (u : Int), i ≤ j ∧ vec[j]? = some u ∧ w = bwd endVal u) ∧
    out.Pairwise (· ≤ ·) := by
  unfold completeBackward
  have hn : ∃ n, n = vec.length := ⟨_, rfl⟩
  obtain ⟨n, hn⟩ := hn
  obtain ⟨s, e, h1, h2, h3, h4, h5, h6⟩ := forLoop_inv (Nat.zero_le n) (vec, endVal - 1) (fun k (s : List Int × Int) => do
      let ip := n - 1 - k
      let b ← replaceBackward s.1 endVal ip
      let vec ← bif b then wr s.1 ip s.2 else some s.1
      let v ← vec[ip]?
      some (vec, v))
    (fun k s => s.1.length = n ∧ (∀ i, i + k < n → s.1[i]? = vec[i]?) ∧ (k = 0 → s.2 = endVal - 1) ∧ (0 < k → s.1[n - k]? = some s.2) ∧
      (∀ (i : Nat) (v w : Int), n ≤ i + k → vec[i]? = some v → s.1[i]? = some w →
        w ≤ endVal - 1 ∧ w ≤ bwd endVal v ∧ ∃ (j : Nat) (u : Int), i ≤ j ∧ vec[j]? = some u ∧ w = bwd endVal u) ∧
      ∀ (i j : Nat) (v w : Int), i ≤ j → n ≤ i + k → s.1[i]? = some v → s.1[j]? = some w → v ≤ w)
    ⟨hn.symm, fun _ _ => rfl, fun _ => rfl, by intro h; omega, (by
      intro i v w h hv
      have := (List.getElem?_eq_some_iff.1 hv).1
      omega), (by
      intro i j v w _ h hv
      have := (List.getElem?_eq_some_iff.1 hv).1
      simp only at this
      omega)⟩ (by
      intro k _ hk s ⟨h1, h2, h3, h4, h5, h6⟩
      have hip : ∃ p, p = n - 1 - k := ⟨_, rfl⟩
      obtain ⟨p, hip⟩ := hip
      obtain ⟨v, hv⟩ : ∃ v, vec[p]? = some v := ⟨_, List.getElem?_eq_getElem (by omega)⟩
      have hsv : s.1[p]? = some v := by rw [h2 p (by omega), hv]
      have hv0 := h0 v (List.mem_of_getElem? hv)
      have hnew : ∃ w, (do
          let b ← replaceBackward s.1 endVal p
          let vec ← bif b then wr s.1 p s.2 else some s.1
          let v ← vec[p]?
          some (vec, v)) = some (s.1.set p w, w) ∧ w ≤ endVal - 1 ∧ w ≤ bwd endVal v ∧ (k = 0 ∨ w ≤ s.2) ∧ (w = bwd endVal v ∨ 0 < k ∧ w = s.2) := by
        have hset : s.1.set p v = s.1 := by
          apply List.ext_getElem?
          intro j
          rw [getElem?_set' _ _ _ _ (by omega)]
          by_cases hj : p = j
          · rw [if_pos hj, ← hj, hsv]
          · rw [if_neg hj]
        unfold replaceBackward
        rw [hsv]
        simp only [Option.bind_eq_bind, Option.bind_some]
        have hcell : ∀ w, (s.1.set p w)[p]? = some w := by
          intro w
          rw [getElem?_set' _ _ _ _ (by omega), if_pos rfl]
        have hprev : 0 < k → p + 1 = n - k := by omega
        have hp : 0 < k → s.2 ≤ endVal - 1 := by
          intro hk0
          obtain ⟨v', hv'⟩ : ∃ v', vec[n - k]? = some v' := ⟨_, List.getElem?_eq_getElem (by omega)⟩
          exact (h5 (n - k) v' s.2 (by omega) hv' (h4 (by omega))).1
        by_cases hv1 : v = endVal
        · refine ⟨s.2, ?_, ?_⟩
          · rw [if_pos hv1]
            simp only [Option.bind_some, cond_true, wr_eq_some (show p < s.1.length by omega), hcell]
          · have hf : bwd endVal v = endVal - 1 := if_pos hv1
            by_cases hk0 : k = 0
            · rw [h3 hk0, hf]; omega
            · have := hp (by omega)
              rw [hf]
              exact ⟨this, this, Or.inr (by omega), Or.inr ⟨by omega, rfl⟩⟩
        · have hf : bwd endVal v = v := if_neg hv1
          rw [if_neg hv1, hf]
          by_cases hk0 : 0 < k
          · rw [if_pos (by omega), hprev hk0, h4 hk0]
            simp only [Option.bind_some]
            have hp := hp hk0
            by_cases hlt : v > s.2
            · refine ⟨s.2, ?_, hp, by omega, Or.inr (by omega), Or.inr ⟨by omega, rfl⟩⟩
              simp only [hlt, decide_true, cond_true, wr_eq_some (show p < s.1.length by omega), hcell, Option.bind_some]
            · refine ⟨v, ?_, by omega, by omega, Or.inr (by omega), Or.inl rfl⟩
              simp only [hlt, decide_false, cond_false, hsv, Option.bind_some, hset]
          · rw [if_neg (by omega)]
            refine ⟨v, ?_, by omega, by omega, Or.inl (by omega), Or.inl rfl⟩
            simp only [cond_false, hsv, Option.bind_some, hset]
      obtain ⟨w, ew, w0, w1, w2, w3⟩ := hnew
      rw [hip] at ew
      refine ⟨_, ew, by rw [List.length_set]; exact h1, ?_, by intro h; omega, ?_, ?_, ?_⟩
      · intro i hi
        show (s.1.set (n - 1 - k) w)[i]? = _
        rw [getElem?_set' _ _ _ _ (by omega), if_neg (by omega)]
        exact h2 i (by omega)
      · intro _
        show (s.1.set (n - 1 - k) w)[n - (k + 1)]? = _
        rw [getElem?_set' _ _ _ _ (by omega), if_pos (by omega)]
      · intro i u x hi hu hx
        rw [getElem?_set' _ _ _ _ (by omega)] at hx
        by_cases hik : n - 1 - k = i
        · rw [if_pos hik] at hx
          obtain rfl := Option.some.inj hx
          rw [← hip] at hik
          subst hik
          obtain rfl : v = u := by rw [hv] at hu; exact Option.some.inj hu
          refine ⟨w0, w1, ?_⟩
          rcases w3 with h | ⟨hk0, h⟩
          · exact ⟨p, v, Nat.le_refl _, hv, h⟩
          · obtain ⟨v', hv'⟩ : ∃ v', vec[n - k]? = some v' := ⟨_, List.getElem?_eq_getElem (by omega)⟩
            obtain ⟨_, _, j, u, hj, hju, hw⟩ := h5 (n - k) v' s.2 (by omega) hv' (h4 (by omega))
            exact ⟨j, u, by omega, hju, by rw [h]; exact hw⟩
        · rw [if_neg hik] at hx
          exact h5 i u x (by omega) hu hx
      · intro i j x y hij hj hx hy
        rw [getElem?_set' _ _ _ _ (by omega)] at hx hy
        by_cases hik : n - 1 - k = i
        · rw [if_pos hik] at hx
          by_cases hjk : n - 1 - k = j
          · rw [if_pos hjk] at hy
            rw [hx] at hy; rw [Option.some.inj hy]; exact Int.le_refl _
          · rw [if_neg hjk] at hy
            obtain rfl := Option.some.inj hx
            have hjl := (List.getElem?_eq_some_iff.1 hy).1
            have := h6 (n - k) j s.2 y (by omega) (by omega) (h4 (by omega)) hy
            rcases w2 with h | h
            · omega
            · omega
        · rw [if_neg hik] at hx
          rw [if_neg (by omega)] at hy
          exact h6 i j x y hij (by omega) hx hy)
  refine ⟨s.1, ?_, by omega, ?_, ?_⟩
  · have : (forLoop 0 n (vec, endVal - 1) fun k (x : List Int × Int) => match x with
      | (vec, curr) => do
        let ip := n - 1 - k
        let b ← replaceBackward vec endVal ip
        let vec ← bif b then wr vec ip curr else some vec
        let v ← vec[ip]?
        some (vec, v)) = some s := e
    rw [← hn]
    simp only
    rw [this]; rfl
  · intro i v w hv hw
    exact (h5 i v w (by omega) hv hw).2
  · rw [List.pairwise_iff_getElem]
    intro i j hi hj hij
    exact h6 i j _ _ (by omega) (by omega) (List.getElem?_eq_getElem hi) (List.getElem?_eq_getElem hj)

/-- **C44**: completed pivots are nondecreasing and bound the stored pattern from below, completed trails are nondecreasing and bound it from above. -/
theorem C44_completed (A : Csx T) (hA : WellFormed A) (ho : A.Ordered) (vec : List Int) (hl : vec.length = A.np) :
    ∃ piv trl piv' trl', pivots A vec = some piv ∧ trails A vec = some trl ∧ completeBackward piv A.ns = some piv' ∧ completeForward trl A.ns = some trl' ∧
      piv'.length = A.np ∧ trl'.length = A.np ∧ piv'.Pairwise (· ≤ ·) ∧ trl'.Pairwise (· ≤ ·) ∧
      ∀ e ∈ A.entries, ∃ a b, piv'[e.1]? = some a ∧ trl'[e.1]? = some b ∧ a ≤ (e.2.1 : Int) ∧ (e.2.1 : Int) ≤ b := by
  obtain ⟨piv, trl, e1, e2, l1, l2, hb⟩ := C44_bounds A hA ho vec hl
  have hrange : ∀ p (hp : p < A.np) (x : Nat × T), x ∈ A.row p → x.1 < A.ns := fun p hp x hx => wf_cols hA (A.row p) (List.mem_map.2 ⟨p, List.mem_range.2 hp, rfl⟩) x hx
  have hmem : ∀ v, (v ∈ piv ∨ v ∈ trl) → 0 ≤ v ∧ v ≤ A.ns := by
    intro v hv
    rcases hv with hv | hv
    · obtain ⟨p, hp, rfl⟩ := List.mem_iff_getElem.1 hv
      obtain ⟨a, b, ha, _, h⟩ := hb p (by omega)
      rw [List.getElem?_eq_getElem hp] at ha
      obtain rfl := Option.some.inj ha
      rcases h with ⟨_, h, _⟩ | ⟨⟨x, hx, h⟩, _, _⟩
      · omega
      · have := hrange p (by omega) x hx; omega
    · obtain ⟨p, hp, rfl⟩ := List.mem_iff_getElem.1 hv
      obtain ⟨a, b, _, ha, h⟩ := hb p (by omega)
      rw [List.getElem?_eq_getElem hp] at ha
      obtain rfl := Option.some.inj ha
      rcases h with ⟨_, _, h⟩ | ⟨_, ⟨x, hx, h⟩, _⟩
      · omega
      · have := hrange p (by omega) x hx; omega
  obtain ⟨piv', e3, l3, b3, s3⟩ := C44_backward piv A.ns fun v hv => (hmem v (Or.inl hv)).2
  obtain ⟨trl', e4, l4, b4, s4⟩ := C44_forward trl A.ns fun v hv => hmem v (Or.inr hv)
  refine ⟨piv, trl, piv', trl', e1, e2, e3, e4, by omega, by omega, s3, s4, ?_⟩
  intro e he
  obtain ⟨hp, hx⟩ := mem_entries.1 he
  obtain ⟨a, b, ha, hb', h⟩ := hb e.1 hp
  have h3 : piv'[e.1]? = some piv'[e.1] := List.getElem?_eq_getElem (by omega)
  have h4 : trl'[e.1]? = some trl'[e.1] := List.getElem?_eq_getElem (by omega)
  refine ⟨_, _, h3, h4, ?_⟩
  have hx' := hrange e.1 hp e.2 hx
  rcases h with ⟨h, _⟩ | ⟨_, ⟨y, hy, hyb⟩, h⟩
  · rw [h] at hx; exact absurd hx (by simp)
  · have hxb := h e.2 hx
    have hy' := hrange e.1 hp y hy
    have c1 := (b3 e.1 a _ ha h3).1
    have c2 := (b4 e.1 b _ hb' h4).1
    unfold bwd at c1
    unfold fwd at c2
    rw [if_neg (by omega)] at c1 c2
    omega

/-! Concrete cases: a 4 x 5 pattern with an empty row and an empty column. -/

def pruneEx : Csx Unit := ⟨4, 5, [0, 2, 2, 3, 5], [2, 4, 0, 1, 2], [(), (), (), (), ()]⟩

theorem pruneEx_wf : WellFormed pruneEx := ⟨rfl, rfl, by decide, rfl, rfl, by decide⟩

example : pruneCountPrimary pruneEx = some 3 ∧ prunePrimary pruneEx [9, 9, 9] = some [0, 2, 3] := by decide
example : pruneCounts pruneEx = some [1, 1, 2, 0, 1] ∧ pruneCountSecondary pruneEx [1, 1, 2, 0, 1] = some 4 ∧
    pruneSecondary pruneEx [1, 1, 2, 0, 1] [9, 9, 9, 9] = some [0, 1, 2, 4] := by decide
example : pivots pruneEx [0, 0, 0, 0] = some [2, 5, 0, 1] ∧ trails pruneEx [0, 0, 0, 0] = some [4, 5, 0, 2] := by decide
example : completeBackward [2, 5, 0, 1] 5 = some [0, 0, 0, 1] ∧ completeForward [4, 5, 0, 2] 5 = some [4, 4, 4, 4] := by decide
example : ∃ n, pruneCountPrimary pruneEx = some n ∧ ∀ out : List Nat, out.length = n →
    ∃ out', prunePrimary pruneEx out = some out' ∧ out'.length = n ∧ Lists 4 (fun p => ∃ e ∈ pruneEx.entries, e.1 = p) out' := C45_primary pruneEx pruneEx_wf
example : pruneEx.Ordered := by unfold Csx.Ordered; decide

end Verif.Csx
