import Verif.Model.CsxSub
import Verif.Proof.CsxEmit
/-! The loops of the submatrix operations. -/
namespace Verif.Csx

variable {T P σ : Type}

theorem whileBelow_eq (idxs : List Nat) (bound : Nat) (body : Nat → Nat → σ → Option σ) : ∀ (cs : List Nat) (i : Nat) (s : σ),
    (∀ k, k < cs.length → idxs[i + k]? = cs[k]?) →
    whileBelow idxs bound body cs.length i s =
      (((cs.zipIdx i).takeWhile fun x => x.1 < bound).foldlM (fun s x => body x.2 x.1 s) s).map fun s => (i + (cs.takeWhile (· < bound)).length, s) := by
  intro cs
  induction cs with
  | nil => intro i s _; rfl
  | cons c cs ih =>
      intro i s h
      have h0 : idxs[i]? = some c := by have := h 0 (by simp); simpa using this
      rw [List.length_cons]
      unfold whileBelow
      rw [h0]
      simp only [Option.bind_eq_bind, Option.bind_some]
      by_cases hc : c < bound
      · rw [if_pos hc, List.zipIdx_cons, List.takeWhile_cons_of_pos (by simpa using hc), List.takeWhile_cons_of_pos (by simpa using hc), List.foldlM_cons]
        simp only [Option.bind_eq_bind]
        cases hb : body i c s with
        | none => rfl
        | some s' =>
            simp only [Option.bind_some]
            rw [ih (i + 1) s' (by
              intro k hk
              have := h (k + 1) (by rw [List.length_cons]; omega)
              rw [show i + 1 + k = i + (k + 1) by omega, this]; rfl)]
            congr 1
            funext s''
            rw [List.length_cons]
            congr 1; omega
      · rw [if_neg hc, List.zipIdx_cons, List.takeWhile_cons_of_neg (by simpa using hc), List.takeWhile_cons_of_neg (by simpa using hc)]
        rfl

theorem zipIdx_dropWhile (q : Nat → Bool) : ∀ (cs : List Nat) (i : Nat), (cs.dropWhile q).zipIdx (i + (cs.takeWhile q).length) = (cs.zipIdx i).dropWhile fun x => q x.1 := by
  intro cs
  induction cs with
  | nil => intro i; rfl
  | cons c cs ih =>
      intro i
      by_cases hc : q c = true
      · rw [List.dropWhile_cons_of_pos hc, List.takeWhile_cons_of_pos hc, List.zipIdx_cons, List.dropWhile_cons_of_pos (by simpa using hc), ← ih (i + 1), List.length_cons]
        congr 1; omega
      · rw [List.dropWhile_cons_of_neg hc, List.takeWhile_cons_of_neg hc, List.length_nil, Nat.add_zero, List.zipIdx_cons, List.dropWhile_cons_of_neg (by simpa using hc)]

theorem dropWhile_get (q : Nat → Bool) : ∀ (cs : List Nat) (k : Nat), (cs.dropWhile q)[k]? = cs[(cs.takeWhile q).length + k]? := by
  intro cs
  induction cs with
  | nil => intro k; simp
  | cons c cs ih =>
      intro k
      by_cases hc : q c = true
      · rw [List.dropWhile_cons_of_pos hc, List.takeWhile_cons_of_pos hc, ih, List.length_cons, show (cs.takeWhile q).length + 1 + k = (cs.takeWhile q).length + k + 1 by omega,
          List.getElem?_cons_succ]
      · rw [List.dropWhile_cons_of_neg hc, List.takeWhile_cons_of_neg hc]; simp

theorem takeWhile_dropWhile_filter {A : Type} (g : A → Nat) (lo hi : Nat) : ∀ (l : List A), l.Pairwise (fun a b => g a ≤ g b) →
    ((l.dropWhile fun x => g x < lo).takeWhile fun x => g x < hi) = l.filter fun x => lo ≤ g x ∧ g x < hi := by
  intro l
  induction l with
  | nil => intro _; rfl
  | cons a l ih =>
      intro h
      have hs := (List.pairwise_cons.1 h).1
      have ih := ih (List.pairwise_cons.1 h).2
      by_cases h1 : g a < lo
      · rw [List.dropWhile_cons_of_pos (by simpa using h1), List.filter_cons_of_neg (by simp; omega), ih]
      · rw [List.dropWhile_cons_of_neg (by simpa using h1)]
        by_cases h2 : g a < hi
        · rw [List.takeWhile_cons_of_pos (by simpa using h2), List.filter_cons_of_pos (by simp; omega), ← ih]
          congr 1
          cases l with
          | nil => rfl
          | cons b l =>
              have := hs b List.mem_cons_self
              rw [List.dropWhile_cons_of_neg (by simp; omega)]
        · rw [List.takeWhile_cons_of_neg (by simpa using h2), List.filter_cons_of_neg (by simp; omega)]
          symm
          rw [List.filter_eq_nil_iff]
          intro b hb
          have := hs b hb
          simp; omega

/-- The entries of the slice `p` in the window, with their positions. -/
def win (A : Csx T) (ls hs p : Nat) : List ((Nat × T) × Nat) := ((A.row p).zipIdx (A.ptrs.getD p 0)).filter fun x => ls ≤ x.1.1 ∧ x.1.1 < hs

theorem windowSlice_eq {A : Csx T} (hA : WellFormed A) (ho : ∀ p, p < A.np → (A.row p).Pairwise fun a b => a.1 ≤ b.1) (ls hs : Nat) {p : Nat} (hp : p < A.np)
    (s : σ) (body : Nat → Nat → σ → Option σ) :
    windowSlice A ls hs p s body = (win A ls hs p).foldlM (fun s x => body x.2 x.1.1 s) s := by
  unfold windowSlice
  simp only [Option.bind_eq_bind]
  rw [wf_ptr hA (by omega), wf_ptr hA (by omega)]
  simp only [Option.bind_some]
  have hlen := wf_row_length hA hp
  have hcs : ∃ cs, cs = (A.row p).map (·.1) := ⟨_, rfl⟩
  obtain ⟨cs, hcs⟩ := hcs
  have hcl : cs.length = A.ptrs.getD (p + 1) 0 - A.ptrs.getD p 0 := by rw [hcs, List.length_map, hlen]
  have hget : ∀ k, k < cs.length → A.idxs[A.ptrs.getD p 0 + k]? = cs[k]? := by
    intro k hk
    have hk' : k < (A.row p).length := by rw [hcs, List.length_map] at hk; exact hk
    rw [hcs, List.getElem?_map, List.getElem?_eq_getElem hk']
    exact (row_get hA hp (k := k) (c := (A.row p)[k].1) (v := (A.row p)[k].2) (List.getElem?_eq_getElem hk')).1
  rw [← hcl, whileBelow_eq A.idxs ls (fun _ _ s => some s) cs _ s hget]
  have hnop : ∀ (l : List (Nat × Nat)) (s : σ), l.foldlM (fun s _ => some s) s = some s := by
    intro l
    induction l with
    | nil => intro s; rfl
    | cons a l ih => intro s; rw [List.foldlM_cons]; exact ih s
  rw [hnop, Option.map_some, Option.bind_some]
  simp only
  have hdl : (cs.dropWhile (· < ls)).length = A.ptrs.getD (p + 1) 0 - (A.ptrs.getD p 0 + (cs.takeWhile (· < ls)).length) := by
    have : (cs.takeWhile (· < ls)).length + (cs.dropWhile (· < ls)).length = cs.length := by
      rw [← List.length_append, List.takeWhile_append_dropWhile]
    have := wf_mono hA (show p ≤ p + 1 by omega) (by omega)
    omega
  rw [← hdl, whileBelow_eq A.idxs hs body (cs.dropWhile (· < ls)) _ s (by
    intro k hk
    have : (cs.takeWhile (· < ls)).length + (cs.dropWhile (· < ls)).length = cs.length := by
      rw [← List.length_append, List.takeWhile_append_dropWhile]
    rw [Nat.add_assoc, hget _ (by omega), dropWhile_get]), zipIdx_dropWhile]
  have hz : cs.zipIdx (A.ptrs.getD p 0) = ((A.row p).zipIdx (A.ptrs.getD p 0)).map fun x => (x.1.1, x.2) := by
    rw [hcs, List.zipIdx_map]; rfl
  have hpw : (cs.zipIdx (A.ptrs.getD p 0)).Pairwise fun a b => a.1 ≤ b.1 := by
    have h1 : ((cs.zipIdx (A.ptrs.getD p 0)).map (·.1)).Pairwise (· ≤ ·) := by
      have : (cs.zipIdx (A.ptrs.getD p 0)).map (·.1) = cs := by
        exact List.zipIdx_map_fst _ _
      rw [this, hcs, List.pairwise_map]
      exact ho p hp
    rw [List.pairwise_map] at h1
    exact h1
  rw [takeWhile_dropWhile_filter (fun x : Nat × Nat => x.1) ls hs _ hpw, hz, List.filter_map, foldlM_map']
  unfold win
  have : ((fun x : Nat × Nat => decide (ls ≤ x.1 ∧ x.1 < hs)) ∘ fun x : (Nat × T) × Nat => (x.1.1, x.2)) = fun x => decide (ls ≤ x.1.1 ∧ x.1.1 < hs) := rfl
  rw [this]
  cases List.foldlM (fun s (x : (Nat × T) × Nat) => body x.2 x.1.1 s) s (((A.row p).zipIdx (A.ptrs.getD p 0)).filter fun x => decide (ls ≤ x.1.1 ∧ x.1.1 < hs)) <;> rfl

/-- All entries of the window: (primary, position, secondary, value). -/
def winAll (A : Csx T) (lp hp ls hs : Nat) : List (Nat × Nat × Nat × T) :=
  (List.range' lp (hp - lp)).flatMap fun p => (win A ls hs p).map fun x => (p, x.2, x.1.1, x.1.2)

theorem forLoop_flatMap {E : Type} (L : Nat → List E) (g : Nat → σ → E → Option σ) (lp hp : Nat) (s : σ) :
    forLoop lp hp s (fun p s => (L p).foldlM (g p) s) = ((List.range' lp (hp - lp)).flatMap fun p => (L p).map fun x => (p, x)).foldlM (fun s x => g x.1 s x.2) s := by
  unfold forLoop
  generalize List.range' lp (hp - lp) = l
  induction l generalizing s with
  | nil => rfl
  | cons p l ih =>
      rw [List.foldlM_cons, List.flatMap_cons, List.foldlM_append, foldlM_map']
      congr 1
      funext s'
      exact ih s'

theorem window_loop {A : Csx T} (hA : WellFormed A) (ho : ∀ p, p < A.np → (A.row p).Pairwise fun a b => a.1 ≤ b.1) (lp hp ls hs : Nat) (hhp : hp ≤ A.np)
    (s : σ) (body : Nat → Nat → Nat → σ → Option σ) :
    forLoop lp hp s (fun p s => windowSlice A ls hs p s (body p)) = (winAll A lp hp ls hs).foldlM (fun s e => body e.1 e.2.1 e.2.2.1 s) s := by
  rw [forLoop_congr s _ (fun p s => (win A ls hs p).foldlM (fun s x => body p x.2 x.1.1 s) s) (by
    intro p s _ h2
    exact windowSlice_eq hA ho ls hs (by omega) s (body p))]
  rw [forLoop_flatMap (win A ls hs) (fun p s x => body p x.2 x.1.1 s)]
  have : winAll A lp hp ls hs = ((List.range' lp (hp - lp)).flatMap fun p => (win A ls hs p).map fun x => (p, x)).map fun y => (y.1, y.2.2, y.2.1.1, y.2.1.2) := by
    unfold winAll
    rw [List.map_flatMap]
    congr 1
    funext p
    rw [List.map_map]; rfl
  rw [this, foldlM_map']

theorem count_fold : ∀ (l : List (Nat × Nat × Nat × T)) (n : Nat), l.foldlM (fun n _ => some (n + 1)) n = some (n + l.length) := by
  intro l
  induction l with
  | nil => intro n; rfl
  | cons a l ih =>
      intro n
      rw [List.foldlM_cons]
      refine (ih (n + 1)).trans ?_
      rw [List.length_cons]; congr 1; omega

theorem subCount_eq {A : Csx T} (hA : WellFormed A) (ho : ∀ p, p < A.np → (A.row p).Pairwise fun a b => a.1 ≤ b.1) (lp hp ls hs : Nat) (hhp : hp ≤ A.np) :
    subCount A lp hp ls hs = some (winAll A lp hp ls hs).length := by
  unfold subCount
  rw [window_loop hA ho lp hp ls hs hhp 0 fun _ _ _ n => some (n + 1), count_fold, Nat.zero_add]

theorem win_mem {A : Csx T} {ls hs p : Nat} {x : (Nat × T) × Nat} (h : x ∈ win A ls hs p) : ls ≤ x.1.1 ∧ x.1.1 < hs := by
  have := (List.mem_filter.1 h).2
  simpa using this

/-- The slices of the result in the same order. -/
def subRows (A : Csx T) (lp hp ls hs : Nat) (pf : (Nat × T) × Nat → P) : List (List (Nat × P)) :=
  (List.range (hp - lp)).map fun q => (win A ls hs (lp + q)).map fun x => (x.1.1 - ls, pf x)

theorem subRows_flatten (A : Csx T) (lp hp ls hs : Nat) (pf : (Nat × T) × Nat → P) :
    (subRows A lp hp ls hs pf).flatten = (winAll A lp hp ls hs).map fun e => (e.2.2.1 - ls, pf ((e.2.2.1, e.2.2.2), e.2.1)) := by
  unfold subRows winAll
  rw [← List.flatMap_def, List.map_flatMap, List.range'_eq_map_range, List.flatMap_map]
  congr 1
  funext q
  rw [List.map_map]; rfl

theorem subSame_eq {A : Csx T} (hA : WellFormed A) (ho : ∀ p, p < A.np → (A.row p).Pairwise fun a b => a.1 ≤ b.1) (lp hp ls hs : Nat) (hhp : hp ≤ A.np)
    (pay : Nat → Option P) (pf : (Nat × T) × Nat → P) (hpay : ∀ p, p < A.np → ∀ x ∈ win A ls hs p, pay x.2 = some (pf x)) (ptrs idxs : List Nat) (pays : List P)
    (h1 : ptrs.length = hp - lp + 1) (h2 : idxs.length = (winAll A lp hp ls hs).length) (h3 : pays.length = (winAll A lp hp ls hs).length) :
    subSame A lp hp ls hs pay (winAll A lp hp ls hs).length ptrs idxs pays = some (ofRows (hs - ls) (subRows A lp hp ls hs pf)) := by
  unfold subSame
  have hlen : (subRows A lp hp ls hs pf).length = hp - lp := by unfold subRows; simp
  have hfl : (subRows A lp hp ls hs pf).flatten.length = (winAll A lp hp ls hs).length := by rw [subRows_flatten, List.length_map]
  -- the loop starts at `lp`
  have hshift : ∀ (σ : Type) (s : σ) (f : Nat → σ → Option σ), forLoop lp hp s f = forLoop 0 (hp - lp) s fun q s => f (lp + q) s := by
    intro σ s f
    unfold forLoop
    rw [List.range'_eq_map_range, foldlM_map', Nat.sub_zero, List.range_eq_range']
  rw [hshift]
  obtain ⟨ptrs', e, hl', hp'⟩ := emit_rows (hs - ls) (subRows A lp hp ls hs pf) ptrs idxs pays (by omega) (by omega) (by omega)
    (fun q (x : List Nat × List Nat × List P × Nat) => match x with
      | (ptrs, st) => do
        let ptrs ← wr ptrs (lp + q - lp) st.2.2
        let st ← windowSlice A ls hs (lp + q) st fun i c (idxs, pays, curr) => do
          let v ← pay i
          let idxs ← wr idxs curr (c - ls)
          let pays ← wr pays curr v
          some (idxs, pays, curr + 1)
        some (ptrs, st)) (by
      intro q hq s
      obtain ⟨p0, st⟩ := s
      rw [hlen] at hq
      simp only [Option.bind_eq_bind]
      rw [Nat.add_sub_cancel_left]
      cases wr p0 q st.2.2 with
      | none => rfl
      | some p1 =>
          simp only [Option.bind_some]
          rw [windowSlice_eq hA ho ls hs (by omega)]
          have hrow : (subRows A lp hp ls hs pf)[q] = (win A ls hs (lp + q)).map fun x => (x.1.1 - ls, pf x) := by
            simp [subRows]
          rw [hrow, foldlM_map']
          rw [foldlM_congr (g := fun (st : List Nat × List P × Nat) (x : (Nat × T) × Nat) => putEntry (x.1.1 - ls) (pf x) st) (by
            intro x hx st
            rw [hpay (lp + q) (by omega) x hx]
            rfl)]
          cases List.foldlM (m := Option) (fun (st : List Nat × List P × Nat) (x : (Nat × T) × Nat) => putEntry (x.1.1 - ls) (pf x) st) st (win A ls hs (lp + q)) <;> rfl)
  rw [hlen] at e hp' hl'
  rw [e]
  simp only [Option.bind_eq_bind, Option.bind_some]
  rw [hfl] at hp'
  rw [wr_eq_some (by omega), Option.bind_some, hp']
  congr 1
  unfold ofRows
  simp only [Csx.mk.injEq, and_true]
  exact hlen.symm

theorem count_keys (n : Nat) : ∀ (l : List (Nat × Nat × Nat × T)) (key : Nat × Nat × Nat × T → Nat) (ptrs : List Nat) (g : Nat → Nat),
    (∀ e ∈ l, key e < n) → ptrs.length = n + 1 → (∀ c, c ≤ n → ptrs[c]? = some (g c)) →
    ∃ p, l.foldlM (fun ptrs e => ptrs[key e]?.bind fun x => wr ptrs (key e) (x + 1)) ptrs = some p ∧ p.length = n + 1 ∧ ∀ c, c ≤ n → p[c]? = some (g c + (l.map key).count c) := by
  intro l
  induction l with
  | nil => intro key ptrs g _ hl hg; exact ⟨ptrs, rfl, hl, by intro c hc; rw [hg c hc]; rfl⟩
  | cons a l ih =>
      intro key ptrs g h hl hg
      have ha := h a List.mem_cons_self
      obtain ⟨p, e, hpl, hp⟩ := ih key (ptrs.set (key a) (g (key a) + 1)) (fun c => if key a = c then g c + 1 else g c) (fun c hc => h c (List.mem_cons_of_mem _ hc))
        (by rw [List.length_set]; exact hl) (by
          intro c hc
          rw [getElem?_set' _ _ _ _ (by omega)]
          by_cases hac : key a = c
          · rw [if_pos hac, if_pos hac, hac]
          · rw [if_neg hac, if_neg hac]; exact hg c hc)
      refine ⟨p, ?_, hpl, ?_⟩
      · rw [List.foldlM_cons, hg (key a) (by omega)]
        show Option.bind (wr ptrs (key a) (g (key a) + 1)) _ = _
        rw [wr_eq_some (by omega)]; exact e
      · intro c hc
        rw [hp c hc, List.map_cons, List.count_cons]
        by_cases hac : key a = c
        · rw [if_pos hac, if_pos (by simpa using hac)]; congr 1; omega
        · rw [if_neg hac, if_neg (by simpa using hac)]; rfl

/-- The slices of the result in the other order. -/
def subCols (A : Csx T) (lp hp ls hs : Nat) (pf : (Nat × T) × Nat → P) : List (List (Nat × P)) :=
  (List.range (hs - ls)).map (bucket (fun e => e.2.2.1 - ls) (fun e => (e.1 - lp, pf ((e.2.2.1, e.2.2.2), e.2.1))) (winAll A lp hp ls hs))

theorem winAll_mem {A : Csx T} {lp hp ls hs : Nat} {e : Nat × Nat × Nat × T} (h : e ∈ winAll A lp hp ls hs) :
    lp ≤ e.1 ∧ e.1 < hp ∧ ls ≤ e.2.2.1 ∧ e.2.2.1 < hs ∧ ((e.2.2.1, e.2.2.2), e.2.1) ∈ win A ls hs e.1 := by
  unfold winAll at h
  obtain ⟨p, hp', he⟩ := List.mem_flatMap.1 h
  obtain ⟨x, hx, rfl⟩ := List.mem_map.1 he
  have h1 := List.mem_range'_1.1 hp'
  have h2 := win_mem hx
  exact ⟨h1.1, by simp only; omega, h2.1, h2.2, hx⟩

theorem subDiff_eq {A : Csx T} (hA : WellFormed A) (ho : ∀ p, p < A.np → (A.row p).Pairwise fun a b => a.1 ≤ b.1) (lp hp ls hs : Nat) (hhp : hp ≤ A.np)
    (pay : Nat → Option P) (pf : (Nat × T) × Nat → P) (hpay : ∀ p, p < A.np → ∀ x ∈ win A ls hs p, pay x.2 = some (pf x)) (ptrs idxs : List Nat) (pays : List P)
    (h1 : ptrs.length = hs - ls + 1) (h2 : idxs.length = (winAll A lp hp ls hs).length) (h3 : pays.length = (winAll A lp hp ls hs).length) :
    subDiff A lp hp ls hs pay ptrs idxs pays = some (ofRows (hp - lp) (subCols A lp hp ls hs pf)) := by
  unfold subDiff
  rw [zeroPtrs_eq _ _ h1]
  simp only [Option.bind_eq_bind, Option.bind_some]
  have hkey : ∀ e ∈ winAll A lp hp ls hs, (fun e : Nat × Nat × Nat × T => e.2.2.1 - ls) e < hs - ls := by
    intro e he
    have := winAll_mem he
    simp only; omega
  have hc := window_loop hA ho lp hp ls hs hhp (List.replicate (hs - ls + 1) 0) fun _ _ c ptrs => ptrs[c - ls]?.bind fun x => wr ptrs (c - ls) (x + 1)
  obtain ⟨p1, e1, l1, g1⟩ := count_keys (hs - ls) (winAll A lp hp ls hs) (fun e => e.2.2.1 - ls) (List.replicate (hs - ls + 1) 0) (fun _ => 0) hkey (by simp) (by
    intro c hc; rw [List.getElem?_replicate, if_pos (by omega)])
  rw [e1] at hc
  rw [hc, Option.bind_some]
  obtain ⟨p2, p3, e2, e3, e4⟩ := bucketSort (hs - ls) (hp - lp) (winAll A lp hp ls hs) (fun e => e.2.2.1 - ls) (fun e => e.1 - lp) (fun e => pf ((e.2.2.1, e.2.2.2), e.2.1)) hkey p1 l1
    (by intro c hc; rw [g1 c hc, Nat.zero_add]) idxs pays h2 h3
  rw [e2, Option.bind_some]
  have hf := window_loop hA ho lp hp ls hs hhp (p2, idxs, pays) fun p i c (st : List Nat × List Nat × List P) => match st with
    | (ptrs, idxs, pays) => (pay i).bind fun v => ptrs[c - ls]?.bind fun d => (wr ptrs (c - ls) (d + 1)).bind fun ptrs => (wr idxs d (p - lp)).bind fun idxs =>
        (wr pays d v).bind fun pays => some (ptrs, idxs, pays)
  rw [foldlM_congr (g := fun st (e : Nat × Nat × Nat × T) => scatterStep (fun e => e.2.2.1 - ls) (fun e => e.1 - lp) (fun e => pf ((e.2.2.1, e.2.2.2), e.2.1)) e st) (by
    intro e he st
    obtain ⟨m1, m2, m3, m4, m5⟩ := winAll_mem he
    rw [hpay e.1 (by omega) _ m5]
    rfl), e3] at hf
  rw [hf, Option.bind_some]
  simp only
  rw [e4, Option.bind_some]
  congr 1
  unfold ofRows subCols
  simp

end Verif.Csx
