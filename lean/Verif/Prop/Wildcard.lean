import Verif.Proof.Wildcard2
/-!
C27 (`exchangeUnknownSize`), C28 (`receiveLowerUnknownSize`, `receiveUpperUnknownSize`) and C29 (`sendVariousTargets`): every execution of every
number of rounds, with any interleaving of the ranks, any order of receiving and any buffering.
-/
namespace Verif.Wildcard

variable {M : Type}

/-- All executions of the calls `J` are finite, do not get stuck, leave no message behind, and the messages `g` that rank `i` gets in round `k`
satisfy `P k i g`. There is at least one complete execution. -/
structure Served (J : Job M) (P : Nat → Nat → List (Nat × M) → Prop) : Prop where
  result : ∀ m s, Exec J m init s → ∀ i, i < J.ranks → ∀ (k : Nat) g, (s.r i).out[k]? = some g → P k i g
  finite : ∃ B, ∀ m s, Exec J m init s → m ≤ B
  live : ∀ m s, Exec J m init s → (∀ s', ¬Step J true s s') → (∀ i, i < J.ranks → (s.r i).out.length = J.rounds) ∧ ∀ i j, s.ch i j = []
  complete : ∃ m s, Exec J m init s ∧ ∀ i, i < J.ranks → (s.r i).out.length = J.rounds

theorem served {J : Job M} (hJ : Ok J) {P : Nat → Nat → List (Nat × M) → Prop}
    (hP : ∀ k i g, k < J.rounds → i < J.ranks → Good J k i g → P k i g) : Served J P where
  result := by
    intro m s h i hi k g hk
    have I := inv_exec hJ h (inv_init J)
    have hr := I.res i hi
    have hkl : k < (s.r i).out.length := (List.getElem?_eq_some_iff.1 hk).1
    exact hP k i g (by have := I.round i hi; omega) hi (hr.2 k g hk)
  finite := by
    refine ⟨bound J, fun m s h => ?_⟩
    have I := inv_exec hJ h (inv_init J)
    have e := exec_calls hJ h (inv_init J)
    have := calls_le I
    rw [e, calls_init] at this; omega
  live := by
    intro m s h hs
    have I := inv_exec hJ h (inv_init J)
    have fin : ∀ i, i < J.ranks → (s.r i).round = J.rounds := by
      intro i hi
      by_contra hne
      have := I.round i hi
      obtain ⟨s', h'⟩ := progress hJ I ⟨i, hi, by omega⟩
      exact hs s' h'
    exact ⟨fun i hi => by rw [(I.res i hi).1, fin i hi], fin_empty I fin⟩
  complete := by
    obtain ⟨m, s, h, hf⟩ := exists_complete hJ
    have I := inv_exec hJ h (inv_init J)
    exact ⟨m, s, h, fun i hi => by rw [(I.res i hi).1, hf i hi]⟩

section Exchange

variable (n rounds : Nat) (nb : Nat → List Nat) (sbuf : Nat → Nat → List M)
  (hnb : ∀ i, i < n → Neighbors n (nb i)) (sym : ∀ i j, i < n → j ∈ nb i → i ∈ nb j)
  (hlen : ∀ k i, k < rounds → i < n → (sbuf k i).length = (nb i).length)

include hnb sym hlen

/-- C27: in every round the neighbour `j = nb i [p]` of rank `i` delivers the buffer that `j` has passed for `i = nb j [q]` in this round. -/
theorem C27_exchangeUnknownSize : Served (exchangeJob n rounds nb sbuf) fun k i g =>
    ∀ rbuf : List M, rbuf.length = (nb i).length → ∃ r', place (nb i) g rbuf = some r' ∧ r'.length = (nb i).length ∧
      ∀ p j q : Nat, (nb i)[p]? = some j → (nb j)[q]? = some i → r'[p]? = (sbuf k j)[q]? := by
  have E : IsExchange (exchangeJob n rounds nb sbuf) nb sbuf (fun _ _ => true) :=
    { msgs := by intro k i _ _; exact (List.filter_eq_self.2 fun _ _ => rfl).symm
      cnt := by intro k i _ _; rw [List.filter_eq_self.2 fun _ _ => rfl]; rfl
      nbs := hnb, sym := sym, len := hlen }
  refine served E.ok ?_
  intro k i g hk hi hg rbuf hr
  obtain ⟨r', e, el, es⟩ := E.place hk hi hg hr
  exact ⟨r', e, el, fun p j q hp hq => by rw [es p j q hp hq, if_pos rfl]⟩

/-- C28: `receiveLowerUnknownSize` delivers the buffers of the lower neighbours and keeps the others. -/
theorem C28_receiveLowerUnknownSize : Served (receiveLowerJob n rounds nb sbuf) fun k i g =>
    ∀ rbuf : List M, rbuf.length = (nb i).length → ∃ r', place (nb i) g rbuf = some r' ∧ r'.length = (nb i).length ∧
      ∀ p j q : Nat, (nb i)[p]? = some j → (nb j)[q]? = some i → r'[p]? = if j < i then (sbuf k j)[q]? else rbuf[p]? := by
  have E : IsExchange (receiveLowerJob n rounds nb sbuf) nb sbuf (fun i j => decide (i < j)) :=
    { msgs := by intro k i _ _; rfl
      cnt := by
        intro k i _ hi
        show (nb i).length - ((nb i).length - lowerBound (nb i) i) = _
        rw [lowerBound_count (hnb i hi).sorted]
        have := List.length_filter_le (fun y => decide (y < i)) (nb i)
        omega
      nbs := hnb, sym := sym, len := hlen }
  refine served E.ok ?_
  intro k i g hk hi hg rbuf hr
  obtain ⟨r', e, el, es⟩ := E.place hk hi hg hr
  refine ⟨r', e, el, fun p j q hp hq => ?_⟩
  rw [es p j q hp hq]; simp

/-- C28: `receiveUpperUnknownSize` delivers the buffers of the upper neighbours and keeps the others (no rank is its own neighbour). -/
theorem C28_receiveUpperUnknownSize (irr : ∀ i, i < n → i ∉ nb i) : Served (receiveUpperJob n rounds nb sbuf) fun k i g =>
    ∀ rbuf : List M, rbuf.length = (nb i).length → ∃ r', place (nb i) g rbuf = some r' ∧ r'.length = (nb i).length ∧
      ∀ p j q : Nat, (nb i)[p]? = some j → (nb j)[q]? = some i → r'[p]? = if i < j then (sbuf k j)[q]? else rbuf[p]? := by
  have E : IsExchange (receiveUpperJob n rounds nb sbuf) nb sbuf (fun i j => decide (j < i)) :=
    { msgs := by
        intro k i hk hi
        refine takeWhile_eq_filter (f := fun x : Nat × M => x.1) ?_ i
        rw [show (fun x : Nat × M => x.1) = Prod.fst from rfl, List.map_fst_zip (Nat.le_of_eq (hlen k i hk hi).symm)]
        exact (hnb i hi).sorted
      cnt := by
        intro k i _ hi
        show (nb i).length - lowerBound (nb i) i = _
        rw [lowerBound_count (hnb i hi).sorted]
        have h1 := List.length_eq_length_filter_add (l := nb i) (fun y => decide (y < i))
        have h2 : (nb i).filter (fun y => !decide (y < i)) = (nb i).filter (fun j => decide (i < j)) := by
          apply List.filter_congr
          intro j hj
          have : j ≠ i := by rintro rfl; exact irr j hi hj
          by_cases h : j < i
          · simp [h]; omega
          · simp [h]; omega
        rw [h2] at h1
        omega
      nbs := hnb, sym := sym, len := hlen }
  refine served E.ok ?_
  intro k i g hk hi hg rbuf hr
  obtain ⟨r', e, el, es⟩ := E.place hk hi hg hr
  refine ⟨r', e, el, fun p j q hp hq => ?_⟩
  rw [es p j q hp hq]; simp

end Exchange

/-- C29: `sendVariousTargets` returns exactly the buffers for the rank, sorted by their sources; `perm` and `srcs` are results of the two calls of
`std::sort` (`permutation` and `sources`). Target lists must not have duplicates. -/
theorem C29_sendVariousTargets (n rounds : Nat) (targets : Nat → Nat → List Nat) (sbuf : Nat → Nat → List M)
    (ht : ∀ k i, k < rounds → i < n → (targets k i).Nodup ∧ ∀ t ∈ targets k i, t < n)
    (hlen : ∀ k i, k < rounds → i < n → (sbuf k i).length = (targets k i).length) :
    Served (variousJob n rounds targets sbuf) fun k i g =>
      ∀ perm srcs rbuf, perm.Perm (List.range g.length) → (perm.filterMap fun p => (g.map (·.1))[p]?).Pairwise (· ≤ ·) →
        srcs.Perm (g.map (·.1)) → srcs.Pairwise (· ≤ ·) → rbuf.length = g.length →
        ∃ rest, permuteBuffers perm (g.map (·.2)) rbuf = some ((incoming n (fun j => (targets k j).zip (sbuf k j)) i).map (·.2), rest) ∧
          srcs = (incoming n (fun j => (targets k j).zip (sbuf k j)) i).map (·.1) ∧ srcs.Pairwise (· < ·) := by
  have one : ∀ k i j, k < rounds → j < n → (buffersOf ((targets k j).zip (sbuf k j)) i).length = if i ∈ targets k j then 1 else 0 := by
    intro k i j hk hj
    by_cases h : i ∈ targets k j
    · obtain ⟨p, hp⟩ := List.mem_iff_getElem?.1 h
      have hpl : p < (sbuf k j).length := by rw [hlen k j hk hj]; exact (List.getElem?_eq_some_iff.1 hp).1
      rw [buffersOf_zip_get (ht k j hk hj).1 hp (List.getElem?_eq_getElem hpl), if_pos h]; rfl
    · rw [buffersOf_zip_not_mem h, if_neg h]; rfl
  have ok : Ok (variousJob n rounds targets sbuf) :=
    { target := by
        intro k i hk hi x hx
        obtain ⟨a, m⟩ := x
        exact (ht k i hk hi).2 a (List.of_mem_zip hx).1
      count := by
        intro k i hk hi
        exact sumTo_congr (f := fun j => if i ∈ targets k j then 1 else 0) fun j hj => (one k i j hk hj).symm }
  refine served ok ?_
  intro k i g hk hi hg perm srcs rbuf hperm hsorted hs1 hs2 hr
  have hin := good_perm hg
  have hin' : (incoming n (fun j => (targets k j).zip (sbuf k j)) i).Perm g := hin
  have hsort : (incoming n (fun j => (targets k j).zip (sbuf k j)) i).Pairwise fun x y => x.1 < y.1 :=
    incoming_sorted fun j hj => by rw [one k i j hk hj]; split <;> omega
  generalize incoming n (fun j => (targets k j).zip (sbuf k j)) i = inc at hin' hsort
  have hread : ∀ {B : Type} (f : Nat × M → B), (perm.filterMap fun p => (g.map f)[p]?) = (perm.filterMap fun p => g[p]?).map f := by
    intro B f
    rw [List.map_filterMap]
    apply List.filterMap_congr
    intro p _
    rw [List.getElem?_map]
  have e1 : (perm.filterMap fun p => g[p]?) = inc := by
    refine eq_of_perm_sorted (f := fun x => x.1) ((perm_read hperm).trans hin'.symm) ?_ hsort
    rw [hread, List.pairwise_map] at hsorted
    exact hsorted
  obtain ⟨rest, e⟩ := permuteBuffers_spec (perm := perm) (tmp := g.map (·.2)) (rbuf := rbuf)
    (hperm.nodup_iff.2 List.nodup_range)
    (fun p hp => by rw [List.length_map]; exact List.mem_range.1 (hperm.subset hp))
    (by rw [hr, hperm.length_eq, List.length_range])
  have hsortm : (inc.map (·.1)).Pairwise (· < ·) := by rw [List.pairwise_map]; exact hsort
  have e2 : srcs = inc.map (·.1) :=
    eq_of_perm_sorted (f := fun x => x) (hs1.trans (hin'.map _).symm) hs2 hsortm
  refine ⟨rest, ?_, e2, e2 ▸ hsortm⟩
  rw [e, hread, e1]

/-! ### Duplicate targets -/

/-- Two messages of rank 0 for rank 1, in one call. -/
abbrev dupJob : Job Nat := variousJob 2 1 (fun _ i => if i = 0 then [1, 1] else []) (fun _ i => if i = 0 then [7, 8] else [])

theorem dup_prefix : ∃ s : State Nat, Exec dupJob 4 init s ∧ s.r 0 = { sent := 2 } ∧
    s.r 1 = { got := [(0, 7)], barrier := true } ∧ s.ch 0 1 = [8] := by
  refine ⟨_, .step (b := true) (.step (b := true) (.step (b := true) (.step (b := true) .refl
    (.isend (i := 0) (t := 1) (m := 7) ?_ ?_ ?_ ?_)) (.isend (i := 0) (t := 1) (m := 8) ?_ ?_ ?_ ?_))
    (.recv (i := 1) (j := 0) (m := 7) (ms := [8]) ?_ ?_ ?_ ?_ ?_ ?_)) (.wait (i := 1) ?_ ?_ ?_ ?_ ?_ ?_), ?_, ?_, ?_⟩
  all_goals first
    | decide
    | rfl
    | (intro t; simp [updc, init])

/-- A target that occurs twice: the receiver counts one message only; when `MPI_Isend` is not buffered the call never returns. -/
theorem C29_duplicates_deadlock : ∃ m s, Exec dupJob m init s ∧ (∀ s', ¬Step dupJob true s s') ∧
    ∀ i, i < 2 → (s.r i).round = 0 := by
  obtain ⟨s, h, h0, h1, hc⟩ := dup_prefix
  refine ⟨4, s, h, ?_, ?_⟩
  · intro s' hs
    have two : ∀ i, i < 2 → i = 0 ∨ i = 1 := by omega
    cases hs with
    | @isend _ i t m hi hr hb hm =>
        rcases two i hi with rfl | rfl
        · rw [h0] at hm; exact absurd (List.getElem?_eq_some_iff.1 hm).1 (by decide)
        · rw [h1] at hb; cases hb
    | @recv _ i j m ms hi hr hb hs hg hc =>
        rcases two i hi with rfl | rfl
        · rw [h0] at hg; revert hg; decide
        · rw [h1] at hb; cases hb
    | @wait _ i hi hr hb hs hg he =>
        rcases two i hi with rfl | rfl
        · have := he 1; rw [hc] at this; cases this
        · rw [h1] at hb; cases hb
    | @leave _ i hi hb hall =>
        rcases two i hi with rfl | rfl
        · rw [h0] at hb; cases hb
        · rcases hall 0 (by decide) with h | h
          · rw [h0, h1] at h; simp at h
          · rw [h0] at h; simp at h
  · intro i hi
    rcases (show i = 0 ∨ i = 1 by omega) with rfl | rfl
    · rw [h0]
    · rw [h1]

/-- A target that occurs twice: when `MPI_Isend` is buffered the second message is lost for this call (and is received by the next one). -/
theorem C29_duplicates_lost : ∃ m s, Exec dupJob m init s ∧ (∀ i, i < 2 → (s.r i).round = 1) ∧
    (s.r 1).out = [[(0, 7)]] ∧ s.ch 0 1 = [8] := by
  obtain ⟨s, h, h0, h1, hc⟩ := dup_prefix
  have e1 : Exec dupJob 5 init ⟨upd s.r 0 { s.r 0 with barrier := true }, s.ch⟩ := by
    refine h.step (b := false) (.bwait (by decide) (by rw [h0]; decide) (by rw [h0]) (by rw [h0]; rfl) (by rw [h0]; decide))
  have hb0 : upd s.r 0 { s.r 0 with barrier := true } 0 = { sent := 2, barrier := true } := by rw [upd_self, h0]
  have hb1 : upd s.r 0 { s.r 0 with barrier := true } 1 = { got := [(0, 7)], barrier := true } := by rw [upd_ne _ _ (by decide), h1]
  have e2 := e1.step (b := true) (.leave (i := 0) (by decide) (by simp only [hb0]) (by
    intro j hj
    rcases (show j = 0 ∨ j = 1 by have : dupJob.ranks = 2 := rfl; omega) with rfl | rfl
    · right; simp only [hb0]; decide
    · right; simp only [hb0, hb1]; decide))
  simp only [hb0] at e2
  generalize hr : upd (upd s.r 0 { s.r 0 with barrier := true }) 0 _ = r' at e2
  have hc0 : r' 0 = { round := 1, out := [[]] } := by rw [← hr, upd_self]; rfl
  have hc1 : r' 1 = { got := [(0, 7)], barrier := true } := by rw [← hr, upd_ne _ _ (by decide), hb1]
  have e3 := e2.step (b := true) (.leave (i := 1) (by decide) (by simp only [hc1]) (by
    intro j hj
    rcases (show j = 0 ∨ j = 1 by have : dupJob.ranks = 2 := rfl; omega) with rfl | rfl
    · left; simp only [hc0, hc1]; decide
    · right; simp only [hc1]; decide))
  refine ⟨_, _, e3, ?_, ?_, hc⟩
  · intro i hi
    rcases (show i = 0 ∨ i = 1 by omega) with rfl | rfl
    · show Rank.round (upd _ _ _ 0) = 1
      rw [upd_ne _ _ (by decide)]; simp only [hc0]
    · show Rank.round (upd _ _ _ 1) = 1
      rw [upd_self]; simp only [hc1]
  · show Rank.out (upd _ _ _ 1) = _
    rw [upd_self]; simp only [hc1]; rfl

/-! ### Cases that satisfy the hypotheses -/

/-- A path of three ranks, two rounds. -/
def exNb (i : Nat) : List Nat := if i = 0 then [1] else if i = 1 then [0, 2] else [1]

example : ∃ m s, Exec (exchangeJob 3 2 exNb (fun k i => (exNb i).map fun j => 100 * k + 10 * i + j)) m init s ∧
    ∀ i, i < 3 → (s.r i).out.length = 2 :=
  (C27_exchangeUnknownSize 3 2 exNb _
    (fun i hi => by
      rcases (show i = 0 ∨ i = 1 ∨ i = 2 by omega) with rfl | rfl | rfl <;> exact ⟨by decide, by decide⟩)
    (by
      intro i j hi hj
      rcases (show i = 0 ∨ i = 1 ∨ i = 2 by omega) with rfl | rfl | rfl <;> simp [exNb] at hj ⊢
      · subst hj; simp
      · rcases hj with rfl | rfl <;> simp
      · subst hj; simp)
    (by intro k i _ _; simp)).complete

/-- Three ranks; rank 0 sends to 2 and to itself, rank 1 sends to 0, rank 2 sends to nobody. -/
example : ∃ m s, Exec (variousJob 3 1 (fun _ i => if i = 0 then [2, 0] else if i = 1 then [0] else [])
    (fun _ i => if i = 0 then [20, 21] else if i = 1 then [30] else [])) m init s ∧
    ∀ i, i < 3 → (s.r i).out.length = 1 :=
  (C29_sendVariousTargets 3 1 _ _
    (by
      intro k i _ hi
      rcases (show i = 0 ∨ i = 1 ∨ i = 2 by omega) with rfl | rfl | rfl <;> decide)
    (by
      intro k i _ hi
      rcases (show i = 0 ∨ i = 1 ∨ i = 2 by omega) with rfl | rfl | rfl <;> rfl)).complete

/-- What rank 0 gets in this case. -/
example : incoming 3 (fun j => (if j = 0 then [2, 0] else if j = 1 then [0] else []).zip (if j = 0 then [20, 21] else if j = 1 then [30] else [])) 0 =
    [(0, 21), (1, 30)] := by decide

/-- The permutation step on a concrete case: messages received from 5, 1 and 3. -/
example : permuteBuffers [1, 2, 0] ["five", "one", "three"] ["", "", ""] = some (["one", "three", "five"], ["", "", ""]) := by decide

end Verif.Wildcard
