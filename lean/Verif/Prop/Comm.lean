import Verif.Proof.Scatter
import Verif.Proof.AllToAll2
import Mathlib.Tactic.ByContra
/-
Properties of the hand-written collective operations.  `Completes c f` (Base/Mpi.lean) says that under every schedule of the ranks and every
choice of the MPI library to buffer a message or not, the ranks started in `c` end in `f`: executions are bounded, never stuck before `f`, and
`f` has no message left.
-/
namespace Verif.Comm
open Verif.Mpi

variable {T : Type}

theorem completes_world {M R : Type} [Inhabited R] {l r : Nat} {p : Nat → Prog M R} {res : Nat → R}
    (h : Local (inR l r) p (fun i => .ret (res i))) : Completes (world l r p) (finished l r res) := by
  unfold world finished
  refine completes_of_local (A := inR l r) ?_ ?_
  · refine h.congr ?_ ?_
    · intro i hi; rw [if_pos (show l ≤ i ∧ i < r from hi)]
    · intro i hi; rw [if_pos (show l ≤ i ∧ i < r from hi)]
  · intro i hi
    unfold inR at hi
    rw [if_neg hi, if_neg hi]

/-! ### meaning of `Completes` -/

theorem step_pos {M R : Type} {w : Nat} {c c' : Cfg M R} (h : Step w c c') : 1 ≤ w := by
  cases h with
  | g g => cases g <;> decide
  | bsend => decide
  | bwait => decide

/-- There is no infinite execution. -/
theorem C20_no_infinite_execution {M R : Type} {c f : Cfg M R} (h : Completes c f) (s : Nat → Cfg M R) (hs : s 0 = c) :
    ∃ k, ∀ w, ¬ Step w (s k) (s (k + 1)) := by
  by_contra hn
  have hn : ∀ k, ∃ w, Step w (s k) (s (k + 1)) := fun k => by
    by_contra hk
    exact hn ⟨k, fun w hw => hk ⟨w, hw⟩⟩
  obtain ⟨N, hN⟩ := h.2.1
  have : ∀ k, ∃ l, k ≤ l ∧ Exec l c (s k) := by
    intro k
    induction k with
    | zero => exact ⟨0, Nat.le_refl _, hs ▸ .refl⟩
    | succ k ih =>
      obtain ⟨l, hl, e⟩ := ih
      obtain ⟨w, hw⟩ := hn k
      have hw1 : 1 ≤ w := step_pos hw
      exact ⟨l + w, by omega, .step e hw⟩
  obtain ⟨l, hl, e⟩ := this (N + 1)
  have := hN l _ e
  omega

/-- An execution that cannot continue, even with an MPI library that buffers nothing, has ended in `f`; all ranks have returned and no message
is left. So there is no deadlock, and the result does not depend on the schedule. -/
theorem C20_stuck_is_finished {M R : Type} {c f : Cfg M R} (h : Completes c f) {l : Nat} {c' : Cfg M R} (e : Exec l c c')
    (hs : ∀ w c'', ¬ GStep w c' c'') : c' = f ∧ (∀ i, ∃ r, c'.p i = .ret r) ∧ ∀ i j t, c'.ch i j t = [] := by
  rcases (h.2.2 l c' e).1 with rfl | ⟨w, c'', g⟩
  · exact ⟨rfl, h.1.1, h.1.2⟩
  · exact (hs w c'' g).elim

/-! ### all-reduce -/

theorem foldl_mergeVec {A : Type} (op : T → T → T) (N : Nat) : ∀ (as : List A) (g : A → Nat → T) (f : Nat → T),
    (as.map fun a => (List.range N).map (g a)).foldl (mergeVec op) ((List.range N).map f) =
      (List.range N).map fun k => (as.map fun a => g a k).foldl op (f k)
  | [], _, _ => rfl
  | a :: as, g, f => by
      simp only [List.map_cons, List.foldl_cons]
      have : mergeVec op ((List.range N).map f) ((List.range N).map (g a)) = (List.range N).map fun k => op (f k) (g a k) := by
        rw [mergeVec, List.zipWith_map, List.zipWith_self]
      rw [this]
      exact foldl_mergeVec op N as g _

/-- All-reduce on the ranks `l … r`, each with `N` numbers `d i 0, …, d i (N-1)`: whatever the schedule and the buffering, all ranks end with the
same vector, whose `k`-th entry combines the `k`-th entries of all ranks, each exactly once. -/
theorem C19_allReduce (t : Nat) (op : T → T → T) (ha : ∀ a b c, op (op a b) c = op a (op b c)) (hc : ∀ a b, op a b = op b a)
    (l r N : Nat) (hlr : l < r) (d : Nat → Nat → T) :
    ∃ v : List T, v.length = N ∧ (∀ k, k < N → v[k]? = combine op (contributions l r fun i => d i k)) ∧
      Completes (world l r fun i => allReduce t op i l r ((List.range N).map (d i)) ((List.range N).map (d i)))
        (finished l r fun _ => some v) := by
  have hv : rsum (mergeVec op) (fun i => (List.range N).map (d i)) l (r - l) =
      some ((List.range N).map fun k => ((List.range' (l + 1) (r - l - 1)).map fun i => d i k).foldl op (d l k)) := by
    unfold rsum
    rw [osum_combine (mergeVec_assoc ha), show r - l = (r - l - 1) + 1 by omega, List.range'_succ]
    simp only [List.map_cons, combine, Nat.add_sub_cancel]
    congr 1
    exact foldl_mergeVec op N _ _ _
  refine ⟨(List.range N).map fun k => ((List.range' (l + 1) (r - l - 1)).map fun i => d i k).foldl op (d l k), ?_, ?_,
    completes_world (Local.congr (allReduce_local t ha hc N (fun _ => .ret) _ (r - l) l r rfl hlr
    (fun i => (List.range N).map (d i)) (fun i => (List.range N).map (d i)) (by simp) (by simp) hv) ?_ ?_)⟩
  · simp
  · intro k hk
    unfold contributions
    rw [show r - l = (r - l - 1) + 1 by omega, List.range'_succ]
    simp [combine, hk]
  · intro i _; rw [Prog.bind_ret]
  · intro i _; rfl

/-- Nontrivial instance: three ranks (an odd split), sums. -/
example : Completes (world 0 3 fun i => allReduce 7 (· + ·) i 0 3 [i + 1, 10 * i] [i + 1, 10 * i]) (finished 0 3 fun _ => some [6, 30]) := by
  obtain ⟨v, h1, h2, h3⟩ := C19_allReduce 7 (· + · : Nat → Nat → Nat) Nat.add_assoc Nat.add_comm 0 3 2 (by decide)
    (fun i k => if k = 0 then i + 1 else 10 * i)
  have e : v = [6, 30] := by
    apply List.ext_getElem?
    intro k
    match k with
    | 0 => exact h2 0 (by decide)
    | 1 => exact h2 1 (by decide)
    | k + 2 => simp [h1]
  rw [← e]
  exact h3

/-! ### gather-like operations -/

/-- After `allGatherUnknownSize` every rank holds the concatenation of the data of all ranks in rank order. -/
theorem C21_allGather (t size : Nat) (h : 0 < size) (d : Nat → List T) :
    Completes (world 0 size fun i => allGather t i size (d i)) (finished 0 size fun _ => (contributions 0 size d).flatten) := by
  refine completes_world (Local.congr (allGather_local t id (fun data recv => data ++ recv) (fun data recv => recv ++ data)
    (fun l r _ => (contributions l r d).flatten) (fun l r => (contributions l r d).flatten) ?_ ?_ ?_ (levels size) 0 size h
    (by simpa using levels_le size) (fun _ => .ret)) ?_ ?_)
  · intro l r i _; rfl
  · intro l m r i hi hmr
    rw [contributions_append d (Nat.le_of_lt (Nat.lt_of_le_of_lt hi.1 hi.2)) (Nat.le_of_lt hmr), List.flatten_append]
  · intro l m r i hi hlm
    rw [contributions_append d (Nat.le_of_lt hlm) (Nat.le_of_lt (Nat.lt_of_le_of_lt hi.1 hi.2)), List.flatten_append]
  · intro i _
    rw [Prog.bind_ret, flatten_one]
    rfl
  · intro i _; rfl

example : Completes (world 0 5 fun i => allGather 7 i 5 (List.replicate i (10 * i)))
    (finished 0 5 fun _ => [10, 20, 20, 30, 30, 30, 40, 40, 40, 40]) :=
  C21_allGather 7 5 (by decide) _

/-- `gatherUnknownSize`: rank 0 gets the concatenation in rank order, the other ranks return without touching their buffer. -/
theorem C22_gather (t size : Nat) (h : 0 < size) (d : Nat → List T) :
    Completes (world 0 size fun i => gather t i size (d i))
      (finished 0 size fun i => if i = 0 then some (contributions 0 size d).flatten else none) := by
  refine completes_world (Local.congr (gather_local t d (levels size) 0 size h (by simpa using levels_le size) (fun _ => .ret)) ?_ ?_)
  · intro i _; rw [Prog.bind_ret]; rfl
  · intro i _; rfl

theorem gatherOffsets_getElem? : ∀ (ss : List Nat) (acc k : Nat), k ≤ ss.length → (gatherOffsets ss acc)[k]? = some (acc + (ss.take k).sum)
  | [], acc, k, h => by
      have : k = 0 := by simpa using h
      subst this; simp [gatherOffsets]
  | s :: ss, acc, 0, _ => by simp [gatherOffsets]
  | s :: ss, acc, k + 1, h => by
      simp only [gatherOffsets, List.getElem?_cons_succ]
      rw [gatherOffsets_getElem? ss (acc + s) k (by simpa using h)]
      simp [Nat.add_assoc]

theorem gatherOffsets_length : ∀ (ss : List Nat) (acc : Nat), (gatherOffsets ss acc).length = ss.length + 1
  | [], _ => rfl
  | _ :: ss, _ => by simp [gatherOffsets, gatherOffsets_length ss]

/-- The offsets of `gatherUnknownSize` delimit the part of each rank in the gathered data. -/
theorem C22_offsets (size : Nat) (d : Nat → List T) :
    let data := (contributions 0 size d).flatten
    let offsets := gatherOffsets (contributions 0 size fun i => (d i).length) 0
    offsets.length = size + 1 ∧ offsets[0]? = some 0 ∧ offsets[size]? = some data.length ∧
    ∀ i, i < size → ∃ a b : Nat, offsets[i]? = some a ∧ offsets[i + 1]? = some b ∧ a ≤ b ∧ (data.drop a).take (b - a) = d i := by
  intro data offsets
  have hl : (contributions 0 size fun i => (d i).length).length = size := by simp [contributions_length]
  have key : ∀ i, i ≤ size → offsets[i]? = some (contributions 0 i d).flatten.length := by
    intro i hi
    simp only [offsets]
    rw [gatherOffsets_getElem? _ _ _ (by rw [hl]; exact hi)]
    have : (contributions 0 size fun i => (d i).length).take i = contributions 0 i fun i => (d i).length := by
      rw [contributions_append _ (Nat.zero_le i) hi, List.take_append_of_le_length (by simp [contributions_length]),
        List.take_of_length_le (by simp [contributions_length])]
    rw [this, Nat.zero_add, List.length_flatten]
    simp [contributions]
    rfl
  refine ⟨by simp only [offsets]; rw [gatherOffsets_length, hl], ?_, key size (Nat.le_refl _), ?_⟩
  · have := key 0 (Nat.zero_le _); simpa [contributions] using this
  · intro i hi
    have e : (contributions 0 (i + 1) d).flatten.length = (contributions 0 i d).flatten.length + (d i).length := by
      rw [contributions_append d (Nat.zero_le i) (Nat.le_succ i), List.flatten_append, List.length_append, flatten_one]
    refine ⟨_, _, key i (Nat.le_of_lt hi), key (i + 1) hi, by omega, ?_⟩
    simp only [data]
    rw [contributions_append d (Nat.zero_le i) (Nat.le_of_lt hi), contributions_append d (Nat.le_succ i) hi, List.flatten_append,
      List.flatten_append, flatten_one, List.drop_left, e, Nat.add_sub_cancel_left, List.take_left]

example : gatherOffsets [2, 0, 3] 0 = [0, 2, 2, 5] := by decide

/-- `allGatherInplace` of parts that follow each other from the position `b` of the arrays: every rank gets the concatenation at this position; what is before and behind it is kept and nothing is
written outside of the array. -/
theorem C53_allGatherInplace_from (t size b : Nat) (h : 0 < size) (d a : Nat → List T)
    (hlen : ∀ i, i < size → b + (contributions 0 size d).flatten.length ≤ (a i).length)
    (hown : ∀ i, i < size → ((a i).drop (b + (contributions 0 i d).flatten.length)).take (d i).length = d i) :
    Completes (world 0 size fun i => allGatherInplace t i size ⟨a i, b + (contributions 0 i d).flatten.length, (d i).length⟩)
      (finished 0 size fun i => some ⟨(a i).take b ++ (contributions 0 size d).flatten ++ (a i).drop (b + (contributions 0 size d).flatten.length), b, (contributions 0 size d).flatten.length⟩) := by
  let d' : Nat → List T := fun i => if i < size then d i else []
  let a' : Nat → List T := fun i => if i < size then a i else a 0
  have hd : ∀ r, r ≤ size → contributions 0 r d' = contributions 0 r d := by
    intro r hr
    unfold contributions
    apply List.map_congr_left
    intro i hi
    have := List.mem_range'_1.1 hi
    simp only [d']; rw [if_pos (by omega)]
  have hd' : ∀ r, size ≤ r → (contributions 0 r d').flatten = (contributions 0 size d).flatten := by
    intro r hr
    rw [contributions_append d' (Nat.zero_le size) hr, hd size (Nat.le_refl _), List.flatten_append]
    have : (contributions size r d').flatten = [] := by
      rw [List.flatten_eq_nil_iff]
      intro x hx
      obtain ⟨i, h1, h2, e⟩ := mem_contributions.1 hx
      simp only [d'] at e; rw [if_neg (by omega)] at e; exact e.symm
    rw [this, List.append_nil]
  have ha : ∀ i, b + (contributions 0 size d).flatten.length ≤ (a' i).length := by
    intro i
    simp only [a']
    split
    · exact hlen i ‹_›
    · exact hlen 0 h
  have hoff : ∀ r, offs b d' r ≤ b + (contributions 0 size d).flatten.length := by
    intro r
    by_cases hr : r ≤ size
    · unfold offs
      rw [hd r hr, contributions_append d (Nat.zero_le r) hr, List.flatten_append, List.length_append]
      omega
    · unfold offs; rw [hd' r (by omega)]; exact Nat.le_refl _
  have hL := inplace_local t b a' d' (fun i r => Nat.le_trans (hoff r) (ha i)) ?_ (levels size) 0 size h (by simpa using levels_le size)
    (fun _ => .ret)
  · refine completes_world (Local.congr hL ?_ ?_)
    · intro i hi
      rw [Prog.bind_ret]
      have hi := hi.2
      simp only [a', d', if_pos hi, offs, hd i (Nat.le_of_lt hi)]
      rfl
    · intro i hi
      have hi := hi.2
      have e0 : offs b d' 0 = b := rfl
      have e1 : offs b d' size = b + (contributions 0 size d).flatten.length := by unfold offs; rw [hd size (Nat.le_refl _)]
      simp only [inplaceVal, e0, e1, hd size (Nat.le_refl _), a', if_pos hi]
  · intro i
    by_cases hi : i < size
    · have e : d' i = d i := by simp only [d']; rw [if_pos hi]
      have e2 : a' i = a i := by simp only [a']; rw [if_pos hi]
      have e3 : offs b d' (i + 1) = offs b d' i + (d i).length := by
        have := offs_add b d' (Nat.le_succ i)
        rw [flatten_one, e] at this; exact this.symm
      have e4 : offs b d' i = b + (contributions 0 i d).flatten.length := by unfold offs; rw [hd i (Nat.le_of_lt hi)]
      have := hown i hi
      rw [e, e2, e3, e4]
      have e5 := List.take_append_drop (d i).length ((a i).drop (b + (contributions 0 i d).flatten.length))
      rw [this, List.drop_drop] at e5
      rw [List.append_assoc, e5, List.take_append_drop]
    · have e : d' i = [] := by simp only [d']; rw [if_neg hi]
      have e3 : offs b d' (i + 1) = offs b d' i := by
        have := offs_add b d' (Nat.le_succ i)
        rw [flatten_one, e] at this; exact this.symm
      rw [e, e3, List.append_nil, List.take_append_drop]

/-- After `allGatherInplace` the whole array of every rank is the concatenation, if each rank starts with its part at its offset in an array of
the total size; nothing is written outside of the array. -/
theorem C53_allGatherInplace (t size : Nat) (h : 0 < size) (d a : Nat → List T)
    (hlen : ∀ i, i < size → (a i).length = (contributions 0 size d).flatten.length)
    (hown : ∀ i, i < size → ((a i).drop (contributions 0 i d).flatten.length).take (d i).length = d i) :
    Completes (world 0 size fun i => allGatherInplace t i size ⟨a i, (contributions 0 i d).flatten.length, (d i).length⟩)
      (finished 0 size fun _ => some ⟨(contributions 0 size d).flatten, 0, (contributions 0 size d).flatten.length⟩) := by
  have := C53_allGatherInplace_from t size 0 h d a (fun i hi => by rw [Nat.zero_add, hlen i hi]; exact Nat.le_refl _) (fun i hi => by rw [Nat.zero_add]; exact hown i hi)
  simp only [Nat.zero_add, List.take_zero, List.nil_append] at this
  have e : (finished 0 size fun i => some (⟨(contributions 0 size d).flatten ++ (a i).drop (contributions 0 size d).flatten.length, 0, (contributions 0 size d).flatten.length⟩ : Inplace T)) =
      finished (M := List T) 0 size fun _ => some ⟨(contributions 0 size d).flatten, 0, (contributions 0 size d).flatten.length⟩ := by
    unfold finished
    congr 1
    funext i
    by_cases hi : 0 ≤ i ∧ i < size
    · rw [if_pos hi, if_pos hi]
      dsimp only
      rw [← hlen i hi.2, List.drop_length, List.append_nil]
    · rw [if_neg hi, if_neg hi]
  rw [e] at this
  exact this

example : Completes (world 0 3 fun i => allGatherInplace 7 i 3 ⟨[[1, 0, 0], [0, 2, 0], [0, 0, 3]][i]!, i, 1⟩)
    (finished 0 3 fun _ => some ⟨[1, 2, 3], 0, 3⟩) := by
  have := C53_allGatherInplace 7 3 (by decide) (fun i => [i + 1]) (fun i => [[1, 0, 0], [0, 2, 0], [0, 0, 3]][i]!) (by decide) (by decide)
  have e : ∀ i, (contributions 0 i fun i => [i + 1]).flatten.length = i := by
    intro i; simp only [contributions, List.length_flatten, List.map_map, Function.comp_def, List.length_singleton, List.map_const']; simp
  simp only [e] at this
  exact this

/-- If every rank contributes a sorted list without duplicates (for a strict total order), every rank ends with the sorted list without
duplicates of all contributed values. -/
theorem C52_uniqueAllGather (lt : T → T → Bool) (hirr : ∀ a, lt a a = false) (htr : ∀ a b c, lt a b = true → lt b c = true → lt a c = true)
    (htri : ∀ a b, lt a b = false → lt b a = false → a = b) (t size : Nat) (h : 0 < size) (d : Nat → List T)
    (hd : ∀ i, i < size → Increasing lt (d i)) :
    ∃ v, Increasing lt v ∧ (∀ x, x ∈ v ↔ ∃ i, i < size ∧ x ∈ d i) ∧
      Completes (world 0 size fun i => uniqueAllGather lt t i size (d i)) (finished 0 size fun _ => v) := by
  let d' : Nat → List T := fun i => if i < size then d i else []
  have hd' : ∀ i, Increasing lt (d' i) := by
    intro i; simp only [d']; split
    · exact hd i ‹_›
    · exact List.Pairwise.nil
  have hc : ∀ l r, ∀ x ∈ contributions l r d', Increasing lt x := by
    intro l r x hx
    obtain ⟨i, _, _, e⟩ := mem_contributions.1 hx
    rw [← e]; exact hd' i
  have one : ∀ i, unionAll lt (contributions i (i + 1) d') = d' i := by
    intro i
    rw [contributions_one]
    show setUnion lt (d' i) [] = d' i
    cases d' i <;> simp [setUnion]
  refine ⟨unionAll lt (contributions 0 size d'), sorted_unionAll htr htri _ (hc 0 size), ?_, ?_⟩
  · intro x
    rw [mem_unionAll htri]
    constructor
    · rintro ⟨y, hy, hx⟩
      obtain ⟨i, _, hi, e⟩ := mem_contributions.1 hy
      refine ⟨i, hi, ?_⟩
      simp only [d'] at e; rw [if_pos hi] at e; rw [e]; exact hx
    · rintro ⟨i, hi, hx⟩
      refine ⟨d' i, mem_contributions.2 ⟨i, Nat.zero_le _, hi, rfl⟩, ?_⟩
      simp only [d']; rw [if_pos hi]; exact hx
  · refine completes_world (Local.congr (allGather_local t id (setUnion lt) (setUnion lt)
      (fun l r _ => unionAll lt (contributions l r d')) (fun l r => unionAll lt (contributions l r d')) ?_ ?_ ?_ (levels size) 0 size h
      (by simpa using levels_le size) (fun _ => .ret)) ?_ ?_)
    · intro l r i _; rfl
    · intro l m r i hi hmr
      rw [contributions_append d' (Nat.le_of_lt (Nat.lt_of_le_of_lt hi.1 hi.2)) (Nat.le_of_lt hmr)]
      exact (unionAll_append hirr htr htri _ _ (hc _ _) (hc _ _)).1
    · intro l m r i hi hlm
      rw [contributions_append d' (Nat.le_of_lt hlm) (Nat.le_of_lt (Nat.lt_of_le_of_lt hi.1 hi.2))]
      exact (unionAll_append hirr htr htri _ _ (hc _ _) (hc _ _)).2
    · intro i hi
      rw [Prog.bind_ret, one]
      simp only [d']; rw [if_pos hi.2]
      rfl
    · intro i _; rfl

example : ∃ v, Increasing (fun a b : Nat => decide (a < b)) v ∧ (∀ x, x ∈ v ↔ ∃ i, i < 3 ∧ x ∈ [[1, 5], [], [2, 5, 9]][i]!) ∧
    Completes (world 0 3 fun i => uniqueAllGather (fun a b => decide (a < b)) 7 i 3 ([[1, 5], [], [2, 5, 9]][i]!)) (finished 0 3 fun _ => v) :=
  C52_uniqueAllGather _ (by simp) (by simp; omega) (by simp; omega) 7 3 (by decide) _ (by unfold Increasing; decide)

/-! ### scatter -/

/-- `scatterv` delivers to each rank its part of the root's buffer; `rbuf` is whatever the receive buffers hold before. -/
theorem C23_scatterv [Inhabited T] (t size : Nat) (h : 0 < size) (disp : List Nat) (hl : size < disp.length) (h0 : disp[0]? = some 0)
    (hmono : ∀ a b x y : Nat, a ≤ b → disp[a]? = some x → disp[b]? = some y → x ≤ y)
    (sbuf rbuf : Nat → List T) (hs : ∀ x, disp[size]? = some x → x ≤ (sbuf 0).length) (part : Nat → List T)
    (hpart : ∀ i x y, i < size → disp[i]? = some x → disp[i + 1]? = some y → part i = ((sbuf 0).drop x).take (y - x)) :
    Completes (world 0 size fun i => scatterv t disp i size (sbuf i) (rbuf i)) (finished 0 size fun i => some (part i)) := by
  have hget : ∀ a, a ≤ size → disp[a]? = some (disp.getD a 0) := by
    intro a ha
    rw [List.getD_eq_getElem?_getD, List.getElem?_eq_getElem (by omega)]
    rfl
  have := scatter_local (R := Option (List T)) t (dispDist disp) disp[1]? (fun a => disp.getD a 0) size (sbuf 0)
    (fun a b h1 h2 => hmono a b _ _ h1 (hget a (by omega)) (hget b h2)) ?_ ?_ ?_ (hs _ (hget size (Nat.le_refl _))) sbuf rfl (fun _ => .ret)
    size 0 size (by omega) h (Nat.le_refl _) rbuf (fun h => (h rfl).elim)
  · refine completes_world (Local.congr this ?_ ?_)
    · intro i _; rw [Prog.bind_ret]; rfl
    · intro i hi
      rw [hpart i _ _ hi.2 (hget i (Nat.le_of_lt hi.2)) (hget (i + 1) hi.2)]
      rfl
  · intro a b h1 h2
    simp only [dispDist, hget a (by omega), hget b h2, Option.bind_eq_bind, Option.bind_some]
    rw [if_pos (hmono a b _ _ h1 (hget a (by omega)) (hget b h2))]
  · have := hget 0 (Nat.zero_le _)
    rw [h0] at this; exact (Option.some.inj this).symm
  · exact hget 1 h

example : Completes (world 0 3 fun i => scatterv 7 [0, 2, 2, 5] i 3 (if i = 0 then [10, 11, 12, 13, 14] else []) [])
    (finished 0 3 fun i => some ([[10, 11], [], [12, 13, 14]][i]!)) := by
  apply C23_scatterv 7 3 (by decide) [0, 2, 2, 5] (by decide) rfl
  · intro a b x y hab ha hb
    obtain ⟨ha', rfl⟩ := List.getElem?_eq_some_iff.1 ha
    obtain ⟨hb', rfl⟩ := List.getElem?_eq_some_iff.1 hb
    simp only [List.length_cons, List.length_nil] at ha' hb'
    revert hab ha' hb' a b
    have : ∀ a < 4, ∀ b < 4, a ≤ b → [0, 2, 2, 5][a]! ≤ [0, 2, 2, 5][b]! := by decide
    intro a b h ha _ hb _
    simpa [ha, hb] using this a ha b hb h
  · intro x hx; simp at hx; subst hx; simp
  · intro i x y hi hx hy
    match i, hi with
    | 0, _ => simp at hx hy; subst hx; subst hy; rfl
    | 1, _ => simp at hx hy; subst hx; subst hy; rfl
    | 2, _ => simp at hx hy; subst hx; subst hy; rfl

/-- `scatter` delivers to each rank its block of `n` elements of the root's buffer. -/
theorem C23_scatter [Inhabited T] (t size n : Nat) (h : 0 < size) (sbuf rbuf : Nat → List T) (hs : size * n ≤ (sbuf 0).length) :
    Completes (world 0 size fun i => scatter t n i size (sbuf i) (rbuf i))
      (finished 0 size fun i => some (((sbuf 0).drop (i * n)).take n)) := by
  have := scatter_local (R := Option (List T)) t (fun a b => some ((b - a) * n)) (some n) (fun a => a * n) size (sbuf 0)
    (fun a b h1 h2 => Nat.mul_le_mul_right n h1) ?_ (by simp) (by simp) hs sbuf rfl (fun _ => .ret)
    size 0 size (by omega) h (Nat.le_refl _) rbuf (fun h => (h rfl).elim)
  · refine completes_world (Local.congr this ?_ ?_)
    · intro i _; rw [Prog.bind_ret]; rfl
    · intro i hi
      simp only [part, Nat.add_mul, Nat.add_sub_cancel_left, Nat.one_mul]
  · intro a b h1 h2
    rw [Nat.sub_mul]

example : Completes (world 0 3 fun i => scatter 7 2 i 3 (if i = 0 then [1, 2, 3, 4, 5, 6] else []) [])
    (finished 0 3 fun i => some ((([1, 2, 3, 4, 5, 6] : List Nat).drop (i * 2)).take 2)) :=
  C23_scatter 7 3 2 (by decide) _ _ (by decide)

/-! ### targeted all-to-all -/

/-- If every rank of `l … r` passes messages sorted by target for ranks of `l … r`, every rank ends with its old receive buffer followed by
exactly the messages of all ranks that are addressed to it (in some order). -/
theorem C24_allToAll (t l r : Nat) (h : l < r) (s : Nat → List Rec) (b : Nat → List Int)
    (hs : ∀ i, l ≤ i → i < r → (s i).Pairwise fun x y => x.1 ≤ y.1) (hr : ∀ i, l ≤ i → i < r → ∀ x ∈ s i, l ≤ x.1 ∧ x.1 < r) :
    ∃ X : Nat → List Rec, (∀ i, l ≤ i → i < r → (X i).Perm ((contributions l r s).flatMap (addressed i))) ∧
      Completes (world l r fun i => allToAll t i l r (encode (s i)) (b i)) (finished l r fun i => some (b i ++ encode (X i))) := by
  obtain ⟨X, p, L⟩ := a2a_local (S := Option (List Int)) t (r - l) l r rfl h s (fun i => b i ++ encode (addressed i (s i)))
    (fun i hi => hs i hi.1 hi.2) (fun i hi => hr i hi.1 hi.2)
  refine ⟨fun i => addressed i (s i) ++ X i, ?_, ?_⟩
  · intro i h1 h2
    exact ((p i ⟨h1, h2⟩).append_left _).trans (own_pending l r s ⟨h1, h2⟩)
  · refine completes_world (Local.congr (L fun _ => .ret) ?_ ?_)
    · intro i hi
      rw [Prog.bind_ret]
      unfold allToAll
      have := own_eq (show Srt (s i) from hs i hi.1 hi.2) i
      simp only [this]
    · intro i hi
      simp only [encode_append, List.append_assoc]

example : encode [(0, [7]), (2, [])] = [3, 0, 7, 2, 2] := by decide
/-- Three ranks; rank 0 has a message for rank 2, rank 1 for ranks 0 and 2, rank 2 for itself. -/
example : ∃ X : Nat → List Rec, (X 2).Perm [(2, [5]), (2, []), (2, [6, 7])] ∧
    Completes (world 0 3 fun i => allToAll 7 i 0 3 (encode ([[(2, [5])], [(0, []), (2, [])], [(2, [6, 7])]][i]!)) [])
      (finished 0 3 fun i => some (encode (X i))) := by
  obtain ⟨X, h1, h2⟩ := C24_allToAll 7 0 3 (by decide) (fun i => [[(2, [5])], [(0, []), (2, [])], [(2, [6, 7])]][i]!) (fun _ => [])
    (by intro i h; clear h; revert i; decide) (by intro i h; clear h; revert i; decide)
  exact ⟨X, h1 2 (by decide) (by decide), h2⟩

/-! ### no deadlock -/

/-- All collective operations above end in one final state, for every schedule and every buffering (see `C20_stuck_is_finished` and
`C20_no_infinite_execution` for the meaning of `Completes`). -/
theorem C20_collectives [Inhabited T] (t size : Nat) (h : 0 < size) :
    (∀ (op : T → T → T), (∀ a b c, op (op a b) c = op a (op b c)) → (∀ a b, op a b = op b a) → ∀ (N : Nat) (d : Nat → Nat → T),
      ∃ f, Completes (world 0 size fun i => allReduce t op i 0 size ((List.range N).map (d i)) ((List.range N).map (d i))) f) ∧
    (∀ d : Nat → List T, ∃ f, Completes (world 0 size fun i => allGather t i size (d i)) f) ∧
    (∀ d : Nat → List T, ∃ f, Completes (world 0 size fun i => gather t i size (d i)) f) ∧
    (∀ (n : Nat) (sbuf rbuf : Nat → List T), size * n ≤ (sbuf 0).length →
      ∃ f, Completes (world 0 size fun i => scatter t n i size (sbuf i) (rbuf i)) f) ∧
    (∀ (disp : List Nat) (sbuf rbuf : Nat → List T), size < disp.length → disp[0]? = some 0 →
      (∀ a b x y : Nat, a ≤ b → disp[a]? = some x → disp[b]? = some y → x ≤ y) → (∀ x, disp[size]? = some x → x ≤ (sbuf 0).length) →
      ∃ f, Completes (world 0 size fun i => scatterv t disp i size (sbuf i) (rbuf i)) f) ∧
    (∀ (s : Nat → List Rec) (b : Nat → List Int), (∀ i, i < size → (s i).Pairwise fun x y => x.1 ≤ y.1) →
      (∀ i, i < size → ∀ x ∈ s i, x.1 < size) → ∃ f, Completes (world 0 size fun i => allToAll t i 0 size (encode (s i)) (b i)) f) := by
  refine ⟨?_, fun d => ⟨_, C21_allGather t size h d⟩, fun d => ⟨_, C22_gather t size h d⟩, fun n sb rb hs => ⟨_, C23_scatter t size n h sb rb hs⟩,
    ?_, ?_⟩
  · intro op ha hc N d
    obtain ⟨v, -, -, hv⟩ := C19_allReduce t op ha hc 0 size N h d
    exact ⟨_, hv⟩
  · intro disp sb rb hl h0 hm hs
    refine ⟨_, C23_scatterv t size h disp hl h0 hm sb rb hs
      (fun i => ((sb 0).drop (disp.getD i 0)).take (disp.getD (i + 1) 0 - disp.getD i 0)) ?_⟩
    intro i x y hi hx hy
    rw [List.getD_eq_getElem?_getD, List.getD_eq_getElem?_getD, hx, hy]
    rfl
  · intro s b hs hr
    obtain ⟨X, -, hX⟩ := C24_allToAll t 0 size h s b (fun i _ hi => hs i hi) (fun i _ hi x hx => ⟨Nat.zero_le _, hr i hi x hx⟩)
    exact ⟨_, hX⟩

end Verif.Comm
