import Verif.Model.Arena
import Verif.Spec.Arena
import Mathlib.Data.List.Perm.Subperm
import Mathlib.Logic.Basic
/-! Properties C15, C16: arena allocators. -/
namespace Verif.Arena

/-- Histories of a client: the arena state together with the blocks granted and not yet released.  Releasing requires a live block at the
released address (or `nullptr`).  `fits` says that the request does not overflow the 64-bit address arithmetic. -/
inductive Hist (capacity align : Nat) : St → List Blk → Prop where
  | init : Hist capacity align { capacity, align } []
  | alloc {s s' live n p} : Hist capacity align s live → n + capacity + 2 * align < 2 ^ 63 →
      allocate s n = some (s', some p) → Hist capacity align s' ((p, n) :: live)
  | allocNull {s s' live n} : Hist capacity align s live →
      allocate s n = some (s', none) → Hist capacity align s' live
  | free {s l₁ l₂ p n} : Hist capacity align s (l₁ ++ (p, n) :: l₂) → Hist capacity align (deallocate s (some p)) (l₁ ++ l₂)
  | freeNull {s live} : Hist capacity align s live → Hist capacity align (deallocate s none) live
  | reset {s s' live} : Hist capacity align s live → resetArena s = some s' → Hist capacity align s' live

/-- What holds in every history. -/
structure Inv (capacity align : Nat) (s : St) (live : List Blk) : Prop where
  cap : s.capacity = capacity
  al : s.align = align
  off : s.off ≤ capacity + 2 * align
  aligned : align ∣ s.off
  num : live.length < W → s.num = live.length
  below : ∀ b ∈ live, b.1 + b.2 ≤ s.off
  size : ∀ b ∈ live, 0 < b.2 ∧ align ∣ b.1 ∧ Inside capacity b
  disj : live.Pairwise Disjoint

theorem live_bound {capacity : Nat} : ∀ (live : List Blk), (∀ b ∈ live, 0 < b.2 ∧ Inside capacity b) → live.Pairwise Disjoint →
    live.length ≤ capacity := by
  -- the start offsets are pairwise different and below the capacity
  intro live h hd
  have h1 : (live.map Prod.fst).Nodup := by
    rw [List.nodup_iff_pairwise_ne, List.pairwise_map]
    refine List.Pairwise.imp_of_mem ?_ hd
    intro a b ha hb hab
    have := (h a ha).1; have := (h b hb).1
    unfold Disjoint at hab; omega
  have h2 : (live.map Prod.fst) ⊆ List.range capacity := by
    intro x hx
    obtain ⟨b, hb, rfl⟩ := List.mem_map.1 hx
    have := h b hb
    unfold Inside at this
    simp; omega
  have := (List.subperm_of_subset h1 h2).length_le
  simpa using this

theorem hist_inv {capacity align : Nat} (ha : 0 < align) (hfit : capacity + 2 * align < 2 ^ 63) {s live}
    (h : Hist capacity align s live) : Inv capacity align s live := by
  induction h with
  | init => exact ⟨rfl, rfl, by simp, ⟨0, by simp⟩, by simp, by simp, by simp, by simp⟩
  | @alloc s s' live n p _ hn e ih =>
      unfold allocate at e
      by_cases hn0 : n = 0
      · simp [hn0] at e
      rw [if_neg hn0] at e
      simp only at e
      have hoff := ih.off
      have hm : (s.off + n) % W = s.off + n := Nat.mod_eq_of_lt (by unfold W; omega)
      rw [hm] at e
      by_cases hc : s.off + n > s.capacity
      · simp [hc] at e
      rw [if_neg hc] at e
      simp only [Option.some.injEq, Prod.mk.injEq] at e
      obtain ⟨rfl, rfl⟩ := e
      rw [ih.cap] at hc
      have hq : (s.off + n + 1) % W = s.off + n + 1 := Nat.mod_eq_of_lt (by unfold W; omega)
      have hdm := Nat.div_add_mod (s.off + n + 1) s.align
      have hml := Nat.mod_lt (s.off + n + 1) (show 0 < s.align by rw [ih.al]; exact ha)
      have hmul : ((s.off + n + 1) / s.align + 1) * s.align = s.align * ((s.off + n + 1) / s.align) + s.align := by
        rw [Nat.add_mul, Nat.mul_comm, Nat.one_mul]
      have hal := ih.al
      have hnew : (((s.off + n + 1) / s.align + 1) * s.align) % W = ((s.off + n + 1) / s.align + 1) * s.align :=
        Nat.mod_eq_of_lt (by unfold W; omega)
      have hlive : live.length < 2 ^ 63 := by
        have := live_bound (capacity := capacity) live (fun b hb => ⟨(ih.size b hb).1, (ih.size b hb).2.2⟩) ih.disj
        omega
      have hbel : ∀ b ∈ live, b.1 + b.2 ≤ s.off := ih.below
      refine ⟨ih.cap, ih.al, ?_, ?_, ?_, ?_, ?_, ?_⟩
      · simp only [hq, hnew]; omega
      · simp only [hq, hnew]; rw [← ih.al]; exact ⟨_, Nat.mul_comm _ _⟩
      · intro _
        simp only [ih.num (by unfold W; omega), List.length_cons]
        exact Nat.mod_eq_of_lt (by unfold W; omega)
      · intro b hb
        simp only [hq, hnew]
        rcases List.mem_cons.1 hb with rfl | hb
        · simp only; omega
        · have := hbel b hb; omega
      · intro b hb
        rcases List.mem_cons.1 hb with rfl | hb
        · exact ⟨by simp only; omega, ih.aligned, by simp only [Inside]; omega⟩
        · exact ih.size b hb
      · rw [List.pairwise_cons]
        exact ⟨fun b hb => Or.inr (hbel b hb), ih.disj⟩
  | @allocNull s s' live n _ e ih =>
      unfold allocate at e
      by_cases hn0 : n = 0
      · simp [hn0] at e; subst e; exact ih
      · rw [if_neg hn0] at e
        simp only at e
        split at e <;> simp at e
  | @free s l₁ l₂ p n _ ih =>
      have hsub : List.Sublist (l₁ ++ l₂) (l₁ ++ (p, n) :: l₂) := by simp
      have hlive := live_bound (capacity := capacity) _ (fun b hb => ⟨(ih.size b hb).1, (ih.size b hb).2.2⟩) ih.disj
      have hnum := ih.num (by unfold W; omega)
      have hnew : (s.num + (W - 1)) % W = (l₁ ++ l₂).length := by
        rw [hnum]
        simp only [List.length_append, List.length_cons] at hlive ⊢
        generalize l₁.length = a at *
        generalize l₂.length = b at *
        have : a + (b + 1) + (W - 1) = W + (a + b) := by unfold W; omega
        rw [this, Nat.add_mod_left]
        exact Nat.mod_eq_of_lt (by unfold W; omega)
      unfold deallocate
      simp only [hnew]
      exact ⟨ih.cap, ih.al, ih.off, ih.aligned, fun _ => rfl, fun b hb => ih.below b (hsub.subset hb),
        fun b hb => ih.size b (hsub.subset hb), ih.disj.sublist hsub⟩
  | freeNull _ ih => exact ih
  | @reset s s' live _ e ih =>
      unfold resetArena at e
      by_cases hn : s.num ≠ 0
      · simp [hn] at e
      · rw [if_neg hn] at e
        simp only [Option.some.injEq] at e
        subst e
        have hlive := live_bound (capacity := capacity) _ (fun b hb => ⟨(ih.size b hb).1, (ih.size b hb).2.2⟩) ih.disj
        have hnum := ih.num (by unfold W; omega)
        have hnil : live = [] := by
          apply List.eq_nil_of_length_eq_zero
          simp only [ne_eq, not_not] at hn; omega
        subst hnil
        exact ⟨ih.cap, ih.al, by simp, ⟨0, by simp⟩, by simp, by simp, by simp, by simp⟩

/-- C15.  In every history of allocations, releases and resets the blocks granted and not yet released — in particular all blocks granted
since the last reset — lie inside the arena, start at multiples of the alignment and are pairwise disjoint.  (A reset with a
live block ends in an error, so live blocks never survive a reset.) -/
theorem C15_arena_disjoint (capacity align : Nat) (ha : 0 < align) (hfit : capacity + 2 * align < 2 ^ 63) (s : St) (live : List Blk)
    (h : Hist capacity align s live) :
    live.Pairwise Disjoint ∧ ∀ b ∈ live, Inside capacity b ∧ align ∣ b.1 :=
  ⟨(hist_inv ha hfit h).disj, fun b hb => ⟨((hist_inv ha hfit h).size b hb).2.2, ((hist_inv ha hfit h).size b hb).2.1⟩⟩

/-- C15: a successful reset means that every granted block was released. -/
theorem C15_reset_empties (capacity align : Nat) (ha : 0 < align) (hfit : capacity + 2 * align < 2 ^ 63) (s s' : St) (live : List Blk)
    (h : Hist capacity align s live) (hr : resetArena s = some s') : live = [] ∧ s'.off = 0 := by
  have ih := hist_inv ha hfit h
  unfold resetArena at hr
  by_cases hn : s.num ≠ 0
  · simp [hn] at hr
  · rw [if_neg hn] at hr
    simp only [Option.some.injEq] at hr
    subst hr
    have hlive := live_bound (capacity := capacity) _ (fun b hb => ⟨(ih.size b hb).1, (ih.size b hb).2.2⟩) ih.disj
    have hnum := ih.num (by unfold W; omega)
    refine ⟨List.eq_nil_of_length_eq_zero ?_, rfl⟩
    simp only [ne_eq, not_not] at hn; omega

/-- The bound on the request size is needed: a request of 2^64 - 1 bytes is granted. -/
theorem C15_huge_request_is_granted :
    ∃ s p, allocate { capacity := 64, align := 8 } 10 = some (s, some 0) ∧
      allocate s (2 ^ 64 - 1) = some p ∧ p.2 = some 16 ∧ ¬ Inside 64 (16, 2 ^ 64 - 1) := by
  refine ⟨{ capacity := 64, align := 8, off := 16, num := 1 }, ({ capacity := 64, align := 8, off := 24, num := 2 }, some 16), ?_, ?_, rfl, ?_⟩
  · decide
  · decide
  · unfold Inside; omega

/-! ### C16 -/

/-- C16 is false for `arena_allocator_resource`: after filling the arena the reported free size is 2^64 - 16, although no byte can
be allocated. -/
theorem C16_arena_free_size_wrong :
    ∃ s, allocate { capacity := 64, align := 16 } 64 = some (s, some 0) ∧ getFreeSize s = 2 ^ 64 - 16 ∧
      getFreeSize s > s.capacity ∧ allocate s 1 = none := by
  refine ⟨{ capacity := 64, align := 16, off := 80, num := 1 }, ?_, ?_, ?_, ?_⟩ <;> decide

/-- C16, the part that holds: as long as the padded offset has not passed the end of the arena, the reported size is at most the capacity,
a request of that size succeeds and a larger one fails.  Missing: states with `off > capacity` (see the witness above). -/
theorem C16_arena_free_size_partial (capacity align : Nat) (ha : 0 < align) (hfit : capacity + 2 * align < 2 ^ 63) (s : St)
    (live : List Blk) (h : Hist capacity align s live) (hoff : s.off ≤ s.capacity) :
    getFreeSize s ≤ capacity ∧ (allocate s (getFreeSize s)).isSome ∧
      ∀ n, getFreeSize s < n → n < 2 ^ 63 → allocate s n = none := by
  have ih := hist_inv ha hfit h
  have hcap := ih.cap
  have hf : getFreeSize s = s.capacity - s.off := by
    unfold getFreeSize W
    omega
  rw [hf]
  refine ⟨by omega, ?_, ?_⟩
  · unfold allocate
    split
    · simp
    · simp only
      rw [Nat.mod_eq_of_lt (by unfold W; omega), if_neg (by omega)]
      simp
  · intro n hn hn2
    unfold allocate
    rw [if_neg (by omega)]
    simp only
    rw [Nat.mod_eq_of_lt (by unfold W; omega), if_pos (by omega)]

/-- Histories of `AllocatorArena_new` (which never reuses memory before `clear`): all blocks granted since the last `clear`. -/
inductive HistNew (capacity align : Nat) : StNew → List Blk → Prop where
  | init : HistNew capacity align { capacity, align } []
  | alloc {s s' got n p} : HistNew capacity align s got → n + capacity + 2 * align < 2 ^ 63 →
      allocNew s n = some (s', some p) → HistNew capacity align s' ((p, n) :: got)
  | allocNull {s s' got n} : HistNew capacity align s got → allocNew s n = some (s', none) → HistNew capacity align s' got
  | clear {s got} : HistNew capacity align s got → HistNew capacity align (clearNew s) []

structure InvNew (capacity align : Nat) (s : StNew) (got : List Blk) : Prop where
  cap : s.capacity = capacity
  al : s.align = align
  used : s.used < capacity + align
  aligned : align ∣ s.used
  below : ∀ b ∈ got, b.1 + b.2 ≤ s.used
  size : ∀ b ∈ got, align ∣ b.1 ∧ Inside capacity b
  disj : got.Pairwise Disjoint

theorem roundUp_eq {x a : Nat} (hx : 0 < x) (ha : 0 < a) (h : x + a < 2 ^ 64) :
    x ≤ roundUp x a ∧ roundUp x a < x + a ∧ a ∣ roundUp x a := by
  unfold roundUp
  have h1 : (x + (W - 1)) % W = x - 1 := by unfold W; omega
  rw [h1]
  have hdm := Nat.div_add_mod (x - 1) a
  have hml := Nat.mod_lt (x - 1) ha
  have hmul : ((x - 1) / a + 1) * a = a * ((x - 1) / a) + a := by rw [Nat.add_mul, Nat.mul_comm, Nat.one_mul]
  rw [Nat.mod_eq_of_lt (by unfold W; omega)]
  exact ⟨by omega, by omega, ⟨_, Nat.mul_comm _ _⟩⟩

theorem histNew_inv {capacity align : Nat} (ha : 0 < align) {s got}
    (h : HistNew capacity align s got) : InvNew capacity align s got := by
  induction h with
  | init => exact ⟨rfl, rfl, by simp; omega, ⟨0, by simp⟩, by simp, by simp, by simp⟩
  | @alloc s s' got n p _ hn e ih =>
      unfold allocNew at e
      by_cases hn0 : n = 0
      · simp [hn0] at e
      rw [if_neg hn0] at e
      simp only at e
      have hoff := ih.used
      have hm : (s.used + n) % W = s.used + n := Nat.mod_eq_of_lt (by unfold W; omega)
      rw [hm] at e
      by_cases hc : s.used + n > s.capacity
      · simp [hc] at e
      rw [if_neg hc] at e
      simp only [Option.some.injEq, Prod.mk.injEq] at e
      obtain ⟨rfl, rfl⟩ := e
      have hcap := ih.cap
      have hal := ih.al
      obtain ⟨r1, r2, r3⟩ := roundUp_eq (x := s.used + n) (a := s.align) (by omega) (by omega) (by omega)
      refine ⟨ih.cap, ih.al, by simp only; omega, by simp only; rw [← hal]; exact r3, ?_, ?_, ?_⟩
      · intro b hb
        simp only
        rcases List.mem_cons.1 hb with rfl | hb
        · exact r1
        · have := ih.below b hb; omega
      · intro b hb
        rcases List.mem_cons.1 hb with rfl | hb
        · exact ⟨ih.aligned, by simp only [Inside]; omega⟩
        · exact ih.size b hb
      · rw [List.pairwise_cons]
        exact ⟨fun b hb => Or.inr (ih.below b hb), ih.disj⟩
  | @allocNull s s' live n _ e ih =>
      unfold allocNew at e
      by_cases hn0 : n = 0
      · simp [hn0] at e; subst e; exact ih
      · rw [if_neg hn0] at e
        simp only at e
        split at e <;> simp at e
  | clear _ ih => exact ⟨ih.cap, ih.al, by simp [clearNew]; omega, ⟨0, by simp [clearNew]⟩, by simp, by simp, by simp⟩

/-- C15 for `AllocatorArena_new`: blocks granted since the last `clear`. -/
theorem C15_arena_new_disjoint (capacity align : Nat) (ha : 0 < align) (s : StNew) (got : List Blk)
    (h : HistNew capacity align s got) :
    got.Pairwise Disjoint ∧ ∀ b ∈ got, Inside capacity b ∧ align ∣ b.1 :=
  ⟨(histNew_inv ha h).disj, fun b hb => ⟨((histNew_inv ha h).size b hb).2, ((histNew_inv ha h).size b hb).1⟩⟩

/-- C16 for `AllocatorArena_new` holds when the capacity is a multiple of the alignment: the remaining capacity is at most the
capacity, allocating it succeeds, and the next aligned size does not fit. -/
theorem C16_arena_new_remaining_partial (capacity align : Nat) (ha : 0 < align) (hfit : capacity + 2 * align < 2 ^ 63) (hd : align ∣ capacity)
    (s : StNew) (got : List Blk) (h : HistNew capacity align s got) :
    remainingNew s = capacity - s.used ∧ s.used ≤ capacity ∧ (allocNew s (remainingNew s)).isSome ∧
      ∀ n, remainingNew s < n → n < 2 ^ 63 → allocNew s n = none := by
  have ih := histNew_inv ha h
  have hcap := ih.cap
  have hal := ih.al
  have hused : s.used ≤ capacity := by
    obtain ⟨q, hq⟩ := ih.aligned
    obtain ⟨c, hc⟩ := hd
    have hu := ih.used
    rw [hq, hc, ← Nat.mul_succ] at hu
    have := Nat.lt_of_mul_lt_mul_left hu
    rw [hq, hc]
    exact Nat.mul_le_mul_left _ (by omega)
  have hf : remainingNew s = capacity - s.used := by
    unfold remainingNew roundDown
    have : (s.capacity + (W - s.used % W)) % W = capacity - s.used := by unfold W; omega
    rw [this, hal]
    exact Nat.div_mul_cancel (Nat.dvd_sub hd ih.aligned)
  refine ⟨hf, hused, ?_, ?_⟩
  · rw [hf]
    unfold allocNew
    split
    · simp
    · simp only
      rw [Nat.mod_eq_of_lt (by unfold W; omega), if_neg (by omega)]
      simp
  · intro n hn hn2
    unfold allocNew
    rw [if_neg (by omega)]
    simp only
    rw [Nat.mod_eq_of_lt (by unfold W; omega), if_pos (by omega)]

/-- C16 is false for `AllocatorArena_new` otherwise: capacity 20, alignment 16; after 17 bytes the remaining capacity is reported as
2^64 - 16. -/
theorem C16_arena_new_remaining_wrong :
    ∃ s, allocNew { capacity := 20, align := 16 } 17 = some (s, some 0) ∧ remainingNew s = 2 ^ 64 - 16 ∧ allocNew s 1 = none := by
  refine ⟨{ capacity := 20, align := 16, used := 32 }, ?_, ?_, ?_⟩ <;> decide

/-! Concrete history: two allocations, one release, one allocation. -/
example : ∃ s, Hist 100 8 s [(24, 7), (0, 5)] := by
  have h1 : Hist 100 8 { capacity := 100, align := 8, off := 8, num := 1 } [(0, 5)] := .alloc .init (by omega) (by decide)
  have h2 : Hist 100 8 { capacity := 100, align := 8, off := 24, num := 2 } [(8, 10), (0, 5)] := .alloc h1 (by omega) (by decide)
  have h3 : Hist 100 8 _ ([] ++ [(0, 5)]) := .free (l₁ := []) h2
  exact ⟨_, .alloc (s' := { capacity := 100, align := 8, off := 40, num := 2 }) (n := 7) h3 (by omega) (by decide)⟩
example : ∃ s, HistNew 96 8 s [(16, 10), (0, 9)] := by
  have h1 : HistNew 96 8 { capacity := 96, align := 8, used := 16 } [(0, 9)] := .alloc .init (by omega) (by decide)
  exact ⟨_, .alloc (s' := { capacity := 96, align := 8, used := 32 }) h1 (by omega) (by decide)⟩

end Verif.Arena
