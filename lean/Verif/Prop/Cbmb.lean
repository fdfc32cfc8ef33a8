import Verif.Model.Cbmb
import Verif.Spec.Arena
import Mathlib.Tactic.ByContra
/-! Properties C17, C18: the circular blocking allocator. -/
namespace Verif.Cbmb
open Verif.Arena (Blk Disjoint Inside)

/-- States reachable from a fresh resource by transitions allowed by `ok`. -/
inductive Reach (P : Nat) (ok : St → Act → Prop) : St → Prop where
  | init : Reach P ok { P }
  | step {s s' a} : Reach P ok s → ok s a → step s a = some s' → Reach P ok s'

/-- Alignments are powers of two. -/
def Pow2 (a : Nat) : Prop := ∃ j, j ≤ 63 ∧ a = 2 ^ j

/-- The documented discipline: allocations are done inside transactions, hence no allocation happens while a thread is leaving a
transaction; alignments are powers of two.  Releases and grants are unrestricted. -/
def Disciplined (s : St) : Act → Prop
  | .request _ align => Pow2 align ∧ s.tmp = none
  | _ => True

/-- Physical block of memory handed out for `b`. -/
def phys (P : Nat) (b : Block) : Blk := (b.aligned % P, b.size)

/-- Shape of one block. -/
structure Ok (P : Nat) (b : Block) : Prop where
  le : b.start ≤ b.aligned
  lt : b.aligned < b.stop
  period : (b.stop - 1) / P = b.aligned / P
  len : b.stop ≤ b.start + P
  size : b.stop = b.aligned + b.size
  al : b.align ∣ b.aligned
  dvd : b.align ∣ P

structure Inv (P : Nat) (s : St) : Prop where
  pool : s.P = P
  order : (s.blocks.map fun b => (b.start, b.stop)).Pairwise fun a b => a.2 ≤ b.1
  ok : ∀ b ∈ s.blocks, Ok P b
  below : ∀ b ∈ s.blocks, b.stop ≤ s.startEmpty
  full : ∀ b ∈ s.blocks, s.startFull ≤ b.start
  fe : s.startFull ≤ s.startEmpty
  window : ∀ b ∈ s.blocks, b.granted = true → b.stop ≤ s.startFull + P
  tmp : ∀ v, s.tmp = some v → s.startFull ≤ v ∧ ∀ b ∈ s.blocks, b.stop ≤ v

theorem up_pow2 {a : Nat} (h : Pow2 a) : up 0 a = 0 := by
  obtain ⟨j, hj, rfl⟩ := h
  unfold up
  rw [if_pos rfl]
  have hp : 0 < 2 ^ j := Nat.pow_pos (by omega)
  have hd : 2 ^ 64 = 2 ^ j * 2 ^ (64 - j) := by rw [← Nat.pow_add]; congr 1; omega
  have hq : (2 ^ 64 - 1) / 2 ^ j + 1 = 2 ^ (64 - j) := by
    have h2 : 0 < 2 ^ (64 - j) := Nat.pow_pos (by omega)
    have : 2 ^ 64 - 1 = 2 ^ j * (2 ^ (64 - j) - 1) + (2 ^ j - 1) := by
      rw [Nat.mul_sub, ← hd, Nat.mul_one]
      have : 2 ^ j ≤ 2 ^ 64 := Nat.pow_le_pow_right (by omega) (by omega)
      omega
    rw [this, Nat.mul_add_div hp, Nat.div_eq_of_lt (by omega)]
    omega
  rw [hq, Nat.mul_comm, ← hd, Nat.mod_self]

theorem up_pos {x a : Nat} (hx : 0 < x) (ha : 0 < a) : x ≤ up x a ∧ up x a < x + a ∧ a ∣ up x a := by
  unfold up
  rw [if_neg (by omega)]
  have hdm := Nat.div_add_mod (x - 1) a
  have hml := Nat.mod_lt (x - 1) ha
  have hmul : ((x - 1) / a + 1) * a = a * ((x - 1) / a) + a := by rw [Nat.add_mul, Nat.mul_comm, Nat.one_mul]
  exact ⟨by omega, by omega, ⟨_, Nat.mul_comm _ _⟩⟩

theorem up_spec {x a : Nat} (ha : Pow2 a) : x ≤ up x a ∧ up x a < x + a ∧ a ∣ up x a := by
  have hpos : 0 < a := by obtain ⟨j, -, rfl⟩ := ha; exact Nat.pow_pos (by omega)
  by_cases hx : x = 0
  · subst hx; rw [up_pow2 ha]; exact ⟨by omega, by omega, ⟨0, by simp⟩⟩
  · exact up_pos (by omega) hpos

theorem up_le_of_dvd {x a m : Nat} (ha : Pow2 a) (hm : a ∣ m) (h : x ≤ m) : up x a ≤ m := by
  obtain ⟨h1, h2, q, hq⟩ := up_spec (x := x) ha
  obtain ⟨r, hr⟩ := hm
  rw [hq] at h2 ⊢
  rw [hr] at h ⊢
  apply Nat.mul_le_mul_left
  have : a * q < a * (r + 1) := by rw [Nat.mul_add]; omega
  have := Nat.lt_of_mul_lt_mul_left this
  omega

theorem up_multiple {a m : Nat} (ha : Pow2 a) (hm : a ∣ m) : up m a = m :=
  Nat.le_antisymm (up_le_of_dvd ha hm (Nat.le_refl _)) (up_spec ha).1

/-- Shape of the block chosen by `place`. -/
theorem place_ok {P e n a : Nat} (hP : 0 < P) (hn : 0 < n) (hnP : n ≤ P) (ha : Pow2 a) (hd : a ∣ P) :
    Ok P (place P e n a) ∧ e ≤ (place P e n a).start ∧ (place P e n a).granted = false ∧
      (e = 0 → (place P e n a).start = 0) := by
  obtain ⟨u1, u2, u3⟩ := up_spec (x := e) ha
  unfold place
  simp only
  split
  · rename_i hc
    have he : 0 < e := by
      by_contra h
      have : e = 0 := by omega
      subst this
      rw [up_pow2 ha] at hc
      simp only [Nat.zero_div, Nat.zero_add, gt_iff_lt] at hc
      have := Nat.div_eq_of_lt (show n - 1 < P by omega)
      omega
    obtain ⟨v1, v2, q, hq⟩ := up_pos he hP
    have hal : up (up e P) a = up e P := up_multiple ha (Nat.dvd_trans hd ⟨q, hq⟩)
    rw [hal]
    have hdiv : up e P / P = q := by rw [hq, Nat.mul_div_cancel_left _ hP]
    refine ⟨⟨by simp, by simp; omega, ?_, by simp; omega, rfl, Nat.dvd_trans hd ⟨q, hq⟩, hd⟩, v1, rfl, by omega⟩
    simp only [hdiv]
    rw [Nat.div_eq_iff hP]
    rw [hq, Nat.mul_comm]; omega
  · rename_i hc
    have hle : (up e a + n - 1) / P ≤ e / P := by omega
    have h1 : e / P ≤ up e a / P := Nat.div_le_div_right u1
    have h2 : up e a / P ≤ (up e a + n - 1) / P := Nat.div_le_div_right (by omega)
    have hdm1 := Nat.div_add_mod (up e a + n - 1) P
    have hml1 := Nat.mod_lt (up e a + n - 1) hP
    have hdm2 := Nat.div_add_mod e P
    have heq : (up e a + n - 1) / P = e / P := by omega
    rw [heq] at hdm1
    exact ⟨⟨u1, by simp; omega, by simp only; omega, by simp only; omega, rfl, u3, hd⟩, Nat.le_refl _, rfl, fun h => h⟩

theorem inv_erase {P : Nat} {s s' : St} (hi : Inv P s) (p : Nat) (e : release s p = some s') : Inv P s' := by
  unfold release at e
  split at e
  · cases e
  · rename_i i hfi
    have hsub : (s.blocks.eraseIdx i).Sublist s.blocks := List.eraseIdx_sublist _ _
    split at e
    · simp only [Option.some.injEq] at e
      subst e
      exact ⟨hi.pool, by simp, by simp, by simp, by simp, by simp, by simp, by simp⟩
    · rename_i b bs hb
      simp only [Option.some.injEq] at e
      subst e
      rw [hb] at hsub
      have hord := hi.order.sublist (hsub.map _)
      have hbo := hi.ok b (hsub.subset (by simp))
      have hble := hbo.le; have hblt := hbo.lt
      have hfull : ∀ c ∈ b :: bs, b.start ≤ c.start := by
        intro c hc
        rcases List.mem_cons.1 hc with rfl | hc
        · exact Nat.le_refl _
        · rw [List.map_cons, List.pairwise_cons] at hord
          have := hord.1 _ (List.mem_map_of_mem hc)
          simp only at this
          omega
      refine ⟨hi.pool, hord, fun c hc => hi.ok c (hsub.subset hc), fun c hc => hi.below c (hsub.subset hc), hfull, ?_,
        ?_, fun v hv => ⟨?_, fun c hc => (hi.tmp v hv).2 c (hsub.subset hc)⟩⟩
      · have := hi.below b (hsub.subset (by simp)); simp only; omega
      · intro c hc hg
        have h1 := hi.window c (hsub.subset hc) hg
        have h2 := hi.full b (hsub.subset (by simp))
        simp only; omega
      · have := (hi.tmp v hv).2 b (hsub.subset (by simp)); simp only; omega

theorem inv_step {P : Nat} (hP : 0 < P) {s s' : St} {a : Act} (hi : Inv P s) (hd : Disciplined s a) (e : step s a = some s') :
    Inv P s' := by
  cases a with
  | request n al =>
      simp only [step] at e
      split at e
      · cases e
      rename_i hn0
      unfold request at e
      have hpool := hi.pool
      split at e
      · cases e
      split at e
      · cases e
      rename_i h1 h2
      simp only at e
      split at e
      · cases e
      simp only [Option.some.injEq] at e
      subst e
      have hdv : al ∣ P := by rw [← hpool]; exact Nat.dvd_of_mod_eq_zero (by omega)
      obtain ⟨o1, o2, o3, -⟩ := place_ok (e := s.startEmpty) hP (Nat.pos_of_ne_zero hn0) (by omega) hd.1 hdv
      rw [hpool]
      generalize place P s.startEmpty n al = b at *
      have hle := o1.le; have hlt := o1.lt
      refine ⟨rfl, ?_, ?_, ?_, ?_, ?_, ?_, ?_⟩
      · rw [List.map_append, List.pairwise_append]
        refine ⟨hi.order, by simp, ?_⟩
        intro c hc d hd'
        obtain ⟨c', hc', rfl⟩ := List.mem_map.1 hc
        simp only [List.map_cons, List.map_nil, List.mem_singleton] at hd'
        subst hd'
        have := hi.below c' hc'; simp only; omega
      · intro c hc
        rcases List.mem_append.1 hc with h | h
        · exact hi.ok c h
        · rw [List.mem_singleton.1 h]; exact o1
      · intro c hc
        simp only
        rcases List.mem_append.1 hc with h | h
        · have := hi.below c h
          omega
        · rw [List.mem_singleton.1 h]; exact Nat.le_refl _
      · intro c hc
        simp only
        rcases List.mem_append.1 hc with h | h
        · exact hi.full c h
        · rw [List.mem_singleton.1 h]; have := hi.fe; omega
      · have := hi.fe; simp only; omega
      · intro c hc hg
        rcases List.mem_append.1 hc with h | h
        · exact hi.window c h hg
        · rw [List.mem_singleton.1 h, o3] at hg; cases hg
      · intro v hv
        simp only [hd.2] at hv
        cases hv
  | grant i =>
      simp only [step, grant] at e
      split at e
      · cases e
      rename_i b hb
      split at e
      · rename_i hg
        simp only [Option.some.injEq] at e
        subst e
        have hbm : b ∈ s.blocks := List.mem_of_getElem? hb
        have hmap : (s.blocks.set i { b with granted := true }).map (fun b => (b.start, b.stop)) = s.blocks.map fun b => (b.start, b.stop) := by
          rw [List.map_set]
          apply List.ext_getElem?
          intro j
          rw [List.getElem?_set]
          split
          · rename_i h; subst h
            simp only [List.getElem?_map, hb, Option.map_some, List.length_map]
            rw [if_pos (List.getElem?_eq_some_iff.1 hb).1]
          · rfl
        have hmem : ∀ c ∈ s.blocks.set i { b with granted := true }, c ∈ s.blocks ∨ c = { b with granted := true } :=
          fun c hc => List.mem_or_eq_of_mem_set hc
        refine ⟨hi.pool, by simp only [hmap]; exact hi.order, ?_, ?_, ?_, hi.fe, ?_, ?_⟩
        · intro c hc
          rcases hmem c hc with h | rfl
          · exact hi.ok c h
          · exact ⟨(hi.ok b hbm).1, (hi.ok b hbm).2, (hi.ok b hbm).3, (hi.ok b hbm).4, (hi.ok b hbm).5, (hi.ok b hbm).6, (hi.ok b hbm).7⟩
        · intro c hc
          rcases hmem c hc with h | rfl
          · exact hi.below c h
          · exact hi.below b hbm
        · intro c hc
          rcases hmem c hc with h | rfl
          · exact hi.full c h
          · exact hi.full b hbm
        · intro c hc hcg
          rcases hmem c hc with h | rfl
          · exact hi.window c h hcg
          · simp only [canGrant, Bool.and_eq_true, decide_eq_true_eq, hi.pool] at hg
            exact hg.2
        · intro v hv
          refine ⟨(hi.tmp v hv).1, ?_⟩
          intro c hc
          rcases hmem c hc with h | rfl
          · exact (hi.tmp v hv).2 c h
          · exact (hi.tmp v hv).2 b hbm
      · cases e
  | release i =>
      simp only [step] at e
      split at e
      · split at e
        · exact inv_erase hi _ e
        · cases e
      · cases e
  | txBegin =>
      simp only [step] at e
      split at e
      · cases e
      · simp only [Option.some.injEq] at e
        subst e
        exact ⟨hi.pool, hi.order, hi.ok, hi.below, hi.full, hi.fe, hi.window, hi.tmp⟩
  | txEndRead =>
      simp only [step] at e
      split at e
      · simp only [Option.some.injEq] at e
        subst e
        refine ⟨hi.pool, hi.order, hi.ok, hi.below, hi.full, hi.fe, hi.window, ?_⟩
        intro v hv
        simp only [txEndRead] at hv ⊢
        split at hv
        · simp only [Option.some.injEq] at hv
          subst hv
          have hfe := hi.fe
          rw [hi.pool]
          by_cases h0 : s.startEmpty = 0
          · refine ⟨by omega, ?_⟩
            intro b hb
            have := hi.below b hb
            have := (hi.ok b hb).lt
            omega
          · have := (up_pos (x := s.startEmpty) (by omega) hP).1
            refine ⟨by omega, ?_⟩
            intro b hb
            have := hi.below b hb
            omega
        · cases hv
      · cases e
  | txEndWrite =>
      simp only [step, Option.some.injEq] at e
      subst e
      unfold txEndWrite
      cases ht : s.tmp with
      | none => exact ⟨hi.pool, hi.order, hi.ok, hi.below, hi.full, hi.fe, hi.window, by simp⟩
      | some v =>
          exact ⟨hi.pool, hi.order, hi.ok, (hi.tmp v ht).2, hi.full, (hi.tmp v ht).1, hi.window, by simp⟩

theorem reach_inv {P : Nat} (hP : 0 < P) {s : St} (h : Reach P Disciplined s) : Inv P s := by
  induction h with
  | init => exact ⟨rfl, by simp, by simp, by simp, by simp, by simp, by simp, by simp⟩
  | step _ ho e ih => exact inv_step hP ih ho e

/-- The blocks granted by `allocate` and not yet released, as memory blocks of the pool. -/
def held (s : St) : List Blk := (s.blocks.filter (·.granted)).map (phys s.P)

/-- Two held blocks, `a` requested before `b`. -/
theorem phys_disjoint {P : Nat} (hP : 0 < P) {f : Nat} {a b : Block} (ha : Ok P a) (hb : Ok P b) (hab : a.stop ≤ b.start)
    (hfa : f ≤ a.start) (hbw : b.stop ≤ f + P) : Disjoint (phys P a) (phys P b) := by
  have a1 := ha.le; have a2 := ha.lt; have a3 := ha.period; have a4 := ha.size
  have b1 := hb.le; have b2 := hb.lt; have b3 := hb.period; have b4 := hb.size
  have da := Nat.div_add_mod a.aligned P
  have db := Nat.div_add_mod b.aligned P
  have ma := Nat.mod_lt a.aligned hP
  have mb := Nat.mod_lt b.aligned hP
  have hq1 : a.aligned / P ≤ b.aligned / P := Nat.div_le_div_right (by omega)
  have hq2 : b.aligned / P ≤ a.aligned / P + 1 := by
    have : b.aligned / P ≤ (a.aligned + P) / P := Nat.div_le_div_right (by omega)
    rwa [Nat.add_div_right _ hP] at this
  unfold Disjoint phys
  simp only
  rcases Nat.lt_or_ge (a.aligned / P) (b.aligned / P) with h | h
  · have : b.aligned / P = a.aligned / P + 1 := by omega
    rw [this, Nat.mul_add] at db
    right; omega
  · have : b.aligned / P = a.aligned / P := by omega
    rw [this] at db
    left; omega

/-- C17.  For every pool size and every interleaving of requests, grants, releases (in any order) and transactions of any number of
threads: the held blocks lie inside the pool without wrapping over its end and are pairwise disjoint. -/
theorem C17_held_disjoint_partial (P : Nat) (hP : 0 < P) (s : St) (h : Reach P Disciplined s) :
    (held s).Pairwise Disjoint ∧ ∀ b ∈ held s, Inside P b := by
  have hi := reach_inv hP h
  unfold held
  rw [hi.pool]
  constructor
  · rw [List.pairwise_map]
    have ho := hi.order
    rw [List.pairwise_map] at ho
    have hf : (s.blocks.filter (·.granted)).Pairwise fun a b => a.stop ≤ b.start := ho.sublist List.filter_sublist
    refine List.Pairwise.imp_of_mem ?_ hf
    intro a b ha hb hab
    rw [List.mem_filter] at ha hb
    exact phys_disjoint hP (hi.ok a ha.1) (hi.ok b hb.1) hab (hi.full a ha.1) (hi.window b hb.1 hb.2)
  · intro b hb
    obtain ⟨c, hc, rfl⟩ := List.mem_map.1 hb
    have ho := hi.ok c (List.mem_filter.1 hc).1
    have h3 := ho.period; have h4 := ho.size; have h2 := ho.lt
    have d1 := Nat.div_add_mod (c.stop - 1) P
    have d2 := Nat.div_add_mod c.aligned P
    have m1 := Nat.mod_lt (c.stop - 1) hP
    rw [h3] at d1
    unfold Inside phys
    simp only; omega

/-- C17: a granted block is aligned as requested. -/
theorem C17_held_aligned_partial (P : Nat) (hP : 0 < P) (s : St) (h : Reach P Disciplined s) (b : Block) (hb : b ∈ s.blocks) :
    b.align ∣ (phys P b).1 :=
  (Nat.dvd_mod_iff ((reach_inv hP h).ok b hb).dvd).2 ((reach_inv hP h).ok b hb).al

/-- C17: releasing a held block by its address removes exactly this block, even though waiting requests may have the same
address. -/
theorem C17_release_exact_partial (P : Nat) (hP : 0 < P) (s s' : St) (h : Reach P Disciplined s) (i : Nat)
    (e : step s (.release i) = some s') : s'.blocks = s.blocks.eraseIdx i := by
  have hi := reach_inv hP h
  simp only [step] at e
  split at e
  case h_2 => cases e
  rename_i b hb
  split at e
  case isFalse => cases e
  rename_i hg
  have hfind : s.blocks.findIdx? (fun c => c.aligned % s.P == pos s b) = some i := by
    obtain ⟨hil, hbi⟩ := List.getElem?_eq_some_iff.1 hb
    rw [List.findIdx?_eq_some_iff_getElem]
    refine ⟨hil, by simp [hbi, pos], ?_⟩
    intro j hji
    have ho := hi.order
    rw [List.pairwise_map, List.pairwise_iff_getElem] at ho
    have hjl : j < s.blocks.length := by omega
    have hcb := ho j i hjl hil hji
    rw [hbi] at hcb
    have hbm : b ∈ s.blocks := List.mem_of_getElem? hb
    have hcm : s.blocks[j] ∈ s.blocks := List.getElem_mem hjl
    generalize s.blocks[j] = c at *
    have hf := hi.full c hcm
    have hw := hi.window b hbm hg
    have c1 := (hi.ok c hcm).le; have c2 := (hi.ok c hcm).lt
    have b1 := (hi.ok b hbm).le; have b2 := (hi.ok b hbm).lt
    simp only [pos, beq_iff_eq, hi.pool]
    intro hmod
    have : (b.aligned - c.aligned) % P = 0 := Nat.sub_mod_eq_zero_of_mod_eq hmod.symm
    rw [Nat.mod_eq_of_lt (by omega)] at this
    omega
  unfold release at e
  rw [hfind] at e
  simp only at e
  split at e
  · rename_i h0; simp only [Option.some.injEq] at e; subst e; exact h0.symm
  · rename_i h0; simp only [Option.some.injEq] at e; subst e; exact h0.symm

/-! Witnesses are finite runs, executed by `run`. -/

/-- Executes actions, each of which has to satisfy `chk`. -/
def run (chk : St → Act → Bool) (s : St) : List Act → Option St
  | [] => some s
  | a :: as => if chk s a then (step s a).bind fun s' => run chk s' as else none

theorem reach_run {P : Nat} {ok : St → Act → Prop} {chk : St → Act → Bool} (h : ∀ s a, chk s a = true → ok s a) :
    ∀ (as : List Act) (s s' : St), Reach P ok s → run chk s as = some s' → Reach P ok s'
  | [], s, s', hr, e => by simp only [run, Option.some.injEq] at e; subst e; exact hr
  | a :: as, s, s', hr, e => by
      simp only [run] at e
      split at e
      · rename_i hc
        cases hs : step s a with
        | none => simp [hs] at e
        | some s1 =>
            simp only [hs, Option.bind_some] at e
            exact reach_run h as s1 s' (.step hr (h _ _ hc) hs) e
      · cases e

/-- A check that implies `Disciplined` (alignment 1 only). -/
def chk (s : St) : Act → Bool
  | .request _ al => al == 1 && s.tmp.isNone
  | _ => true

theorem chk_ok (s : St) (a : Act) (h : chk s a = true) : Disciplined s a := by
  cases a <;> simp only [chk, Disciplined, Bool.and_eq_true, beq_iff_eq, Option.isNone_iff_eq_none] at h ⊢
  exact ⟨⟨0, by omega, by omega⟩, h.2⟩

/-- The condition in C17 is needed: if a thread requests a block (outside of a transaction) between the unlocked read and write of
`start_empty` at the end of another thread's transaction, two held blocks overlap. -/
theorem C17_unlocked_reset_overlaps :
    ∃ s, Reach 16 (fun _ _ => True) s ∧ held s = [(0, 8), (0, 8)] := by
  have h : ∃ s, run (fun _ _ => true) { P := 16 } [.txBegin, .request 9 1, .grant 0, .txEndRead, .request 8 1, .txEndWrite,
    .request 8 1, .release 0, .grant 0, .grant 1] = some s ∧ held s = [(0, 8), (0, 8)] := ⟨_, rfl, rfl⟩
  obtain ⟨s, h1, h2⟩ := h
  exact ⟨s, reach_run (fun _ _ _ => trivial) _ _ _ .init h1, h2⟩

/-- C17, concrete case: three threads, the middle block is released first and its space is reused after wrapping. -/
example : ∃ s, Reach 16 Disciplined s ∧ held s = [(10, 6), (0, 5)] := by
  have h : ∃ s, run chk { P := 16 } [.request 5 1, .grant 0, .request 5 1, .grant 1, .release 1, .request 6 1, .grant 1, .release 0,
    .request 5 1, .grant 1] = some s ∧ held s = [(10, 6), (0, 5)] := ⟨_, rfl, rfl⟩
  obtain ⟨s, h1, h2⟩ := h
  exact ⟨s, reach_run chk_ok _ _ _ .init h1, h2⟩

/-! ### C18 -/

/-- Additional conditions: the end of a transaction is not interleaved with a release, and a transaction that asks for a reset
to the start of the pool either uses a pool whose size is a power of two or ends with some block in use. -/
def Disciplined18 (P : Nat) (s : St) (a : Act) : Prop :=
  Disciplined s a ∧
    match a with
    | .release _ => s.tmp = none
    | .txEndRead => Pow2 P ∨ s.doReset = false ∨ s.blocks ≠ []
    | _ => True

structure Inv18 (s : St) : Prop where
  empty : s.blocks = [] → s.startFull = 0 ∧ s.startEmpty = 0 ∧ ∀ v, s.tmp = some v → v = 0
  front : ∀ b, s.blocks.head? = some b → s.startFull = b.start

theorem reach_mono {P : Nat} {ok ok' : St → Act → Prop} (h : ∀ s a, ok s a → ok' s a) {s : St} (hr : Reach P ok s) : Reach P ok' s := by
  induction hr with
  | init => exact .init
  | step _ ho e ih => exact .step ih (h _ _ ho) e

theorem reach_inv18 {P : Nat} (hP : 0 < P) {s : St} (h : Reach P (Disciplined18 P) s) : Inv P s ∧ Inv18 s := by
  induction h with
  | init => exact ⟨reach_inv hP .init, ⟨fun _ => ⟨rfl, rfl, by simp⟩, by simp⟩⟩
  | @step s s' a _ ho e ih =>
    obtain ⟨hi, h18⟩ := ih
    refine ⟨inv_step hP hi ho.1 e, ?_⟩
    cases a with
    | request n al =>
      simp only [step] at e
      split at e
      · cases e
      rename_i hn0
      unfold request at e
      have hpool := hi.pool
      split at e
      · cases e
      split at e
      · cases e
      rename_i h1 h2
      simp only at e
      split at e
      · cases e
      simp only [Option.some.injEq] at e
      subst e
      have hdv : al ∣ P := by rw [← hpool]; exact Nat.dvd_of_mod_eq_zero (by omega)
      obtain ⟨-, -, -, o4⟩ := place_ok (e := s.startEmpty) hP (Nat.pos_of_ne_zero hn0) (by omega) ho.1.1 hdv
      refine ⟨by simp, ?_⟩
      simp only
      intro b hb
      cases hbl : s.blocks with
      | nil =>
          obtain ⟨z1, z2, -⟩ := h18.empty hbl
          rw [hbl] at hb
          simp only [List.nil_append, List.head?_cons, Option.some.injEq] at hb
          subst hb
          rw [hpool, o4 z2, z1]
      | cons c cs =>
          rw [hbl] at hb
          simp only [List.cons_append, List.head?_cons, Option.some.injEq] at hb
          subst hb
          exact h18.front c (by rw [hbl]; rfl)
    | grant i =>
      simp only [step, grant] at e
      split at e
      · cases e
      rename_i b hb
      split at e
      · simp only [Option.some.injEq] at e
        subst e
        constructor
        · intro h0
          simp only [List.set_eq_nil_iff] at h0
          exact h18.empty h0
        · intro c hc
          simp only at hc ⊢
          cases hbl : s.blocks with
          | nil => rw [hbl] at hb; simp at hb
          | cons d ds =>
              have := h18.front d (by rw [hbl]; rfl)
              rw [hbl] at hc hb
              cases i with
              | zero =>
                  simp only [List.getElem?_cons_zero, Option.some.injEq] at hb
                  subst hb
                  simp only [List.set_cons_zero, List.head?_cons, Option.some.injEq] at hc
                  subst hc; exact this
              | succ i =>
                  simp only [List.set_cons_succ, List.head?_cons, Option.some.injEq] at hc
                  subst hc; exact this
      · cases e
    | release i =>
      simp only [step] at e
      split at e
      · split at e
        · unfold release at e
          split at e
          · cases e
          · split at e
            · simp only [Option.some.injEq] at e
              subst e
              refine ⟨fun _ => ⟨rfl, rfl, ?_⟩, by simp⟩
              intro v hv
              have : s.tmp = none := ho.2
              simp only [this] at hv; cases hv
            · simp only [Option.some.injEq] at e
              subst e
              refine ⟨by simp, ?_⟩
              intro c hc
              simp only [List.head?_cons, Option.some.injEq] at hc
              subst hc; rfl
        · cases e
      · cases e
    | txBegin =>
      simp only [step] at e
      split at e
      · cases e
      · simp only [Option.some.injEq] at e
        subst e
        exact ⟨h18.empty, h18.front⟩
    | txEndRead =>
      simp only [step] at e
      split at e
      · simp only [Option.some.injEq] at e
        subst e
        refine ⟨?_, h18.front⟩
        intro h0
        obtain ⟨z1, z2, z3⟩ := h18.empty h0
        refine ⟨z1, z2, ?_⟩
        intro v hv
        simp only [txEndRead] at hv h0
        split at hv
        · rename_i hr
          simp only [Option.some.injEq] at hv
          rcases ho.2 with hp | hp | hp
          · rw [← hv, z2, hi.pool, up_pow2 hp]
          · rw [hp] at hr; cases hr
          · exact absurd h0 hp
        · cases hv
      · cases e
    | txEndWrite =>
      simp only [step, Option.some.injEq] at e
      subst e
      refine ⟨?_, h18.front⟩
      intro h0
      obtain ⟨z1, z2, z3⟩ := h18.empty h0
      refine ⟨z1, ?_, by simp [txEndWrite]⟩
      unfold txEndWrite
      cases ht : s.tmp with
      | none => exact z2
      | some v => exact z3 v ht

/-- C18, the part that holds.  Under `Disciplined18`, when no block is in use or waiting, a request not larger than the pool (with an
alignment dividing it, outside of a transaction) is accepted and granted at once.  Missing: the histories excluded by `Disciplined18`, see the
three witnesses below. -/
theorem C18_empty_grants_partial (P : Nat) (hP : 0 < P) (s : St) (h : Reach P (Disciplined18 P) s) (h0 : s.blocks = []) (n al : Nat)
    (hn : 0 < n) (hnP : n ≤ P) (ha : Pow2 al) (hd : al ∣ P) (ht : s.inTx = false) :
    ∃ s1 s2, step s (.request n al) = some s1 ∧ step s1 (.grant 0) = some s2 ∧ held s2 = [(0, n)] := by
  obtain ⟨hi, h18⟩ := reach_inv18 hP h
  obtain ⟨z1, z2, -⟩ := h18.empty h0
  have hp := hi.pool
  have hpl : place s.P s.startEmpty n al = ⟨n, al, 0, 0, n, false⟩ := by
    unfold place
    simp only [z2, up_pow2 ha, Nat.zero_div, Nat.zero_add, hp]
    rw [Nat.div_eq_of_lt (by omega), if_neg (by omega)]
  have hm : s.P % al = 0 := by rw [hp]; exact Nat.mod_eq_zero_of_dvd hd
  have e1 : ∃ s1, step s (.request n al) = some s1 ∧ s1.blocks = [⟨n, al, 0, 0, n, false⟩] ∧ s1.startFull = 0 ∧ s1.P = s.P := by
    refine ⟨_, by simp only [step, request, hpl]; rw [if_neg (by omega), if_neg (by omega), if_neg (by simp [hm]), if_neg (by simp [ht])], ?_, ?_, ?_⟩
    · simp [h0]
    · exact z1
    · rfl
  obtain ⟨s1, e1, hb1, hf1, hp1⟩ := e1
  refine ⟨s1, { s1 with blocks := [⟨n, al, 0, 0, n, true⟩] }, e1, ?_, ?_⟩
  · simp only [step, grant, hb1, List.getElem?_cons_zero, canGrant]
    rw [if_pos (by simp; omega)]
    rfl
  · simp [held, phys]

/-- C18: the system never gets stuck.  As long as some block is waiting or in use, the oldest one is granted or can be granted,
so some waiting thread can proceed or some client can release. -/
theorem C18_progress_partial (P : Nat) (hP : 0 < P) (s : St) (h : Reach P (Disciplined18 P) s) (h0 : s.blocks ≠ []) :
    (step s (.grant 0)).isSome ∨ (step s (.release 0)).isSome := by
  obtain ⟨hi, h18⟩ := reach_inv18 hP h
  cases hb : s.blocks with
  | nil => exact absurd hb h0
  | cons b bs =>
      have hf := h18.front b (by rw [hb]; rfl)
      have hl := (hi.ok b (by rw [hb]; simp)).len
      cases hg : b.granted with
      | true =>
          right
          simp only [step, hb, List.getElem?_cons_zero, hg, if_true, release, List.findIdx?_cons, pos, beq_self_eq_true]
          split <;> simp
      | false =>
          left
          simp only [step, grant, hb, List.getElem?_cons_zero, hg, canGrant]
          rw [if_pos]
          · simp
          · simp [hi.pool]; omega

/-- Number of grants and releases that are still to come. -/
def todo (s : St) : Nat := 2 * s.blocks.length - s.blocks.countP (·.granted)

/-- C18: every grant and every release decreases `todo`; together with `C18_progress_partial`, when no new requests come, every
maximal schedule of grants and releases is finite and ends with all requests granted and released. -/
theorem C18_terminates_partial (P : Nat) (hP : 0 < P) (s s' : St) (h : Reach P Disciplined s) (i : Nat)
    (e : step s (.grant i) = some s' ∨ step s (.release i) = some s') : todo s' < todo s := by
  have hc : s.blocks.countP (·.granted) ≤ s.blocks.length := List.countP_le_length
  rcases e with e | e
  · simp only [step, grant] at e
    split at e
    · cases e
    rename_i b hb
    split at e
    · rename_i hg
      simp only [Option.some.injEq] at e
      subst e
      unfold todo
      obtain ⟨hil, hbi⟩ := List.getElem?_eq_some_iff.1 hb
      simp only [Bool.and_eq_true, Bool.not_eq_true'] at hg
      simp only [List.length_set]
      rw [List.countP_set hil, hbi, hg.1]
      simp; omega
    · cases e
  · have hbl := C17_release_exact_partial P hP s s' h i e
    simp only [step] at e
    split at e
    case h_2 => cases e
    rename_i b hb
    split at e
    case isFalse => cases e
    rename_i hg
    obtain ⟨hil, hbi⟩ := List.getElem?_eq_some_iff.1 hb
    unfold todo
    have hsplit : s.blocks = s.blocks.take i ++ b :: s.blocks.drop (i + 1) := by
      rw [← hbi, List.getElem_cons_drop hil, List.take_append_drop]
    have hcount : s.blocks.countP (·.granted) = (s.blocks.eraseIdx i).countP (·.granted) + 1 := by
      rw [List.eraseIdx_eq_take_drop_succ, List.countP_append]
      conv_lhs => rw [hsplit]
      rw [List.countP_append, List.countP_cons, hg]
      simp; omega
    rw [hbl, List.length_eraseIdx_of_lt hil]
    omega

/-- A state in which nothing is held, something waits, and nothing will ever be granted. -/
structure Stuck (s : St) : Prop where
  waits : s.blocks ≠ []
  full : s.startFull = 0
  empty : s.P < s.startEmpty
  block : ∀ b ∈ s.blocks, b.granted = false ∧ s.P < b.stop
  tmp : ∀ v, s.tmp = some v → s.P < v

/-- Whatever the threads do, a stuck allocator stays stuck. -/
theorem stuck_step {s s' : St} {a : Act} (hP : 0 < s.P) (h : Stuck s) (hd : Disciplined s a) (e : step s a = some s') : Stuck s' ∧ s'.P = s.P := by
  cases a with
  | request n al =>
      simp only [step] at e
      split at e
      · cases e
      rename_i hn0
      unfold request at e
      split at e
      · cases e
      split at e
      · cases e
      rename_i h1 h2
      simp only at e
      split at e
      · cases e
      simp only [Option.some.injEq] at e
      subst e
      have hdv : al ∣ s.P := Nat.dvd_of_mod_eq_zero (by omega)
      obtain ⟨o1, o2, o3, -⟩ := place_ok (e := s.startEmpty) hP (Nat.pos_of_ne_zero hn0) (by omega) hd.1 hdv
      have hle := o1.le; have hlt := o1.lt
      have he := h.empty
      refine ⟨⟨by simp, h.full, by simp only; omega, ?_, h.tmp⟩, rfl⟩
      intro c hc
      rcases List.mem_append.1 hc with h' | h'
      · exact h.block c h'
      · rw [List.mem_singleton.1 h']; exact ⟨o3, by simp only; omega⟩
  | grant i =>
      simp only [step, grant] at e
      split at e
      · cases e
      rename_i b hb
      split at e
      · rename_i hg
        have hs := (h.block b (List.mem_of_getElem? hb)).2
        simp only [canGrant, Bool.and_eq_true, decide_eq_true_eq, h.full] at hg
        omega
      · cases e
  | release i =>
      simp only [step] at e
      split at e
      · rename_i b hb
        rw [(h.block b (List.mem_of_getElem? hb)).1] at e
        simp at e
      · cases e
  | txBegin =>
      simp only [step] at e
      split at e
      · cases e
      · simp only [Option.some.injEq] at e
        subst e
        exact ⟨⟨h.waits, h.full, h.empty, h.block, h.tmp⟩, rfl⟩
  | txEndRead =>
      simp only [step] at e
      split at e
      · simp only [Option.some.injEq] at e
        subst e
        have he := h.empty
        refine ⟨⟨h.waits, h.full, h.empty, h.block, ?_⟩, rfl⟩
        intro v hv
        simp only [txEndRead] at hv ⊢
        split at hv
        · simp only [Option.some.injEq] at hv
          have := (up_pos (x := s.startEmpty) (by omega) hP).1
          omega
        · cases hv
      · cases e
  | txEndWrite =>
      simp only [step, Option.some.injEq] at e
      subst e
      unfold txEndWrite
      cases ht : s.tmp with
      | none => exact ⟨⟨h.waits, h.full, h.empty, h.block, by simp⟩, rfl⟩
      | some v => exact ⟨⟨h.waits, h.full, h.tmp v ht, h.block, by simp⟩, rfl⟩

/-- Continuations of a history. -/
inductive Later (ok : St → Act → Prop) (s : St) : St → Prop where
  | refl : Later ok s s
  | step {s1 s2 a} : Later ok s s1 → ok s1 a → step s1 a = some s2 → Later ok s s2

theorem stuck_forever {s s' : St} (hP : 0 < s.P) (h : Stuck s) (hl : Later Disciplined s s') : held s' = [] ∧ s'.blocks ≠ [] := by
  have : Stuck s' ∧ s'.P = s.P := by
    induction hl with
    | refl => exact ⟨h, rfl⟩
    | step _ ho e ih =>
        obtain ⟨h1, h2⟩ := stuck_step (by rw [ih.2]; exact hP) ih.1 ho e
        exact ⟨h1, h2.trans ih.2⟩
  refine ⟨?_, this.1.waits⟩
  unfold held
  rw [List.filter_eq_nil_iff.2 (fun b hb => by simp [(this.1.block b hb).1])]
  rfl

/-- C18 is false (1): in a pool of 12 bytes, one transaction that allocates and releases 8 bytes, followed by a request of 5 bytes:
nothing is held, and no continuation ever grants anything. -/
theorem C18_wrong_pool_size :
    ∃ s, Reach 12 Disciplined s ∧ held s = [] ∧ s.blocks ≠ [] ∧ ∀ s', Later Disciplined s s' → held s' = [] ∧ s'.blocks ≠ [] := by
  have h : ∃ s, run chk { P := 12 } [.txBegin, .request 8 1, .grant 0, .release 0, .txEndRead, .txEndWrite, .request 5 1] = some s ∧
      s = { P := 12, startEmpty := 17, blocks := [⟨5, 1, 12, 12, 17, false⟩], txEnd := 12, txMem := 0, doReset := true } := ⟨_, rfl, rfl⟩
  obtain ⟨s, h1, h2⟩ := h
  have hs : Stuck s := by
    subst h2
    exact ⟨by simp, rfl, by simp, by simp, by simp⟩
  exact ⟨s, reach_run chk_ok _ _ _ .init h1, by subst h2; rfl, hs.waits, fun s' hl => stuck_forever (by subst h2; simp) hs hl⟩

/-- C18 is false (2): a pool of 16 bytes; a release between the unlocked read and write of `start_empty` at the end of a
transaction. -/
theorem C18_wrong_race :
    ∃ s, Reach 16 Disciplined s ∧ held s = [] ∧ s.blocks ≠ [] ∧ ∀ s', Later Disciplined s s' → held s' = [] ∧ s'.blocks ≠ [] := by
  have h : ∃ s, run chk { P := 16 } [.txBegin, .request 9 1, .grant 0, .txEndRead, .release 0, .txEndWrite, .request 1 1] = some s ∧
      s = { P := 16, startEmpty := 17, blocks := [⟨1, 1, 16, 16, 17, false⟩], txEnd := 16, txMem := 0, doReset := true } := ⟨_, rfl, rfl⟩
  obtain ⟨s, h1, h2⟩ := h
  have hs : Stuck s := by
    subst h2
    exact ⟨by simp, rfl, by simp, by simp, by simp⟩
  exact ⟨s, reach_run chk_ok _ _ _ .init h1, by subst h2; rfl, hs.waits, fun s' hl => stuck_forever (by subst h2; simp) hs hl⟩

/-- C18 is false (3): alignment 3 in a fresh pool of 12 bytes; a request for the whole pool waits for ever, a request of one byte gets the
misaligned address 2. -/
theorem C18_wrong_alignment :
    (∃ s, step { P := 12 } (.request 12 3) = some s ∧ step s (.grant 0) = none) ∧
    (∃ s s', step { P := 12 } (.request 1 3) = some s ∧ step s (.grant 0) = some s' ∧ held s' = [(2, 1)]) :=
  ⟨⟨_, rfl, rfl⟩, ⟨_, _, rfl, rfl, rfl⟩⟩

/-- C18, concrete case: a pool of 16 bytes after a transaction with reset. -/
example : ∃ s, Reach 16 (Disciplined18 16) s ∧ s.blocks = [] ∧ s.doReset = true ∧ s.inTx = false := by
  have h : ∃ s, run (fun s a => chk s a && s.tmp.isNone || a matches .txEndWrite) { P := 16 } [.txBegin, .request 9 1, .grant 0, .txEndRead, .txEndWrite, .release 0] = some s ∧
      s.blocks = [] ∧ s.doReset = true ∧ s.inTx = false := ⟨_, rfl, rfl, rfl, rfl⟩
  obtain ⟨s, h1, h2⟩ := h
  refine ⟨s, reach_run ?_ _ _ _ .init h1, h2⟩
  intro s a h
  cases a <;> simp [chk] at h <;> simp [Disciplined18, Disciplined, h]
  · exact ⟨0, by omega, by omega⟩
  · left; exact ⟨4, by omega, by omega⟩

end Verif.Cbmb
