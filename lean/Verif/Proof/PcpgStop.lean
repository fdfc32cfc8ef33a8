import Verif.Proof.Pcpg
/-!
Proofs about the stopping criteria (C63).
-/
namespace Verif.Pcpg

section
variable {K : Type} [Field K] [LinearOrder K]

theorem clamp_eq (ww : Option K) : clamp ww = positive ww := by
  cases ww with
  | none => rfl
  | some x =>
    simp only [clamp, positive, max_def]
    rcases lt_trichotomy 0 x with h | h | h
    · rw [if_pos h, if_pos (le_of_lt h)]
    · subst h; simp
    · rw [if_neg (not_lt_of_ge (le_of_lt h)), if_neg (not_le_of_gt h)]

theorem root_eq (cfg : Config K) (ww : Option K) : root cfg ww = initialNorm cfg ww := by
  cases ww with
  | none => rfl
  | some x =>
    simp only [root, initialNorm]
    rcases lt_or_ge x 0 with h | h
    · rw [if_pos h, if_neg (not_le_of_gt h)]
    · rw [if_neg (not_lt_of_ge h), if_pos h]

theorem criteria_eq (cfg : Config K) (yw0 yw : Option K) :
    select cfg.criterion (.fin (cfg.sqrt (clamp yw))) (Norm.div (cfg.sqrt (clamp yw)) (root cfg yw0)) = measured cfg yw0 yw := by
  rw [clamp_eq, root_eq]
  unfold measured select
  cases cfg.criterion with
  | absolute => rfl
  | arioli => rfl
  | relative =>
    cases initialNorm cfg yw0 with
    | inf => rfl
    | nan => rfl
    | fin n =>
      simp only [Norm.div]
      by_cases h : n = 0
      · rw [if_pos h, if_neg (not_not.2 h)]
      · rw [if_neg h, if_pos h]

/-- Before the check number `i`. -/
structure Before (cfg : Config K) (yw0 : Option K) (c : Nat → Norm K) (i : Nat) (info : Info K) : Prop where
  error : info.error = .ok
  iterations : info.iterations = i
  converged : info.converged = false
  initial : info.initial = root cfg yw0
  length : info.buffer.length = cfg.maxStagnation
  p : info.p = (i - 1) % cfg.maxStagnation
  buffer : ∀ j, 1 ≤ j → j < i → i ≤ j + cfg.maxStagnation → info.buffer[(j - 1) % cfg.maxStagnation]? = some (c j)

/-- One check. -/
theorem check (cfg : Config K) (yw0 yw : Option K) (c : Nat → Norm K) (i : Nat) (info : Info K) (hi : 1 ≤ i) (hm : 1 ≤ cfg.maxStagnation) (hc : c i = measured cfg yw0 yw)
    (h : Before cfg yw0 c i info) :
    ∃ next, updateInfo cfg info yw = some next ∧ (stopReason cfg c i = none → Before cfg yw0 c (i + 1) next) ∧
      (∀ e, stopReason cfg c i = some e → next.converged = true ∧ next.error = e ∧ next.iterations = i ∧ next.criteria = c i) := by
  obtain ⟨he, hit, hcv, hin, hlen, hp, hb⟩ := h
  have hplt : info.p < info.buffer.length := by rw [hp, hlen]; exact Nat.mod_lt _ hm
  have hwr : wr info.buffer info.p (c i) = some (info.buffer.set info.p (c i)) := by
    exact wr_eq_some hplt
  have hnp : (info.p + 1) % cfg.maxStagnation = i % cfg.maxStagnation := by
    rw [hp, Nat.add_mod, Nat.mod_mod, ← Nat.add_mod, Nat.sub_add_cancel hi]
  -- the new buffer
  have hnew : ∀ j, 1 ≤ j → j < i + 1 → i + 1 ≤ j + cfg.maxStagnation → (info.buffer.set info.p (c i))[(j - 1) % cfg.maxStagnation]? = some (c j) := by
    intro j h1 h2 h3
    rcases Nat.lt_or_ge j i with h | h
    · have hne : info.p ≠ (j - 1) % cfg.maxStagnation := by
        rw [hp]
        intro he
        have hd : (i - 1 - (j - 1)) % cfg.maxStagnation = 0 := Nat.sub_mod_eq_zero_of_mod_eq he
        have hlt : i - 1 - (j - 1) < cfg.maxStagnation := by omega
        rw [Nat.mod_eq_of_lt hlt] at hd
        omega
      rw [List.getElem?_set_ne hne]
      exact hb j h1 h (by omega)
    · have : j = i := by omega
      subst this
      rw [← hp, List.getElem?_set_self hplt]
  have hold : ∃ v, (info.buffer.set info.p (c i))[i % cfg.maxStagnation]? = some v := by
    have : i % cfg.maxStagnation < (info.buffer.set info.p (c i)).length := by rw [List.length_set, hlen]; exact Nat.mod_lt _ hm
    exact ⟨_, List.getElem?_eq_getElem this⟩
  obtain ⟨old, hold⟩ := hold
  have holdc : cfg.maxStagnation ≤ i → old = c (i + 1 - cfg.maxStagnation) := by
    intro hle
    have := hnew (i + 1 - cfg.maxStagnation) (by omega) (by omega) (by omega)
    have e : (i + 1 - cfg.maxStagnation - 1) % cfg.maxStagnation = i % cfg.maxStagnation := by
      have : i = (i + 1 - cfg.maxStagnation - 1) + cfg.maxStagnation := by omega
      conv => rhs; rw [this]
      rw [Nat.add_mod_right]
    rw [e, hold] at this
    exact Option.some.inj this
  have hstag : (cfg.maxStagnation ≤ info.iterations ∧ old.less (c i) = true) ↔ (cfg.maxStagnation ≤ i ∧ (c (i + 1 - cfg.maxStagnation)).less (c i) = true) := by
    rw [hit]
    constructor
    · rintro ⟨a, b⟩; rw [holdc a] at b; exact ⟨a, b⟩
    · rintro ⟨a, b⟩; rw [holdc a]; exact ⟨a, b⟩
  unfold updateInfo
  dsimp only
  rw [hin, criteria_eq, ← hc, hwr]
  simp only [Option.bind_eq_bind, Option.bind_some]
  rw [hnp, hold]
  simp only [Option.bind_some]
  refine ⟨_, rfl, ?_, ?_⟩
  · intro hn
    unfold stopReason at hn
    split at hn
    · cases hn
    rename_i h1
    split at hn
    · cases hn
    rename_i h2
    split at hn
    · cases hn
    rename_i h3
    split at hn
    · cases hn
    rename_i h4
    have h3' : (c i).less (.fin cfg.precision) = false := by simpa using h3
    have h4' : ¬ info.iterations = cfg.maxIterations := by rw [hit]; exact h4
    have hnan : (c i).isNan = false := by
      cases hci : c i with
      | nan => exact absurd hci h1
      | fin _ => rfl
      | inf => rfl
    rw [if_neg (fun h => h2 (hstag.1 h)), hnan]
    simp only [h3', Bool.false_eq_true, if_false, h4', false_and]
    refine ⟨he, by rw [hit], rfl, rfl, by rw [List.length_set, hlen], by rw [Nat.add_sub_cancel], hnew⟩
  · intro e hr
    unfold stopReason at hr
    split at hr
    · rename_i h1
      cases hr
      simp [h1, Norm.isNan, hit]
    rename_i h1
    have hnan : (c i).isNan = false := by
      cases hci : c i with
      | nan => exact absurd hci h1
      | fin _ => rfl
      | inf => rfl
    rw [hnan]
    split at hr
    · rename_i h2
      cases hr
      rw [if_pos (hstag.2 h2)]
      simp [hit]
    rename_i h2
    rw [if_neg (fun h => h2 (hstag.1 h))]
    split at hr
    · rename_i h3
      cases hr
      simp [h3, hit, he]
    rename_i h3
    have h3' : (c i).less (.fin cfg.precision) = false := by simpa using h3
    split at hr
    · rename_i h4
      cases hr
      rw [h3']
      simp [hit, h4]
    · cases hr

end

variable {K V : Type} [Field K] [LinearOrder K] [AddCommGroup V] [Module K V]

/-- The quantities of the run. -/
def quantity (o : Ops K V) (cfg : Config K) (i : Nat) : Norm K := measured cfg (iterate o 0).yw (iterate o (i - 1)).yw

theorem set_before (o : Ops K V) (cfg : Config K) (hs : ¬ satisfiedAtStart cfg (iterate o 0).yw) : Before cfg (iterate o 0).yw (quantity o cfg) 1 (setInfo cfg (start o).yw) := by
  refine ⟨rfl, rfl, ?_, rfl, by simp [setInfo], by simp [setInfo], ?_⟩
  · simp only [setInfo]
    rw [root_eq]
    by_contra h
    rw [Bool.not_eq_false, Bool.and_eq_true] at h
    refine hs ⟨by simpa using h.1, h.2⟩
  · intro j h1 h2
    omega

theorem loop_run (o : Ops K V) (cfg : Config K) (hm : 1 ≤ cfg.maxStagnation) (n : Nat) : ∀ (fuel i : Nat) (info : Info K), 1 ≤ i → Before cfg (iterate o 0).yw (quantity o cfg) i info → i + n = fuel →
    (∀ e, (∀ j, i ≤ j → j < fuel → stopReason cfg (quantity o cfg) j = none) → stopReason cfg (quantity o cfg) fuel = some e →
      ∃ out, (∀ f, n + 1 ≤ f → loop o cfg f (iterate o (i - 1)) info = some (iterate o fuel, out)) ∧ out.converged = true ∧ out.error = e ∧ out.iterations = fuel ∧ out.criteria = quantity o cfg fuel) ∧
    ((∀ j, i ≤ j → j < fuel → stopReason cfg (quantity o cfg) j = none) → loop o cfg n (iterate o (i - 1)) info = none) := by
  induction n with
  | zero =>
    intro fuel i info hi hb he
    have : i = fuel := by omega
    subst this
    obtain ⟨next, hu, _, hst⟩ := check cfg (iterate o 0).yw (iterate o (i - 1)).yw (quantity o cfg) i info hi hm rfl hb
    refine ⟨?_, ?_⟩
    · intro e _ hr
      obtain ⟨h1, h2, h3, h4⟩ := hst e hr
      refine ⟨next, ?_, h1, h2, h3, h4⟩
      intro f hf
      obtain ⟨f, rfl⟩ : ∃ g, f = g + 1 := ⟨f - 1, by omega⟩
      rw [loop, hb.converged, hu]
      simp only [Bool.false_eq_true, if_false, Option.bind_eq_bind, Option.bind_some]
      have : iter o (iterate o (i - 1)) = iterate o i := by
        conv => rhs; rw [← Nat.sub_add_cancel hi]
        rfl
      rw [this]
      cases f with
      | zero => rw [loop, h1]; rfl
      | succ f => rw [loop, h1]; rfl
    · intro _
      rw [loop, hb.converged]
      rfl
  | succ n ih =>
    intro fuel i info hi hb he
    obtain ⟨next, hu, hgo, hst⟩ := check cfg (iterate o 0).yw (iterate o (i - 1)).yw (quantity o cfg) i info hi hm rfl hb
    have hstep : iter o (iterate o (i - 1)) = iterate o (i + 1 - 1) := by
      rw [Nat.add_sub_cancel]
      conv => rhs; rw [← Nat.sub_add_cancel hi]
      rfl
    refine ⟨?_, ?_⟩
    · intro e hall hr
      have hb' := hgo (hall i (Nat.le_refl i) (by omega))
      obtain ⟨out, h1, h2⟩ := (ih fuel (i + 1) next (by omega) hb' (by omega)).1 e (fun j hj hj' => hall j (by omega) hj') hr
      refine ⟨out, ?_, h2⟩
      intro f hf
      obtain ⟨f, rfl⟩ : ∃ g, f = g + 1 := ⟨f - 1, by omega⟩
      rw [loop, hb.converged, hu]
      simp only [Bool.false_eq_true, if_false, Option.bind_eq_bind, Option.bind_some]
      rw [hstep]
      exact h1 f (by omega)
    · intro hall
      have hb' := hgo (hall i (Nat.le_refl i) (by omega))
      rw [loop, hb.converged, hu]
      simp only [Bool.false_eq_true, if_false, Option.bind_eq_bind, Option.bind_some]
      rw [hstep]
      exact (ih fuel (i + 1) next (by omega) hb' (by omega)).2 (fun j hj hj' => hall j (by omega) hj')

/-- The run stops at the first check with a reason. -/
theorem solve_stops (o : Ops K V) (cfg : Config K) (hm : 1 ≤ cfg.maxStagnation) (hs : ¬ satisfiedAtStart cfg (iterate o 0).yw) (i : Nat) (hi : 1 ≤ i) (e : Error)
    (hall : ∀ j, 1 ≤ j → j < i → stopReason cfg (quantity o cfg) j = none) (hr : stopReason cfg (quantity o cfg) i = some e) :
    ∃ out, (∀ f, i ≤ f → solve o cfg f = some (iterate o i, out)) ∧ out.converged = true ∧ out.error = e ∧ out.iterations = i ∧ out.criteria = quantity o cfg i := by
  obtain ⟨out, h1, h2⟩ := (loop_run o cfg hm (i - 1) i 1 _ (Nat.le_refl 1) (set_before o cfg hs) (by omega)).1 e hall hr
  refine ⟨out, fun f hf => ?_, h2⟩
  exact h1 f (by omega)

/-- The run goes on without a reason. -/
theorem solve_none (o : Ops K V) (cfg : Config K) (hm : 1 ≤ cfg.maxStagnation) (hs : ¬ satisfiedAtStart cfg (iterate o 0).yw) (n : Nat)
    (hall : ∀ j, 1 ≤ j → j ≤ n → stopReason cfg (quantity o cfg) j = none) : solve o cfg n = none :=
  (loop_run o cfg hm n (n + 1) 1 _ (Nat.le_refl 1) (set_before o cfg hs) (by omega)).2 fun j h1 h2 => hall j h1 (by omega)

theorem solve_start (o : Ops K V) (cfg : Config K) (hs : satisfiedAtStart cfg (iterate o 0).yw) (f : Nat) : solve o cfg f = some (start o, setInfo cfg (start o).yw) := by
  have : (setInfo cfg (start o).yw).converged = true := by
    simp only [setInfo]
    rw [root_eq, Bool.and_eq_true]
    exact ⟨by simpa using hs.1, hs.2⟩
  unfold solve
  cases f with
  | zero => rw [loop, this]; rfl
  | succ f => rw [loop, this]; rfl

/-- The result of every finished run. -/
theorem solve_some (o : Ops K V) (cfg : Config K) (hm : 1 ≤ cfg.maxStagnation) {f : Nat} {s : State K V} {out : Info K} (h : solve o cfg f = some (s, out)) :
    (satisfiedAtStart cfg (iterate o 0).yw ∧ s = iterate o 0 ∧ out.error = .ok) ∨
    ∃ i, 1 ≤ i ∧ i ≤ f ∧ (∀ j, 1 ≤ j → j < i → stopReason cfg (quantity o cfg) j = none) ∧ stopReason cfg (quantity o cfg) i = some out.error ∧ s = iterate o i ∧ out.iterations = i := by
  classical
  by_cases hs : satisfiedAtStart cfg (iterate o 0).yw
  · rw [solve_start o cfg hs] at h
    cases h
    exact Or.inl ⟨hs, rfl, rfl⟩
  · right
    by_cases hex : ∃ i, (1 ≤ i ∧ i ≤ f) ∧ stopReason cfg (quantity o cfg) i ≠ none
    · have hmin := fun k (hk : k < Nat.find hex) => Nat.find_min hex hk
      obtain ⟨⟨h1, h2⟩, h3⟩ := Nat.find_spec hex
      obtain ⟨e, he⟩ := Option.ne_none_iff_exists'.1 h3
      have hall : ∀ j, 1 ≤ j → j < Nat.find hex → stopReason cfg (quantity o cfg) j = none := by
        intro j hj1 hj2
        by_contra hne
        exact hmin j hj2 ⟨⟨hj1, by omega⟩, hne⟩
      obtain ⟨out', ho, hc, herr, hit, _⟩ := solve_stops o cfg hm hs _ h1 e hall he
      rw [ho f h2] at h
      cases h
      exact ⟨_, h1, h2, hall, by rw [he, herr], rfl, hit⟩
    · exfalso
      rw [solve_none o cfg hm hs f] at h
      · cases h
      · intro j h1 h2
        by_contra hne
        exact hex ⟨j, ⟨h1, h2⟩, hne⟩

end Verif.Pcpg
