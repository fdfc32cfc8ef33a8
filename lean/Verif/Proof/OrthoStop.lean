import Verif.Proof.OrthoPcpg
/-!
Proofs about the stopping criteria of the orthogonalized conjugate projected gradients (C70).
-/
namespace Verif.Pcpg

variable {K V : Type} [Field K] [LinearOrder K] [AddCommGroup V] [Module K V]

/-- The quantities of the run. -/
def oquantity (o : Ops K V) (cfg : Config K) (i : Nat) : Norm K := measured cfg (some (ostart o).yw) ((oiterate o (i - 1)).map OState.yw)

theorem oset_before (o : Ops K V) (cfg : Config K) (hs : ¬ satisfiedAtStart cfg (some (ostart o).yw)) : Before cfg (some (ostart o).yw) (oquantity o cfg) 1 (setInfo cfg (some (ostart o).yw)) := by
  refine ⟨rfl, rfl, ?_, rfl, by simp [setInfo], by simp [setInfo], ?_⟩
  · simp only [setInfo]
    rw [root_eq]
    by_contra h
    rw [Bool.not_eq_false, Bool.and_eq_true] at h
    refine hs ⟨by simpa using h.1, h.2⟩
  · intro j h1 h2
    omega

theorem oiterate_pred (o : Ops K V) {k : Nat} {s : OState K V} (h : oiterate o (k + 1) = some s) : ∃ t, oiterate o k = some t ∧ ostep o t = some s := by
  rw [oiterate] at h
  obtain ⟨t, ht, h⟩ := Option.bind_eq_some_iff.1 h
  exact ⟨t, ht, h⟩

theorem oiterate_before (o : Ops K V) {k : Nat} {s : OState K V} (h : oiterate o k = some s) : ∀ j, j ≤ k → ∃ t, oiterate o j = some t := by
  induction k generalizing s with
  | zero => intro j hj; exact ⟨s, by rw [Nat.le_zero.1 hj]; exact h⟩
  | succ k ih =>
    obtain ⟨t, ht, _⟩ := oiterate_pred o h
    intro j hj
    rcases Nat.lt_or_ge k j with hkj | hkj
    · exact ⟨s, by rw [show j = k + 1 by omega]; exact h⟩
    · exact ih ht j hkj

/-- The loop stops at the first check with a reason. -/
theorem oloop_run (o : Ops K V) (cfg : Config K) (hm : 1 ≤ cfg.maxStagnation) (n : Nat) : ∀ (last i : Nat) (info : Info K) (t s : OState K V) (e : Error), 1 ≤ i →
    Before cfg (some (ostart o).yw) (oquantity o cfg) i info → i + n = last → oiterate o (i - 1) = some t → oiterate o last = some s →
    (∀ j, i ≤ j → j < last → stopReason cfg (oquantity o cfg) j = none) → stopReason cfg (oquantity o cfg) last = some e →
      ∃ out, (∀ f, n + 1 ≤ f → oloop o cfg f t info = some (s, out)) ∧ out.converged = true ∧ out.error = e ∧ out.iterations = last ∧ out.criteria = oquantity o cfg last := by
  induction n with
  | zero =>
    intro last i info t s e hi hb he ht hs hall hr
    have : i = last := by omega
    subst this
    obtain ⟨next, hu, _, hst⟩ := check cfg (some (ostart o).yw) (some t.yw) (oquantity o cfg) i info hi hm (by unfold oquantity; rw [ht]; rfl) hb
    obtain ⟨h1, h2, h3, h4⟩ := hst e hr
    refine ⟨next, ?_, h1, h2, h3, h4⟩
    intro f hf
    obtain ⟨f, rfl⟩ : ∃ g, f = g + 1 := ⟨f - 1, by omega⟩
    have hs' : ostep o t = some s := by
      rw [← Nat.sub_add_cancel hi] at hs
      obtain ⟨t', ht', hst'⟩ := oiterate_pred o hs
      rw [ht] at ht'
      cases ht'
      exact hst'
    rw [oloop, hb.converged, hu, hs']
    simp only [Bool.false_eq_true, if_false, Option.bind_eq_bind, Option.bind_some]
    cases f with
    | zero => rw [oloop, h1]; rfl
    | succ f => rw [oloop, h1]; rfl
  | succ n ih =>
    intro last i info t s e hi hb he ht hs hall hr
    obtain ⟨next, hu, hgo, _⟩ := check cfg (some (ostart o).yw) (some t.yw) (oquantity o cfg) i info hi hm (by unfold oquantity; rw [ht]; rfl) hb
    have hb' := hgo (hall i (Nat.le_refl i) (by omega))
    obtain ⟨t', ht'⟩ := oiterate_before o hs i (by omega)
    have hst : ostep o t = some t' := by
      have h := ht'
      rw [← Nat.sub_add_cancel hi] at h
      obtain ⟨t'', ht'', hst'⟩ := oiterate_pred o h
      rw [ht] at ht''
      cases ht''
      exact hst'
    obtain ⟨out, h1, h2⟩ := ih last (i + 1) next t' s e (by omega) hb' (by omega) (by rw [Nat.add_sub_cancel]; exact ht') hs (fun j hj hj' => hall j (by omega) hj') hr
    refine ⟨out, ?_, h2⟩
    intro f hf
    obtain ⟨f, rfl⟩ : ∃ g, f = g + 1 := ⟨f - 1, by omega⟩
    rw [oloop, hb.converged, hu, hst]
    simp only [Bool.false_eq_true, if_false, Option.bind_eq_bind, Option.bind_some]
    exact h1 f (by omega)

theorem osolve_stops (o : Ops K V) (cfg : Config K) (hm : 1 ≤ cfg.maxStagnation) (hs : ¬ satisfiedAtStart cfg (some (ostart o).yw)) (i : Nat) (hi : 1 ≤ i) (e : Error) (s : OState K V)
    (hdef : oiterate o i = some s) (hall : ∀ j, 1 ≤ j → j < i → stopReason cfg (oquantity o cfg) j = none) (hr : stopReason cfg (oquantity o cfg) i = some e) :
    ∃ out, (∀ f, i ≤ f → osolve o cfg f = some (s, out)) ∧ out.converged = true ∧ out.error = e ∧ out.iterations = i ∧ out.criteria = oquantity o cfg i := by
  obtain ⟨out, h1, h2⟩ := oloop_run o cfg hm (i - 1) i 1 _ (ostart o) s e (Nat.le_refl 1) (oset_before o cfg hs) (by omega) rfl hdef hall hr
  exact ⟨out, fun f hf => h1 f (by omega), h2⟩

theorem osolve_start (o : Ops K V) (cfg : Config K) (hs : satisfiedAtStart cfg (some (ostart o).yw)) (f : Nat) : osolve o cfg f = some (ostart o, setInfo cfg (some (ostart o).yw)) := by
  have : (setInfo cfg (some (ostart o).yw)).converged = true := by
    simp only [setInfo]
    rw [root_eq, Bool.and_eq_true]
    exact ⟨by simpa using hs.1, hs.2⟩
  unfold osolve
  cases f with
  | zero => rw [oloop, this]; rfl
  | succ f => rw [oloop, this]; rfl

theorem oloop_some (o : Ops K V) (cfg : Config K) (hm : 1 ≤ cfg.maxStagnation) (f : Nat) : ∀ (i : Nat) (info : Info K) (t s : OState K V) (out : Info K), 1 ≤ i →
    Before cfg (some (ostart o).yw) (oquantity o cfg) i info → oiterate o (i - 1) = some t → oloop o cfg f t info = some (s, out) →
    ∃ j, i ≤ j ∧ j < i + f ∧ (∀ k, i ≤ k → k < j → stopReason cfg (oquantity o cfg) k = none) ∧ stopReason cfg (oquantity o cfg) j = some out.error ∧ oiterate o j = some s ∧ out.iterations = j := by
  induction f with
  | zero =>
    intro i info t s out hi hb ht h
    rw [oloop, hb.converged] at h
    simp at h
  | succ f ih =>
    intro i info t s out hi hb ht h
    rw [oloop, hb.converged] at h
    simp only [Bool.false_eq_true, if_false, Option.bind_eq_bind] at h
    obtain ⟨n, hn, h⟩ := Option.bind_eq_some_iff.1 h
    obtain ⟨next, hu, hgo, hst⟩ := check cfg (some (ostart o).yw) (some t.yw) (oquantity o cfg) i info hi hm (by unfold oquantity; rw [ht]; rfl) hb
    rw [hu] at h
    simp only [Option.bind_some] at h
    have hn' : oiterate o i = some n := by
      rw [← Nat.sub_add_cancel hi, oiterate, ht]
      exact hn
    cases hr : stopReason cfg (oquantity o cfg) i with
    | none =>
      obtain ⟨j, h1, h2, h3, h4⟩ := ih (i + 1) next n s out (by omega) (hgo hr) (by rw [Nat.add_sub_cancel]; exact hn') h
      refine ⟨j, by omega, by omega, ?_, h4⟩
      intro k hk hk'
      rcases Nat.lt_or_ge i k with hik | hik
      · exact h3 k hik hk'
      · rw [show k = i by omega]
        exact hr
    | some e =>
      obtain ⟨h1, h2, h3, h4⟩ := hst e hr
      have : (n, next) = (s, out) := by
        cases f with
        | zero => rw [oloop, h1] at h; simpa using h
        | succ f => rw [oloop, h1] at h; simpa using h
      cases this
      exact ⟨i, Nat.le_refl i, by omega, fun k hk hk' => by omega, by rw [hr, h2], hn', h3⟩

end Verif.Pcpg
