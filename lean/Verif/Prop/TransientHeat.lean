import Verif.Proof.Transient
import Mathlib.Algebra.Order.Archimedean.Basic
import Mathlib.Algebra.Order.Field.Rat
import Mathlib.Data.Rat.Cast.Order
import Mathlib.Algebra.Order.Archimedean.Basic
import Mathlib.Tactic.NormNum
/-!
C92: transient heat transfer.
-/
namespace Verif.Transient

open Finset

section
variable {K : Type} [Field K]

/-- C92: a step of transient heat transfer is a step of the trapezoidal rule: the new temperatures have the prescribed values, the balance `M V + K U = f` of the new time holds in the free rows, and
the temperatures advance by the weighted mean of the old and the new rates. -/
theorem C92_step (n : Nat) (fixed : Nat → Prop) (alpha h : K) (ha : alpha ≠ 0) (hh : h ≠ 0) (keeps : Bool) (ev : K → Vec K → Assembled K) (solve : Solver K) (ok : SolverOk n fixed solve)
    (s : HeatState K) (fresh : MatrixOk (1 / (alpha * h)) (ev s.current s.u) s.aUpdated s.a) (hs : (heatStep n alpha h keeps ev solve s).solved = true) :
    (∀ i, i < n → fixed i → (heatStep n alpha h keeps ev solve s).u i = (ev s.current s.u).g i)
      ∧ HeatBalance n fixed (ev s.current s.u).k (ev s.current s.u).m (ev s.current s.u).f (heatStep n alpha h keeps ev solve s).u (heatStep n alpha h keeps ev solve s).v
      ∧ ∀ i, (heatStep n alpha h keeps ev solve s).u i = s.u i + h * ((1 - alpha) * s.v i + alpha * (heatStep n alpha h keeps ev solve s).v i) :=
  heatStep_spec n fixed alpha h ha hh keeps ev solve ok s fresh hs

/-- After a step the matrix is again the right one. -/
theorem matrix_next (n : Nat) (alpha h : K) (keeps : Bool) (ev : K → Vec K → Assembled K) (flags : FlagsOk ev) (solve : Solver K) (s : HeatState K)
    (fresh : MatrixOk (1 / (alpha * h)) (ev s.current s.u) s.aUpdated s.a) :
    MatrixOk (1 / (alpha * h)) (ev (heatStep n alpha h keeps ev solve s).current (heatStep n alpha h keeps ev solve s).u) (heatStep n alpha h keeps ev solve s).aUpdated
      (heatStep n alpha h keeps ev solve s).a := by
  rcases flags with f | f
  · left
    rw [f]
    rfl
  · right
    intro i j
    have e : (heatStep n alpha h keeps ev solve s).a = fun i j => 0 + 1 * (ev s.current s.u).k i j + 1 / (alpha * h) * (ev s.current s.u).m i j := matrix_of fresh
    have g := f (heatStep n alpha h keeps ev solve s).current (heatStep n alpha h keeps ev solve s).u s.current s.u
    rw [e, g.1, g.2]
    ring

end

section
variable {K : Type} [Field K] [LinearOrder K] [IsStrictOrderedRing K]

/-- An invariant of the passes of the loop holds at its end. -/
theorem heatLoop_induction (n : Nat) (alpha h final precision : K) (keeps : Bool) (ev : K → Vec K → Assembled K) (solve : Solver K) (P : HeatState K → Prop)
    (step : ∀ s, s.solved = true → s.current ≤ final + precision → P s → P (heatStep n alpha h keeps ev solve s)) :
    ∀ fuel s t, P s → heatLoop n alpha h final precision keeps ev solve fuel s = some t → P t ∧ (t.solved = true → ¬t.current ≤ final + precision)
  | 0, s, t, p, e => by
    unfold heatLoop at e
    split at e
    · exact absurd e (by simp)
    · rename_i hc
      cases e
      refine ⟨p, fun hs hl => hc ?_⟩
      simp [hs, hl]
  | fuel + 1, s, t, p, e => by
    unfold heatLoop at e
    split at e
    · rename_i hc
      simp only [Bool.and_eq_true, decide_eq_true_eq] at hc
      exact heatLoop_induction n alpha h final precision keeps ev solve P step fuel _ t (step s hc.1 hc.2 p) e
    · rename_i hc
      cases e
      refine ⟨p, fun hs hl => hc ?_⟩
      simp [hs, hl]

/-- C92: the load step ends, whatever the assembler and the solver do. -/
theorem C92_terminates [Archimedean K] (n : Nat) (alpha h final precision : K) (hh : 0 < h) (keeps : Bool) (ev : K → Vec K → Assembled K) (solve : Solver K) (s : HeatState K) :
    ∃ fuel t, heatLoop n alpha h final precision keeps ev solve fuel s = some t := by
  obtain ⟨m, hm⟩ := Archimedean.arch (final + precision - s.current) hh
  refine ⟨m + 1, ?_⟩
  have hm : final + precision < s.current + (m + 1) * h := by
    rw [nsmul_eq_mul] at hm
    linarith
  clear * - hm
  induction m generalizing s with
  | zero =>
    unfold heatLoop
    split
    · unfold heatLoop
      refine ⟨_, if_neg ?_⟩
      simp only [Bool.and_eq_true, decide_eq_true_eq, not_and, not_le]
      intro _
      change final + precision < s.current + h
      simpa using hm
    · exact ⟨_, rfl⟩
  | succ m ih =>
    unfold heatLoop
    split
    · refine ih _ ?_
      change final + precision < s.current + h + (m + 1) * h
      push_cast at hm
      linarith
    · exact ⟨_, rfl⟩

/-- C92: a load step that reports success stops after the steps that fit into it: their number is `t.substep`, the last solved time is `start + t.substep * h`, it does not exceed the final time by
more than the precision, and another step would; the last solution has the prescribed values and satisfies the balance at the last time. -/
theorem C92_run (n : Nat) (fixed : Nat → Prop) (alpha h : K) (ha : alpha ≠ 0) (hh : 0 < h) (final precision start : K) (keeps : Bool) (ev : K → Vec K → Assembled K) (flags : FlagsOk ev)
    (solve : Solver K) (ok : SolverOk n fixed solve) (u0 : Vec K) (a0 : Mat K) (up : Bool) (fresh : MatrixOk (1 / (alpha * h)) (ev (start + h) u0) up a0) (fuel : Nat) (t : HeatState K)
    (e : heatLoop n alpha h final precision keeps ev solve fuel (heatInit h start u0 a0 up) = some t) (ht : t.solved = true) :
    final + precision < start + (t.substep + 1) * h ∧ (t.substep = 0 ∧ t.u = u0 ∨ 0 < t.substep ∧ start + t.substep * h ≤ final + precision ∧ ∃ uOld,
      (∀ i, i < n → fixed i → t.u i = (ev (start + t.substep * h) uOld).g i)
        ∧ HeatBalance n fixed (ev (start + t.substep * h) uOld).k (ev (start + t.substep * h) uOld).m (ev (start + t.substep * h) uOld).f t.u t.v) := by
  let P : HeatState K → Prop := fun s => s.current = start + (s.substep + 1) * h ∧ MatrixOk (1 / (alpha * h)) (ev s.current s.u) s.aUpdated s.a ∧ (s.solved = true →
    s.substep = 0 ∧ s.u = u0 ∨ 0 < s.substep ∧ start + s.substep * h ≤ final + precision ∧ ∃ uOld, (∀ i, i < n → fixed i → s.u i = (ev (start + s.substep * h) uOld).g i)
        ∧ HeatBalance n fixed (ev (start + s.substep * h) uOld).k (ev (start + s.substep * h) uOld).m (ev (start + s.substep * h) uOld).f s.u s.v)
  have init : P (heatInit h start u0 a0 up) := ⟨by simp [heatInit], fresh, fun _ => Or.inl ⟨rfl, rfl⟩⟩
  have step : ∀ s, s.solved = true → s.current ≤ final + precision → P s → P (heatStep n alpha h keeps ev solve s) := by
    intro s _ hc p
    have hsub : (heatStep n alpha h keeps ev solve s).substep = s.substep + 1 := rfl
    have hcur : start + ((s.substep + 1 : Nat) : K) * h = s.current := by rw [p.1]; push_cast; ring
    refine ⟨?_, matrix_next n alpha h keeps ev flags solve s p.2.1, fun hs => Or.inr ?_⟩
    · change s.current + h = _
      rw [hsub, p.1]
      push_cast
      ring
    · have sp := heatStep_spec n fixed alpha h ha (ne_of_gt hh) keeps ev solve ok s p.2.1 hs
      rw [hsub, hcur]
      exact ⟨Nat.succ_pos _, hc, s.u, sp.1, sp.2.1⟩
  have r := heatLoop_induction n alpha h final precision keeps ev solve P step fuel _ t init e
  refine ⟨?_, r.1.2.2 ht⟩
  have := r.2 ht
  rw [r.1.1] at this
  exact not_le.1 this

/-- C92: a load step of `m` time steps makes `m` steps and ends at its final time. -/
theorem C92_exact (n : Nat) (fixed : Nat → Prop) (alpha h : K) (ha : alpha ≠ 0) (hh : 0 < h) (m : Nat) (precision start : K) (hp : 0 ≤ precision) (hp' : precision < h) (keeps : Bool)
    (ev : K → Vec K → Assembled K) (flags : FlagsOk ev) (solve : Solver K) (ok : SolverOk n fixed solve) (u0 : Vec K) (a0 : Mat K) (up : Bool)
    (fresh : MatrixOk (1 / (alpha * h)) (ev (start + h) u0) up a0) (fuel : Nat) (t : HeatState K)
    (e : heatLoop n alpha h (start + m * h) precision keeps ev solve fuel (heatInit h start u0 a0 up) = some t) (ht : t.solved = true) :
    t.substep = m ∧ start + t.substep * h = start + m * h := by
  have r := C92_run n fixed alpha h ha hh (start + m * h) precision start keeps ev flags solve ok u0 a0 up fresh fuel t e ht
  have l : m ≤ t.substep := by
    have : (m : K) < t.substep + 1 := lt_of_mul_lt_mul_right (by linarith [r.1] : (m : K) * h < (t.substep + 1) * h) hh.le
    exact_mod_cast Nat.lt_succ_iff.1 (by exact_mod_cast this)
  have g : t.substep ≤ m := by
    rcases r.2 with z | z
    · omega
    · have : (t.substep : K) < m + 1 := lt_of_mul_lt_mul_right (by linarith [z.2.1] : (t.substep : K) * h < (m + 1) * h) hh.le
      exact_mod_cast Nat.lt_succ_iff.1 (by exact_mod_cast this)
  have q : t.substep = m := le_antisymm g l
  exact ⟨q, by rw [q]⟩

/-- C92: unconditional stability. Without loads and with constant symmetric positive semidefinite matrices, `Uᵀ M U` does not grow over the load step for `alpha ≥ 1/2` (all three methods), if
the rates are consistent at its beginning. -/
theorem C92_stable (n : Nat) (fixed : Nat → Prop) (alpha h : K) (ha : 1 / 2 ≤ alpha) (hh : 0 < h) (final precision : K) (keeps : Bool) (ev : K → Vec K → Assembled K) (k m : Mat K) (hm : Symm n m)
    (pk : Psd n k) (pm : Psd n m) (hk : ∀ t u, (ev t u).k = k ∧ (ev t u).m = m ∧ (ev t u).f = (fun _ => 0) ∧ (ev t u).g = fun _ => 0) (solve : Solver K) (ok : SolverOk n fixed solve)
    (s : HeatState K) (fresh : MatrixOk (1 / (alpha * h)) (ev s.current s.u) s.aUpdated s.a) (rest : ∀ i, i < n → fixed i → s.u i = 0) (b : HeatBalance n fixed k m (fun _ => 0) s.u s.v) (fuel : Nat)
    (t : HeatState K) (e : heatLoop n alpha h final precision keeps ev solve fuel s = some t) (ht : t.solved = true) : form n m t.u t.u ≤ form n m s.u s.u := by
  have ha0 : alpha ≠ 0 := by
    intro h0
    rw [h0] at ha
    norm_num at ha
  let P : HeatState K → Prop := fun r => MatrixOk (1 / (alpha * h)) (ev r.current r.u) r.aUpdated r.a ∧ (r.solved = true →
    (∀ i, i < n → fixed i → r.u i = 0) ∧ HeatBalance n fixed k m (fun _ => 0) r.u r.v ∧ form n m r.u r.u ≤ form n m s.u s.u)
  have init : P s := ⟨fresh, fun _ => ⟨rest, b, le_refl _⟩⟩
  have flags : FlagsOk ev := Or.inr fun t u t' u' => ⟨by rw [(hk t u).1, (hk t' u').1], by rw [(hk t u).2.1, (hk t' u').2.1]⟩
  have step : ∀ r, r.solved = true → r.current ≤ final + precision → P r → P (heatStep n alpha h keeps ev solve r) := by
    intro r hr _ p
    refine ⟨matrix_next n alpha h keeps ev flags solve r p.1, fun hs => ?_⟩
    have sp := heatStep_spec n fixed alpha h ha0 (ne_of_gt hh) keeps ev solve ok r p.1 hs
    obtain ⟨k1, k2, k3, k4⟩ := hk r.current r.u
    have pr := p.2 hr
    simp only [k1, k2, k3, k4] at sp
    exact ⟨sp.1, sp.2.1, le_trans (trapezoidal_decay n fixed k m hm pk pm alpha h ha hh r.u r.v _ _ pr.1 sp.1 pr.2.1 sp.2.1 sp.2.2) pr.2.2⟩
  exact ((heatLoop_induction n alpha h final precision keeps ev solve P step fuel s t init e).1.2 ht).2.2

/-- The methods offered satisfy the condition of `C92_stable`. -/
theorem C92_methods : 1 / 2 ≤ (FirstOrder.crankNicolson : FirstOrder K).alpha ∧ 1 / 2 ≤ (FirstOrder.galerkin : FirstOrder K).alpha ∧ 1 / 2 ≤ (FirstOrder.backwardDiff : FirstOrder K).alpha := by
  refine ⟨le_refl _, ?_, ?_⟩ <;> simp only [FirstOrder.alpha] <;> norm_num

/-- A body with one node: `K = 0`, `M = 1`, `f = 1`, so the temperature is the time. -/
def heated : K → Vec K → Assembled K := fun _ _ => ⟨fun _ _ => 0, fun _ _ => 1, fun _ => 1, fun _ => 0, true⟩

/-- The solver of systems with one unknown. -/
def divide : Solver K := fun A b _ => (decide (A 0 0 ≠ 0), fun _ => b 0 / A 0 0)

omit [IsStrictOrderedRing K] in
theorem divide_ok : SolverOk 1 (fun _ => False) (divide : Solver K) := by
  intro A b g h
  refine ⟨fun i _ f => f.elim, fun i hi _ => ?_⟩
  have hA : A 0 0 ≠ 0 := by simpa [divide] using h
  obtain rfl : i = 0 := by omega
  rw [sum_range_one]
  change A 0 0 * (b 0 / A 0 0) = b 0
  field_simp

/-- C92: the rates are zero at the beginning of a load step instead of consistent, so the solution lags behind by `(1 - alpha) h`: for `du/dt = 1`, `u(0) = 0` the temperature after `m + 1` steps is
`(m + alpha) h` instead of `(m + 1) h`. -/
theorem C92_lag_wrong (alpha h : K) (ha : 0 < alpha) (hh : 0 < h) (m : Nat) :
    ((heatStep 1 alpha h true heated divide)^[m + 1] (heatInit h 0 (fun _ => 0) (fun _ _ => 0) true)).u 0 = (m + alpha) * h
      ∧ ((heatStep 1 alpha h true heated divide)^[m + 1] (heatInit h 0 (fun _ => 0) (fun _ _ => 0) true)).v 0 = 1 := by
  have step : ∀ s : HeatState K, (heatStep 1 alpha h true heated divide s).u 0 = s.u 0 + (1 - alpha) * h * s.v 0 + alpha * h ∧ (heatStep 1 alpha h true heated divide s).v 0 = 1 := by
    intro s
    have fresh : MatrixOk (1 / (alpha * h)) (heated s.current s.u) s.aUpdated s.a := Or.inl rfl
    have hs : (heatStep 1 alpha h true heated divide s).solved = true := by
      simp only [heatStep]
      rw [matrix_of fresh]
      have := ne_of_gt ha
      have := ne_of_gt hh
      simp [divide, heated, *]
    have sp := heatStep_spec 1 (fun _ => False) alpha h (ne_of_gt ha) (ne_of_gt hh) true heated divide divide_ok s fresh hs
    have v1 : (heatStep 1 alpha h true heated divide s).v 0 = 1 := by
      have := sp.2.1 0 (by omega) (fun f => f)
      simpa [heated] using this
    refine ⟨?_, v1⟩
    rw [sp.2.2 0, v1]
    ring
  induction m with
  | zero =>
    have := step (heatInit h 0 (fun _ => 0) (fun _ _ => 0) true)
    refine ⟨?_, this.2⟩
    refine this.1.trans ?_
    simp [heatInit]
  | succ m ih =>
    rw [Function.iterate_succ_apply']
    have := step ((heatStep 1 alpha h true heated divide)^[m + 1] (heatInit h 0 (fun _ => 0) (fun _ _ => 0) true))
    refine ⟨?_, this.2⟩
    rw [this.1, ih.1, ih.2]
    push_cast
    ring

end

/-- C92: a load step whose duration is not a multiple of the time step ends before its final time, and the next load step continues from the final time: with the duration 1 and the step 2/5 the last
solution is that of the time 4/5. -/
theorem C92_short_wrong : ∃ t, heatLoop 1 (1 : ℚ) (2 / 5) 1 (1 / 100000000) true heated divide 5 (heatInit (2 / 5) 0 (fun _ => 0) (fun _ _ => 0) true) = some t
    ∧ t.solved = true ∧ t.u 0 = 4 / 5 ∧ t.u 0 ≠ 1 := by
  refine ⟨(heatLoop 1 (1 : ℚ) (2 / 5) 1 (1 / 100000000) true heated divide 5 (heatInit (2 / 5) 0 (fun _ => 0) (fun _ _ => 0) true)).get (by decide +kernel), (Option.some_get _).symm, ?_, ?_, ?_⟩ <;>
    decide +kernel

/-- The hypotheses of `C92_run` are met by the body with one node. -/
example : ∃ t, heatLoop 1 (1 / 2 : ℚ) (1 / 4) 1 (1 / 100000000) true heated divide 6 (heatInit (1 / 4) 0 (fun _ => 0) (fun _ _ => 0) true) = some t ∧ t.solved = true ∧ t.substep = 4 ∧ t.u 0 = 7 / 8 := by
  refine ⟨(heatLoop 1 (1 / 2 : ℚ) (1 / 4) 1 (1 / 100000000) true heated divide 6 (heatInit (1 / 4) 0 (fun _ => 0) (fun _ _ => 0) true)).get (by decide +kernel), (Option.some_get _).symm, ?_, ?_, ?_⟩ <;>
    decide +kernel

example : FlagsOk (heated : ℚ → Vec ℚ → Assembled ℚ) := Or.inl fun _ _ => rfl

/-- A bar of two nodes that cools: the hypotheses of `C92_stable` hold with `U = (1, -1)` and the consistent rates. -/
example : Symm 2 (fun i j => if i = j then (1 : ℚ) else 0) ∧ HeatBalance 2 (fun _ => False) (fun i j => if i = j then (1 : ℚ) else -1) (fun i j => if i = j then (1 : ℚ) else 0) (fun _ => 0)
    (fun i => if i = 0 then 1 else -1) (fun i => if i = 0 then -2 else 2) := by
  refine ⟨fun i j _ _ => by simp [eq_comm], fun i hi _ => ?_⟩
  have : i = 0 ∨ i = 1 := by omega
  rcases this with rfl | rfl <;> norm_num [sum_range_succ]

end Verif.Transient
