import Verif.Model.Newton
import Verif.Prop.TransientNonlinear
/-!
C95: Newton's method of the steady analyses.
-/
namespace Verif.Transient

open Finset

section
variable {K : Type} [Field K]

/-- C95: after each solution the prescribed values are met. -/
theorem C95_prescribed (n : Nat) (fixed : Nat → Prop) (ev : Vec K → Tangent K) (solve : Solver K) (ok : AlwaysSolves n fixed solve) (u : Vec K) (i : Nat) (hi : i < n) (hf : fixed i) :
    (newtonIteration ev solve u).1 i = (ev u).g i := by
  have s := (ok (ev u).k (fun i => (ev u).f i + -1 * (ev u).r i) fun i => (ev u).g i + -1 * u i).1 i hi hf
  change u i + 1 * (solve _ _ _).2 i = _
  rw [s]
  ring

/-- C95: displacements that an iteration does not change have the prescribed values, and the inner forces balance the loads in the free rows. -/
theorem C95_fixed_point (n : Nat) (fixed : Nat → Prop) (ev : Vec K → Tangent K) (solve : Solver K) (ok : AlwaysSolves n fixed solve) (u : Vec K)
    (e : ∀ i, i < n → (newtonIteration ev solve u).2.1 i = 0) : (∀ i, i < n → fixed i → u i = (ev u).g i) ∧ ∀ i, i < n → ¬fixed i → (ev u).r i = (ev u).f i := by
  have s := ok (ev u).k (fun i => (ev u).f i + -1 * (ev u).r i) fun i => (ev u).g i + -1 * u i
  refine ⟨fun i hi hf => ?_, fun i hi hf => ?_⟩
  · have := s.1 i hi hf
    have z := e i hi
    change (solve _ _ _).2 i = 0 at z
    rw [z] at this
    linear_combination this
  · have := s.2 i hi hf
    rw [sum_eq_zero fun j hj => by
      have z := e j (mem_range.1 hj)
      change (solve _ _ _).2 j = 0 at z
      rw [z, mul_zero]] at this
    linear_combination this

/-- An iteration with linear inner forces solves the linear problem, from wherever it starts. -/
theorem newton_linear (n : Nat) (fixed : Nat → Prop) (ev : Vec K → Tangent K) (k0 : Mat K) (f g : Vec K) (lin : ∀ u, ev u = ⟨k0, f, fun i => ∑ j ∈ range n, k0 i j * u j, g⟩) (solve : Solver K)
    (ok : AlwaysSolves n fixed solve) (u : Vec K) : Solves n fixed k0 f g (newtonIteration ev solve u).1 := by
  have s := ok (ev u).k (fun i => (ev u).f i + -1 * (ev u).r i) fun i => (ev u).g i + -1 * u i
  refine ⟨fun i hi hf => ?_, fun i hi hf => ?_⟩
  · rw [C95_prescribed n fixed ev solve ok u i hi hf, lin]
  · have := s.2 i hi hf
    generalize hx : (solve (ev u).k (fun i => (ev u).f i + -1 * (ev u).r i) fun i => (ev u).g i + -1 * u i).2 = x at this
    have e : ∀ j, (newtonIteration ev solve u).1 j = u j + x j := by
      intro j
      change u j + 1 * (solve _ _ _).2 j = _
      rw [hx, one_mul]
    simp only [lin] at this
    simp only [e, mul_add, sum_add_distrib]
    rw [this]
    ring

end

section
variable {K : Type} [Field K] [LinearOrder K] [IsStrictOrderedRing K]

/-- C95: a substep reported as converged took at least one and at most the allowed number of iterations; its displacements come from the previous ones by a correction within the first tolerance, they have
the prescribed values evaluated there, and the imbalance there was within the second tolerance. -/
theorem C95_reported (n : Nat) (fixed : Nat → Prop) (ev : Vec K → Tangent K) (solve : Solver K) (ok : AlwaysSolves n fixed solve) (c : Criteria K) (eps : K) (he : 0 < eps) (norm bNorm : Vec K → K)
    (hn : ∀ x, 0 ≤ norm x) (maxIterations : Nat) (u t : Vec K) (its : Nat) (e : newtonSubstep ev solve c eps norm bNorm maxIterations u = (t, true, its)) :
    0 < its ∧ its ≤ maxIterations ∧ ∃ prev dU : Vec K, (∀ i, t i = prev i + dU i) ∧ (∀ i, i < n → fixed i → t i = (ev prev).g i)
      ∧ (c.first = true → norm dU ≤ c.firstTol * max (norm (newtonIteration ev solve u).1) eps)
      ∧ (c.second = true → bNorm (fun i => (ev prev).f i - (ev prev).r i) ≤ c.secondTol * (1 + norm (ev u).f)) := by
  unfold newtonSubstep at e
  dsimp only at e
  generalize hs : (newtonIteration ev solve u).1 = start at e
  generalize norm start = uNorm at e ⊢
  clear hs
  induction maxIterations generalizing start its with
  | zero => simp [newtonLoop] at e
  | succ k ih =>
    unfold newtonLoop at e
    dsimp only at e
    split at e
    · rename_i hc
      simp only [Prod.mk.injEq, true_and] at e
      obtain ⟨rfl, rfl⟩ := e
      have cr := criteria_true c eps _ _ _ _ he (hn _) hc
      refine ⟨Nat.one_pos, by omega, start, (newtonIteration ev solve start).2.1, fun i => ?_, C95_prescribed n fixed ev solve ok start, cr.1, fun h2 => ?_⟩
      · change start i + 1 * _ = _
        rw [one_mul]
        rfl
      · have := cr.2 h2
        rwa [show (newtonIteration ev solve start).2.2 = fun i => (ev start).f i - (ev start).r i from funext fun i => by
          change (ev start).f i + -1 * (ev start).r i = _
          ring] at this
    · simp only [Prod.mk.injEq] at e
      obtain ⟨e1, e2, e3⟩ := e
      have r := ih (its := its - 1) (start := (newtonIteration ev solve start).1) (by
        refine Prod.ext e1 (Prod.ext e2 ?_)
        dsimp only
        omega)
      exact ⟨by omega, by omega, r.2.2⟩

/-- C95: with linear inner forces and a regular tangent, a substep converges in the first iteration, to the solution of the linear problem. -/
theorem C95_linear (n : Nat) (fixed : Nat → Prop) (ev : Vec K → Tangent K) (k0 : Mat K) (f g : Vec K) (lin : ∀ u, ev u = ⟨k0, f, fun i => ∑ j ∈ range n, k0 i j * u j, g⟩) (solve : Solver K)
    (ok : AlwaysSolves n fixed solve) (regular : ∀ x, Solves n fixed k0 (fun _ => 0) (fun _ => 0) x → ∀ i, i < n → x i = 0) (c : Criteria K) (h1 : 0 ≤ c.firstTol) (h2 : 0 ≤ c.secondTol) (eps : K)
    (norm bNorm : Vec K → K) (hn : ∀ x, (∀ i, i < n → x i = 0) → norm x = 0) (hb : ∀ x, (∀ i, i < n → ¬fixed i → x i = 0) → bNorm x = 0) (maxIterations : Nat) (hm : 0 < maxIterations) (u : Vec K) :
    ∃ t, newtonSubstep ev solve c eps norm bNorm maxIterations u = (t, true, 1) ∧ Solves n fixed k0 f g t := by
  obtain ⟨m, rfl⟩ : ∃ m, maxIterations = m + 1 := ⟨maxIterations - 1, by omega⟩
  have s1 := newton_linear n fixed ev k0 f g lin solve ok u
  have s2 := newton_linear n fixed ev k0 f g lin solve ok (newtonIteration ev solve u).1
  generalize hy : (newtonIteration ev solve u).1 = y at s1 s2
  have hd : ∀ i, i < n → (newtonIteration ev solve y).2.1 i = 0 := by
    have e : ∀ j, (newtonIteration ev solve y).2.1 j = (newtonIteration ev solve y).1 j - y j := by
      intro j
      change _ = y j + 1 * (newtonIteration ev solve y).2.1 j - y j
      ring
    refine regular _ ⟨fun i hi hf => ?_, fun i hi hf => ?_⟩
    · rw [e, s2.1 i hi hf, s1.1 i hi hf, sub_self]
    · simp only [e, mul_sub, sum_sub_distrib]
      rw [s2.2 i hi hf, s1.2 i hi hf, sub_self]
  have hr : ∀ i, i < n → ¬fixed i → (newtonIteration ev solve y).2.2 i = 0 := by
    intro i hi hf
    change (ev y).f i + -1 * (ev y).r i = 0
    rw [lin]
    dsimp only
    rw [s1.2 i hi hf]
    ring
  have cr : criteria c eps (norm (newtonIteration ev solve y).2.1) (norm y) (bNorm (newtonIteration ev solve y).2.2) (norm (ev u).f) = true := by
    rw [hn _ hd, hb _ hr]
    simp only [criteria, zero_div, gt_iff_lt, Bool.and_eq_true, Bool.or_eq_true, Bool.not_eq_true', decide_eq_false_iff_not, not_lt]
    exact ⟨Or.inr h1, Or.inr h2⟩
  refine ⟨(newtonIteration ev solve y).1, ?_, s2⟩
  unfold newtonSubstep
  dsimp only
  rw [hy]
  unfold newtonLoop
  dsimp only
  rw [if_pos cr]

/-- C95: the substeps of a load step that converged are at the times `start + duration * (k + 1) / substeps`, the last one at the final time. -/
theorem C95_times (ev : K → Vec K → Tangent K) (solve : Solver K) (c : Criteria K) (eps : K) (norm bNorm : Vec K → K) (maxIterations substeps : Nat) (hs : 0 < substeps) (start duration : K)
    (u t : Vec K) (times : List K) (e : newtonRun ev solve c eps norm bNorm maxIterations substeps start duration u = (t, true, times)) :
    times = (List.range substeps).map fun k => start + duration * ((k + 1 : Nat) : K) / substeps := by
  have hp : (substeps : K) ≠ 0 := by exact_mod_cast hs.ne'
  have main : ∀ todo substep u t times, substep + todo = substeps →
      newtonSubsteps ev solve c eps norm bNorm maxIterations substeps (duration / substeps) (start + duration) todo substep (start + duration * (substep : K) / substeps) u = (t, true, times) →
      times = (List.range todo).map fun k => start + duration * ((substep + k + 1 : Nat) : K) / substeps := by
    intro todo
    induction todo with
    | zero =>
      intro substep u t times _ e
      simp only [newtonSubsteps, Prod.mk.injEq] at e
      rw [← e.2.2]
      rfl
    | succ todo ih =>
      intro substep u t times hl e
      unfold newtonSubsteps at e
      dsimp only at e
      have now : substepTime substeps (duration / substeps) (start + duration) (start + duration * (substep : K) / substeps) substep = start + duration * ((substep + 1 : Nat) : K) / substeps := by
        unfold substepTime
        split
        · rename_i hl
          rw [hl, mul_div_assoc, div_self hp, mul_one]
        · push_cast
          ring
      rw [now] at e
      split at e
      · simp only [Prod.mk.injEq] at e
        have r := ih (substep + 1) _ _ _ (by omega) (Prod.ext e.1 (Prod.ext e.2.1 rfl))
        rw [← e.2.2, List.range_succ_eq_map, List.map_cons, List.map_map]
        refine congrArg₂ _ rfl (r.trans (List.map_congr_left fun k _ => ?_))
        simp only [Function.comp, Nat.succ_eq_add_one]
        rw [show substep + (k + 1) + 1 = substep + 1 + k + 1 by omega]
      · simp at e
  have r := main substeps 0 u t times (by omega) (by
    rw [show start + duration * ((0 : Nat) : K) / substeps = start by simp]
    exact e)
  rw [r]
  exact List.map_congr_left fun k _ => by rw [Nat.zero_add]

/-- C95: nonlinear heat transfer reported as converged has temperatures with the prescribed values that come from the previous ones by a correction within the tolerance relative to them. -/
theorem C95_heat (n : Nat) (fixed : Nat → Prop) (ev : Vec K → Tangent K) (solve : Solver K) (ok : AlwaysSolves n fixed solve) (tol eps : K) (he : 0 < eps) (norm : Vec K → K) (maxIterations : Nat) (u t : Vec K)
    (e : heatNewton ev solve tol eps norm maxIterations u = (t, true)) :
    ∃ prev dx : Vec K, (∀ i, t i = prev i + dx i) ∧ (∀ i, i < n → fixed i → t i = (ev prev).g i) ∧ Solves n fixed (ev prev).k (fun i => (ev prev).f i - (ev prev).r i) (fun i => (ev prev).g i - prev i) dx
      ∧ norm dx ≤ tol * max (norm t) eps := by
  unfold heatNewton at e
  dsimp only at e
  generalize (solve (ev u).k (ev u).f (ev u).g).2 = start at e
  induction maxIterations generalizing start with
  | zero => simp [heatNewtonLoop] at e
  | succ k ih =>
    unfold heatNewtonLoop at e
    dsimp only at e
    split at e
    · exact ih _ e
    · rename_i hc
      simp only [Prod.mk.injEq, and_true] at e
      have s := ok (ev start).k (fun i => (ev start).f i + -1 * (ev start).r i) fun i => (ev start).g i + -1 * start i
      generalize hx : (solve (ev start).k (fun i => (ev start).f i + -1 * (ev start).r i) fun i => (ev start).g i + -1 * start i).2 = x at e s hc
      refine ⟨start, x, fun i => ?_, fun i hi hf => ?_, ⟨fun i hi hf => ?_, fun i hi hf => ?_⟩, ?_⟩
      · rw [← e]
        ring
      · rw [← e]
        dsimp only
        rw [s.1 i hi hf]
        ring
      · rw [s.1 i hi hf]
        ring
      · rw [s.2 i hi hf]
        ring
      · rw [← e]
        exact (div_le_iff₀ (lt_max_of_lt_right he)).1 (not_lt.1 hc)

end

/-- A nonlinear spring: `R(u) = u³`, the load 8, and its tangent. -/
def spring : Vec ℚ → Tangent ℚ := fun u => ⟨fun _ _ => 3 * u 0 ^ 2, fun _ => 8, fun _ => u 0 ^ 3, fun _ => 0⟩

/-- The hypotheses of `C95_reported` are met: from `u = 3` the method converges to 2 in three iterations. -/
example : (newtonSubstep spring divide ⟨true, 1 / 100, true, 1 / 100⟩ (1 / 1000) (fun x => x 0 * x 0) (fun x => x 0 * x 0) 10 (fun _ => 3)).2.1 = true := by decide +kernel

/-- A load step of two substeps: the times are 1/2 and 1. -/
example : (newtonRun (fun _ => spring) divide ⟨true, 1 / 100, true, 1 / 100⟩ (1 / 1000) (fun x => x 0 * x 0) (fun x => x 0 * x 0) 10 2 0 1 (fun _ => 3)).2 = (true, [1 / 2, 1]) := by decide +kernel

/-- A linear spring meets the hypotheses of `C95_linear`. -/
example : ∀ x : Vec ℚ, Solves 1 (fun _ => False) (fun _ _ => (2 : ℚ)) (fun _ => 0) (fun _ => 0) x → ∀ i, i < 1 → x i = 0 := by
  intro x h i hi
  obtain rfl : i = 0 := by omega
  have := h.2 0 (by omega) (fun f => f)
  simpa using this

example : (heatNewton spring divide (1 / 100) (1 / 1000) (fun x => x 0 * x 0) 10 (fun _ => 3)).2 = true := by decide +kernel

end Verif.Transient
