import Verif.Prop.TransientNewmark
/-!
C94: nonlinear transient structural mechanics.
-/
namespace Verif.Transient

open Finset

section
variable {K : Type} [Field K]

/-- The right-hand side of an iteration is the imbalance of the motion. -/
theorem correctorRhs_eq (n : Nat) (p : GenAlpha K) (d : StepData K) (inner : Vec K → Vec K) (old cur : Motion K) (i : Nat) : correctorRhs n p d (inner cur.u) old cur i = imbalance n p d inner old cur i := by
  simp only [correctorRhs, imbalance, mv]
  have : ∑ j ∈ range n, d.m i j * (0 + (1 - p.alphaM) * cur.a j + p.alphaM * old.a j) = ∑ j ∈ range n, d.m i j * ((1 - p.alphaM) * cur.a j + p.alphaM * old.a j) :=
    sum_congr rfl fun j _ => by ring
  rw [this]
  ring

/-- C94: after an iteration the motion satisfies Newmark's formulas with `beta = alpha` and `gamma = delta`, whatever it was before. -/
theorem C94_newmark (n : Nat) (p : GenAlpha K) (h : K) (h2 : (2 : K) ≠ 0) (ha : p.alpha ≠ 0) (hh : h ≠ 0) (d : StepData K) (inner : Vec K → Vec K × Mat K) (solve : Solver K) (old cur : Motion K) :
    let t := (corrector n p h d inner solve old cur).1
    Newmark p.alpha p.delta h old.u old.v old.a t.u t.v t.a := by
  intro t i
  have hv : t.v i = 0 + p.delta / (p.alpha * h) * t.u i + -p.delta / (p.alpha * h) * old.u i + (-p.delta / p.alpha + 1) * old.v i + -h / 2 * (p.delta / p.alpha - 2) * old.a i := rfl
  have hw : t.a i = 0 + 1 / (p.alpha * h * h) * t.u i + -1 / (p.alpha * h * h) * old.u i + -1 / (p.alpha * h) * old.v i + (-1 / (2 * p.alpha) + 1) * old.a i := rfl
  rw [hv, hw]
  constructor <;> field_simp <;> ring

/-- C94: a motion that the iteration does not change has the prescribed displacements and satisfies the equation of motion in the free rows. -/
theorem C94_fixed_point (n : Nat) (fixed : Nat → Prop) (p : GenAlpha K) (h : K) (d : StepData K) (inner : Vec K → Vec K × Mat K) (solve : Solver K) (ok : AlwaysSolves n fixed solve) (old cur : Motion K)
    (e : ∀ i, i < n → (corrector n p h d inner solve old cur).2.1 i = 0) :
    (∀ i, i < n → fixed i → cur.u i = d.g i) ∧ ∀ i, i < n → ¬fixed i → imbalance n p d (fun u => (inner u).1) old cur i = 0 := by
  have s := ok (effective p h d (inner cur.u).2) (correctorRhs n p d (inner cur.u).1 old cur) fun i => d.g i + -1 * cur.u i
  refine ⟨fun i hi hf => ?_, fun i hi hf => ?_⟩
  · have := s.1 i hi hf
    have z := e i hi
    change (solve _ _ _).2 i = 0 at z
    rw [z] at this
    linear_combination this
  · have := s.2 i hi hf
    rw [← correctorRhs_eq n p d (fun u => (inner u).1), ← this]
    refine sum_eq_zero fun j hj => ?_
    have z := e j (mem_range.1 hj)
    change (solve _ _ _).2 j = 0 at z
    rw [z, mul_zero]

/-- C94: after an iteration the prescribed displacements are met. -/
theorem C94_prescribed (n : Nat) (fixed : Nat → Prop) (p : GenAlpha K) (h : K) (d : StepData K) (inner : Vec K → Vec K × Mat K) (solve : Solver K) (ok : AlwaysSolves n fixed solve) (old cur : Motion K)
    (i : Nat) (hi : i < n) (hf : fixed i) : (corrector n p h d inner solve old cur).1.u i = d.g i := by
  have s := (ok (effective p h d (inner cur.u).2) (correctorRhs n p d (inner cur.u).1 old cur) fun i => d.g i + -1 * cur.u i).1 i hi hf
  change cur.u i + 1 * (solve _ _ _).2 i = d.g i
  rw [s]
  ring

/-- C94, without damping: if the inner forces are linear, one iteration from a motion that satisfies Newmark's formulas balances the forces in the free rows. With damping this is false
(`C94_damping_wrong`); the predictor does not satisfy the formulas (`C94_predictor_wrong`), so two iterations are needed. -/
theorem C94_linear_partial (n : Nat) (fixed : Nat → Prop) (p : GenAlpha K) (h : K) (h2 : (2 : K) ≠ 0) (ha : p.alpha ≠ 0) (hh : h ≠ 0) (d : StepData K) (hc : ∀ i j, d.c i j = 0) (k0 : Mat K)
    (inner : Vec K → Vec K × Mat K) (lin : ∀ u, inner u = (fun i => ∑ j ∈ range n, k0 i j * u j, k0)) (solve : Solver K) (ok : AlwaysSolves n fixed solve) (old cur : Motion K)
    (nm : Newmark p.alpha p.delta h old.u old.v old.a cur.u cur.v cur.a) (i : Nat) (hi : i < n) (hf : ¬fixed i) :
    imbalance n p d (fun u => (inner u).1) old (corrector n p h d inner solve old cur).1 i = 0 := by
  have s := (ok (effective p h d (inner cur.u).2) (correctorRhs n p d (inner cur.u).1 old cur) fun i => d.g i + -1 * cur.u i).2 i hi hf
  rw [correctorRhs_eq n p d (fun u => (inner u).1)] at s
  generalize hx : (solve (effective p h d (inner cur.u).2) (correctorRhs n p d (inner cur.u).1 old cur) fun i => d.g i + -1 * cur.u i).2 = x at s
  have hu : ∀ j, (corrector n p h d inner solve old cur).1.u j = cur.u j + x j := by
    intro j
    change cur.u j + 1 * (solve _ _ _).2 j = _
    rw [hx, one_mul]
  have hw : ∀ j, (corrector n p h d inner solve old cur).1.a j = cur.a j + 1 / (p.alpha * h * h) * x j := by
    intro j
    have nw := C94_newmark n p h h2 ha hh d inner solve old cur j
    have n1 := nw.1
    have n0 := (nm j).1
    rw [hu j] at n1
    field_simp
    have := n1.symm.trans (congrArg (· + x j) n0)
    linear_combination this
  simp only [imbalance, lin] at s ⊢
  simp only [hc, zero_mul, sum_const_zero, effective, GenAlpha.coefficients, hu, hw] at s ⊢
  have e1 : ∑ j ∈ range n, (0 + (1 - p.alphaM) / (p.alpha * h * h) * d.m i j + (1 - p.alphaF) * h / (p.alpha * h) * 0 + (1 - p.alphaF) * k0 i j) * x j
      = (1 - p.alphaM) / (p.alpha * h * h) * (∑ j ∈ range n, d.m i j * x j) + (1 - p.alphaF) * ∑ j ∈ range n, k0 i j * x j := by
    rw [mul_sum, mul_sum, ← sum_add_distrib]
    exact sum_congr rfl fun j _ => by ring
  have e2 : ∑ j ∈ range n, k0 i j * (cur.u j + x j) = (∑ j ∈ range n, k0 i j * cur.u j) + ∑ j ∈ range n, k0 i j * x j := by
    rw [← sum_add_distrib]
    exact sum_congr rfl fun j _ => by ring
  have e3 : ∑ j ∈ range n, d.m i j * ((1 - p.alphaM) * (cur.a j + 1 / (p.alpha * h * h) * x j) + p.alphaM * old.a j)
      = (∑ j ∈ range n, d.m i j * ((1 - p.alphaM) * cur.a j + p.alphaM * old.a j)) + (1 - p.alphaM) / (p.alpha * h * h) * ∑ j ∈ range n, d.m i j * x j := by
    rw [mul_sum, ← sum_add_distrib]
    exact sum_congr rfl fun j _ => by ring
  rw [e1] at s
  rw [e2, e3]
  linear_combination -s

/-- C94, without damping: if the inner forces are linear, two iterations balance the forces in the free rows, whatever the predictor was. -/
theorem C94_two_iterations_partial (n : Nat) (fixed : Nat → Prop) (p : GenAlpha K) (h : K) (h2 : (2 : K) ≠ 0) (ha : p.alpha ≠ 0) (hh : h ≠ 0) (d : StepData K) (hc : ∀ i j, d.c i j = 0) (k0 : Mat K)
    (inner : Vec K → Vec K × Mat K) (lin : ∀ u, inner u = (fun i => ∑ j ∈ range n, k0 i j * u j, k0)) (solve : Solver K) (ok : AlwaysSolves n fixed solve) (old cur : Motion K) (i : Nat) (hi : i < n)
    (hf : ¬fixed i) : imbalance n p d (fun u => (inner u).1) old (corrector n p h d inner solve old (corrector n p h d inner solve old cur).1).1 i = 0 :=
  C94_linear_partial n fixed p h h2 ha hh d hc k0 inner lin solve ok old _ (C94_newmark n p h h2 ha hh d inner solve old cur) i hi hf

end

section
variable {K : Type} [Field K] [LinearOrder K] [IsStrictOrderedRing K]

/-- What the convergence criteria say. -/
theorem criteria_true (c : Criteria K) (eps xNorm uNorm bNorm fNorm : K) (he : 0 < eps) (hf : 0 ≤ fNorm) (h : criteria c eps xNorm uNorm bNorm fNorm = true) :
    (c.first = true → xNorm ≤ c.firstTol * max uNorm eps) ∧ (c.second = true → bNorm ≤ c.secondTol * (1 + fNorm)) := by
  simp only [criteria, Bool.and_eq_true, Bool.or_eq_true, Bool.not_eq_true', decide_eq_false_iff_not, gt_iff_lt, not_lt] at h
  refine ⟨fun h1 => ?_, fun h2 => ?_⟩
  · rcases h.1 with q | q
    · rw [h1] at q
      exact absurd q (by simp)
    · exact (div_le_iff₀ (lt_max_of_lt_right he)).1 q
  · rcases h.2 with q | q
    · rw [h2] at q
      exact absurd q (by simp)
    · exact (div_le_iff₀ (by linarith)).1 q

/-- C94: a step reported as converged took at least one and at most the allowed number of iterations; its motion satisfies Newmark's formulas, has the prescribed displacements, and comes from a motion by
a correction within the first tolerance, where the imbalance of that motion was within the second one. -/
theorem C94_reported (n : Nat) (fixed : Nat → Prop) (p : GenAlpha K) (h : K) (ha : p.alpha ≠ 0) (hh : h ≠ 0) (d : StepData K) (inner : Vec K → Vec K × Mat K) (solve : Solver K)
    (ok : AlwaysSolves n fixed solve) (c : Criteria K) (eps : K) (he : 0 < eps) (norm bNorm : Vec K → K) (hn : ∀ x, 0 ≤ norm x) (maxIterations : Nat) (old t : Motion K) (its : Nat)
    (e : genAlphaStep n p h d inner solve c eps norm bNorm maxIterations old = (t, true, its)) :
    0 < its ∧ its ≤ maxIterations ∧ Newmark p.alpha p.delta h old.u old.v old.a t.u t.v t.a ∧ (∀ i, i < n → fixed i → t.u i = d.g i) ∧ ∃ (cur : Motion K) (dU b : Vec K),
      (∀ i, t.u i = cur.u i + dU i) ∧ (∀ i, b i = imbalance n p d (fun u => (inner u).1) old cur i)
        ∧ (c.first = true → norm dU ≤ c.firstTol * max (norm (predictor n p h d (inner old.u).2 solve old).2) eps) ∧ (c.second = true → bNorm b ≤ c.secondTol * (1 + norm d.f)) := by
  unfold genAlphaStep at e
  dsimp only at e
  generalize (predictor n p h d (inner old.u).2 solve old).1 = start at e
  generalize norm (predictor n p h d (inner old.u).2 solve old).2 = uNorm at e
  induction maxIterations generalizing start its with
  | zero => simp [genAlphaLoop] at e
  | succ k ih =>
    unfold genAlphaLoop at e
    dsimp only at e
    split at e
    · rename_i hc
      simp only [Prod.mk.injEq, true_and] at e
      obtain ⟨rfl, rfl⟩ := e
      have cr := criteria_true c eps _ _ _ _ he (hn _) hc
      refine ⟨Nat.one_pos, by omega, C94_newmark n p h two_ne_zero ha hh d inner solve old start, C94_prescribed n fixed p h d inner solve ok old start, start,
        (corrector n p h d inner solve old start).2.1, (corrector n p h d inner solve old start).2.2, fun i => ?_, fun i => ?_, cr.1, cr.2⟩
      · change start.u i + 1 * _ = _
        rw [one_mul]
        rfl
      · exact correctorRhs_eq n p d (fun u => (inner u).1) old start i
    · simp only [Prod.mk.injEq] at e
      obtain ⟨e1, e2, e3⟩ := e
      have r := ih (its := its - 1) (start := (corrector n p h d inner solve old start).1) (by
        refine Prod.ext e1 (Prod.ext e2 ?_)
        dsimp only
        omega)
      exact ⟨by omega, by omega, r.2.2⟩

end

/-- A damped mass: `M = 1`, `C = 100`, no stiffness, a unit load, at rest before the step. -/
def dashpot : StepData ℚ := ⟨fun _ _ => 1, fun _ _ => 100, fun _ => 1, fun _ => 0, fun _ => 0, fun _ => 0⟩

/-- The default parameters. -/
def defaults : GenAlpha ℚ := ⟨1 / 4, 1 / 2, 0, 0⟩

/-- The motion after `k` iterations of the first step of the damped mass with the default time step 1/10. -/
def dashpotMotion : Nat → Motion ℚ
  | 0 => (predictor 1 defaults (1 / 10) dashpot (fun _ _ => 0) divide ⟨fun _ => 0, fun _ => 0, fun _ => 0⟩).1
  | k + 1 => (corrector 1 defaults (1 / 10) dashpot (fun _ => (fun _ => 0, fun _ _ => 0)) divide ⟨fun _ => 0, fun _ => 0, fun _ => 0⟩ (dashpotMotion k)).1

theorem dashpot_state (k : Nat) : (dashpotMotion k).u 0 = 1 / 2400 * (1 - (-2) ^ (k + 1)) ∧ (dashpotMotion k).v 0 = 20 * (dashpotMotion k).u 0 ∧ (dashpotMotion k).a 0 = 400 * (dashpotMotion k).u 0 := by
  induction k with
  | zero => refine ⟨?_, ?_, ?_⟩ <;> decide +kernel
  | succ k ih =>
    obtain ⟨h1, h2, h3⟩ := ih
    have hu : (dashpotMotion (k + 1)).u 0 = 1 / 2400 * (1 - (-2) ^ (k + 1 + 1)) := by
      simp only [dashpotMotion, corrector, divide, effective, correctorRhs, mv, dashpot, defaults, GenAlpha.coefficients, sum_range_one, h1, h2, h3]
      rw [pow_succ (-2 : ℚ) (k + 1)]
      norm_num
      ring
    refine ⟨hu, ?_, ?_⟩
    · change 0 + (1 / 2 : ℚ) / (1 / 4 * (1 / 10)) * (dashpotMotion (k + 1)).u 0 + -(1 / 2) / (1 / 4 * (1 / 10)) * 0 + (-(1 / 2) / (1 / 4) + 1) * 0 + -(1 / 10) / 2 * ((1 / 2) / (1 / 4) - 2) * 0 = _
      ring
    · change 0 + 1 / (1 / 4 * (1 / 10) * (1 / 10)) * (dashpotMotion (k + 1)).u 0 + -1 / (1 / 4 * (1 / 10) * (1 / 10)) * 0 + -1 / (1 / 4 * (1 / 10)) * 0 + (-1 / (2 * (1 / 4)) + 1) * 0 = _
      ring

/-- C94: the coefficient of the damping matrix has the time step in place of `delta`, so the matrix of the iterations is not the derivative of the imbalance: for the damped mass, which is linear, the
imbalance doubles in each iteration. -/
theorem C94_damping_wrong (k : Nat) : imbalance 1 defaults dashpot (fun _ => fun _ => 0) ⟨fun _ => 0, fun _ => 0, fun _ => 0⟩ (dashpotMotion k) 0 = (-2) ^ (k + 1) := by
  obtain ⟨h1, h2, h3⟩ := dashpot_state k
  simp only [imbalance, dashpot, defaults, sum_range_one, h2, h3, h1]
  ring

/-- C94: the acceleration of the predictor has the wrong sign in a term, so it does not satisfy Newmark's formulas unless the old acceleration vanishes: without load and inner forces a mass that moves with
the acceleration 1. -/
theorem C94_predictor_wrong :
    let t := (predictor 1 defaults 1 ⟨fun _ _ => 1, fun _ _ => 0, fun _ => 1, fun _ => 1, fun _ => 0, fun _ => 0⟩ (fun _ _ => 0) divide ⟨fun _ => 0, fun _ => 0, fun _ => 1⟩).1
    t.u 0 = 1 / 2 ∧ t.v 0 = 1 ∧ t.a 0 = -1 ∧ ¬Newmark (1 / 4) (1 / 2) 1 (fun _ => 0) (fun _ => 0) (fun _ => 1) t.u t.v t.a := by
  refine ⟨by decide +kernel, by decide +kernel, by decide +kernel, fun h => ?_⟩
  have := (h 0).1
  revert this
  decide +kernel

/-- The hypotheses of `C94_reported` are met: an undamped mass under a unit load converges in three iterations. -/
example : (genAlphaStep 1 defaults 1 ⟨fun _ _ => 1, fun _ _ => 0, fun _ => 1, fun _ => 1, fun _ => 0, fun _ => 0⟩ (fun _ => (fun _ => 0, fun _ _ => 0)) divide ⟨true, 1 / 1000, true, 1 / 1000⟩ (1 / 1000)
    (fun x => x 0 * x 0) (fun x => x 0 * x 0) 10 ⟨fun _ => 0, fun _ => 0, fun _ => 1⟩).2 = (true, 3) := by
  decide +kernel

end Verif.Transient
