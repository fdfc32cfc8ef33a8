import Verif.Proof.MprgpRun
import Mathlib.Algebra.Field.Rat
import Mathlib.Algebra.Order.Field.Rat
import Mathlib.Algebra.BigOperators.Fin
import Mathlib.Data.Rat.Floor
import Mathlib.Algebra.Order.Archimedean.Basic
import Mathlib.Tactic.NormNum
import Mathlib.Tactic.FinCases
/-!
C72, C73: the modified proportioning with reduced gradient projections in exact arithmetic.
-/
namespace Verif.Mprgp

variable {ι K : Type} [Fintype ι] [Field K] [LinearOrder K] [IsStrictOrderedRing K]

/-- **C72.** From a feasible initial guess every result is feasible, its gradient is `H x - b`, and the function is not greater than at the beginning when `alpha` is at most two over the norm of `H`. -/
theorem C72_feasible (P : Problem ι K) (hP : Valid P) (cfg : Config K) (stop : (ι → K) → (ι → K) → Bool) (fuel it : Nat) (x0 : ι → K) (hx0 : P.B.Has x0) (s : State ι K) (info : Info)
    (hr : run P cfg stop fuel x0 it = some (s, info)) :
    P.B.Has s.x ∧ (∀ i, s.g i = P.H s.x i - P.b i) ∧ ((∀ v, P.alpha * dot v (P.H v) ≤ 2 * dot v v) → cost P.H P.b s.x ≤ cost P.H P.b x0) := by
  have hi := (mloop_inv hP cfg stop fuel (begin_inv cfg.eps hx0) hr).1
  refine ⟨hi.has, fun i => ?_, fun hup => mloop_descends hP hup fuel (begin_inv cfg.eps hx0) hr⟩
  have := congrFun hi.gradient i
  rw [show (s, info).1.g i = s.g i from rfl] at this
  rw [this]
  show P.H s.x i + -1 * P.b i = _
  ring

/-- **C72.** The gradient tested by the loop is zero exactly at the minima. -/
theorem C72_optimal (P : Problem ι K) (hP : Valid P) (cfg : Config K) (stop : (ι → K) → (ι → K) → Bool) (fuel it : Nat) (x0 : ι → K) (hx0 : P.B.Has x0) (s : State ι K) (info : Info)
    (hr : run P cfg stop fuel x0 it = some (s, info)) :
    (s.gstop = 0 → Minimises P.B P.H P.b s.x) ∧ ((∃ sigma, 0 ≤ sigma ∧ sigma < 2 ∧ ∀ v, P.alpha * dot v (P.H v) ≤ sigma * dot v v) → Minimises P.B P.H P.b s.x → s.gstop = 0) := by
  have hi := (mloop_inv hP cfg stop fuel (begin_inv cfg.eps hx0) hr).1
  have hgs : s.gstop = reducedAt P s.x := by
    have h1 := hi.stop
    have h2 := hi.red
    have h3 := hi.gradient
    dsimp only at h1 h2 h3
    rw [h1, h2, h3]
  rw [hgs]
  exact ⟨minimises_of_reduced hP hi.has, fun ⟨sigma, h0, h2, hup⟩ hm => reduced_of_minimises hP h0 h2 hup hm⟩

/-- **C72.** The error of a result whose tested gradient is small. -/
theorem C72_error (P : Problem ι K) (hP : Valid P) {sigma a : K} (h0 : 0 ≤ sigma) (h2 : sigma < 2) (hup : ∀ v, P.alpha * dot v (P.H v) ≤ sigma * dot v v) (ha : 0 < a)
    (hlow : ∀ v, a * dot v v ≤ dot v (P.H v)) (cfg : Config K) (stop : (ι → K) → (ι → K) → Bool) (fuel it : Nat) (x0 : ι → K) (hx0 : P.B.Has x0) (s : State ι K) (info : Info)
    (hr : run P cfg stop fuel x0 it = some (s, info)) (y : ι → K) (hy : Minimises P.B P.H P.b y) : a ^ 2 * dot (s.x - y) (s.x - y) ≤ 4 * dot s.gstop s.gstop := by
  have hi := (mloop_inv hP cfg stop fuel (begin_inv cfg.eps hx0) hr).1
  have hgs : s.gstop = reducedAt P s.x := by
    have h1 := hi.stop
    have h2 := hi.red
    have h3 := hi.gradient
    dsimp only at h1 h2 h3
    rw [h1, h2, h3]
  have := error_le hP h0 h2 hup ha hlow hi.has hy
  rw [hgs]
  have e : s.x - y = s.x + (-1 : K) • y := by
    funext i
    show s.x i - y i = s.x i + -1 * y i
    ring
  rw [e]
  exact this

theorem begin_measure (P : Problem ι K) (eps : K) (x : ι → K) : measure P (begin P eps x) ≤ Fintype.card ι := by
  unfold measure
  rw [if_pos (show (begin P eps x).p = direction P (begin P eps x) from rfl)]
  exact Finset.card_le_univ _

/-- **C72.** The rate of the convergence: the distance of the function from its minimum is multiplied by `1 - c a` at least once in `card ι + 2` steps. -/
theorem C72_rate (P : Problem ι K) (cfg : Config K) {sigma a m1 m2 c : K} (hP : Strong P cfg sigma a m1 m2 c) (stop : (ι → K) → (ι → K) → Bool) (hstop : ∀ x, stop x 0 = true) (fuel it : Nat)
    (x0 : ι → K) (hx0 : P.B.Has x0) (s : State ι K) (info : Info) (hr : run P cfg stop fuel x0 it = some (s, info)) (y : ι → K) (hy : Minimises P.B P.H P.b y) :
    0 ≤ 1 - c * a ∧ 1 - c * a < 1 ∧
      cost P.H P.b s.x - cost P.H P.b y ≤ (1 - c * a) ^ ((info.ncg + info.nmixed + info.ngproj + 1) / (Fintype.card ι + 2)) * (cost P.H P.b x0 - cost P.H P.b y) := by
  have hca : c * a ≤ 1 := by
    have h1 := hP.c1
    have h2 : P.alpha * (1 - sigma / 2) ≤ P.alpha := by nlinarith [hP.valid.alpha, hP.sigma0]
    exact (mul_le_mul_of_nonneg_right (h1.trans h2) (le_of_lt hP.a0)).trans hP.a1
  have hca0 : 0 < c * a := mul_pos hP.c0 hP.a0
  refine ⟨by linarith, by linarith, ?_⟩
  obtain ⟨k, h1, _, h3⟩ := mloop_rate hP hstop fuel (begin_inv cfg.eps hx0) hr
  have hm := begin_measure P cfg.eps x0
  have h4 : info.ncg + info.nmixed + info.ngproj ≤ Fintype.card ι + k * (Fintype.card ι + 2) := by
    have e : (⟨it, 0, 0, 0⟩ : Info).steps = 0 := rfl
    rw [e] at h1
    have e2 : (s, info).2.steps = info.ncg + info.nmixed + info.ngproj := rfl
    rw [e2] at h1
    omega
  have hk : (info.ncg + info.nmixed + info.ngproj + 1) / (Fintype.card ι + 2) ≤ k := by
    refine Nat.lt_succ_iff.1 ((Nat.div_lt_iff_lt_mul (by omega)).2 ?_)
    rw [Nat.succ_mul]
    omega
  refine (h3 y hy.1).trans ?_
  refine mul_le_mul_of_nonneg_right (pow_le_pow_of_le_one (by linarith) (by linarith) hk) ?_
  have := hy.2 x0 hx0
  show 0 ≤ cost P.H P.b x0 - _
  linarith

/-- **C72.** The loop never divides by zero and stops after `(k + 1) (card ι + 2)` iterations at the latest if `(1 - c a) ^ k` is small enough for the tolerance. -/
theorem C72_stops (P : Problem ι K) (cfg : Config K) {sigma a m1 m2 c tol : K} (hP : Strong P cfg sigma a m1 m2 c) (htol : 0 ≤ tol) (stop : (ι → K) → (ι → K) → Bool)
    (hstop : ∀ x g, dot g g ≤ tol → stop x g = true) (x0 : ι → K) (hx0 : P.B.Has x0) (k : Nat)
    (hk : (1 - c * a) ^ k * (cost P.H P.b x0 + dot P.b P.b / (2 * a)) ≤ P.alpha * (1 - sigma / 2) * tol) (hmax : (k + 1) * (Fintype.card ι + 2) ≤ cfg.maxIterations) (fuel : Nat)
    (hf : cfg.maxIterations < fuel) :
    ∃ s info, run P cfg stop fuel x0 0 = some (s, info) ∧ stop s.x s.gstop = true ∧ info.iterations ≤ (k + 1) * (Fintype.card ι + 2) := by
  have h00 : ∀ x, stop x 0 = true := fun x => hstop x 0 (by
    have : dot (0 : ι → K) 0 = 0 := by unfold dot; simp
    rw [this]
    exact htol)
  have hcap : 0 < P.alpha * (1 - sigma / 2) := lt_of_lt_of_le hP.c0 hP.c1
  have hca : c * a ≤ 1 := by
    have h1 := hP.c1
    have h2 : P.alpha * (1 - sigma / 2) ≤ P.alpha := by nlinarith [hP.valid.alpha, hP.sigma0]
    exact (mul_le_mul_of_nonneg_right (h1.trans h2) (le_of_lt hP.a0)).trans hP.a1
  have hca0 : 0 < c * a := mul_pos hP.c0 hP.a0
  obtain ⟨M, hM⟩ : ∃ M, M = (k + 1) * (Fintype.card ι + 2) := ⟨_, rfl⟩
  have hP' : Strong P { cfg with maxIterations := M } sigma a m1 m2 c :=
    ⟨hP.valid, hP.upper, hP.sigma0, hP.sigma2, hP.lower, hP.a0, hP.a1, hP.prec1, hP.m10, hP.prec2, hP.m20, hP.delta, hP.eps, hP.c0, hP.c1, hP.c2, hP.c3⟩
  have hi0 : Inv P ({ cfg with maxIterations := M } : Config K).eps (begin P cfg.eps x0) := begin_inv cfg.eps hx0
  obtain ⟨⟨s, info⟩, hres⟩ := mloop_ends hP' h00 (M + 1) (info := ⟨0, 0, 0, 0⟩) hi0 (by dsimp only; omega) (by omega)
  obtain ⟨hi, hend⟩ := mloop_inv hP'.valid _ stop (M + 1) hi0 hres
  obtain ⟨j, j1, _, j3⟩ := mloop_rate hP' h00 (M + 1) hi0 hres
  have hm := begin_measure P cfg.eps x0
  rcases hend with ⟨e1, _, e3⟩ | ⟨e1, e2, e3, e4⟩
  · refine ⟨s, info, mloop_mono (cfg := { cfg with maxIterations := M }) (n := cfg.maxIterations) (by dsimp only; omega) (M + 1) fuel (by omega) hres e1, e1, ?_⟩
    have := e3 (Nat.zero_le _)
    dsimp only at this
    omega
  · exfalso
    have hit := e4 (Nat.zero_le _)
    have e : (⟨0, 0, 0, 0⟩ : Info).steps = 0 := rfl
    rw [e] at j1 e2
    dsimp only at e2 hit j1
    have hkj : k ≤ j := by
      by_contra hc
      have hlt : j + 1 ≤ k + 1 := by omega
      have := Nat.mul_le_mul_right (Fintype.card ι + 2) hlt
      rw [Nat.succ_mul] at this
      omega
    have hg := gstop_le hP' hi j3
    have hC : 0 ≤ cost P.H P.b x0 + dot P.b P.b / (2 * a) := by linarith [cost_lower hP.a0 hP.lower P.b x0]
    have hpow := mul_le_mul_of_nonneg_right (pow_le_pow_of_le_one (by linarith : 0 ≤ 1 - c * a) (by linarith) hkj) hC
    have hfin : P.alpha * (1 - sigma / 2) * dot s.gstop s.gstop ≤ P.alpha * (1 - sigma / 2) * tol := hg.trans (hpow.trans hk)
    have := hstop s.x s.gstop (le_of_mul_le_mul_left hfin hcap)
    rw [this] at e1
    cases e1

/-- The assumptions without the constant of the rate. -/
structure Definite (P : Problem ι K) (cfg : Config K) (sigma a m1 m2 : K) : Prop where
  proper : P.B.Proper
  quadratic : Quadratic P.H
  alpha : 0 < P.alpha
  upper : ∀ v, P.alpha * dot v (P.H v) ≤ sigma * dot v v
  sigma0 : 0 < sigma
  sigma2 : sigma < 2
  lower : ∀ v, a * dot v v ≤ dot v (P.H v)
  a0 : 0 < a
  prec1 : ∀ v, m1 * dot v v ≤ dot v (P.Hprec v)
  m10 : 0 < m1
  prec2 : ∀ v, dot (P.Hprec v) (P.Hprec v) ≤ m2 * dot v (P.Hprec v)
  m20 : 0 < m2
  delta : 0 < cfg.delta
  half : cfg.gradproj = false → 2 * cfg.delta < 1
  eps : 0 ≤ cfg.eps

theorem Definite.strong {P : Problem ι K} {cfg : Config K} {sigma a m1 m2 : K} (h : Definite P cfg sigma a m1 m2) : ∃ a' c, Strong P cfg sigma a' m1 m2 c := by
  have hq : 0 < P.alpha * (1 - sigma / 2) := mul_pos h.alpha (by linarith [h.sigma2])
  have hsm : 0 < sigma * m2 := mul_pos h.sigma0 h.m20
  have hr : 0 < P.alpha * m1 * cfg.delta / (sigma * m2) := div_pos (mul_pos (mul_pos h.alpha h.m10) h.delta) hsm
  obtain ⟨t, ht0, ht1⟩ : ∃ t : K, 0 < t ∧ (cfg.gradproj = false → t ≤ P.alpha * (1 - sigma / 2) * (1 - 2 * cfg.delta)) := by
    cases hg : cfg.gradproj
    · exact ⟨_, mul_pos hq (by linarith [h.half hg]), fun _ => le_refl _⟩
    · exact ⟨1, one_pos, fun e => absurd e (by simp)⟩
  have ha' : min a (1 / P.alpha) ≤ a := min_le_left _ _
  refine ⟨min a (1 / P.alpha), min (P.alpha * (1 - sigma / 2)) (min (P.alpha * m1 * cfg.delta / (sigma * m2)) t),
    ⟨h.proper, h.quadratic, fun v => (mul_nonneg (le_of_lt h.a0) (dot_self_nonneg v)).trans (h.lower v), fun v => (mul_nonneg (le_of_lt h.m10) (dot_self_nonneg v)).trans (h.prec1 v), h.alpha⟩, h.upper,
    h.sigma0, h.sigma2, fun v => (mul_le_mul_of_nonneg_right ha' (dot_self_nonneg v)).trans (h.lower v), lt_min h.a0 (one_div_pos.2 h.alpha), ?_, h.prec1, h.m10, h.prec2, h.m20, h.delta, h.eps,
    lt_min hq (lt_min hr ht0), min_le_left _ _, ?_, fun e => ((min_le_right _ _).trans (min_le_right _ _)).trans (ht1 e)⟩
  · have := mul_le_mul_of_nonneg_left (min_le_right a (1 / P.alpha)) (le_of_lt h.alpha)
    rwa [mul_one_div_cancel (ne_of_gt h.alpha)] at this
  · exact (le_div_iff₀ hsm).1 ((min_le_right _ _).trans (min_le_left _ _))

/-- **C72.** For a positive definite `H` and preconditioner, `alpha` below two over the norm of `H`, a positive tolerance and enough iterations allowed, the loop stops. -/
theorem C72_terminates [Archimedean K] (P : Problem ι K) (cfg : Config K) {sigma a m1 m2 tol : K} (hP : Definite P cfg sigma a m1 m2) (htol : 0 < tol) (stop : (ι → K) → (ι → K) → Bool)
    (hstop : ∀ x g, dot g g ≤ tol → stop x g = true) (x0 : ι → K) (hx0 : P.B.Has x0) :
    ∃ n, ∀ N fuel, n ≤ N → N < fuel → ∃ s info, run P { cfg with maxIterations := N } stop fuel x0 0 = some (s, info) ∧ stop s.x s.gstop = true ∧ info.iterations ≤ n := by
  obtain ⟨a', c, hS⟩ := hP.strong
  have hcap : 0 < P.alpha * (1 - sigma / 2) := lt_of_lt_of_le hS.c0 hS.c1
  have hca : c * a' ≤ 1 := by
    have h1 := hS.c1
    have h2 : P.alpha * (1 - sigma / 2) ≤ P.alpha := by nlinarith [hS.valid.alpha, hS.sigma0]
    exact (mul_le_mul_of_nonneg_right (h1.trans h2) (le_of_lt hS.a0)).trans hS.a1
  have hca0 : 0 < c * a' := mul_pos hS.c0 hS.a0
  have hC : 0 ≤ cost P.H P.b x0 + dot P.b P.b / (2 * a') := by linarith [cost_lower hS.a0 hS.lower P.b x0]
  obtain ⟨k, hk⟩ := exists_pow_lt_of_lt_one (x := P.alpha * (1 - sigma / 2) * tol / (cost P.H P.b x0 + dot P.b P.b / (2 * a') + 1)) (y := 1 - c * a') (div_pos (mul_pos hcap htol) (by linarith)) (by linarith)
  have hk' := (lt_div_iff₀ (by linarith)).1 hk
  have hp : 0 ≤ (1 - c * a') ^ k := pow_nonneg (by linarith) _
  refine ⟨(k + 1) * (Fintype.card ι + 2), fun N fuel hN hf => ?_⟩
  have hS' : Strong P { cfg with maxIterations := N } sigma a' m1 m2 c :=
    ⟨hS.valid, hS.upper, hS.sigma0, hS.sigma2, hS.lower, hS.a0, hS.a1, hS.prec1, hS.m10, hS.prec2, hS.m20, hS.delta, hS.eps, hS.c0, hS.c1, hS.c2, hS.c3⟩
  exact C72_stops P _ hS' (le_of_lt htol) stop hstop x0 hx0 k (by linarith) hN fuel hf

/-- **C73.** What the report means (the missing part is false, `C73_exact_max`: a satisfied condition is not always reported): a converged run satisfies the stopping condition, a run has the error exactly when it is not converged, and the condition is satisfied exactly when at most
`max_iterations` iterations were counted. -/
theorem C73_report_partial (P : Problem ι K) (hP : Valid P) (cfg : Config K) (stop : (ι → K) → (ι → K) → Bool) (fuel : Nat) (x0 : ι → K) (hx0 : P.B.Has x0) (s : State ι K) (info : Info)
    (hr : run P cfg stop fuel x0 0 = some (s, info)) :
    (stop s.x s.gstop = true ↔ info.iterations ≤ cfg.maxIterations) ∧ ((report cfg info).1 = true → stop s.x s.gstop = true) ∧ (report cfg info).2 = !(report cfg info).1 ∧
      (stop s.x s.gstop = true → info.iterations = info.ncg + info.nmixed + info.ngproj) := by
  obtain ⟨_, h⟩ := mloop_inv hP cfg stop fuel (begin_inv cfg.eps hx0) hr
  have h1 : stop s.x s.gstop = true ↔ info.iterations ≤ cfg.maxIterations := by
    rcases h with ⟨e1, _, e3⟩ | ⟨e1, _, e3, _⟩
    · exact ⟨fun _ => e3 (Nat.zero_le _), fun _ => e1⟩
    · refine ⟨fun e => ?_, fun e => ?_⟩
      · rw [show (s, info).1 = s from rfl, e] at e1
        cases e1
      · dsimp only at e3
        omega
  refine ⟨h1, fun hc => h1.2 ?_, ?_, fun hs => ?_⟩
  · unfold report at hc
    simp only [decide_eq_true_eq] at hc
    omega
  · unfold report
    dsimp only
    by_cases hc : info.iterations < cfg.maxIterations
    · rw [decide_eq_true hc]
      rfl
    · rw [decide_eq_false hc, decide_eq_true (by omega)]
      rfl
  · rcases h with ⟨_, e2, _⟩ | ⟨e1, _⟩
    · simpa [Info.steps] using e2
    · rw [show (s, info).1 = s from rfl, hs] at e1
      cases e1

end Verif.Mprgp
