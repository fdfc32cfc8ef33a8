import Verif.Model.Mprgp
import Mathlib.Algebra.BigOperators.Ring.Finset
import Mathlib.Algebra.Order.BigOperators.Group.Finset
import Mathlib.Algebra.Module.LinearMap.Defs
import Mathlib.Data.Fintype.Card
import Mathlib.Tactic.Linarith
import Mathlib.Tactic.Ring
import Mathlib.Tactic.Abel
import Mathlib.Tactic.FieldSimp
import Mathlib.Tactic.Positivity
import Mathlib.Algebra.Order.Monoid.WithTop
/-!
The steps of `MPRGP`.
-/
namespace Verif.Mprgp

open Verif.Feti (divide)

variable {ι K : Type} [Fintype ι] [Field K]

/-! ### The scalar product -/

theorem dot_comm (x y : ι → K) : dot x y = dot y x := Finset.sum_congr rfl fun _ _ => mul_comm _ _

theorem dot_add (x y z : ι → K) : dot x (y + z) = dot x y + dot x z := by
  unfold dot
  rw [← Finset.sum_add_distrib]
  exact Finset.sum_congr rfl fun i _ => mul_add _ _ _

theorem dot_smul (c : K) (x y : ι → K) : dot x (c • y) = c * dot x y := by
  unfold dot
  rw [Finset.mul_sum]
  exact Finset.sum_congr rfl fun i _ => by simp only [Pi.smul_apply, smul_eq_mul]; ring

theorem add_dot (x y z : ι → K) : dot (x + y) z = dot x z + dot y z := by rw [dot_comm, dot_add, dot_comm z, dot_comm z]

theorem smul_dot (c : K) (x y : ι → K) : dot (c • x) y = c * dot x y := by rw [dot_comm, dot_smul, dot_comm]

variable [LinearOrder K] [IsStrictOrderedRing K]

theorem dot_self_nonneg (x : ι → K) : 0 ≤ dot x x := Finset.sum_nonneg fun _ _ => mul_self_nonneg _

theorem dot_self_eq_zero {x : ι → K} (h : dot x x = 0) : x = 0 := by
  funext i
  have := (Finset.sum_eq_zero_iff_of_nonneg (fun i _ => mul_self_nonneg (x i))).1 h i (Finset.mem_univ i)
  exact mul_self_eq_zero.1 this

theorem dot_self_pos {x : ι → K} (h : x ≠ 0) : 0 < dot x x := lt_of_le_of_ne (dot_self_nonneg x) fun e => h (dot_self_eq_zero e.symm)

/-! ### The function -/

/-- `H` is linear and symmetric. -/
structure Quadratic (H : (ι → K) → ι → K) : Prop where
  linear : IsLinearMap K H
  symm : ∀ u v, dot u (H v) = dot v (H u)

/-- The function on a line. -/
theorem cost_line {H : (ι → K) → ι → K} (hH : Quadratic H) (b x p : ι → K) (t : K) :
    cost H b (x + t • p) = cost H b x + t * dot p (H x + (-1 : K) • b) + 1 / 2 * t * t * dot p (H p) := by
  unfold cost
  rw [hH.linear.map_add, hH.linear.map_smul]
  simp only [add_dot, dot_add, smul_dot, dot_smul]
  rw [hH.symm x p, dot_comm b p]
  ring

/-! ### The bounds -/

omit [Fintype ι] [IsStrictOrderedRing K] [Field K] in
theorem restrictToBox_has [Field K] {B : Box ι K} (hB : B.Proper) (x : ι → K) : B.Has (restrictToBox B x) := by
  intro i hi
  unfold restrictToBox
  rw [if_pos hi]
  exact ⟨le_max_left _ _, max_le (hB i hi) (min_le_left _ _)⟩

omit [Fintype ι] in
/-- The reduced gradient at a point of the box: between zero and the gradient, not leaving the box, and optimal. -/
theorem reduced_spec {B : Box ι K} (hB : B.Proper) {x : ι → K} (hx : B.Has x) (g : ι → K) {alpha : K} (ha : 0 < alpha) (i : ι) :
    let r := reducedGradient B g x alpha i
    r * r ≤ r * g i ∧ r * g i ≤ g i * g i ∧ (B.bounded i = true → B.lb i ≤ x i - alpha * r ∧ x i - alpha * r ≤ B.ub i) ∧
      ∀ u, (B.bounded i = true → B.lb i ≤ u ∧ u ≤ B.ub i) → 0 ≤ (g i - r) * (u - (x i - alpha * r)) := by
  intro r
  have hr0 : r = if B.bounded i && decide ((1 / alpha * (x i + (-1) * restrictToBox B (x + (-alpha) • g) i)) * g i < 0) then 0 else 1 / alpha * (x i + (-1) * restrictToBox B (x + (-alpha) • g) i) := rfl
  have hne : alpha ≠ 0 := ne_of_gt ha
  have hinv : 0 < 1 / alpha := by positivity
  by_cases hb : B.bounded i = true
  · have hxi := hx i hb
    have hp : restrictToBox B (x + (-alpha) • g) i = max (B.lb i) (min (B.ub i) (x i + -alpha * g i)) := by
      unfold restrictToBox
      rw [if_pos hb]
      rfl
    rw [hp] at hr0
    obtain ⟨m, hm⟩ : ∃ m, m = max (B.lb i) (min (B.ub i) (x i + -alpha * g i)) := ⟨_, rfl⟩
    rw [← hm] at hr0
    have hmeq : (m = B.lb i ∧ x i + -alpha * g i ≤ B.lb i) ∨ (m = B.ub i ∧ B.ub i ≤ x i + -alpha * g i) ∨ m = x i + -alpha * g i := by
      rcases le_total (B.ub i) (x i + -alpha * g i) with h | h
      · rw [min_eq_left h, max_eq_right (hB i hb)] at hm
        exact .inr (.inl ⟨hm, h⟩)
      · rw [min_eq_right h] at hm
        rcases le_total (B.lb i) (x i + -alpha * g i) with h' | h'
        · rw [max_eq_right h'] at hm
          exact .inr (.inr hm)
        · rw [max_eq_left h'] at hm
          exact .inl ⟨hm, h'⟩
    have hml : B.lb i ≤ m := by rw [hm]; exact le_max_left _ _
    have hmu : m ≤ B.ub i := by rw [hm]; exact max_le (hB i hb) (min_le_left _ _)
    -- the quotient
    obtain ⟨q, hq⟩ : ∃ q, q = 1 / alpha * (x i + (-1) * m) := ⟨_, rfl⟩
    have haq : alpha * q = x i - m := by rw [hq]; field_simp; ring
    rw [← hq] at hr0
    have hsgn : 0 ≤ q * g i := by
      have : 0 ≤ alpha * (q * g i) * alpha := by
        rw [show alpha * (q * g i) * alpha = (alpha * q) * (alpha * g i) by ring, haq]
        rcases le_total 0 (alpha * g i) with h | h
        · refine mul_nonneg ?_ h
          rcases hmeq with h' | h' | h'
          · rw [h'.1]; linarith [hxi.1]
          · linarith [h'.2]
          · linarith
        · refine mul_nonneg_of_nonpos_of_nonpos ?_ h
          rcases hmeq with h' | h' | h'
          · linarith [h'.2]
          · rw [h'.1]; linarith [hxi.2]
          · linarith
      by_contra hc
      push Not at hc
      have : alpha * (q * g i) * alpha < 0 := by
        rw [mul_assoc]
        exact mul_neg_of_pos_of_neg ha (mul_neg_of_neg_of_pos hc ha)
      linarith
    have hrq : r = q := by
      rw [hr0, if_neg]
      rw [Bool.and_eq_true, decide_eq_true_eq]
      exact fun h => absurd h.2 (not_lt.2 hsgn)
    rw [hrq]
    have h4 : ∀ u, (B.bounded i = true → B.lb i ≤ u ∧ u ≤ B.ub i) → 0 ≤ (g i - q) * (u - (x i - alpha * q)) := by
      intro u hu
      have hu := hu hb
      rw [haq]
      have e : alpha * (g i - q) = m - (x i + -alpha * g i) := by rw [mul_sub, haq]; ring
      have : 0 ≤ alpha * ((g i - q) * (u - (x i - (x i - m)))) := by
        rw [← mul_assoc, e]
        rcases hmeq with h' | h' | h'
        · exact mul_nonneg (by linarith [h'.1, h'.2]) (by linarith [h'.1, hu.1])
        · exact mul_nonneg_of_nonpos_of_nonpos (by linarith [h'.1, h'.2]) (by linarith [h'.1, hu.2])
        · rw [h']; simp
      exact nonneg_of_mul_nonneg_right this ha
    have hbox : B.lb i ≤ x i - alpha * q ∧ x i - alpha * q ≤ B.ub i := by rw [haq]; constructor <;> linarith
    have hrr : q * q ≤ q * g i := by
      have := h4 (x i) fun _ => hxi
      have e : (g i - q) * (x i - (x i - alpha * q)) = alpha * (q * g i - q * q) := by ring
      rw [e] at this
      linarith [nonneg_of_mul_nonneg_right this ha]
    refine ⟨hrr, ?_, fun _ => hbox, h4⟩
    nlinarith [mul_self_nonneg (g i - q)]
  · have hp : restrictToBox B (x + (-alpha) • g) i = x i + -alpha * g i := by
      unfold restrictToBox
      rw [if_neg hb]
      rfl
    have hrg : r = g i := by
      rw [hr0, hp, if_neg (by simp [hb])]
      field_simp
      ring
    rw [hrg]
    exact ⟨le_refl _, le_refl _, fun h => absurd h hb, fun u _ => by rw [sub_self, zero_mul]⟩

/-! ### Steps along the reduced gradient -/

omit [Fintype ι] in
/-- A step along a part of the reduced gradient stays in the box. -/
theorem gradient_has {B : Box ι K} (hB : B.Proper) {x : ι → K} (hx : B.Has x) (g : ι → K) {alpha : K} (ha : 0 < alpha) (s : ι → Bool) :
    B.Has (x + (-alpha) • masked (reducedGradient B g x alpha) s) := by
  intro i hi
  show B.lb i ≤ x i + -alpha * masked _ s i ∧ x i + -alpha * masked _ s i ≤ B.ub i
  unfold masked
  split
  · have := (reduced_spec hB hx g ha i).2.2.1 hi
    constructor <;> linarith [this.1, this.2]
  · have := hx i hi
    simpa using this

/-- The function decreases. -/
theorem gradient_cost {H : (ι → K) → ι → K} (hH : Quadratic H) {B : Box ι K} (hB : B.Proper) {x : ι → K} (hx : B.Has x) (b : ι → K) {alpha sigma : K} (ha : 0 < alpha) (h0 : 0 ≤ sigma)
    (hs : ∀ v, alpha * dot v (H v) ≤ sigma * dot v v) (s : ι → Bool) :
    let r := reducedGradient B (H x + (-1 : K) • b) x alpha
    cost H b (x + (-alpha) • masked r s) + alpha * (1 - sigma / 2) * dot (masked r s) (H x + (-1 : K) • b) ≤ cost H b x := by
  intro r
  rw [cost_line hH]
  have h1 := hs (masked r s)
  have h2 : dot (masked r s) (masked r s) ≤ dot (masked r s) (H x + (-1 : K) • b) := by
    refine Finset.sum_le_sum fun i _ => ?_
    unfold masked
    split
    · exact (reduced_spec hB hx _ ha i).1
    · simp
  have h3 : sigma * dot (masked r s) (masked r s) ≤ sigma * dot (masked r s) (H x + (-1 : K) • b) := mul_le_mul_of_nonneg_left h2 h0
  have h4 : alpha * (alpha * dot (masked r s) (H (masked r s))) ≤ alpha * (sigma * dot (masked r s) (H x + (-1 : K) • b)) := mul_le_mul_of_nonneg_left (h1.trans h3) (le_of_lt ha)
  nlinarith

/-- How far the function is from its values in the box. -/
theorem gap_le {H : (ι → K) → ι → K} (hH : Quadratic H) {B : Box ι K} (hB : B.Proper) {x : ι → K} (hx : B.Has x) (b : ι → K) {alpha a : K} (ha : 0 < alpha) (h0 : 0 < a) (h1 : alpha * a ≤ 1)
    (hpos : ∀ v, a * dot v v ≤ dot v (H v)) (u : ι → K) (hu : B.Has u) :
    a * (cost H b x - cost H b u) ≤ dot (reducedGradient B (H x + (-1 : K) • b) x alpha) (H x + (-1 : K) • b) := by
  obtain ⟨g, hg⟩ : ∃ g, g = H x + (-1 : K) • b := ⟨_, rfl⟩
  obtain ⟨d, hd⟩ : ∃ d, d = u + (-1 : K) • x := ⟨_, rfl⟩
  have hud : u = x + (1 : K) • d := by rw [hd, one_smul]; funext i; simp
  have hq : cost H b u = cost H b x + dot d g + 1 / 2 * dot d (H d) := by
    rw [hud, cost_line hH, ← hg]
    ring
  have hpd := hpos d
  -- the point between
  have hsum : 0 ≤ dot (g + (-1 : K) • reducedGradient B g x alpha) ((alpha * a) • d + alpha • reducedGradient B g x alpha) := by
    refine Finset.sum_nonneg fun i _ => ?_
    have hcv : B.bounded i = true → B.lb i ≤ x i + alpha * a * d i ∧ x i + alpha * a * d i ≤ B.ub i := by
      intro hi
      have h2 := hx i hi
      have h3 := hu i hi
      have hdi : d i = u i - x i := by rw [hd]; show u i + -1 * x i = _; ring
      have e : x i + alpha * a * d i = (1 - alpha * a) * x i + alpha * a * u i := by rw [hdi]; ring
      have hp : 0 ≤ alpha * a := by positivity
      rw [e]
      constructor <;> nlinarith [h2.1, h2.2, h3.1, h3.2]
    have := (reduced_spec hB hx g ha i).2.2.2 _ hcv
    show 0 ≤ (g i + -1 * reducedGradient B g x alpha i) * (alpha * a * d i + alpha * reducedGradient B g x alpha i)
    have e : (g i - reducedGradient B g x alpha i) * (x i + alpha * a * d i - (x i - alpha * reducedGradient B g x alpha i)) =
      (g i + -1 * reducedGradient B g x alpha i) * (alpha * a * d i + alpha * reducedGradient B g x alpha i) := by ring
    rw [← e]
    exact this
  rw [← hg]
  obtain ⟨r, hr⟩ : ∃ r, r = reducedGradient B g x alpha := ⟨_, rfl⟩
  rw [← hr] at hsum ⊢
  simp only [add_dot, dot_add, smul_dot, dot_smul] at hsum
  -- 0 ≤ αa g·d + α g·r - αa r·d - α r·r
  have hsq : 0 ≤ dot (r + a • d) (r + a • d) := dot_self_nonneg _
  simp only [add_dot, dot_add, smul_dot, dot_smul] at hsq
  rw [dot_comm d r] at hsq
  rw [hq, dot_comm r g, dot_comm d g]
  have hk : 0 ≤ alpha * (a * dot g d + dot g r - a * dot r d - dot r r) := by
    have e : alpha * (a * dot g d + dot g r - a * dot r d - dot r r) = alpha * a * dot g d + alpha * dot g r + -1 * (alpha * a * dot r d + alpha * dot r r) := by ring
    rw [e]
    linarith
  have hk' := nonneg_of_mul_nonneg_right hk ha
  have hrr : 0 ≤ dot r r := dot_self_nonneg r
  have hdd : a * (a * dot d d) ≤ a * dot d (H d) := mul_le_mul_of_nonneg_left hpd (le_of_lt h0)
  nlinarith

/-! ### The feasible step length -/

theorem le_stepLength {B : Box ι K} {x p : ι → K} {t : K} : (t : WithTop K) ≤ stepLength B x p ↔ ∀ i, (t : WithTop K) ≤ stepLimit B x p i := by
  unfold stepLength
  rw [Finset.le_fold_min]
  simp

/-- Steps up to the length stay in the box. -/
theorem step_has {B : Box ι K} {x p : ι → K} (hx : B.Has x) {t : K} (h0 : 0 ≤ t) (ht : (t : WithTop K) ≤ stepLength B x p) : B.Has (x + (-t) • p) := by
  intro i hi
  have h := le_stepLength.1 ht i
  have hxi := hx i hi
  show B.lb i ≤ x i + -t * p i ∧ x i + -t * p i ≤ B.ub i
  unfold stepLimit at h
  rw [if_pos hi] at h
  by_cases h1 : 0 < p i
  · rw [if_pos h1] at h
    have h2 := (le_div_iff₀ h1).1 (WithTop.coe_le_coe.1 h)
    have h3 : 0 ≤ t * p i := mul_nonneg h0 (le_of_lt h1)
    constructor <;> linarith [hxi.1, hxi.2]
  · rw [if_neg h1] at h
    by_cases h2 : p i < 0
    · rw [if_pos h2] at h
      have h3 := (le_div_iff_of_neg h2).1 (WithTop.coe_le_coe.1 h)
      have h4 : t * p i ≤ 0 := mul_nonpos_of_nonneg_of_nonpos h0 (le_of_lt h2)
      constructor <;> linarith [hxi.1, hxi.2]
    · have : p i = 0 := le_antisymm (not_lt.1 h1) (not_lt.1 h2)
      rw [this]
      constructor <;> linarith [hxi.1, hxi.2]

theorem stepLimit_nonneg {B : Box ι K} {x p : ι → K} (hx : B.Has x) (i : ι) : (0 : WithTop K) ≤ stepLimit B x p i := by
  unfold stepLimit
  by_cases hi : B.bounded i = true
  · rw [if_pos hi]
    have hxi := hx i hi
    by_cases h1 : 0 < p i
    · rw [if_pos h1]
      exact WithTop.coe_le_coe.2 (div_nonneg (by linarith [hxi.1]) (le_of_lt h1))
    · rw [if_neg h1]
      by_cases h2 : p i < 0
      · rw [if_pos h2]
        exact WithTop.coe_le_coe.2 (div_nonneg_of_nonpos (by linarith [hxi.2]) (le_of_lt h2))
      · rw [if_neg h2]
        exact le_top
  · rw [if_neg hi]
    exact le_top

/-- A limit shorter than `t` belongs to a component that reaches its bound: the variable whose limit is the length. -/
theorem stepLength_attained {B : Box ι K} {x p : ι → K} (hx : B.Has x) {t : K} (h : ¬ (t : WithTop K) ≤ stepLength B x p) :
    ∃ (af : K) (i : ι), stepLength B x p = af ∧ 0 ≤ af ∧ af < t ∧ B.bounded i = true ∧ p i ≠ 0 ∧
      ((0 < p i ∧ x i + -af * p i = B.lb i ∧ x i + -t * p i ≤ B.lb i) ∨ (p i < 0 ∧ x i + -af * p i = B.ub i ∧ B.ub i ≤ x i + -t * p i)) := by
  have hlt := not_le.1 h
  have hle : stepLength B x p ≤ stepLength B x p := le_refl _
  have hsome : ∃ i, stepLimit B x p i ≤ stepLength B x p := by
    have h1 := hle
    conv at h1 => lhs; unfold stepLength
    rw [Finset.fold_min_le] at h1
    rcases h1 with h1 | ⟨i, _, hi⟩
    · exact absurd (lt_of_lt_of_le (WithTop.coe_lt_top t) h1) (not_lt.2 (le_of_lt hlt))
    · exact ⟨i, hi⟩
  obtain ⟨i, hi⟩ := hsome
  have hge : stepLength B x p ≤ stepLimit B x p i := by
    have := (Finset.le_fold_min (s := Finset.univ) (b := (⊤ : WithTop K)) (f := stepLimit B x p) (stepLength B x p)).1 (le_refl _)
    exact this.2 i (Finset.mem_univ i)
  have heq := le_antisymm hi hge
  have h0 := stepLimit_nonneg (p := p) hx i
  have hti : stepLimit B x p i < (t : WithTop K) := by rw [heq]; exact hlt
  unfold stepLimit at heq h0 hti
  by_cases hb : B.bounded i = true
  · rw [if_pos hb] at heq h0 hti
    by_cases h1 : 0 < p i
    · rw [if_pos h1] at heq h0 hti
      have h2 := WithTop.coe_lt_coe.1 hti
      refine ⟨_, i, heq.symm, WithTop.coe_le_coe.1 h0, h2, hb, ne_of_gt h1, .inl ⟨h1, ?_, ?_⟩⟩
      · have : (x i - B.lb i) / p i * p i = x i - B.lb i := div_mul_cancel₀ _ (ne_of_gt h1)
        linarith
      · have := (div_lt_iff₀ h1).1 h2
        linarith
    · rw [if_neg h1] at heq h0 hti
      by_cases h3 : p i < 0
      · rw [if_pos h3] at heq h0 hti
        have h2 := WithTop.coe_lt_coe.1 hti
        refine ⟨_, i, heq.symm, WithTop.coe_le_coe.1 h0, h2, hb, ne_of_lt h3, .inr ⟨h3, ?_, ?_⟩⟩
        · have : (x i - B.ub i) / p i * p i = x i - B.ub i := div_mul_cancel₀ _ (ne_of_lt h3)
          linarith
        · have := (div_lt_iff_of_neg h3).1 h2
          linarith
      · rw [if_neg h3] at hti
        exact absurd hti (not_lt.2 le_top)
  · rw [if_neg hb] at hti
    exact absurd hti (not_lt.2 le_top)

/-! ### The state between two steps -/

/-- The preconditioned free gradient. -/
def direction (P : Problem ι K) (s : State ι K) : ι → K := masked (P.Hprec s.gfree) s.free

/-- What holds between two steps. -/
structure Inv (P : Problem ι K) (eps : K) (s : State ι K) : Prop where
  gradient : s.g = P.H s.x + (-1 : K) • P.b
  has : P.B.Has s.x
  red : s.gred = reducedGradient P.B s.g s.x P.alpha
  stop : s.gstop = s.gred
  free : s.free = freeSet P.B eps s.x
  gfree : s.gfree = masked s.g s.free
  zp : s.z = s.p
  pg : dot s.p s.g = dot s.gfree (P.Hprec s.gfree)
  pHp : dot s.p (P.H s.p) ≤ dot (direction P s) (P.H (direction P s))

/-- The assumptions on the problem: consistent bounds, a symmetric positive semidefinite `H`, a positive semidefinite preconditioner. -/
structure Valid (P : Problem ι K) : Prop where
  proper : P.B.Proper
  quadratic : Quadratic P.H
  pos : ∀ v, 0 ≤ dot v (P.H v)
  prec : ∀ v, 0 ≤ dot v (P.Hprec v)
  alpha : 0 < P.alpha

omit [LinearOrder K] [IsStrictOrderedRing K] in
theorem dot_masked (a b : ι → K) (s : ι → Bool) : dot (masked a s) b = dot (masked a s) (masked b s) := by
  refine Finset.sum_congr rfl fun i _ => ?_
  unfold masked
  split
  · rfl
  · simp

omit [LinearOrder K] [IsStrictOrderedRing K] in
theorem masked_dot (g y : ι → K) (s : ι → Bool) : dot (masked y s) g = dot (masked g s) y := by rw [dot_masked y, dot_masked g, dot_comm]

theorem restart_inv {P : Problem ι K} (eps : K) {x : ι → K} (hx : P.B.Has x) : Inv P eps (restart P eps x (P.H x + (1 : K) • (-1 : K) • P.b)) := by
  refine ⟨by simp [restart], hx, rfl, rfl, rfl, rfl, rfl, ?_, le_refl _⟩
  exact masked_dot _ _ _

theorem begin_inv {P : Problem ι K} (eps : K) {x : ι → K} (hx : P.B.Has x) : Inv P eps (begin P eps x) := restart_inv eps hx

/-- The conjugate gradient step length. -/
theorem acg_spec {P : Problem ι K} (hP : Valid P) {eps : K} {s : State ι K} (h : Inv P eps s) {acg : K} (ha : divide (dot s.z s.g) (dot s.p (P.H s.p)) = some acg) :
    0 < dot s.p (P.H s.p) ∧ 0 ≤ acg ∧ dot s.p s.g = acg * dot s.p (P.H s.p) := by
  unfold divide at ha
  split at ha
  · cases ha
  · rename_i hne
    cases ha
    have hpos : 0 < dot s.p (P.H s.p) := lt_of_le_of_ne (hP.pos _) (Ne.symm hne)
    rw [h.zp]
    refine ⟨hpos, div_nonneg ?_ (le_of_lt hpos), (div_mul_cancel₀ _ hne).symm⟩
    rw [h.pg]
    exact hP.prec _

/-- The function along the direction. -/
theorem cost_direction {P : Problem ι K} (hP : Valid P) {eps : K} {s : State ι K} (h : Inv P eps s) {acg : K} (hpg : dot s.p s.g = acg * dot s.p (P.H s.p)) (t : K) :
    cost P.H P.b (s.x + (-t) • s.p) = cost P.H P.b s.x - t * (acg - t / 2) * dot s.p (P.H s.p) := by
  rw [cost_line hP.quadratic, ← h.gradient, hpg]
  ring

theorem gradient_step {P : Problem ι K} (hP : Valid P) (x p g : ι → K) (t : K) (hg : g = P.H x + (-1 : K) • P.b) : g + (-t) • P.H p = P.H (x + (-t) • p) + (-1 : K) • P.b := by
  rw [hP.quadratic.linear.map_add, hP.quadratic.linear.map_smul, hg]
  abel

/-- The conjugate gradient step. -/
theorem cgStep_spec {P : Problem ι K} (hP : Valid P) {eps : K} {s : State ι K} (h : Inv P eps s) {acg : K} (hpos : 0 < dot s.p (P.H s.p)) (h0 : 0 ≤ acg) (hpg : dot s.p s.g = acg * dot s.p (P.H s.p))
    (hle : (acg : WithTop K) ≤ stepLength P.B s.x s.p) :
    ∃ s', cgStep P eps s (P.H s.p) (dot s.p (P.H s.p)) acg = some s' ∧ s'.x = s.x + (-acg) • s.p ∧ Inv P eps s' := by
  have hne := ne_of_gt hpos
  unfold cgStep divide
  dsimp only
  rw [if_neg hne]
  refine ⟨_, rfl, rfl, gradient_step hP _ _ _ _ h.gradient, step_has h.has h0 hle, rfl, rfl, rfl, rfl, rfl, ?_, ?_⟩
  · obtain ⟨g, hg⟩ : ∃ g, g = s.g + (-acg) • P.H s.p := ⟨_, rfl⟩
    obtain ⟨f, hf⟩ : ∃ f, f = freeSet P.B eps (s.x + (-acg) • s.p) := ⟨_, rfl⟩
    dsimp only
    rw [← hg, ← hf]
    obtain ⟨c, hc⟩ : ∃ c, c = dot (masked (P.Hprec (masked g f)) f) (P.H s.p) / dot s.p (P.H s.p) := ⟨_, rfl⟩
    rw [← hc]
    have h1 : dot s.p g = 0 := by
      rw [hg, dot_add, dot_smul, hpg]
      ring
    rw [add_dot, smul_dot, h1, mul_zero, add_zero]
    exact masked_dot _ _ _
  · dsimp only [direction]
    obtain ⟨z, hz⟩ : ∃ z, z = masked (P.Hprec (masked (s.g + (-acg) • P.H s.p) (freeSet P.B eps (s.x + (-acg) • s.p)))) (freeSet P.B eps (s.x + (-acg) • s.p)) := ⟨_, rfl⟩
    rw [← hz]
    obtain ⟨c, hc⟩ : ∃ c, c = dot z (P.H s.p) / dot s.p (P.H s.p) := ⟨_, rfl⟩
    rw [← hc]
    have hcm : dot z (P.H s.p) = c * dot s.p (P.H s.p) := by rw [hc, div_mul_cancel₀ _ hne]
    rw [hP.quadratic.linear.map_add, hP.quadratic.linear.map_smul]
    simp only [add_dot, dot_add, smul_dot, dot_smul]
    rw [hP.quadratic.symm s.p z, hcm]
    have : 0 ≤ c * c * dot s.p (P.H s.p) := mul_nonneg (mul_self_nonneg c) (le_of_lt hpos)
    nlinarith

/-- The values compared in the mixed step are the values of the function. -/
theorem cost_eq (H : (ι → K) → ι → K) (b x : ι → K) : 1 / 2 * dot x (((-1 : K) • b) + (1 : K) • (H x + (-1 : K) • b)) = cost H b x ∧
    1 / 2 * dot x ((H x + (1 : K) • (-1 : K) • b) + (1 : K) • (-1 : K) • b) = cost H b x := by
  unfold cost
  simp only [dot_add, dot_smul]
  rw [dot_comm x b]
  constructor <;> ring

omit [Fintype ι] in
theorem gradient_has' {B : Box ι K} (hB : B.Proper) {x : ι → K} (hx : B.Has x) (g : ι → K) {alpha : K} (ha : 0 < alpha) : B.Has (x + (-alpha) • reducedGradient B g x alpha) := by
  have := gradient_has hB hx g ha fun _ => true
  have e : masked (reducedGradient B g x alpha) (fun _ => true) = reducedGradient B g x alpha := by funext i; rfl
  rwa [e] at this

/-- One step keeps the invariant. -/
theorem mstep_inv {P : Problem ι K} (hP : Valid P) {cfg : Config K} {s s' : State ι K} {k : Kind} (h : Inv P cfg.eps s) (hs : mstep P cfg s = some (s', k)) : Inv P cfg.eps s' := by
  unfold mstep at hs
  split at hs
  · simp only [Option.bind_eq_bind, Option.bind_eq_some_iff] at hs
    obtain ⟨acg, ha, hs⟩ := hs
    obtain ⟨hpos, h0, hpg⟩ := acg_spec hP h ha
    split at hs
    · rename_i hle
      obtain ⟨s1, e1, _, e3⟩ := cgStep_spec hP h hpos h0 hpg hle
      rw [e1] at hs
      cases hs
      exact e3
    · rename_i hle
      cases hs
      unfold mixedStep
      dsimp only
      split
      · exact restart_inv _ (restrictToBox_has hP.proper _)
      · obtain ⟨af, i, e, haf, hlt, _⟩ := stepLength_attained h.has hle
        rw [e]
        have hx1 : P.B.Has (s.x + (-af) • s.p) := step_has h.has haf (by rw [e])
        unfold halfStep
        dsimp only [WithTop.untopD_coe]
        split
        · exact restart_inv _ (gradient_has' hP.proper hx1 _ hP.alpha)
        · exact restart_inv _ (gradient_has hP.proper hx1 _ hP.alpha _)
  · cases hs
    unfold gprojStep
    dsimp only
    rw [h.red]
    split
    · exact restart_inv _ (gradient_has' hP.proper h.has _ hP.alpha)
    · exact restart_inv _ (gradient_has hP.proper h.has _ hP.alpha _)

/-! ### Decrease -/

omit [Fintype ι] in
theorem masked_true (z : ι → K) : masked z (fun _ => true) = z := rfl

/-- What a step may do to the values `q` before and `q'` after it: a step of the reduced gradient at a point not worse than the old one, or a step that makes more variables active. -/
inductive Progress (P : Problem ι K) (c : K) (s s' : State ι K) : Prop
  | sufficient (x : ι → K) (hx : P.B.Has x) (h1 : cost P.H P.b x ≤ cost P.H P.b s.x)
      (h2 : cost P.H P.b s'.x + c * dot (reducedGradient P.B (P.H x + (-1 : K) • P.b) x P.alpha) (P.H x + (-1 : K) • P.b) ≤ cost P.H P.b x)
  | growing (h : cost P.H P.b s'.x ≤ cost P.H P.b s.x) (hp : s'.p = direction P s') (hg : s.p = direction P s → (∀ i, s.free i = false → s'.free i = false) ∧ ∃ i, s.free i = true ∧ s'.free i = false)

/-- The assumptions of the convergence: `H` is between `a` and `sigma / alpha`, the preconditioner is definite, and `c` is small enough. -/
structure Strong (P : Problem ι K) (cfg : Config K) (sigma a m1 m2 c : K) : Prop where
  valid : Valid P
  upper : ∀ v, P.alpha * dot v (P.H v) ≤ sigma * dot v v
  sigma0 : 0 < sigma
  sigma2 : sigma < 2
  lower : ∀ v, a * dot v v ≤ dot v (P.H v)
  a0 : 0 < a
  a1 : P.alpha * a ≤ 1
  prec1 : ∀ v, m1 * dot v v ≤ dot v (P.Hprec v)
  m10 : 0 < m1
  prec2 : ∀ v, dot (P.Hprec v) (P.Hprec v) ≤ m2 * dot v (P.Hprec v)
  m20 : 0 < m2
  delta : 0 < cfg.delta
  eps : 0 ≤ cfg.eps
  c0 : 0 < c
  c1 : c ≤ P.alpha * (1 - sigma / 2)
  c2 : c * (sigma * m2) ≤ P.alpha * m1 * cfg.delta
  c3 : cfg.gradproj = false → c ≤ P.alpha * (1 - sigma / 2) * (1 - 2 * cfg.delta)

theorem stop_dot {P : Problem ι K} (hP : Valid P) {eps : K} {s : State ι K} (h : Inv P eps s) : dot s.gstop s.gstop ≤ dot s.gstop s.g ∧ dot s.gstop s.gfree ≤ dot s.gfree s.gfree := by
  rw [h.stop, h.red, h.gfree]
  constructor
  · exact Finset.sum_le_sum fun i _ => (reduced_spec hP.proper h.has s.g hP.alpha i).1
  · refine Finset.sum_le_sum fun i _ => ?_
    unfold masked
    split
    · exact (reduced_spec hP.proper h.has s.g hP.alpha i).2.1
    · simp

omit [Fintype ι] [IsStrictOrderedRing K] in
/-- A variable at a bound is active. -/
theorem freeSet_at_bound {B : Box ι K} {eps : K} [IsStrictOrderedRing K] (he : 0 ≤ eps) {x : ι → K} {i : ι} (hi : B.bounded i = true) (h : x i = B.lb i ∨ x i = B.ub i) : freeSet B eps x i = false := by
  unfold freeSet
  rw [if_pos hi]
  rcases h with h | h
  · rw [h, sub_self, decide_eq_false (by simpa using he), Bool.false_and]
  · rw [h, sub_self, Bool.and_comm, decide_eq_false (by simpa using he), Bool.false_and]

omit [Fintype ι] [IsStrictOrderedRing K] in
theorem freeSet_congr {B : Box ι K} {eps : K} {x y : ι → K} {i : ι} (h : x i = y i) : freeSet B eps x i = freeSet B eps y i := by
  unfold freeSet
  rw [h]

omit [Fintype ι] [IsStrictOrderedRing K] in
theorem restrictToBox_eq {B : Box ι K} {x y : ι → K} (hx : B.Has x) {i : ι} (h : y i = x i) : restrictToBox B y i = x i := by
  unfold restrictToBox
  split
  · rename_i hi
    rw [h, min_eq_right (hx i hi).2, max_eq_right (hx i hi).1]
  · exact h

omit [Fintype ι] [IsStrictOrderedRing K] in
theorem restrictToBox_below {B : Box ι K} {y : ι → K} {i : ι} (hi : B.bounded i = true) (h : y i ≤ B.lb i) : restrictToBox B y i = B.lb i := by
  unfold restrictToBox
  rw [if_pos hi]
  exact max_eq_left ((min_le_right _ _).trans h)

omit [Fintype ι] [IsStrictOrderedRing K] in
theorem restrictToBox_above {B : Box ι K} (hB : B.Proper) {y : ι → K} {i : ι} (hi : B.bounded i = true) (h : B.ub i ≤ y i) : restrictToBox B y i = B.ub i := by
  unfold restrictToBox
  rw [if_pos hi, min_eq_left h]
  exact max_eq_right (hB i hi)

/-- Every step is possible and makes progress as long as the reduced gradient is not zero. -/
theorem mstep_progress {P : Problem ι K} {cfg : Config K} {sigma a m1 m2 c : K} (hP : Strong P cfg sigma a m1 m2 c) {s : State ι K} (h : Inv P cfg.eps s) (hne : s.gstop ≠ 0) :
    ∃ s' k, mstep P cfg s = some (s', k) ∧ Progress P c s s' := by
  have hv := hP.valid
  obtain ⟨hd1, hd2⟩ := stop_dot hv h
  have hD : 0 < dot s.gstop s.g := lt_of_lt_of_le (dot_self_pos hne) hd1
  have hgs : s.gstop = reducedGradient P.B (P.H s.x + (-1 : K) • P.b) s.x P.alpha := by rw [h.stop, h.red, h.gradient]
  have hcap : 0 < P.alpha * (1 - sigma / 2) := lt_of_lt_of_le hP.c0 hP.c1
  unfold mstep
  rw [max_eq_right (le_of_lt hD)]
  by_cases htest : 2 * cfg.delta * dot s.gstop s.g ≤ max 0 (dot s.gstop s.gfree)
  · rw [if_pos htest]
    have h2D : 0 < 2 * cfg.delta * dot s.gstop s.g := mul_pos (mul_pos two_pos hP.delta) hD
    have hF : 2 * cfg.delta * dot s.gstop s.g ≤ dot s.gstop s.gfree := by
      rcases le_total 0 (dot s.gstop s.gfree) with h' | h'
      · rwa [max_eq_right h'] at htest
      · rw [max_eq_left h'] at htest
        linarith
    have hff : 0 < dot s.gfree s.gfree := by linarith
    have hrho := hP.prec1 s.gfree
    have hrho0 : 0 < dot s.gfree (P.Hprec s.gfree) := lt_of_lt_of_le (mul_pos hP.m10 hff) hrho
    have hp : s.p ≠ 0 := by
      intro e
      have := h.pg
      rw [e] at this
      have hz : dot (0 : ι → K) s.g = 0 := by unfold dot; simp
      rw [hz] at this
      linarith
    have hpHp : 0 < dot s.p (P.H s.p) := lt_of_lt_of_le (mul_pos hP.a0 (dot_self_pos hp)) (hP.lower _)
    have hdiv : divide (dot s.z s.g) (dot s.p (P.H s.p)) = some (dot s.z s.g / dot s.p (P.H s.p)) := by
      unfold divide
      rw [if_neg (ne_of_gt hpHp)]
    obtain ⟨acg, hacg⟩ : ∃ acg, acg = dot s.z s.g / dot s.p (P.H s.p) := ⟨_, rfl⟩
    rw [← hacg] at hdiv
    obtain ⟨_, h0, hpg⟩ := acg_spec hv h hdiv
    simp only [hdiv, Option.bind_eq_bind, Option.bind_some]
    by_cases hle : (acg : WithTop K) ≤ stepLength P.B s.x s.p
    · rw [if_pos hle]
      obtain ⟨s1, e1, e2, _⟩ := cgStep_spec hv h hpHp h0 hpg hle
      rw [e1]
      refine ⟨s1, .cg, rfl, .sufficient s.x h.has (le_refl _) ?_⟩
      rw [← hgs, ← h.gradient, e2, cost_direction hv h hpg]
      have k1 : P.alpha * dot s.p (P.H s.p) ≤ sigma * m2 * dot s.gfree (P.Hprec s.gfree) := by
        have j1 := mul_le_mul_of_nonneg_left h.pHp (le_of_lt hv.alpha)
        have j2 := hP.upper (direction P s)
        have j3 : dot (direction P s) (direction P s) ≤ dot (P.Hprec s.gfree) (P.Hprec s.gfree) := by
          refine Finset.sum_le_sum fun i _ => ?_
          unfold direction masked
          split
          · exact le_refl _
          · simpa using mul_self_nonneg _
        have j4 := mul_le_mul_of_nonneg_left (j3.trans (hP.prec2 _)) (le_of_lt hP.sigma0)
        linarith
      rw [h.pg] at hpg
      -- acg * pHp = rho
      have k2 : P.alpha ≤ acg * (sigma * m2) := by
        have : P.alpha * dot s.p (P.H s.p) ≤ acg * (sigma * m2) * dot s.p (P.H s.p) := by
          rw [hpg] at k1
          linarith
        exact le_of_mul_le_mul_right this hpHp
      have k3 : m1 * (2 * cfg.delta * dot s.gstop s.g) ≤ acg * dot s.p (P.H s.p) := by
        rw [← hpg]
        exact (mul_le_mul_of_nonneg_left (hF.trans hd2) (le_of_lt hP.m10)).trans hrho
      have hsm : 0 < sigma * m2 := mul_pos hP.sigma0 hP.m20
      have k4 : sigma * m2 * (c * dot s.gstop s.g) ≤ sigma * m2 * (acg * (acg - acg / 2) * dot s.p (P.H s.p)) := by
        have j1 := mul_le_mul_of_nonneg_right hP.c2 (le_of_lt hD)
        have j2 := mul_le_mul_of_nonneg_left k3 (le_of_lt hv.alpha)
        have j3 : P.alpha * (acg * dot s.p (P.H s.p)) ≤ acg * (sigma * m2) * (acg * dot s.p (P.H s.p)) := mul_le_mul_of_nonneg_right k2 (mul_nonneg h0 (le_of_lt hpHp))
        linarith
      have := le_of_mul_le_mul_left k4 hsm
      linarith
    · rw [if_neg hle]
      obtain ⟨af, i, eaf, haf, hlt, hbi, hpi, hhit⟩ := stepLength_attained h.has hle
      refine ⟨_, .mixed, rfl, ?_⟩
      rw [eaf, WithTop.untopD_coe]
      have hfx := (cost_eq P.H P.b s.x).1
      rw [← h.gradient] at hfx
      have hoff : s.p = direction P s → ∀ j, s.free j = false → s.p j = 0 := by
        intro e j hj
        rw [e]
        unfold direction masked
        rw [hj]
        rfl
      have hfree : s.p = direction P s → s.free i = true := by
        intro e
        by_contra hc
        exact hpi (hoff e i (by simpa using hc))
      unfold mixedStep
      dsimp only
      rw [hfx]
      obtain ⟨nx, hnx⟩ : ∃ nx, nx = restrictToBox P.B (s.x + (-acg) • s.p) := ⟨_, rfl⟩
      rw [← hnx, (cost_eq P.H P.b nx).2]
      split
      · rename_i hlt'
        refine .growing (le_of_lt hlt') rfl fun e => ⟨fun j hj => ?_, i, hfree e, ?_⟩
        · show freeSet P.B cfg.eps nx j = false
          rw [freeSet_congr (y := s.x) (i := j), ← h.free]
          · exact hj
          · rw [hnx]
            refine restrictToBox_eq h.has ?_
            show s.x j + -acg * s.p j = s.x j
            rw [hoff e j hj, mul_zero, add_zero]
        · show freeSet P.B cfg.eps nx i = false
          refine freeSet_at_bound hP.eps hbi ?_
          rw [hnx]
          rcases hhit with ⟨_, _, hh⟩ | ⟨_, _, hh⟩
          · exact .inl (restrictToBox_below hbi hh)
          · exact .inr (restrictToBox_above hv.proper hbi hh)
      · have hx1 : P.B.Has (s.x + (-af) • s.p) := step_has h.has haf (by rw [eaf])
        have hc1 : cost P.H P.b (s.x + (-af) • s.p) ≤ cost P.H P.b s.x := by
          rw [cost_direction hv h hpg]
          have : 0 ≤ af * (acg - af / 2) * dot s.p (P.H s.p) := mul_nonneg (mul_nonneg haf (by linarith)) (le_of_lt hpHp)
          linarith
        have hg1 := gradient_step hv s.x s.p s.g af h.gradient
        unfold halfStep
        dsimp only
        rw [hg1]
        obtain ⟨x1, hx1e⟩ : ∃ x1, x1 = s.x + (-af) • s.p := ⟨_, rfl⟩
        rw [← hx1e] at hx1 hc1 ⊢
        by_cases hgp : cfg.gradproj = true
        · rw [if_pos hgp]
          refine .sufficient x1 hx1 hc1 ?_
          have := gradient_cost hv.quadratic hv.proper hx1 P.b hv.alpha (le_of_lt hP.sigma0) hP.upper fun _ => true
          dsimp only at this
          rw [masked_true] at this
          have hnn : 0 ≤ dot (reducedGradient P.B (P.H x1 + (-1 : K) • P.b) x1 P.alpha) (P.H x1 + (-1 : K) • P.b) :=
            (dot_self_nonneg _).trans (Finset.sum_le_sum fun i _ => (reduced_spec hv.proper hx1 _ hv.alpha i).1)
          have := mul_le_mul_of_nonneg_right hP.c1 hnn
          show cost P.H P.b (x1 + (-P.alpha) • reducedGradient P.B (P.H x1 + (-1 : K) • P.b) x1 P.alpha) + _ ≤ _
          linarith
        · rw [if_neg hgp]
          have hcost := gradient_cost hv.quadratic hv.proper hx1 P.b hv.alpha (le_of_lt hP.sigma0) hP.upper (freeSet P.B cfg.eps x1)
          dsimp only at hcost
          have hnn : 0 ≤ dot (masked (reducedGradient P.B (P.H x1 + (-1 : K) • P.b) x1 P.alpha) (freeSet P.B cfg.eps x1)) (P.H x1 + (-1 : K) • P.b) := by
            refine (dot_self_nonneg (masked (reducedGradient P.B (P.H x1 + (-1 : K) • P.b) x1 P.alpha) (freeSet P.B cfg.eps x1))).trans (Finset.sum_le_sum fun i _ => ?_)
            unfold masked
            split
            · exact (reduced_spec hv.proper hx1 _ hv.alpha i).1
            · simp
          have hstay : ∀ j, freeSet P.B cfg.eps x1 j = false → freeSet P.B cfg.eps (x1 + (-P.alpha) • masked (reducedGradient P.B (P.H x1 + (-1 : K) • P.b) x1 P.alpha) (freeSet P.B cfg.eps x1)) j = false := by
            intro j hj
            rw [freeSet_congr (y := x1) (i := j)]
            · exact hj
            · show x1 j + -P.alpha * masked _ _ j = x1 j
              unfold masked
              rw [hj]
              simp
          refine .growing ?_ rfl fun e => ⟨fun j hj => hstay j ?_, i, hfree e, hstay i ?_⟩
          · show cost P.H P.b (x1 + (-P.alpha) • masked (reducedGradient P.B (P.H x1 + (-1 : K) • P.b) x1 P.alpha) (freeSet P.B cfg.eps x1)) ≤ _
            have := mul_nonneg (le_of_lt hcap) hnn
            linarith
          · rw [freeSet_congr (y := s.x) (i := j), ← h.free]
            · exact hj
            · rw [hx1e]
              show s.x j + -af * s.p j = s.x j
              rw [hoff e j hj, mul_zero, add_zero]
          · refine freeSet_at_bound hP.eps hbi ?_
            rw [hx1e]
            rcases hhit with ⟨_, hh, _⟩ | ⟨_, hh, _⟩
            · exact .inl hh
            · exact .inr hh
  · rw [if_neg htest]
    refine ⟨_, .gproj, rfl, .sufficient s.x h.has (le_refl _) ?_⟩
    rw [← hgs, ← h.gradient]
    unfold gprojStep
    dsimp only
    rw [← h.stop]
    by_cases hgp : cfg.gradproj = true
    · rw [if_pos hgp]
      have := gradient_cost hv.quadratic hv.proper h.has P.b hv.alpha (le_of_lt hP.sigma0) hP.upper fun _ => true
      dsimp only at this
      rw [masked_true, ← hgs, ← h.gradient] at this
      have := mul_le_mul_of_nonneg_right hP.c1 (le_of_lt hD)
      show cost P.H P.b (s.x + (-P.alpha) • s.gstop) + _ ≤ _
      linarith
    · rw [if_neg hgp]
      have hcost := gradient_cost hv.quadratic hv.proper h.has P.b hv.alpha (le_of_lt hP.sigma0) hP.upper fun i => !s.free i
      dsimp only at hcost
      rw [← hgs, ← h.gradient] at hcost
      have hsplit : dot s.gstop s.g = dot s.gstop s.gfree + dot (masked s.gstop fun i => !s.free i) s.g := by
        unfold dot
        rw [← Finset.sum_add_distrib, h.gfree]
        refine Finset.sum_congr rfl fun i _ => ?_
        unfold masked
        cases hf : s.free i <;> simp [hf]
      have hA : (1 - 2 * cfg.delta) * dot s.gstop s.g ≤ dot (masked s.gstop fun i => !s.free i) s.g := by
        have : dot s.gstop s.gfree ≤ 2 * cfg.delta * dot s.gstop s.g := (le_max_right _ _).trans (le_of_lt (not_le.1 htest))
        linarith
      have k1 := mul_le_mul_of_nonneg_right (hP.c3 (by simpa using hgp)) (le_of_lt hD)
      have k2 := mul_le_mul_of_nonneg_left hA (le_of_lt hcap)
      show cost P.H P.b (s.x + (-P.alpha) • masked s.gstop fun i => !s.free i) + _ ≤ _
      linarith

end Verif.Mprgp
