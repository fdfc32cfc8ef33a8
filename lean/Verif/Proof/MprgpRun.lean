import Verif.Proof.Mprgp
import Mathlib.Data.Fintype.Card
import Mathlib.Algebra.Order.Archimedean.Basic
import Mathlib.Tactic.Positivity
import Mathlib.Tactic.Linarith
import Mathlib.Tactic.Ring
/-!
The loop of `MPRGP::run`: optimality, the error, the rate of the convergence and the end of the loop.
-/
namespace Verif.Mprgp

open Verif.Feti (divide)

variable {ι K : Type} [Fintype ι] [Field K] [LinearOrder K] [IsStrictOrderedRing K]

/-! ### Optimality -/

/-- The reduced gradient of a point of the box. -/
abbrev reducedAt (P : Problem ι K) (x : ι → K) : ι → K := reducedGradient P.B (P.H x + (-1 : K) • P.b) x P.alpha

theorem reducedAt_dot {P : Problem ι K} (hP : Valid P) {x : ι → K} (hx : P.B.Has x) : dot (reducedAt P x) (reducedAt P x) ≤ dot (reducedAt P x) (P.H x + (-1 : K) • P.b) :=
  Finset.sum_le_sum fun i _ => (reduced_spec hP.proper hx _ hP.alpha i).1

theorem reduced_decreases {P : Problem ι K} (hP : Valid P) {sigma : K} (h0 : 0 ≤ sigma) (hup : ∀ v, P.alpha * dot v (P.H v) ≤ sigma * dot v v) {x : ι → K} (hx : P.B.Has x) :
    cost P.H P.b (x + (-P.alpha) • reducedAt P x) + P.alpha * (1 - sigma / 2) * dot (reducedAt P x) (P.H x + (-1 : K) • P.b) ≤ cost P.H P.b x := by
  have := gradient_cost hP.quadratic hP.proper hx P.b hP.alpha h0 hup fun _ => true
  dsimp only at this
  rwa [masked_true] at this

/-- At a minimum the reduced gradient is zero. -/
theorem reduced_of_minimises {P : Problem ι K} (hP : Valid P) {sigma : K} (h0 : 0 ≤ sigma) (h2 : sigma < 2) (hup : ∀ v, P.alpha * dot v (P.H v) ≤ sigma * dot v v) {x : ι → K}
    (hx : Minimises P.B P.H P.b x) : reducedAt P x = 0 := by
  have h1 := reduced_decreases hP h0 hup hx.1
  have h3 := hx.2 _ (gradient_has' hP.proper hx.1 (P.H x + (-1 : K) • P.b) hP.alpha)
  have h4 := reducedAt_dot hP hx.1
  have h5 : 0 < P.alpha * (1 - sigma / 2) := mul_pos hP.alpha (by linarith)
  have h6 : P.alpha * (1 - sigma / 2) * dot (reducedAt P x) (P.H x + (-1 : K) • P.b) ≤ P.alpha * (1 - sigma / 2) * 0 := by
    rw [mul_zero]
    linarith
  have h7 := le_of_mul_le_mul_left h6 h5
  exact dot_self_eq_zero (le_antisymm (h4.trans h7) (dot_self_nonneg _))

/-- The variational inequality of the reduced gradient. -/
theorem reduced_vi {P : Problem ι K} (hP : Valid P) {x : ι → K} (hx : P.B.Has x) {u : ι → K} (hu : P.B.Has u) :
    0 ≤ dot ((P.H x + (-1 : K) • P.b) + (-1 : K) • reducedAt P x) (u + (-1 : K) • x + P.alpha • reducedAt P x) := by
  refine Finset.sum_nonneg fun i _ => ?_
  have := (reduced_spec hP.proper hx (P.H x + (-1 : K) • P.b) hP.alpha i).2.2.2 (u i) (hu i)
  show 0 ≤ ((P.H x + (-1 : K) • P.b) i + -1 * reducedAt P x i) * (u i + -1 * x i + P.alpha * reducedAt P x i)
  refine le_of_le_of_eq this ?_
  ring

/-- Where the reduced gradient is zero is a minimum. -/
theorem minimises_of_reduced {P : Problem ι K} (hP : Valid P) {x : ι → K} (hx : P.B.Has x) (h : reducedAt P x = 0) : Minimises P.B P.H P.b x := by
  refine ⟨hx, fun u hu => ?_⟩
  have h1 := reduced_vi hP hx hu
  rw [h, smul_zero, smul_zero, add_zero, add_zero] at h1
  have e : u = x + (1 : K) • (u + (-1 : K) • x) := by
    funext i
    show u i = x i + (1 : K) * (u i + -1 * x i)
    ring
  have h2 := cost_line hP.quadratic P.b x (u + (-1 : K) • x) 1
  rw [← e] at h2
  have h3 := hP.pos (u + (-1 : K) • x)
  rw [h2, dot_comm (u + (-1 : K) • x) (P.H x + (-1 : K) • P.b)]
  linarith

/-- How far a point is from a minimum. -/
theorem error_le {P : Problem ι K} (hP : Valid P) {sigma a : K} (h0 : 0 ≤ sigma) (h2 : sigma < 2) (hup : ∀ v, P.alpha * dot v (P.H v) ≤ sigma * dot v v) (ha : 0 < a) (hlow : ∀ v, a * dot v v ≤ dot v (P.H v))
    {x y : ι → K} (hx : P.B.Has x) (hy : Minimises P.B P.H P.b y) : a ^ 2 * dot (x + (-1 : K) • y) (x + (-1 : K) • y) ≤ 4 * dot (reducedAt P x) (reducedAt P x) := by
  have hz := reduced_of_minimises hP h0 h2 hup hy
  obtain ⟨r, hr⟩ : ∃ r, r = reducedAt P x := ⟨_, rfl⟩
  obtain ⟨e, he⟩ : ∃ e, e = x + (-1 : K) • y := ⟨_, rfl⟩
  have k1 := reduced_vi hP hx hy.1
  have k2 := reduced_vi hP hy.1 (gradient_has' hP.proper hx (P.H x + (-1 : K) • P.b) hP.alpha)
  rw [hz] at k2
  rw [← hr] at k1 ⊢
  rw [show reducedGradient P.B (P.H x + (-1 : K) • P.b) x P.alpha = r from hr.symm] at k2
  have e1 : y + (-1 : K) • x + P.alpha • r = (-1 : K) • e + P.alpha • r := by
    rw [he]
    funext i
    show y i + -1 * x i + P.alpha * r i = -1 * (x i + -1 * y i) + P.alpha * r i
    ring
  have e2 : x + (-P.alpha) • r + (-1 : K) • y + P.alpha • (0 : ι → K) = e + (-P.alpha) • r := by
    rw [he]
    funext i
    show x i + -P.alpha * r i + -1 * y i + P.alpha * 0 = x i + -1 * y i + -P.alpha * r i
    ring
  have e3 : P.H x = P.H y + P.H e := by
    rw [← hP.quadratic.linear.map_add, he]
    congr 1
    funext i
    show x i = y i + (x i + -1 * y i)
    ring
  rw [e1, e3] at k1
  rw [e2, smul_zero, add_zero] at k2
  rw [← he]
  simp only [add_dot, dot_add, smul_dot, dot_smul] at k1 k2
  have s1 := hP.pos (e + (-P.alpha) • r)
  rw [hP.quadratic.linear.map_add, hP.quadratic.linear.map_smul] at s1
  simp only [add_dot, dot_add, smul_dot, dot_smul] at s1
  rw [← hP.quadratic.symm e r] at s1
  have s2 := mul_le_mul_of_nonneg_left (hup r) (le_of_lt hP.alpha)
  have s3 := hlow e
  have s4 := dot_self_nonneg (a • e + (-2 : K) • r)
  simp only [add_dot, dot_add, smul_dot, dot_smul] at s4
  have s5 : 0 ≤ P.alpha * (2 - sigma) * dot r r := mul_nonneg (mul_nonneg (le_of_lt hP.alpha) (by linarith)) (dot_self_nonneg r)
  rw [dot_comm (P.H e) e, dot_comm (P.H e) r] at k1
  rw [dot_comm r e] at k1 s4
  have t1 : dot e (P.H e) ≤ 2 * dot e r := by
    rw [hP.quadratic.symm r e] at k1
    linarith
  have t2 : a * (a * dot e e) ≤ a * (2 * dot e r) := mul_le_mul_of_nonneg_left (s3.trans t1) (le_of_lt ha)
  linarith

/-- The function has a lower bound. -/
theorem cost_lower {H : (ι → K) → ι → K} {a : K} (ha : 0 < a) (hlow : ∀ v, a * dot v v ≤ dot v (H v)) (b v : ι → K) : -(dot b b / (2 * a)) ≤ cost H b v := by
  have s1 := hlow v
  have s2 := dot_self_nonneg (a • v + (-1 : K) • b)
  simp only [add_dot, dot_add, smul_dot, dot_smul] at s2
  rw [dot_comm v b] at s2
  unfold cost
  have h2 : 0 < 2 * a := by positivity
  rw [neg_le, neg_sub, le_div_iff₀ h2]
  have s3 := mul_le_mul_of_nonneg_left s1 (le_of_lt ha)
  linarith

/-! ### The number of the steps -/

/-- Steps that may follow before the function has to decrease. -/
noncomputable def measure (P : Problem ι K) (s : State ι K) : Nat :=
  open Classical in if s.p = direction P s then (Finset.univ.filter fun i => s.free i = true).card else Fintype.card ι + 1

omit [IsStrictOrderedRing K] in
theorem measure_le (P : Problem ι K) (s : State ι K) : measure P s ≤ Fintype.card ι + 1 := by
  unfold measure
  split
  · exact (Finset.card_le_univ _).trans (Nat.le_succ _)
  · exact le_refl _

/-- What one step does to the function and to the measure. -/
theorem progress_spec {P : Problem ι K} {cfg : Config K} {sigma a m1 m2 c : K} (hP : Strong P cfg sigma a m1 m2 c) {s s' : State ι K} (h : Progress P c s s') :
    cost P.H P.b s'.x ≤ cost P.H P.b s.x ∧
      ((∀ u, P.B.Has u → cost P.H P.b s'.x - cost P.H P.b u ≤ (1 - c * a) * (cost P.H P.b s.x - cost P.H P.b u)) ∨ measure P s' + 1 ≤ measure P s) := by
  have hca : c * a ≤ 1 := by
    have h1 := hP.c1
    have h2 : P.alpha * (1 - sigma / 2) ≤ P.alpha := by nlinarith [hP.valid.alpha, hP.sigma0]
    exact (mul_le_mul_of_nonneg_right (h1.trans h2) (le_of_lt hP.a0)).trans hP.a1
  cases h with
  | sufficient x hx h1 h2 =>
    have hd := (dot_self_nonneg _).trans (reducedAt_dot hP.valid hx)
    have hcd := mul_nonneg (le_of_lt hP.c0) hd
    refine ⟨by linarith, .inl fun u hu => ?_⟩
    have h3 := mul_le_mul_of_nonneg_left (gap_le hP.valid.quadratic hP.valid.proper hx P.b hP.valid.alpha hP.a0 hP.a1 hP.lower u hu) (le_of_lt hP.c0)
    have h4 : (1 - c * a) * (cost P.H P.b x - cost P.H P.b u) ≤ (1 - c * a) * (cost P.H P.b s.x - cost P.H P.b u) := mul_le_mul_of_nonneg_left (by linarith) (by linarith)
    linarith
  | growing h1 hp hg =>
    refine ⟨h1, .inr ?_⟩
    unfold measure
    rw [if_pos hp]
    split
    · rename_i e
      obtain ⟨h2, i, h3, h4⟩ := hg e
      refine Finset.card_lt_card (Finset.ssubset_iff_subset_ne.2 ⟨fun j hj => ?_, fun e => ?_⟩)
      · rw [Finset.mem_filter] at hj ⊢
        refine ⟨hj.1, ?_⟩
        by_contra hc
        have := h2 j (by simpa using hc)
        rw [this] at hj
        exact absurd hj.2 (by simp)
      · have : i ∈ Finset.univ.filter fun i => s'.free i = true := by
          rw [e]
          exact Finset.mem_filter.2 ⟨Finset.mem_univ _, h3⟩
        rw [Finset.mem_filter, h4] at this
        exact absurd this.2 (by simp)
    · exact Nat.succ_le_succ (Finset.card_le_univ _)

/-- The steps done. -/
def Info.steps (i : Info) : Nat := i.ncg + i.nmixed + i.ngproj

theorem steps_count (i : Info) (k : Kind) : (i.count k).steps = i.steps + 1 ∧ (i.count k).iterations = i.iterations := by
  cases k <;> refine ⟨?_, rfl⟩ <;> simp only [Info.steps, Info.count] <;> omega

/-- The loop keeps the invariant and ends with the condition or with the iterations. -/
theorem mloop_inv {P : Problem ι K} (hP : Valid P) (cfg : Config K) (stop : (ι → K) → (ι → K) → Bool) (fuel : Nat) {s : State ι K} {info : Info} {res : State ι K × Info} (h : Inv P cfg.eps s)
    (hr : mloop P cfg stop fuel s info = some res) : Inv P cfg.eps res.1 ∧
      ((stop res.1.x res.1.gstop = true ∧ res.2.iterations + info.steps = res.2.steps + info.iterations ∧ (info.iterations ≤ cfg.maxIterations → res.2.iterations ≤ cfg.maxIterations)) ∨
        (stop res.1.x res.1.gstop = false ∧ res.2.iterations + info.steps = res.2.steps + info.iterations + 1 ∧ cfg.maxIterations < res.2.iterations ∧ (info.iterations ≤ cfg.maxIterations → res.2.iterations = cfg.maxIterations + 1))) := by
  induction fuel generalizing s info with
  | zero => exact absurd hr (by simp [mloop])
  | succ fuel ih =>
    unfold mloop at hr
    split at hr
    · rename_i hs
      cases hr
      exact ⟨h, .inl ⟨hs, Nat.add_comm _ _, id⟩⟩
    · rename_i hs
      dsimp only at hr
      split at hr
      · rename_i hlt
        simp only [Option.bind_eq_bind, Option.bind_eq_some_iff] at hr
        obtain ⟨⟨n, k⟩, hn, hr⟩ := hr
        have := ih (mstep_inv hP h hn) hr
        have hc := steps_count { info with iterations := info.iterations + 1 } k
        have e1 : ({ info with iterations := info.iterations + 1 } : Info).steps = info.steps := rfl
        have e2 : ({ info with iterations := info.iterations + 1 } : Info).iterations = info.iterations + 1 := rfl
        rw [hc.1, hc.2, e1, e2] at this
        refine ⟨this.1, ?_⟩
        rcases this.2 with ⟨h1, h2, h3⟩ | ⟨h1, h2, h3, h4⟩
        · exact .inl ⟨h1, by omega, fun _ => h3 (by omega)⟩
        · exact .inr ⟨h1, by omega, h3, fun _ => h4 (by omega)⟩
      · rename_i hlt
        cases hr
        refine ⟨h, .inr ⟨by simpa using hs, ?_, by dsimp only; omega, fun _ => by dsimp only; omega⟩⟩
        show info.iterations + 1 + info.steps = info.steps + info.iterations + 1
        omega

/-- The loop always ends without a division by zero. -/
theorem mloop_ends {P : Problem ι K} {cfg : Config K} {sigma a m1 m2 c : K} (hP : Strong P cfg sigma a m1 m2 c) {stop : (ι → K) → (ι → K) → Bool} (h0 : ∀ x, stop x 0 = true) (fuel : Nat) {s : State ι K}
    {info : Info} (h : Inv P cfg.eps s) (hf : cfg.maxIterations < fuel + info.iterations) (hf0 : 0 < fuel) : ∃ res, mloop P cfg stop fuel s info = some res := by
  induction fuel generalizing s info with
  | zero => omega
  | succ fuel ih =>
    unfold mloop
    split
    · exact ⟨_, rfl⟩
    · rename_i hs
      dsimp only
      split
      · rename_i hlt
        have hne : s.gstop ≠ 0 := fun e => hs (by rw [e]; exact h0 _)
        obtain ⟨n, k, hn, _⟩ := mstep_progress hP h hne
        rw [hn]
        simp only [Option.bind_eq_bind, Option.bind_some]
        refine ih (mstep_inv hP.valid h hn) ?_ ?_
        · rw [(steps_count _ k).2]
          dsimp only
          omega
        · omega
      · exact ⟨_, rfl⟩

/-- The rate of the convergence. -/
theorem mloop_rate {P : Problem ι K} {cfg : Config K} {sigma a m1 m2 c : K} (hP : Strong P cfg sigma a m1 m2 c) {stop : (ι → K) → (ι → K) → Bool} (h0 : ∀ x, stop x 0 = true) (fuel : Nat) {s : State ι K}
    {info : Info} {res : State ι K × Info} (h : Inv P cfg.eps s) (hr : mloop P cfg stop fuel s info = some res) :
    ∃ k, res.2.steps + measure P res.1 ≤ info.steps + measure P s + k * (Fintype.card ι + 2) ∧ cost P.H P.b res.1.x ≤ cost P.H P.b s.x ∧
      ∀ u, P.B.Has u → cost P.H P.b res.1.x - cost P.H P.b u ≤ (1 - c * a) ^ k * (cost P.H P.b s.x - cost P.H P.b u) := by
  have hca : c * a ≤ 1 := by
    have h1 := hP.c1
    have h2 : P.alpha * (1 - sigma / 2) ≤ P.alpha := by nlinarith [hP.valid.alpha, hP.sigma0]
    exact (mul_le_mul_of_nonneg_right (h1.trans h2) (le_of_lt hP.a0)).trans hP.a1
  induction fuel generalizing s info with
  | zero => exact absurd hr (by simp [mloop])
  | succ fuel ih =>
    unfold mloop at hr
    split at hr
    · cases hr
      exact ⟨0, by dsimp only; omega, le_refl _, fun u _ => by rw [pow_zero, one_mul]⟩
    · rename_i hs
      dsimp only at hr
      split at hr
      · have hne : s.gstop ≠ 0 := fun e => hs (by rw [e]; exact h0 _)
        obtain ⟨n, k, hn, hpr⟩ := mstep_progress hP h hne
        rw [hn] at hr
        simp only [Option.bind_eq_bind, Option.bind_some] at hr
        obtain ⟨j, h1, h2, h3⟩ := ih (mstep_inv hP.valid h hn) hr
        rw [(steps_count _ k).1] at h1
        have e1 : ({ info with iterations := info.iterations + 1 } : Info).steps = info.steps := rfl
        rw [e1] at h1
        obtain ⟨h4, h5⟩ := progress_spec hP hpr
        have hpow : 0 ≤ (1 - c * a) ^ j := pow_nonneg (by linarith) _
        rcases h5 with h5 | h5
        · have := measure_le P n
          refine ⟨j + 1, ?_, h2.trans h4, fun u hu => (h3 u hu).trans ?_⟩
          · rw [Nat.succ_mul]
            omega
          · rw [pow_succ, mul_assoc]
            exact mul_le_mul_of_nonneg_left (h5 u hu) hpow
        · refine ⟨j, by omega, h2.trans h4, fun u hu => (h3 u hu).trans (mul_le_mul_of_nonneg_left (by linarith) hpow)⟩
      · cases hr
        refine ⟨0, ?_, le_refl _, fun u _ => by rw [pow_zero, one_mul]⟩
        show info.steps + measure P s ≤ _
        omega

/-- A loop that stopped does the same with more iterations allowed. -/
theorem mloop_mono {P : Problem ι K} {cfg : Config K} {stop : (ι → K) → (ι → K) → Bool} {n : Nat} (hn : cfg.maxIterations ≤ n) (fuel fuel' : Nat) (hf : fuel ≤ fuel') {s : State ι K} {info : Info}
    {res : State ι K × Info} (hr : mloop P cfg stop fuel s info = some res) (hs : stop res.1.x res.1.gstop = true) : mloop P { cfg with maxIterations := n } stop fuel' s info = some res := by
  induction fuel generalizing s info fuel' with
  | zero => exact absurd hr (by simp [mloop])
  | succ fuel ih =>
    obtain ⟨f, rfl⟩ : ∃ f, fuel' = f + 1 := ⟨fuel' - 1, by omega⟩
    unfold mloop at hr ⊢
    split
    · rename_i h1
      rw [if_pos h1] at hr
      exact hr
    · rename_i h1
      rw [if_neg h1] at hr
      dsimp only at hr ⊢
      split at hr
      · rename_i h2
        rw [if_pos (by omega)]
        simp only [Option.bind_eq_bind, Option.bind_eq_some_iff] at hr ⊢
        obtain ⟨m, hm, hr⟩ := hr
        exact ⟨m, hm, ih f (by omega) hr⟩
      · cases hr
        exact absurd hs h1

/-- The reduced gradient of a state decides how far the function is from its minimum. -/
theorem gstop_le {P : Problem ι K} {cfg : Config K} {sigma a m1 m2 c : K} (hP : Strong P cfg sigma a m1 m2 c) {s : State ι K} (h : Inv P cfg.eps s) {k : Nat} {C : K}
    (hk : ∀ u, P.B.Has u → cost P.H P.b s.x - cost P.H P.b u ≤ (1 - c * a) ^ k * (C - cost P.H P.b u)) :
    P.alpha * (1 - sigma / 2) * dot s.gstop s.gstop ≤ (1 - c * a) ^ k * (C + dot P.b P.b / (2 * a)) := by
  have hca : c * a ≤ 1 := by
    have h1 := hP.c1
    have h2 : P.alpha * (1 - sigma / 2) ≤ P.alpha := by nlinarith [hP.valid.alpha, hP.sigma0]
    exact (mul_le_mul_of_nonneg_right (h1.trans h2) (le_of_lt hP.a0)).trans hP.a1
  have hgs : s.gstop = reducedAt P s.x := by rw [h.stop, h.red, h.gradient]
  have h1 := reduced_decreases hP.valid (le_of_lt hP.sigma0) hP.upper h.has
  have h2 := hk _ (gradient_has' hP.valid.proper h.has (P.H s.x + (-1 : K) • P.b) hP.valid.alpha)
  have h3 := cost_lower hP.a0 hP.lower P.b (s.x + (-P.alpha) • reducedAt P s.x)
  have h4 := mul_le_mul_of_nonneg_left (reducedAt_dot hP.valid h.has) (le_of_lt (lt_of_lt_of_le hP.c0 hP.c1))
  have h5 : (1 - c * a) ^ k * (C - cost P.H P.b (s.x + (-P.alpha) • reducedAt P s.x)) ≤ (1 - c * a) ^ k * (C + dot P.b P.b / (2 * a)) :=
    mul_le_mul_of_nonneg_left (by linarith) (pow_nonneg (by linarith) _)
  rw [hgs]
  linarith

/-- A step never increases the function if `alpha` is at most two over the norm of `H`. -/
theorem mstep_descends {P : Problem ι K} (hP : Valid P) (hup : ∀ v, P.alpha * dot v (P.H v) ≤ 2 * dot v v) {cfg : Config K} {s s' : State ι K} {k : Kind} (h : Inv P cfg.eps s)
    (hs : mstep P cfg s = some (s', k)) : cost P.H P.b s'.x ≤ cost P.H P.b s.x := by
  have hdown : ∀ x, P.B.Has x → ∀ f, cost P.H P.b (x + (-P.alpha) • masked (reducedAt P x) f) ≤ cost P.H P.b x := by
    intro x hx f
    have := gradient_cost hP.quadratic hP.proper hx P.b hP.alpha (by norm_num) hup f
    dsimp only at this
    have e : P.alpha * (1 - (2 : K) / 2) = 0 := by norm_num
    rw [e, zero_mul, add_zero] at this
    exact this
  have hgs : s.gred = reducedAt P s.x := by rw [h.red, h.gradient]
  unfold mstep at hs
  split at hs
  · simp only [Option.bind_eq_bind, Option.bind_eq_some_iff] at hs
    obtain ⟨acg, ha, hs⟩ := hs
    obtain ⟨hpos, h0, hpg⟩ := acg_spec hP h ha
    split at hs
    · rename_i hle
      obtain ⟨s1, e1, e2, e3⟩ := cgStep_spec hP h hpos h0 hpg hle
      rw [e1] at hs
      cases hs
      rw [e2, cost_direction hP h hpg]
      have : 0 ≤ acg * (acg - acg / 2) * dot s.p (P.H s.p) := mul_nonneg (mul_nonneg h0 (by linarith)) (le_of_lt hpos)
      linarith
    · rename_i hle
      cases hs
      obtain ⟨af, i, e, haf, hlt, _⟩ := stepLength_attained h.has hle
      rw [e, WithTop.untopD_coe]
      have hfx := (cost_eq P.H P.b s.x).1
      rw [← h.gradient] at hfx
      unfold mixedStep
      dsimp only
      rw [hfx, (cost_eq P.H P.b _).2]
      split
      · rename_i hlt'
        exact le_of_lt hlt'
      · have hx1 : P.B.Has (s.x + (-af) • s.p) := step_has h.has haf (by rw [e])
        have hc1 : cost P.H P.b (s.x + (-af) • s.p) ≤ cost P.H P.b s.x := by
          rw [cost_direction hP h hpg]
          have : 0 ≤ af * (acg - af / 2) * dot s.p (P.H s.p) := mul_nonneg (mul_nonneg haf (by linarith)) (le_of_lt hpos)
          linarith
        unfold halfStep
        dsimp only
        rw [gradient_step hP s.x s.p s.g af h.gradient]
        split
        · exact (hdown _ hx1 fun _ => true).trans hc1
        · exact (hdown _ hx1 _).trans hc1
  · cases hs
    unfold gprojStep
    dsimp only
    rw [hgs]
    split
    · exact hdown _ h.has fun _ => true
    · exact hdown _ h.has _

theorem mloop_descends {P : Problem ι K} (hP : Valid P) (hup : ∀ v, P.alpha * dot v (P.H v) ≤ 2 * dot v v) {cfg : Config K} {stop : (ι → K) → (ι → K) → Bool} (fuel : Nat) {s : State ι K} {info : Info}
    {res : State ι K × Info} (h : Inv P cfg.eps s) (hr : mloop P cfg stop fuel s info = some res) : cost P.H P.b res.1.x ≤ cost P.H P.b s.x := by
  induction fuel generalizing s info with
  | zero => exact absurd hr (by simp [mloop])
  | succ fuel ih =>
    unfold mloop at hr
    split at hr
    · cases hr
      exact le_refl _
    · dsimp only at hr
      split at hr
      · simp only [Option.bind_eq_bind, Option.bind_eq_some_iff] at hr
        obtain ⟨⟨n, k⟩, hn, hr⟩ := hr
        exact (ih (mstep_inv hP h hn) hr).trans (mstep_descends hP hup h hn)
      · cases hr
        exact le_refl _

omit [IsStrictOrderedRing K] in
/-- A loop among states that do not stop. -/
theorem mloop_closed {P : Problem ι K} {cfg : Config K} {stop : (ι → K) → (ι → K) → Bool} (S : State ι K → Prop) (hS : ∀ s, S s → stop s.x s.gstop = false ∧ ∃ s' k, mstep P cfg s = some (s', k) ∧ S s')
    (fuel : Nat) {s : State ι K} {info : Info} (h : S s) (hi : info.iterations ≤ cfg.maxIterations) (hf : cfg.maxIterations < fuel + info.iterations) :
    ∃ s' info', mloop P cfg stop fuel s info = some (s', info') ∧ S s' ∧ info'.iterations = cfg.maxIterations + 1 := by
  induction fuel generalizing s info with
  | zero => omega
  | succ fuel ih =>
    obtain ⟨h1, s', k, h2, h3⟩ := hS s h
    unfold mloop
    rw [if_neg (by rw [h1]; simp)]
    dsimp only
    split
    · rw [h2]
      simp only [Option.bind_eq_bind, Option.bind_some]
      refine ih h3 ?_ ?_
      · rw [(steps_count _ k).2]
        dsimp only
        omega
      · rw [(steps_count _ k).2]
        dsimp only
        omega
    · exact ⟨_, _, rfl, h, by dsimp only; omega⟩

end Verif.Mprgp
