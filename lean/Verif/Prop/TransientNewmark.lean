import Verif.Prop.TransientHeat
/-!
C93: linear transient structural mechanics.
-/
namespace Verif.Transient

open Finset

section
variable {K : Type} [Field K]

/-- C93: a step of linear transient structural mechanics is a step of Newmark's method with `beta = delta` and `gamma = alpha`: the new displacements have the prescribed values, the equation of motion
`M W + K U = f` of the new time holds in the free rows, and Newmark's formulas hold for the displacements and the velocities. -/
theorem C93_step (n : Nat) (fixed : Nat → Prop) (alpha delta : K) (h2 : (2 : K) ≠ 0) (hd : delta ≠ 0) (keeps : Bool) (cap : K → K) (ev : K → Vec K → Assembled K) (solve : Solver K)
    (ok : SolverOk n fixed solve) (s : NewmarkState K) (hh : cap s.shift ≠ 0)
    (fresh : MatrixOk (1 / (delta * cap s.shift * cap s.shift)) (ev (s.previous + cap s.shift) s.u) s.aUpdated s.a)
    (hs : (newmarkStep n alpha delta keeps cap false ev solve s).solved = true) :
    let e := ev (s.previous + cap s.shift) s.u
    let s' := newmarkStep n alpha delta keeps cap false ev solve s
    (∀ i, i < n → fixed i → s'.u i = e.g i) ∧ HeatBalance n fixed e.k e.m e.f s'.u s'.w ∧ Newmark delta alpha (cap s.shift) s.u s.v s.w s'.u s'.v s'.w ∧ s'.previous = s.previous + cap s.shift := by
  intro e s'
  obtain ⟨a, b, c⟩ := newmarkStep_spec n fixed alpha delta h2 hd keeps cap ev solve ok s hh fresh hs
  exact ⟨a, b, c, rfl⟩

/-- C93: a step rejected by the coupling leaves the motion and the time as they were; if the matrices are the same, repeating it with the same limit of the time step is the step from the old state. -/
theorem C93_restart (n : Nat) (alpha delta : K) (keeps : Bool) (cap : K → K) (hc : ∀ h, cap (cap h) = cap h) (ev ev' : K → Vec K → Assembled K)
    (same : ∀ t u, (ev' t u).k = (ev t u).k ∧ (ev' t u).m = (ev t u).m) (solve : Solver K) (s : NewmarkState K)
    (fresh : MatrixOk (1 / (delta * cap s.shift * cap s.shift)) (ev (s.previous + cap s.shift) s.u) s.aUpdated s.a)
    (fresh' : MatrixOk (1 / (delta * cap s.shift * cap s.shift)) (ev' (s.previous + cap s.shift) s.u) s.aUpdated s.a) :
    let r := newmarkStep n alpha delta keeps cap true ev solve s
    (r.u = s.u ∧ r.v = s.v ∧ r.w = s.w ∧ r.previous = s.previous ∧ r.substep = s.substep)
      ∧ newmarkStep n alpha delta keeps cap false ev' solve r = newmarkStep n alpha delta keeps cap false ev' solve s := by
  intro r
  refine ⟨⟨rfl, rfl, rfl, rfl, rfl⟩, ?_⟩
  have hr : r.a = fun i j => 0 + 1 * (ev (s.previous + cap s.shift) s.u).k i j + 1 / (delta * cap s.shift * cap s.shift) * (ev (s.previous + cap s.shift) s.u).m i j := by
    simp only [r, newmarkStep, if_true]
    exact matrix_of fresh
  have f2 : MatrixOk (1 / (delta * cap s.shift * cap s.shift)) (ev' (s.previous + cap s.shift) s.u) r.aUpdated r.a := by
    right
    intro i j
    rw [hr, (same _ _).1, (same _ _).2]
    ring
  have e1 := matrix_of f2
  have e2 := matrix_of fresh'
  have h1 : r.u = s.u := rfl
  have h2 : r.v = s.v := rfl
  have h3 : r.w = s.w := rfl
  have h4 : r.previous = s.previous := rfl
  have h5 : r.substep = s.substep := rfl
  have h6 : cap r.shift = cap s.shift := hc s.shift
  simp only [newmarkStep, h1, h2, h3, h4, h5, h6, Bool.false_eq_true, if_false]
  rw [e1, e2]

/-- After a step with the same length the matrix is again the right one. -/
theorem newmark_matrix_next (n : Nat) (alpha delta : K) (keeps : Bool) (ev : K → Vec K → Assembled K) (flags : FlagsOk ev) (solve : Solver K) (s : NewmarkState K)
    (fresh : MatrixOk (1 / (delta * s.shift * s.shift)) (ev (s.previous + s.shift) s.u) s.aUpdated s.a) :
    let s' := newmarkStep n alpha delta keeps id false ev solve s
    s'.shift = s.shift ∧ MatrixOk (1 / (delta * s.shift * s.shift)) (ev (s'.previous + s'.shift) s'.u) s'.aUpdated s'.a := by
  intro s'
  refine ⟨rfl, ?_⟩
  rcases flags with f | f
  · left
    rw [f]
    rfl
  · right
    intro i j
    have e : s'.a = fun i j => 0 + 1 * (ev (s.previous + s.shift) s.u).k i j + 1 / (delta * s.shift * s.shift) * (ev (s.previous + s.shift) s.u).m i j := by
      simp only [s', newmarkStep, Bool.false_eq_true, if_false, id]
      exact matrix_of fresh
    have g := f (s'.previous + s'.shift) s'.u (s.previous + s.shift) s.u
    rw [e, g.1, g.2]
    ring

end

section
variable {K : Type} [Field K] [LinearOrder K] [IsStrictOrderedRing K]

/-- What a step of a free motion does: it is again a free motion, and the energy balance holds. -/
theorem free_step (n : Nat) (fixed : Nat → Prop) (alpha delta : K) (hd : delta ≠ 0) (keeps : Bool) (ev : K → Vec K → Assembled K) (k m : Mat K)
    (hk : ∀ t u, (ev t u).k = k ∧ (ev t u).m = m ∧ (ev t u).f = (fun _ => 0) ∧ (ev t u).g = fun _ => 0) (solve : Solver K) (ok : SolverOk n fixed solve) (s : NewmarkState K) (hh : s.shift ≠ 0)
    (fresh : MatrixOk (1 / (delta * s.shift * s.shift)) (ev (s.previous + s.shift) s.u) s.aUpdated s.a) (a : FreeMotion n fixed k m s.u s.v s.w)
    (hs : (newmarkStep n alpha delta keeps id false ev solve s).solved = true) :
    let s' := newmarkStep n alpha delta keeps id false ev solve s
    FreeMotion n fixed k m s'.u s'.v s'.w ∧ Newmark delta alpha s.shift s.u s.v s.w s'.u s'.v s'.w := by
  intro s'
  obtain ⟨p, q, r⟩ := newmarkStep_spec n fixed alpha delta two_ne_zero hd keeps id ev solve ok s hh fresh hs
  obtain ⟨k1, k2, k3, k4⟩ := hk (s.previous + id s.shift) s.u
  simp only [k1, k2, k3, k4] at p q
  refine ⟨⟨fun i hi hf => ?_, q⟩, r⟩
  obtain ⟨z1, z2, z3⟩ := a.rest i hi hf
  have r1 := (r i).1
  have r2 := (r i).2
  rw [p i hi hf, z1, z2, z3] at r1
  have w0 : s'.w i = 0 := by
    have : s.shift ^ 2 * delta * s'.w i = 0 := by
      change (0 : K) = 0 + s.shift * 0 + s.shift ^ 2 * ((1 / 2 - delta) * 0 + delta * s'.w i) at r1
      linear_combination -r1
    rcases mul_eq_zero.1 this with h | h
    · exact absurd h (mul_ne_zero (pow_ne_zero 2 hh) hd)
    · exact h
  refine ⟨p i hi hf, ?_, w0⟩
  change s'.v i = s.v i + s.shift * ((1 - alpha) * s.w i + alpha * s'.w i) at r2
  rw [r2, w0, z2, z3]
  ring

/-- C93: unconditional stability. Without loads, with constant symmetric positive semidefinite matrices and a consistent initial acceleration, the energy does not grow in any number of steps if
`alpha ≥ 1/2` and `delta ≥ alpha / 2`. -/
theorem C93_stable (n : Nat) (fixed : Nat → Prop) (alpha delta : K) (ha : 1 / 2 ≤ alpha) (hd : alpha / 2 ≤ delta) (keeps : Bool) (ev : K → Vec K → Assembled K) (k m : Mat K) (sk : Symm n k)
    (sm : Symm n m) (pk : Psd n k) (pm : Psd n m) (hk : ∀ t u, (ev t u).k = k ∧ (ev t u).m = m ∧ (ev t u).f = (fun _ => 0) ∧ (ev t u).g = fun _ => 0) (solve : Solver K)
    (ok : SolverOk n fixed solve) (s : NewmarkState K) (hh : s.shift ≠ 0) (fresh : MatrixOk (1 / (delta * s.shift * s.shift)) (ev (s.previous + s.shift) s.u) s.aUpdated s.a)
    (a : FreeMotion n fixed k m s.u s.v s.w) (j : Nat) (hs : ∀ i, i < j → (newmarkSteps n alpha delta keeps ev solve (i + 1) s).solved = true) :
    let t := newmarkSteps n alpha delta keeps ev solve j s
    FreeMotion n fixed k m t.u t.v t.w ∧ energy n k m delta alpha s.shift t.u t.v t.w ≤ energy n k m delta alpha s.shift s.u s.v s.w := by
  have hd0 : delta ≠ 0 := by
    intro h0
    rw [h0] at hd
    linarith
  have flags : FlagsOk ev := Or.inr fun t u t' u' => ⟨by rw [(hk t u).1, (hk t' u').1], by rw [(hk t u).2.1, (hk t' u').2.1]⟩
  have main : ∀ j, (∀ i, i < j → (newmarkSteps n alpha delta keeps ev solve (i + 1) s).solved = true) →
      let t := newmarkSteps n alpha delta keeps ev solve j s
      t.shift = s.shift ∧ MatrixOk (1 / (delta * s.shift * s.shift)) (ev (t.previous + t.shift) t.u) t.aUpdated t.a ∧ FreeMotion n fixed k m t.u t.v t.w
        ∧ energy n k m delta alpha s.shift t.u t.v t.w ≤ energy n k m delta alpha s.shift s.u s.v s.w := by
    intro j
    induction j with
    | zero => exact fun _ => ⟨rfl, fresh, a, le_refl _⟩
    | succ j ih =>
      intro hs
      obtain ⟨i1, i2, i3, i4⟩ := ih fun i hi => hs i (by omega)
      have hs' := hs j (by omega)
      have i2' : MatrixOk (1 / (delta * (newmarkSteps n alpha delta keeps ev solve j s).shift * (newmarkSteps n alpha delta keeps ev solve j s).shift))
          (ev ((newmarkSteps n alpha delta keeps ev solve j s).previous + (newmarkSteps n alpha delta keeps ev solve j s).shift) (newmarkSteps n alpha delta keeps ev solve j s).u)
          (newmarkSteps n alpha delta keeps ev solve j s).aUpdated (newmarkSteps n alpha delta keeps ev solve j s).a := by
        rw [i1] at i2 ⊢
        exact i2
      have nx := newmark_matrix_next n alpha delta keeps ev flags solve _ i2'
      have fs := free_step n fixed alpha delta hd0 keeps ev k m hk solve ok _ (by rw [i1]; exact hh) i2' i3 hs'
      have en := newmark_energy n fixed k m sk sm delta alpha _ _ _ _ _ _ _ i3 fs.1 fs.2
      rw [i1] at en nx
      refine ⟨nx.1, nx.2, fs.1, le_trans ?_ i4⟩
      have p1 := pk (fun i => 1 * (newmarkSteps n alpha delta keeps ev solve (j + 1) s).u i + -1 * (newmarkSteps n alpha delta keeps ev solve j s).u i)
      have p2 := pm (fun i => 1 * (newmarkSteps n alpha delta keeps ev solve (j + 1) s).w i + -1 * (newmarkSteps n alpha delta keeps ev solve j s).w i)
      have p3 : 0 ≤ s.shift ^ 2 * (delta - alpha / 2) := mul_nonneg (sq_nonneg _) (sub_nonneg.2 hd)
      have p4 := mul_nonneg (sub_nonneg.2 ha) (add_nonneg p1 (mul_nonneg p3 p2))
      change energy n k m delta alpha s.shift (newmarkSteps n alpha delta keeps ev solve (j + 1) s).u _ _ - _ = _ at en
      have e5 : -(alpha - 1 / 2) * (form n k (fun i => 1 * (newmarkSteps n alpha delta keeps ev solve (j + 1) s).u i + -1 * (newmarkSteps n alpha delta keeps ev solve j s).u i)
          (fun i => 1 * (newmarkSteps n alpha delta keeps ev solve (j + 1) s).u i + -1 * (newmarkSteps n alpha delta keeps ev solve j s).u i)
          + s.shift ^ 2 * (delta - alpha / 2) * form n m (fun i => 1 * (newmarkSteps n alpha delta keeps ev solve (j + 1) s).w i + -1 * (newmarkSteps n alpha delta keeps ev solve j s).w i)
          (fun i => 1 * (newmarkSteps n alpha delta keeps ev solve (j + 1) s).w i + -1 * (newmarkSteps n alpha delta keeps ev solve j s).w i)) ≤ 0 := by
        rw [neg_mul]
        exact neg_nonpos.2 p4
      have e6 := en.trans_le e5
      exact sub_nonpos.1 e6
  exact ⟨(main j hs).2.2.1, (main j hs).2.2.2⟩

/-- C93: with `alpha = 1/2` and `delta = 1/4` (the trapezoidal rule) a step keeps the sum of the kinetic and the potential energy. -/
theorem C93_conserves (n : Nat) (fixed : Nat → Prop) (keeps : Bool) (ev : K → Vec K → Assembled K) (k m : Mat K) (sk : Symm n k)
    (sm : Symm n m) (hk : ∀ t u, (ev t u).k = k ∧ (ev t u).m = m ∧ (ev t u).f = (fun _ => 0) ∧ (ev t u).g = fun _ => 0) (solve : Solver K)
    (ok : SolverOk n fixed solve) (s : NewmarkState K) (hh : s.shift ≠ 0) (fresh : MatrixOk (1 / (1 / 4 * s.shift * s.shift)) (ev (s.previous + s.shift) s.u) s.aUpdated s.a)
    (a : FreeMotion n fixed k m s.u s.v s.w) (hs : (newmarkStep n (1 / 2) (1 / 4) keeps id false ev solve s).solved = true) :
    let t := newmarkStep n (1 / 2) (1 / 4) keeps id false ev solve s
    form n m t.v t.v / 2 + form n k t.u t.u / 2 = form n m s.v s.v / 2 + form n k s.u s.u / 2 := by
  intro t
  have fs := free_step n fixed (1 / 2) (1 / 4) (by norm_num) keeps ev k m hk solve ok s hh fresh a hs
  have en := newmark_energy n fixed k m sk sm (1 / 4) (1 / 2) _ _ _ _ _ _ _ a fs.1 fs.2
  simp only [energy] at en
  norm_num at en
  linear_combination en

/-- An oscillator: `K = M = 1`, no load. -/
def oscillator : K → Vec K → Assembled K := fun _ _ => ⟨fun _ _ => 1, fun _ _ => 1, fun _ => 0, fun _ => 0, true⟩

/-- The motion of the oscillator with the initial velocity `v0`. -/
def swing (alpha delta h v0 : K) (k : Nat) : NewmarkState K := newmarkSteps 1 alpha delta true oscillator divide k (newmarkInit h (fun _ => v0) (fun _ _ => 0) true)

theorem swing_step (alpha delta h v0 : K) (hd : 0 < delta) (hh : 0 < h) (k : Nat) :
    (swing alpha delta h v0 k).w 0 = -(swing alpha delta h v0 k).u 0 ∧ (swing alpha delta h v0 k).shift = h ∧ Newmark delta alpha h (swing alpha delta h v0 k).u (swing alpha delta h v0 k).v
      (swing alpha delta h v0 k).w (swing alpha delta h v0 (k + 1)).u (swing alpha delta h v0 (k + 1)).v (swing alpha delta h v0 (k + 1)).w := by
  have sh : ∀ k, (swing alpha delta h v0 k).shift = h := by
    intro k
    induction k with
    | zero => rfl
    | succ k ih => exact ih
  have sp : ∀ s : NewmarkState K, s.shift = h → HeatBalance 1 (fun _ => False) (fun _ _ => 1) (fun _ _ => 1) (fun _ => 0) (newmarkStep 1 alpha delta true id false oscillator divide s).u
      (newmarkStep 1 alpha delta true id false oscillator divide s).w ∧ Newmark delta alpha h s.u s.v s.w (newmarkStep 1 alpha delta true id false oscillator divide s).u
      (newmarkStep 1 alpha delta true id false oscillator divide s).v (newmarkStep 1 alpha delta true id false oscillator divide s).w := by
    intro s e
    have fresh : MatrixOk (1 / (delta * id s.shift * id s.shift)) (oscillator (s.previous + id s.shift) s.u) s.aUpdated s.a := Or.inl rfl
    have hs : (newmarkStep 1 alpha delta true id false oscillator divide s).solved = true := by
      simp only [newmarkStep, Bool.false_eq_true, if_false]
      rw [matrix_of fresh]
      simp only [divide, oscillator, id, e, decide_eq_true_eq]
      have : 0 < 1 / (delta * h * h) := by positivity
      intro z
      linarith
    have r := newmarkStep_spec 1 (fun _ => False) alpha delta two_ne_zero (ne_of_gt hd) true id oscillator divide divide_ok s (by rw [e]; exact ne_of_gt hh) fresh hs
    simp only [id, e] at r
    exact ⟨r.2.1, r.2.2⟩
  refine ⟨?_, sh k, (sp _ (sh k)).2⟩
  cases k with
  | zero => simp [swing, newmarkSteps, newmarkInit]
  | succ k =>
    have := (sp _ (sh k)).1 0 (by omega) (fun f => f)
    simp only [sum_range_one, one_mul] at this
    exact eq_neg_of_add_eq_zero_left this

/-- The area spanned by two successive states grows by a constant factor. -/
theorem swing_area (alpha delta h v0 : K) (hd : 0 < delta) (hh : 0 < h) (k : Nat) :
    (swing alpha delta h v0 k).u 0 * (swing alpha delta h v0 (k + 1)).v 0 - (swing alpha delta h v0 k).v 0 * (swing alpha delta h v0 (k + 1)).u 0
      = -((1 + (1 / 2 + delta - alpha) * h ^ 2) / (1 + delta * h ^ 2)) ^ k * (h * v0 ^ 2 / (1 + delta * h ^ 2)) := by
  have p : (0 : K) < 1 + delta * h ^ 2 := by positivity
  have ex : ∀ k, (swing alpha delta h v0 (k + 1)).u 0 = ((1 - (1 / 2 - delta) * h ^ 2) * (swing alpha delta h v0 k).u 0 + h * (swing alpha delta h v0 k).v 0) / (1 + delta * h ^ 2)
      ∧ (swing alpha delta h v0 (k + 1)).v 0 = (swing alpha delta h v0 k).v 0 - h * (1 - alpha) * (swing alpha delta h v0 k).u 0 - h * alpha * (swing alpha delta h v0 (k + 1)).u 0 := by
    intro k
    obtain ⟨w0, _, t⟩ := swing_step alpha delta h v0 hd hh k
    obtain ⟨w1, _, _⟩ := swing_step alpha delta h v0 hd hh (k + 1)
    obtain ⟨t1, t2⟩ := t 0
    rw [w0, w1] at t1 t2
    constructor
    · rw [eq_div_iff (ne_of_gt p)]
      linear_combination t1
    · linear_combination t2
  induction k with
  | zero =>
    obtain ⟨e1, e2⟩ := ex 0
    rw [e1]
    have u0 : (swing alpha delta h v0 0).u 0 = 0 := rfl
    have v0' : (swing alpha delta h v0 0).v 0 = v0 := rfl
    rw [u0, v0']
    simp only [pow_zero]
    ring
  | succ k ih =>
    obtain ⟨e1, e2⟩ := ex k
    obtain ⟨f1, f2⟩ := ex (k + 1)
    have key : (swing alpha delta h v0 (k + 1)).u 0 * (swing alpha delta h v0 (k + 1 + 1)).v 0 - (swing alpha delta h v0 (k + 1)).v 0 * (swing alpha delta h v0 (k + 1 + 1)).u 0
        = (1 + (1 / 2 + delta - alpha) * h ^ 2) / (1 + delta * h ^ 2)
          * ((swing alpha delta h v0 k).u 0 * (swing alpha delta h v0 (k + 1)).v 0 - (swing alpha delta h v0 k).v 0 * (swing alpha delta h v0 (k + 1)).u 0) := by
      rw [f2, f1, e2, e1]
      generalize (swing alpha delta h v0 k).u 0 = x
      generalize (swing alpha delta h v0 k).v 0 = y
      field_simp
      ring
    rw [key, ih, pow_succ]
    ring

/-- C93: with the default parameters (`alpha = 1/4`, `delta = 1/2`) the method is unstable: the oscillator that starts with any velocity leaves any bound, for any time step. The nonlinear analysis takes
`alpha` for `beta` and `delta` for `gamma`, for which the defaults are the trapezoidal rule. -/
theorem C93_default_wrong [Archimedean K] (h v0 : K) (hh : 0 < h) (hv : v0 ≠ 0) (B : K) : ∃ k, B < |(swing (1 / 4) (1 / 2) h v0 k).u 0| ∨ B < |(swing (1 / 4) (1 / 2) h v0 k).v 0| := by
  by_contra hn
  push Not at hn
  have p : (0 : K) < 1 + 1 / 2 * h ^ 2 := by positivity
  have q : 0 < h * v0 ^ 2 / (1 + 1 / 2 * h ^ 2) := by positivity
  have d1 : 1 < (1 + (1 / 2 + 1 / 2 - 1 / 4) * h ^ 2) / (1 + 1 / 2 * h ^ 2) := by
    rw [one_lt_div p]
    have : 0 < h ^ 2 := by positivity
    linarith
  obtain ⟨k, hk⟩ := pow_unbounded_of_one_lt (2 * B ^ 2 / (h * v0 ^ 2 / (1 + 1 / 2 * h ^ 2))) d1
  rw [div_lt_iff₀ q] at hk
  have ar := swing_area (1 / 4) (1 / 2) h v0 (by norm_num) hh k
  obtain ⟨a1, a2⟩ := hn k
  obtain ⟨b1, b2⟩ := hn (k + 1)
  have m1 : |(swing (1 / 4) (1 / 2) h v0 k).u 0 * (swing (1 / 4) (1 / 2) h v0 (k + 1)).v 0| ≤ B * B := by
    rw [abs_mul]
    exact mul_le_mul a1 b2 (abs_nonneg _) (le_trans (abs_nonneg _) a1)
  have m2 : |(swing (1 / 4) (1 / 2) h v0 k).v 0 * (swing (1 / 4) (1 / 2) h v0 (k + 1)).u 0| ≤ B * B := by
    rw [abs_mul]
    exact mul_le_mul a2 b1 (abs_nonneg _) (le_trans (abs_nonneg _) a2)
  have l1 := (abs_le.1 m1).1
  have l2 := (abs_le.1 m2).2
  nlinarith

/-- C93: with `alpha = 1/2` and `delta = 1/4` the oscillator stays bounded: `v² + u² = v0²`. -/
theorem C93_swing (h v0 : K) (hh : 0 < h) (k : Nat) : (swing (1 / 2) (1 / 4) h v0 k).v 0 ^ 2 + (swing (1 / 2) (1 / 4) h v0 k).u 0 ^ 2 = v0 ^ 2 := by
  induction k with
  | zero =>
    change v0 ^ 2 + (0 : K) ^ 2 = v0 ^ 2
    ring
  | succ k ih =>
    obtain ⟨w0, _, t⟩ := swing_step (1 / 2) (1 / 4) h v0 (by norm_num) hh k
    obtain ⟨w1, _, _⟩ := swing_step (1 / 2) (1 / 4) h v0 (by norm_num) hh (k + 1)
    obtain ⟨t1, t2⟩ := t 0
    rw [w0, w1] at t1 t2
    rw [← ih]
    have t3 : (swing (1 / 2) (1 / 4) h v0 (k + 1)).u 0 - (swing (1 / 2) (1 / 4) h v0 k).u 0
        = h / 2 * ((swing (1 / 2) (1 / 4) h v0 (k + 1)).v 0 + (swing (1 / 2) (1 / 4) h v0 k).v 0) := by
      linear_combination t1 - h / 2 * t2
    have t4 : (swing (1 / 2) (1 / 4) h v0 (k + 1)).v 0 - (swing (1 / 2) (1 / 4) h v0 k).v 0
        = -(h / 2) * ((swing (1 / 2) (1 / 4) h v0 (k + 1)).u 0 + (swing (1 / 2) (1 / 4) h v0 k).u 0) := by
      linear_combination t2
    linear_combination ((swing (1 / 2) (1 / 4) h v0 (k + 1)).v 0 + (swing (1 / 2) (1 / 4) h v0 k).v 0) * t4 + ((swing (1 / 2) (1 / 4) h v0 (k + 1)).u 0 + (swing (1 / 2) (1 / 4) h v0 k).u 0) * t3

end

/-- A mass under a constant load: `K = 0`, `M = 1`, `f = 1`, so the velocity is the time. -/
def pushed (up : Bool) : ℚ → Vec ℚ → Assembled ℚ := fun _ _ => ⟨fun _ _ => 0, fun _ _ => 1, fun _ => 1, fun _ => 0, up⟩

/-- C93: the acceleration is zero at the beginning instead of consistent with the loads, so the velocity lags behind by `(1 - alpha) h`. -/
theorem C93_start_wrong (alpha h : ℚ) (hh : 0 < h) :
    (newmarkStep 1 alpha (1 / 2) true id false (pushed true) divide (newmarkInit h (fun _ => 0) (fun _ _ => 0) true)).v 0 = alpha * h := by
  have gen : ∀ s : NewmarkState ℚ, s.shift = h → (newmarkStep 1 alpha (1 / 2) true id false (pushed true) divide s).solved = true := by
    intro s e
    have fresh : MatrixOk (1 / (1 / 2 * id s.shift * id s.shift)) (pushed true (s.previous + id s.shift) s.u) s.aUpdated s.a := Or.inl rfl
    simp only [newmarkStep, Bool.false_eq_true, if_false]
    rw [matrix_of fresh]
    have := ne_of_gt hh
    simp [divide, pushed, e, this]
  have r := newmarkStep_spec 1 (fun _ => False) alpha (1 / 2) two_ne_zero (by norm_num) true id (pushed true) divide divide_ok (newmarkInit h (fun _ => 0) (fun _ _ => 0) true) (ne_of_gt hh) (Or.inl rfl)
    (gen _ rfl)
  have w := r.2.1 0 (by omega) (fun f => f)
  simp only [pushed, sum_range_one, one_mul, zero_mul, add_zero] at w
  have v := (r.2.2 0).2
  rw [v, w]
  change (0 : ℚ) + h * ((1 - alpha) * 0 + alpha * 1) = _
  ring

/-- C93: FETI keeps its matrix while the assembler reports no change; if the coupling shortens the time step, the matrix is that of the old step and the result is not Newmark's: a mass at rest under a unit
load, whose acceleration after the first step of length 1 is 1, gets the acceleration 31 in a step of length 1/2. -/
theorem C93_stale_wrong :
    let s := newmarkStep 1 (1 / 2) (1 / 4) false id false (pushed true) divide (newmarkInit (1 : ℚ) (fun _ => 0) (fun _ _ => 0) true)
    (s.w 0 = 1) ∧ (newmarkStep 1 (1 / 2) (1 / 4) false (fun h => min h (1 / 2)) false (pushed false) divide s).w 0 = 31 := by
  refine ⟨?_, ?_⟩ <;> decide +kernel

/-- The hypotheses of `C93_stable` are met by the oscillator displaced by 1 with the acceleration -1. -/
example : FreeMotion 1 (fun _ => False) (fun _ _ => (1 : ℚ)) (fun _ _ => 1) (fun _ => 1) (fun _ => 0) (fun _ => -1) ∧ Symm 1 (fun _ _ => (1 : ℚ)) ∧ Psd 1 (fun _ _ => (1 : ℚ))
    ∧ (newmarkStep 1 (1 / 2 : ℚ) (1 / 4) true id false oscillator divide ⟨fun _ => 1, fun _ => 0, fun _ => -1, fun _ _ => 0, true, 0, 1, 0, true⟩).u 0 = 3 / 5
    ∧ (newmarkStep 1 (1 / 2 : ℚ) (1 / 4) true id false oscillator divide ⟨fun _ => 1, fun _ => 0, fun _ => -1, fun _ _ => 0, true, 0, 1, 0, true⟩).solved = true := by
  refine ⟨⟨fun i _ f => f.elim, fun i _ _ => ?_⟩, fun i j _ _ => rfl, fun x => ?_, by decide +kernel, by decide +kernel⟩
  · norm_num
  · simp only [form, sum_range_one]
    nlinarith [sq_nonneg (x 0)]

end Verif.Transient
