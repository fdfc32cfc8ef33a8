import Verif.Prop.Smalbe
import Mathlib.Algebra.Field.Rat
import Mathlib.Algebra.Order.Field.Rat
import Mathlib.Algebra.BigOperators.Fin
import Mathlib.Tactic.FinCases
import Mathlib.Tactic.NormNum
/-!
C74: two multipliers with one kernel.
-/
namespace Verif.Mprgp

/-- The square root of the squares of fractions. -/
def ratSqrt (q : ℚ) : ℚ := (Nat.sqrt q.num.natAbs : ℚ) / (Nat.sqrt q.den : ℚ)

/-- Two multipliers between bounds, `G = (3/5, 4/5)`. -/
def kernelS (f : Fin 2 → Fin 2 → ℚ) (lb e d0 d1 norm : ℚ) : SProblem (Fin 2) (Fin 1) ℚ where
  B := { bounded := fun _ => true, lb := fun _ => lb, ub := fun _ => 100 }
  F := fun v i => f i 0 * v 0 + f i 1 * v 1
  M := none
  P := fun v i => if i = 0 then v 0 - (3 / 5 * v 0 + 4 / 5 * v 1) * (3 / 5) else v 1 - (3 / 5 * v 0 + 4 / 5 * v 1) * (4 / 5)
  GtinvU := fun w i => if i = 0 then 3 / 5 * w 0 else 4 / 5 * w 0
  invLG := fun v _ => 3 / 5 * v 0 + 4 / 5 * v 1
  invL := id
  invU := id
  e := fun _ => e
  d := fun i => if i = 0 then d0 else d1
  normPFP := norm

def kernelG (v : Fin 2 → ℚ) : Fin 1 → ℚ := fun _ => 3 / 5 * v 0 + 4 / 5 * v 1

def kernelGt (w : Fin 1 → ℚ) : Fin 2 → ℚ := fun i => if i = 0 then 3 / 5 * w 0 else 4 / 5 * w 0

def kernelConfig (n : Nat) (delta alpham precision precisionIn : ℚ) : SConfig ℚ :=
  { delta := delta, gradproj := true, eps := 0, maxIterations := n, sqrt := ratSqrt, precision := precision, precisionIn := precisionIn, alpham := alpham, rho := 1, eta := 1, beta := 4 / 5, M := 1 }

/-- The identity. -/
def unit2 : Fin 2 → Fin 2 → ℚ := fun i j => if i = j then 1 else 0

/-- A matrix that is not diagonal. -/
def spring2 : Fin 2 → Fin 2 → ℚ := fun i j => if i = j then 2 else -1

theorem kernel_consistent (f : Fin 2 → Fin 2 → ℚ) (hf : f = unit2 ∨ f = spring2) (lb e d0 d1 norm : ℚ) (hl : lb ≤ 0) (hn : 0 < norm) : Consistent (kernelS f lb e d0 d1 norm) kernelG kernelGt where
  F := by
    refine ⟨⟨fun u v => ?_, fun c v => ?_⟩, fun u v => ?_⟩
    · funext i
      simp [kernelS]
      ring
    · funext i
      simp [kernelS]
      ring
    · simp only [dot, Fin.sum_univ_two, kernelS]
      rcases hf with rfl | rfl <;> simp [unit2, spring2] <;> ring
  Fpos v := by
    simp only [dot, Fin.sum_univ_two, kernelS]
    rcases hf with rfl | rfl <;> simp [unit2, spring2] <;> nlinarith [mul_self_nonneg (v 0), mul_self_nonneg (v 1), mul_self_nonneg (v 0 - v 1)]
  adjoint v w := by
    simp [dot, Fin.sum_univ_two, kernelG, kernelGt]
    ring
  GtinvU w := rfl
  invLG v := rfl
  injective v w h := h
  Glinear := ⟨fun u v => by funext i; simp [kernelG]; ring, fun c v => by funext i; simp [kernelG]; ring⟩
  linear := ⟨fun u v => by funext i; fin_cases i <;> simp [kernelS] <;> ring, fun c v => by funext i; fin_cases i <;> simp [kernelS] <;> ring⟩
  linear' := ⟨fun u v => by funext i; simp [kernelS]; ring, fun c v => by funext i; simp [kernelS]; ring⟩
  adjoint' v w := by
    simp [dot, Fin.sum_univ_two, kernelS]
    ring
  orthonormal w := by
    funext i
    fin_cases i
    simp [kernelS]
    ring
  projector v := by
    funext i
    fin_cases i <;> simp [kernelS] <;> ring
  prec M hM := by cases hM
  norm := hn
  proper i _ := by
    show lb ≤ 100
    linarith
  zero i _ := ⟨hl, by show (0 : ℚ) ≤ 100; norm_num⟩

/-- What is compared in the examples. -/
def outcome (r : SResult (Fin 2) (Fin 1) ℚ × SReport (Fin 2) (Fin 1) ℚ) : ℚ × ℚ × ℚ × Bool × Nat × Bool := (r.2.x 0, r.2.x 1, r.2.rbm 0, r.1.broke, r.1.iterations, r.2.error)

def residual (r : SResult (Fin 2) (Fin 1) ℚ × SReport (Fin 2) (Fin 1) ℚ) : ℚ × ℚ × ℚ := (r.1.gstop 0, r.1.gstop 1, r.1.Gx 0)

/-- The problem of the example: the solution is inside the bounds. -/
abbrev springS : SProblem (Fin 2) (Fin 1) ℚ := kernelS spring2 0 1 3 5 2

abbrev springConfig : SConfig ℚ := kernelConfig 100 (1 / 4) 1 (1 / 100) (1 / 1000)

theorem spring_outcome : (smalbe springS springConfig 3).map outcome = some (19 / 37, 32 / 37, 175 / 37, true, 3, false) := by decide +kernel

theorem spring_residual : (smalbe springS springConfig 3).map residual = some (0, 0, 0) := by decide +kernel

/-- The loop ends with `break` and both tested vectors are zero: the hypotheses of `C74_feasible`, `C74_result_partial` and `C74_solution_partial` hold. -/
example : ∃ r p, smalbe springS springConfig 3 = some (r, p) ∧ r.broke = true ∧ r.gstop = 0 ∧ r.Gx = 0 ∧ p.x 0 = 19 / 37 ∧ p.x 1 = 32 / 37 ∧
    springS.B.Has p.x ∧ kernelG p.x = springS.e ∧ ∀ u, springS.B.Has u → kernelG u = springS.e → cost springS.F springS.d p.x ≤ cost springS.F springS.d u := by
  have h1 := spring_outcome
  have h2 := spring_residual
  rcases hs : smalbe springS springConfig 3 with _ | ⟨r, p⟩
  · rw [hs] at h1
    cases h1
  · rw [hs] at h1 h2
    simp only [Option.map_some, Option.some.injEq, outcome, residual, Prod.mk.injEq] at h1 h2
    have hg : r.gstop = 0 := by
      funext i
      fin_cases i
      · exact h2.1
      · exact h2.2.1
    have hx : r.Gx = 0 := by
      funext i
      fin_cases i
      exact h2.2.2
    have hc := C74_solution_partial springS (kernel_consistent spring2 (.inr rfl) 0 1 3 5 2 le_rfl (by norm_num)) springConfig (by decide +kernel) (by decide +kernel) 3 r p hs h1.2.2.2.1 hg hx
      (.inr (by decide +kernel))
    exact ⟨r, p, rfl, h1.2.2.2.1, hg, hx, h1.1, h1.2.1, hc.1, hc.2.1, hc.2.2.2⟩

/-! ### A load that is ignored -/

/-- A load of 1/10 with the precision 1/100. -/
abbrev lightS : SProblem (Fin 2) (Fin 1) ℚ := kernelS unit2 (-100) (1 / 10) (4 / 5) (-3 / 5) 1

abbrev lightConfig : SConfig ℚ := kernelConfig 100 10 (99 / 100) (1 / 100) (1 / 1000)

theorem light_outcome : (smalbe lightS lightConfig 3).map outcome = some (9999 / 12500, -29997 / 50000, 0, true, 3, false) := by decide +kernel

theorem light_residual : (smalbe lightS lightConfig 3).map residual = some (-1 / 12500, 3 / 50000, 0) := by decide +kernel

/-- **C74.** A run that ends with `break` within the limit and whose multipliers do not balance the load of the kernel. -/
theorem C74_small_load_witness : ∃ r p, smalbe lightS lightConfig 3 = some (r, p) ∧ r.broke = true ∧ p.error = false ∧ kernelG p.x 0 = 0 ∧ lightS.e 0 = 1 / 10 := by
  have h1 := light_outcome
  have h2 := light_residual
  rcases hs : smalbe lightS lightConfig 3 with _ | ⟨r, p⟩
  · rw [hs] at h1
    cases h1
  · rw [hs] at h1 h2
    simp only [Option.map_some, Option.some.injEq, outcome, residual, Prod.mk.injEq] at h1 h2
    have hx : r.Gx = 0 := by
      funext i
      fin_cases i
      exact h2.2.2
    have hc := C74_small_load lightS (kernel_consistent unit2 (.inl rfl) (-100) (1 / 10) (4 / 5) (-3 / 5) 1 (by norm_num) (by norm_num)) lightConfig (by decide +kernel) (by decide +kernel) 3 r p hs hx
      (fun h => by have := congrFun h 0; revert this; decide +kernel) (by decide +kernel)
    exact ⟨r, p, rfl, h1.2.2.2.1, h1.2.2.2.2.2, congrFun hc.1 0, rfl⟩

/-! ### A converged run that is reported as an error -/

abbrev strictS : SProblem (Fin 2) (Fin 1) ℚ := kernelS unit2 (-100) 1 (3 / 5) (-9 / 20) 1

abbrev strictConfig : SConfig ℚ := kernelConfig 2 10 (99 / 100) (9 / 100) (1 / 1000)

/-- **C74.** The loop ends with `break`, both norms are below the precision, and the report is an error. -/
theorem C74_converged_as_error : ∃ r p, smalbe strictS strictConfig 3 = some (r, p) ∧ r.broke = true ∧ p.converged = false ∧ p.error = true := by
  have h1 : (smalbe strictS strictConfig 3).map outcome = some (297 / 250, 693 / 2000, -99 / 100, true, 3, true) := by decide +kernel
  rcases hs : smalbe strictS strictConfig 3 with _ | ⟨r, p⟩
  · rw [hs] at h1
    cases h1
  · rw [hs] at h1
    simp only [Option.map_some, Option.some.injEq, outcome, Prod.mk.injEq] at h1
    exact ⟨r, p, rfl, h1.2.2.2.1, (C74_never_converged strictS strictConfig 3 r p hs).1, h1.2.2.2.2.2⟩

/-- A run without `break`: the limit is reached in the first round. -/
example : (smalbe strictS (kernelConfig 1 10 (99 / 100) (1 / 1000) (1 / 10000)) 3).map outcome = some (0, 0, -1, false, 2, true) := by decide +kernel

/-! ### A run that never ends -/

/-- The load pulls the body from its supports: the bounds `0 ≤ x` and `G x = -1` exclude each other. -/
abbrev pulledS : SProblem (Fin 2) (Fin 1) ℚ := kernelS unit2 0 (-1) (2 / 5) (-3 / 10) 1

abbrev pulledConfig (n : Nat) : SConfig ℚ := kernelConfig n 10 (99 / 100) (1 / 100) (1 / 1000)

/-- The states of the outer loop. -/
def pulledAt (M : ℚ) (l : Option ℚ) (k : ℕ) : SState (Fin 2) (Fin 1) ℚ where
  x0 := fun i => if i = 0 then 3 / 5 else 4 / 5
  mu := fun _ => k
  bCtmu := fun i => if i = 0 then 2 / 5 - 3 / 5 * k else -3 / 10 - 4 / 5 * k
  M := M
  Lag0 := l
  iterations := 1

theorem ratSqrt_values : ratSqrt 0 = 0 ∧ ratSqrt 1 = 1 ∧ ratSqrt (1 / 4) = 1 / 2 := by decide +kernel

/-- What does not change. -/
def pulledFixed : SFixed (Fin 2) ℚ where
  xim := fun i => if i = 0 then -3 / 5 else -4 / 5
  B := { bounded := fun _ => true, lb := fun i => if i = 0 then 3 / 5 else 4 / 5, ub := fun i => if i = 0 then 503 / 5 else 504 / 5 }
  b := fun i => if i = 0 then 2 / 5 else -3 / 10
  normb := 1 / 2

theorem pulled_begin (n : Nat) : sbegin pulledS (pulledConfig n) = (pulledFixed, pulledAt 1 none 0) := by
  have hl : (pulledConfig n).sqrt (dot (pulledS.invL pulledS.e) (pulledS.invL pulledS.e)) > 10 * (pulledConfig n).precision := by
    show ratSqrt (dot (fun _ : Fin 1 => (-1 : ℚ)) fun _ => -1) > 10 * (1 / 100)
    rw [show dot (fun _ : Fin 1 => (-1 : ℚ)) (fun _ => -1) = 1 by simp [dot], ratSqrt_values.2.1]
    norm_num
  have hh : homogenize pulledS (pulledConfig n) = (pulledFixed.xim, fun i => if i = 0 then 1 else 1 / 2, pulledFixed.B, fun i => if i = 0 then 3 / 5 else 4 / 5) := by
    unfold homogenize
    dsimp only
    rw [if_pos hl]
    refine Prod.ext ?_ (Prod.ext ?_ (Prod.ext ?_ ?_))
    · funext i
      fin_cases i <;> simp [kernelS, pulledFixed] <;> norm_num
    · funext i
      fin_cases i <;> simp [kernelS, unit2] <;> norm_num
    · simp only [Box.shift, kernelS, pulledFixed]
      congr 1 <;> funext i <;> fin_cases i <;> simp <;> norm_num
    · funext i
      fin_cases i <;> simp [kernelS]
  have hb : (1 / pulledS.normPFP) • pulledS.P (fun i => if i = 0 then 1 else 1 / 2) = pulledFixed.b := by
    funext i
    fin_cases i <;> simp [kernelS, pulledFixed] <;> norm_num
  unfold sbegin
  rw [hh]
  dsimp only
  rw [hb]
  refine Prod.ext ?_ ?_
  · show SFixed.mk _ _ _ _ = pulledFixed
    have : (pulledConfig n).sqrt (dot pulledFixed.b pulledFixed.b) = 1 / 2 := by
      show ratSqrt _ = _
      rw [show dot pulledFixed.b pulledFixed.b = 1 / 4 by simp [dot, Fin.sum_univ_two, pulledFixed]; norm_num, ratSqrt_values.2.2]
    rw [this]
    rfl
  · simp only [pulledAt, ctmu]
    congr 1
    funext i
    fin_cases i <;> simp [kernelS, pulledFixed]

theorem pulled_gradient (M : ℚ) (l : Option ℚ) (n k : ℕ) : (inner pulledS (pulledConfig n) pulledFixed (pulledAt M l k)).H (pulledAt M l k).x0 + (1 : ℚ) • (-1 : ℚ) • (pulledAt M l k).bCtmu =
    fun i => if i = 0 then 1 / 5 + 3 / 5 * (k : ℚ) else 11 / 10 + 4 / 5 * (k : ℚ) := by
  funext i
  fin_cases i <;> simp [inner, applyA, kernelS, unit2, kernelConfig, pulledAt] <;> ring

theorem pulled_reduced (k : ℕ) : reducedGradient pulledFixed.B (fun i => if i = 0 then 1 / 5 + 3 / 5 * (k : ℚ) else 11 / 10 + 4 / 5 * (k : ℚ)) (fun i => if i = 0 then 3 / 5 else 4 / 5) (99 / 100 / 1) = 0 := by
  have hk : (0 : ℚ) ≤ k := Nat.cast_nonneg k
  have h : restrictToBox pulledFixed.B ((fun i => if i = 0 then 3 / 5 else 4 / 5) + (-(99 / 100 / 1) : ℚ) • fun i => if i = 0 then 1 / 5 + 3 / 5 * (k : ℚ) else 11 / 10 + 4 / 5 * (k : ℚ)) =
      fun i => if i = 0 then 3 / 5 else 4 / 5 := by
    funext i
    refine restrictToBox_below rfl ?_
    fin_cases i <;> simp [pulledFixed] <;> positivity
  funext i
  unfold reducedGradient
  dsimp only
  rw [h]
  simp

theorem pulled_step (n : Nat) (M : ℚ) (hM : 0 ≤ M) (l : Option ℚ) (k : ℕ) : ∃ r M' l', 0 ≤ M' ∧ sbody pulledS (pulledConfig n) pulledFixed (pulledAt M l k) = some (r, pulledAt M' l' (k + 1)) ∧ r.broke = false := by
  have hG : pulledS.invLG (pulledAt M l k).x0 = fun _ => 1 := by
    funext i
    simp [kernelS, pulledAt]
    norm_num
  have hd : dot (fun _ : Fin 1 => (1 : ℚ)) (fun _ => 1) = 1 := by simp [dot]
  obtain ⟨t, ht⟩ : ∃ t, t = begin (inner pulledS (pulledConfig n) pulledFixed (pulledAt M l k)) (pulledConfig n).eps (pulledAt M l k).x0 := ⟨_, rfl⟩
  have hx : t.x = (pulledAt M l k).x0 := by rw [ht]; rfl
  have hg : t.g = fun i => if i = 0 then 1 / 5 + 3 / 5 * (k : ℚ) else 11 / 10 + 4 / 5 * (k : ℚ) := by
    rw [ht]
    exact pulled_gradient M l n k
  have hr : reducedGradient pulledFixed.B t.g t.x (99 / 100 / 1) = 0 := by
    rw [hg, hx]
    exact pulled_reduced k
  have hst : t.gstop = 0 := by
    rw [← hr, ht]
    rfl
  have hz : (pulledConfig n).sqrt (dot (0 : Fin 2 → ℚ) 0) = 0 := by
    show ratSqrt _ = _
    rw [show dot (0 : Fin 2 → ℚ) 0 = 0 by simp [dot], ratSqrt_values.1]
  have ho : (pulledConfig n).sqrt (dot (fun _ : Fin 1 => (1 : ℚ)) (fun _ => 1)) = 1 := by
    show ratSqrt _ = _
    rw [hd, ratSqrt_values.2.1]
  have hrun : run (inner pulledS (pulledConfig n) pulledFixed (pulledAt M l k)) (pulledConfig n).toConfig (sstop pulledS (pulledConfig n) M pulledFixed.normb) ((pulledConfig n).maxIterations + 2) (pulledAt M l k).x0 1 =
      some (t, ⟨1, 0, 0, 0⟩) := by
    unfold run
    rw [← ht]
    unfold mloop
    rw [if_pos]
    unfold sstop
    dsimp only
    rw [hst, hx, hG, hz, ho]
    simp only [Bool.or_eq_true, decide_eq_true_eq]
    left
    rw [le_min_iff]
    exact ⟨by linarith, by show (0 : ℚ) ≤ 1 * (1 / 2); norm_num⟩
  unfold sbody
  dsimp only
  rw [show (pulledAt M l k).M = M from rfl, show (pulledAt M l k).iterations = 1 from rfl, hrun]
  simp only [Option.bind_eq_bind, Option.bind_some]
  have hmu : (pulledAt M l k).mu + (pulledConfig n).rho • (fun _ : Fin 1 => (1 : ℚ)) = fun _ => ((k + 1 : ℕ) : ℚ) := by
    funext i
    simp [pulledAt, kernelConfig]
  have hct : ctmu pulledS pulledFixed.b (fun _ => ((k + 1 : ℕ) : ℚ)) = fun i => if i = 0 then 2 / 5 - 3 / 5 * ((k + 1 : ℕ) : ℚ) else -3 / 10 - 4 / 5 * ((k + 1 : ℕ) : ℚ) := by
    funext i
    fin_cases i <;> simp [ctmu, kernelS, pulledFixed] <;> ring
  rw [hx, hG, ho, if_neg (by
    rintro ⟨_, h⟩
    revert h
    show ¬ (1 : ℚ) ≤ 1 / 100 * (1 / 2) / 1
    norm_num), hmu, hct]
  refine ⟨_, _, _, ?_, rfl, rfl⟩
  have hb : (0 : ℚ) ≤ (pulledConfig n).beta * M := mul_nonneg (by show (0 : ℚ) ≤ 4 / 5; norm_num) hM
  split
  · split
    · exact hb
    · exact hM
  · exact hM

/-- **C74.** When the bounds and the equality constraint exclude each other, the outer loop does not end for any limit of the iterations: the run of each round stops at once, so the count of the
iterations stays one. -/
theorem C74_never_ends (n : Nat) (hn : 1 ≤ n) : ∃ s : ℕ → SState (Fin 2) (Fin 1) ℚ, s 0 = (sbegin pulledS (pulledConfig n)).2 ∧
    ∀ k, (s k).iterations ≤ (pulledConfig n).maxIterations ∧ ∃ r, sbody pulledS (pulledConfig n) (sbegin pulledS (pulledConfig n)).1 (s k) = some (r, s (k + 1)) ∧ r.broke = false := by
  rw [pulled_begin]
  have step : ∀ s : { s // ∃ M l k, 0 ≤ M ∧ s = pulledAt M l k }, ∃ s' : { s // ∃ M l k, 0 ≤ M ∧ s = pulledAt M l k }, ∃ r,
      sbody pulledS (pulledConfig n) pulledFixed s.1 = some (r, s'.1) ∧ r.broke = false := by
    rintro ⟨s, M, l, k, hM, rfl⟩
    obtain ⟨r, M', l', hM', h1, h2⟩ := pulled_step n M hM l k
    exact ⟨⟨_, M', l', k + 1, hM', rfl⟩, r, h1, h2⟩
  choose next hnext using step
  refine ⟨fun k => (next^[k] ⟨pulledAt 1 none 0, 1, none, 0, zero_le_one, rfl⟩).1, rfl, fun k => ⟨?_, ?_⟩⟩
  · obtain ⟨M, l, j, _, e⟩ := (next^[k] ⟨pulledAt 1 none 0, 1, none, 0, zero_le_one, rfl⟩).2
    dsimp only
    rw [e]
    exact hn
  · dsimp only
    rw [Function.iterate_succ_apply']
    exact hnext _

/-- No multipliers satisfy the bounds and the equality constraint of this example. -/
example : ¬ ∃ x, pulledS.B.Has x ∧ kernelG x = pulledS.e := by
  rintro ⟨x, h, e⟩
  have h0 : 0 ≤ x 0 := (h 0 rfl).1
  have h1 : 0 ≤ x 1 := (h 1 rfl).1
  have h2 : 3 / 5 * x 0 + 4 / 5 * x 1 = -1 := congrFun e 0
  linarith

end Verif.Mprgp
