import Verif.Prop.Mprgp
import Mathlib.Tactic.Linarith
/-!
C72, C73: defects of `MPRGP` and examples.
-/
namespace Verif.Mprgp

/-! ### A problem with two variables -/

def tri (v : Fin 2 → ℚ) : Fin 2 → ℚ := fun i => if i = 0 then 2 * v 0 - v 1 else 2 * v 1 - v 0

/-- Two bounded variables, the second one is at its bound in the minimum. -/
def pair : Problem (Fin 2) ℚ where
  B := { bounded := fun _ => true, lb := fun _ => 0, ub := fun _ => 100 }
  H := tri
  Hprec := id
  b := fun i => if i = 0 then 3 else -3
  alpha := 1 / 3

def small {ι : Type} [Fintype ι] (tol : ℚ) (_ g : ι → ℚ) : Bool := decide (dot g g ≤ tol)

def usual (n : Nat) : Config ℚ := { delta := 1 / 4, gradproj := true, eps := 0, maxIterations := n }

def high : Fin 2 → ℚ := fun i => if i = 0 then 0 else 50

theorem dot_two (u v : Fin 2 → ℚ) : dot u v = u 0 * v 0 + u 1 * v 1 := by
  unfold dot
  rw [Fin.sum_univ_two]

theorem tri_quadratic : Quadratic tri where
  linear :=
    { map_add := fun u v => by
        funext i
        unfold tri
        fin_cases i <;> simp <;> ring
      map_smul := fun c v => by
        funext i
        unfold tri
        fin_cases i <;> simp <;> ring }
  symm u v := by
    rw [dot_two, dot_two]
    unfold tri
    simp
    ring

theorem pair_definite (n : Nat) : Definite pair (usual n) 1 1 1 1 where
  proper i _ := by show (0 : ℚ) ≤ 100; norm_num
  quadratic := tri_quadratic
  alpha := by show (0 : ℚ) < 1 / 3; norm_num
  upper v := by
    rw [dot_two, dot_two]
    show (1 : ℚ) / 3 * (v 0 * (2 * v 0 - v 1) + v 1 * (2 * v 1 - v 0)) ≤ _
    nlinarith [mul_self_nonneg (v 0 + v 1)]
  sigma0 := by norm_num
  sigma2 := by norm_num
  lower v := by
    rw [dot_two, dot_two]
    show _ ≤ v 0 * (2 * v 0 - v 1) + v 1 * (2 * v 1 - v 0)
    nlinarith [mul_self_nonneg (v 0 - v 1)]
  a0 := by norm_num
  prec1 v := by rw [one_mul]; exact le_refl _
  m10 := by norm_num
  prec2 v := by rw [one_mul]; exact le_refl _
  m20 := by norm_num
  delta := by show (0 : ℚ) < 1 / 4; norm_num
  half h := by cases h
  eps := le_refl _

theorem pair_strong (n : Nat) : Strong pair (usual n) 1 1 1 1 (1 / 12) := by
  have h := pair_definite n
  refine ⟨⟨h.proper, h.quadratic, fun v => ?_, fun v => ?_, h.alpha⟩, h.upper, h.sigma0, h.sigma2, h.lower, h.a0, ?_, h.prec1, h.m10, h.prec2, h.m20, h.delta, h.eps, ?_, ?_, ?_, ?_⟩
  · exact (mul_nonneg (le_of_lt h.a0) (dot_self_nonneg v)).trans (h.lower v)
  · exact (mul_nonneg (le_of_lt h.m10) (dot_self_nonneg v)).trans (h.prec1 v)
  · show (1 : ℚ) / 3 * 1 ≤ 1; norm_num
  · norm_num
  · show (1 : ℚ) / 12 ≤ 1 / 3 * (1 - 1 / 2); norm_num
  · show (1 : ℚ) / 12 * (1 * 1) ≤ 1 / 3 * 1 * (1 / 4); norm_num
  · intro e; cases e

theorem high_has : pair.B.Has high := by
  intro i _
  show (0 : ℚ) ≤ high i ∧ high i ≤ 100
  unfold high
  split <;> norm_num

/-- One step of every kind and the minimum. -/
theorem pair_run : ((run pair (usual 3) (small 0) 4 high 0).map fun r => (r.1.x 0, r.1.x 1, r.2)) = some (3 / 2, 0, ⟨3, 1, 1, 1⟩) := by decide +kernel

example : (run pair (usual 3) (small 0) 4 high 0).isSome = true := by decide +kernel

example (s : State (Fin 2) ℚ) (info : Info) (hr : run pair (usual 3) (small 0) 4 high 0 = some (s, info)) :
    pair.B.Has s.x ∧ (∀ i, s.g i = pair.H s.x i - pair.b i) ∧ ((∀ v, pair.alpha * dot v (pair.H v) ≤ 2 * dot v v) → cost pair.H pair.b s.x ≤ cost pair.H pair.b high) :=
  C72_feasible pair (pair_strong 3).valid (usual 3) (small 0) 4 0 high high_has s info hr

/-- The minimum of the pair. -/
theorem pair_minimum : Minimises pair.B pair.H pair.b (fun i => if i = 0 then 3 / 2 else 0) := by
  refine minimises_of_reduced (pair_strong 0).valid (fun i _ => ?_) ?_
  · show (0 : ℚ) ≤ (if i = 0 then 3 / 2 else 0) ∧ (if i = 0 then (3 : ℚ) / 2 else 0) ≤ 100
    split <;> norm_num
  · funext i
    fin_cases i <;> decide +kernel

example (s : State (Fin 2) ℚ) (info : Info) (hr : run pair (usual 1) (small 0) 2 high 0 = some (s, info)) :
    cost pair.H pair.b s.x - cost pair.H pair.b (fun i => if i = 0 then 3 / 2 else 0) ≤
      (1 - 1 / 12 * 1) ^ ((info.ncg + info.nmixed + info.ngproj + 1) / (Fintype.card (Fin 2) + 2)) * (cost pair.H pair.b high - cost pair.H pair.b (fun i => if i = 0 then 3 / 2 else 0)) :=
  (C72_rate pair (usual 1) (pair_strong 1) (small 0) (fun _ => by unfold small; decide +kernel) 2 0 high high_has s info hr _ pair_minimum).2.2

example (s : State (Fin 2) ℚ) (info : Info) (hr : run pair (usual 1) (small 0) 2 high 0 = some (s, info)) :
    (1 : ℚ) ^ 2 * dot (s.x - fun i => if i = 0 then 3 / 2 else 0) (s.x - fun i => if i = 0 then 3 / 2 else 0) ≤ 4 * dot s.gstop s.gstop :=
  C72_error pair (pair_strong 1).valid (sigma := 1) (a := 1) (by norm_num) (by norm_num) (pair_strong 1).upper (by norm_num) (pair_strong 1).lower (usual 1) (small 0) 2 0 high high_has s info hr _ pair_minimum

example : ∃ n, ∀ N fuel, n ≤ N → N < fuel → ∃ s info, run pair { usual 0 with maxIterations := N } (small (1 / 1000)) fuel high 0 = some (s, info) ∧ small (1 / 1000) s.x s.gstop = true ∧ info.iterations ≤ n :=
  C72_terminates pair (usual 0) (tol := 1 / 1000) (pair_definite 0) (by norm_num) (small (1 / 1000)) (fun _ g h => by unfold small; exact decide_eq_true h) high high_has

/-- The steps are bounded: a hundred and twenty contractions are enough for the tolerance `1 / 2`. -/
example : ∃ s info, run pair (usual 500) (small (1 / 2)) 501 high 0 = some (s, info) ∧ small (1 / 2) s.x s.gstop = true ∧ info.iterations ≤ (120 + 1) * (Fintype.card (Fin 2) + 2) :=
  C72_stops pair (usual 500) (tol := 1 / 2) (pair_strong 500) (by norm_num) (small (1 / 2)) (fun _ g h => by unfold small; exact decide_eq_true h) high high_has 120
    (by rw [show cost pair.H pair.b high = 2650 by decide +kernel, show dot pair.b pair.b = 18 by decide +kernel, show pair.alpha = 1 / 3 from rfl]; norm_num) (by decide) 501 (by decide)

example (s : State (Fin 2) ℚ) (info : Info) (hr : run pair (usual 7) (small 0) 8 high 0 = some (s, info)) : (report (usual 7) info).1 = true → small 0 s.x s.gstop = true :=
  (C73_report_partial pair (pair_strong 7).valid (usual 7) (small 0) 8 high high_has s info hr).2.1
example : ((run pair (usual 7) (small 0) 8 high 0).map fun r => report (usual 7) r.2) = some (true, false) := by decide +kernel

/-- **C73.** The report is wrong when the condition is satisfied after exactly `max_iterations` steps: the multipliers are the minimum, and the error is reported. -/
theorem C73_exact_max : ∃ s info, run pair (usual 3) (small 0) 4 high 0 = some (s, info) ∧ small 0 s.x s.gstop = true ∧ Minimises pair.B pair.H pair.b s.x ∧ report (usual 3) info = (false, true) := by
  have h : ((run pair (usual 3) (small 0) 4 high 0).map fun r => (small 0 r.1.x r.1.gstop, report (usual 3) r.2)) = some (true, false, true) := by decide +kernel
  cases hr : run pair (usual 3) (small 0) 4 high 0 with
  | none => rw [hr] at h; cases h
  | some r =>
    rw [hr] at h
    obtain ⟨s, info⟩ := r
    injection h with h
    injection h with h1 h2
    refine ⟨s, info, rfl, h1, ?_, h2⟩
    refine (C72_optimal pair (pair_strong 3).valid (usual 3) (small 0) 4 0 high high_has s info hr).1 ?_
    exact dot_self_eq_zero (le_antisymm (of_decide_eq_true h1) (dot_self_nonneg _))

/-! ### `alpha` of the default settings -/

/-- One variable from zero to `U`; `alpha` is two over the norm of `H`, which is `alpham = 2` and an exact estimate of the norm. -/
def swing (U : ℚ) : Problem (Fin 1) ℚ where
  B := { bounded := fun _ => true, lb := fun _ => 0, ub := fun _ => U }
  H := id
  Hprec := id
  b := fun _ => 1
  alpha := 2

theorem dot_one (u v : Fin 1 → ℚ) : dot u v = u 0 * v 0 := by
  unfold dot
  rw [Fin.sum_univ_one]

/-- The two states of the swing. -/
def swingAt (U eps x : ℚ) : State (Fin 1) ℚ := begin (swing U) eps fun _ => x

theorem swing_values (U eps : ℚ) (hU : 2 ≤ U) (x : ℚ) (hx : x = 0 ∨ x = 2) :
    (swingAt U eps x).g 0 = x - 1 ∧ (swingAt U eps x).gstop 0 = x - 1 ∧ (swingAt U eps x).gfree 0 = if freeSet (swing U).B eps (fun _ => x) 0 = true then x - 1 else 0 := by
  have hg : (swingAt U eps x).g 0 = x - 1 := by
    show x + 1 * (-1 * 1) = x - 1
    ring
  refine ⟨hg, ?_, ?_⟩
  · have hp : restrictToBox (swing U).B ((fun _ => x) + (-(swing U).alpha) • (swingAt U eps x).g) 0 = 2 - x := by
      show max (0 : ℚ) (min U (x + -2 * (swingAt U eps x).g 0)) = 2 - x
      rw [hg, show x + -2 * (x - 1) = 2 - x by ring]
      rcases hx with rfl | rfl
      · rw [sub_zero, min_eq_right hU]
        norm_num
      · rw [sub_self, min_eq_right (by linarith), max_self]
    have hr : (swingAt U eps x).gstop 0 = if (true && decide (1 / 2 * (x + -1 * restrictToBox (swing U).B ((fun _ => x) + (-(swing U).alpha) • (swingAt U eps x).g) 0) * (swingAt U eps x).g 0 < 0)) then 0
        else 1 / 2 * (x + -1 * restrictToBox (swing U).B ((fun _ => x) + (-(swing U).alpha) • (swingAt U eps x).g) 0) := rfl
    rw [hr, hp, hg, show 1 / 2 * (x + -1 * (2 - x)) = x - 1 by ring, decide_eq_false (not_lt.2 (mul_self_nonneg _))]
    rfl
  · rw [← hg]
    rfl

/-- The settings in question: `delta` above one half, or two bounds that are reached. -/
def Swings (U : ℚ) (cfg : Config ℚ) : Prop := 2 ≤ U ∧ (1 < 2 * cfg.delta ∨ (0 < cfg.delta ∧ U = 2 ∧ 0 ≤ cfg.eps))

theorem swing_step (U : ℚ) (cfg : Config ℚ) (hd : Swings U cfg) (hg : cfg.gradproj = true) (x : ℚ) (hx : x = 0 ∨ x = 2) :
    mstep (swing U) cfg (swingAt U cfg.eps x) = some (swingAt U cfg.eps (2 - x), .gproj) := by
  obtain ⟨h1, h2, h3⟩ := swing_values U cfg.eps hd.1 x hx
  have hsq : (x - 1) * (x - 1) = 1 := by rcases hx with rfl | rfl <;> norm_num
  have hm : max (0 : ℚ) 1 = 1 := by norm_num
  unfold mstep
  rw [if_neg]
  · unfold gprojStep
    rw [if_pos hg]
    have : (swingAt U cfg.eps x).x + (-(swing U).alpha) • (swingAt U cfg.eps x).gred = fun _ => 2 - x := by
      funext i
      have hi : i = 0 := Subsingleton.elim _ _
      rw [hi]
      show x + -2 * (swingAt U cfg.eps x).gstop 0 = 2 - x
      rw [h2]
      ring
    rw [this]
    rfl
  · rw [dot_one, dot_one, h1, h2, h3, hsq, hm, not_le]
    split
    · rename_i hf
      rw [hsq, hm]
      rcases hd.2 with h | ⟨_, h, he⟩
      · linarith
      · have : freeSet (swing U).B cfg.eps (fun _ => x) 0 = false := freeSet_at_bound he rfl (by rw [show (swing U).B.ub 0 = U from rfl, h]; exact hx)
        rw [this] at hf
        cases hf
    · rw [mul_zero, max_self]
      rcases hd.2 with h | ⟨h, _⟩ <;> linarith

/-- **C73.** With `alpha` equal to two over the norm of `H`, which is the default, the loop may never stop: for every number of iterations the result is one of two points, although the minimum is in the middle. -/
theorem C73_cycle (U : ℚ) (cfg : Config ℚ) (hd : Swings U cfg) (hg : cfg.gradproj = true) (tol : ℚ) (ht : tol < 1) (fuel : Nat) (hf : cfg.maxIterations < fuel) :
    Minimises (swing U).B (swing U).H (swing U).b (fun _ => 1) ∧
      ∃ s info, run (swing U) cfg (small tol) fuel (fun _ => 0) 0 = some (s, info) ∧ small tol s.x s.gstop = false ∧ (s.x = (fun _ => 0) ∨ s.x = fun _ => 2) ∧ report cfg info = (false, true) := by
  have hno : ∀ x, x = 0 ∨ x = 2 → small tol (swingAt U cfg.eps x).x (swingAt U cfg.eps x).gstop = false := by
    intro x hx
    unfold small
    rw [dot_one, (swing_values U cfg.eps hd.1 x hx).2.1]
    have : (x - 1) * (x - 1) = 1 := by rcases hx with rfl | rfl <;> norm_num
    rw [this]
    exact decide_eq_false (not_le.2 ht)
  constructor
  · refine ⟨fun i _ => ⟨by show (0 : ℚ) ≤ 1; norm_num, by show (1 : ℚ) ≤ U; linarith [hd.1]⟩, fun u _ => ?_⟩
    unfold cost
    rw [dot_one, dot_one, dot_one, dot_one]
    show 1 / 2 * (1 * 1) - 1 * 1 ≤ 1 / 2 * (u 0 * u 0) - 1 * u 0
    nlinarith [mul_self_nonneg (u 0 - 1)]
  · obtain ⟨s, info, h1, ⟨x, hx, h2⟩, h3⟩ := mloop_closed (P := swing U) (cfg := cfg) (stop := small tol) (fun s => ∃ x, (x = 0 ∨ x = 2) ∧ s = swingAt U cfg.eps x)
      (fun s ⟨x, hx, e⟩ => by
        refine ⟨by rw [e]; exact hno x hx, swingAt U cfg.eps (2 - x), .gproj, by rw [e]; exact swing_step U cfg hd hg x hx, 2 - x, ?_, rfl⟩
        rcases hx with rfl | rfl
        · right; norm_num
        · left; norm_num)
      fuel (s := swingAt U cfg.eps 0) (info := ⟨0, 0, 0, 0⟩) ⟨0, .inl rfl, rfl⟩ (Nat.zero_le _) hf
    refine ⟨s, info, h1, by rw [h2]; exact hno x hx, ?_, ?_⟩
    · rw [h2]
      rcases hx with rfl | rfl
      · exact .inl rfl
      · exact .inr rfl
    · unfold report
      rw [h3]
      simp

/-- The default `delta` with two bounds, and one bound with a greater `delta`. -/
example : Swings 2 (usual 1000) := ⟨le_refl _, .inr ⟨by show (0 : ℚ) < 1 / 4; norm_num, rfl, le_refl _⟩⟩
example : Swings (10 ^ 200) { usual 1000 with delta := 3 / 5, eps := 1 / 10 ^ 9 } := ⟨by norm_num, .inl (by show (1 : ℚ) < 2 * (3 / 5); norm_num)⟩

/-! ### Large `delta` -/

/-- **C73.** Without `gradproj` and with `delta` above one half, the loop does not move from a point whose variables are all free. -/
theorem C73_stalls {ι K : Type} [Fintype ι] [Field K] [LinearOrder K] [IsStrictOrderedRing K] (P : Problem ι K) (hP : Valid P) (cfg : Config K) (hg : cfg.gradproj = false) (hd : 1 < 2 * cfg.delta)
    (stop : (ι → K) → (ι → K) → Bool) (x0 : ι → K) (hx0 : P.B.Has x0) (hfree : ∀ i, freeSet P.B cfg.eps x0 i = true) (hs : stop x0 (begin P cfg.eps x0).gstop = false)
    (hne : (begin P cfg.eps x0).gstop ≠ 0) (fuel : Nat) (hf : cfg.maxIterations < fuel) :
    ∃ s info, run P cfg stop fuel x0 0 = some (s, info) ∧ s.x = x0 ∧ report cfg info = (false, true) := by
  have hi := begin_inv (P := P) cfg.eps hx0
  obtain ⟨h1, _⟩ := stop_dot hP hi
  have hD : 0 < dot (begin P cfg.eps x0).gstop (begin P cfg.eps x0).g := lt_of_lt_of_le (dot_self_pos hne) h1
  have hfg : (begin P cfg.eps x0).gfree = (begin P cfg.eps x0).g := by
    rw [hi.gfree, hi.free]
    funext i
    unfold masked
    rw [if_pos]
    exact hfree i
  have hstep : mstep P cfg (begin P cfg.eps x0) = some (begin P cfg.eps x0, .gproj) := by
    unfold mstep
    rw [if_neg]
    · unfold gprojStep
      rw [hg]
      have e : (begin P cfg.eps x0).x + (-P.alpha) • masked (begin P cfg.eps x0).gred (fun i => !(begin P cfg.eps x0).free i) = x0 := by
        funext i
        have : (begin P cfg.eps x0).free i = true := hfree i
        show x0 i + -P.alpha * masked _ _ i = x0 i
        unfold masked
        simp [this]
      dsimp only
      rw [if_neg (by simp), e]
      rfl
    · rw [hfg, max_eq_right (le_of_lt hD), not_le]
      nlinarith
  obtain ⟨s, info, e1, e2, e3⟩ := mloop_closed (P := P) (cfg := cfg) (stop := stop) (fun s => s = begin P cfg.eps x0) (fun s e => ⟨by rw [e]; exact hs, begin P cfg.eps x0, .gproj, by rw [e]; exact hstep, rfl⟩) fuel
    (s := begin P cfg.eps x0) (info := ⟨0, 0, 0, 0⟩) rfl (Nat.zero_le _) hf
  refine ⟨s, info, e1, by rw [e2]; rfl, ?_⟩
  unfold report
  rw [e3]
  simp

example (fuel : Nat) (hf : 100 < fuel) : ∃ s info, run pair { usual 100 with gradproj := false, delta := 3 / 4 } (small 0) fuel (fun _ => 1) 0 = some (s, info) ∧ s.x = (fun _ => 1) ∧
    report { usual 100 with gradproj := false, delta := 3 / 4 } info = (false, true) :=
  C73_stalls pair (pair_strong 0).valid _ rfl (by show (1 : ℚ) < 2 * (3 / 4); norm_num) (small 0) (fun _ => 1) (fun i _ => by show (0 : ℚ) ≤ 1 ∧ (1 : ℚ) ≤ 100; norm_num)
    (by intro i; fin_cases i <;> decide +kernel) (by decide +kernel) (fun e => absurd (congrFun e 1) (by decide +kernel)) fuel hf

end Verif.Mprgp
