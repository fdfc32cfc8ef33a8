import Verif.Proof.PcpgStop
import Mathlib.Algebra.Order.Field.Basic
import Mathlib.Algebra.Order.Field.Rat
import Mathlib.Algebra.Field.Rat
import Mathlib.Algebra.Module.Prod
import Mathlib.LinearAlgebra.FiniteDimensional.Lemmas
import Mathlib.Tactic.Linarith
import Mathlib.Tactic.NormNum
/-!
C62, C63: the conjugate projected gradients in exact arithmetic, the stopping criteria.
-/
namespace Verif.Pcpg

section
variable {K V : Type} [Field K] [AddCommGroup V] [Module K V]

/-- **C62.** Whenever the multipliers are finite, `r` is the residual of these multipliers and `w` is its projection; the multipliers satisfy the same constraint `G x = e` as the initial ones for
every linear `G` that vanishes on the range of the projector. -/
theorem C62_residual [DecidableEq K] (o : Ops K V) (hl : Linear o) (k : Nat) (x : V) (hx : (iterate o k).x = some x) :
    (iterate o k).r = some (o.d - o.F x) ∧ (iterate o k).w = some (o.Pt (o.d - o.F x)) ∧
    ∀ (W : Type) [AddCommGroup W] [Module K W] (G : V → W), IsLinearMap K G → (∀ a, G (o.P a) = 0) → G x = G o.l := by
  have g := iterate_good (o := o) hl k
  refine ⟨g.r x hx, ?_, ?_⟩
  · rw [g.w, g.r x hx]; rfl
  · intro W _ _ G hG hGP
    exact (iterate_feasible hG hGP k).1 x hx

/-- As long as `yw` is not zero the states are finite. -/
theorem finite_of [DecidableEq K] {o : Ops K V} (hl : Linear o) (hs : Symmetric o) (hd : Definite o) (k : Nat) (h : ∀ j, j < k → (iterate o j).yw ≠ some 0) :
    (∀ j, j < k → rho o (seq o j).r ≠ 0) ∧ ∀ j, j ≤ k → iterate o j = lift o (seq o j) := by
  induction k with
  | zero =>
    refine ⟨fun j hj => absurd hj (Nat.not_lt_zero j), fun j hj => ?_⟩
    have : j = 0 := by omega
    subst this
    exact start_lift o
  | succ k ih =>
    obtain ⟨h1, h2⟩ := ih (fun j hj => h j (by omega))
    have hr : ∀ j, j < k + 1 → rho o (seq o j).r ≠ 0 := by
      intro j hj h0
      refine h j hj ?_
      rw [h2 j (by omega)]
      exact congrArg some h0
    refine ⟨hr, fun j hj => ?_⟩
    exact iterate_eq o j (fun i hi => hr i (by omega)) (fun i hi => divisors hl hs hd (k + 1) hr i (by omega))

/-- **C62.** As long as `yw` is not zero all numbers are finite, the directions are conjugate, and the preconditioned residuals are orthogonal. -/
theorem C62_conjugate [DecidableEq K] (o : Ops K V) (hl : Linear o) (hs : Symmetric o) (hd : Definite o) (k : Nat) (h : ∀ j, j < k → (iterate o j).yw ≠ some 0) :
    ∃ x r p : Nat → V, (∀ j, j ≤ k → (iterate o j).x = some (x j) ∧ (iterate o j).r = some (r j) ∧ (iterate o j).w = some (o.Pt (r j)) ∧ (iterate o j).p = some (p j) ∧ o.P (p j) = p j ∧
        (iterate o j).yw = some (o.dot (o.P (o.S (o.Pt (r j)))) (r j))) ∧
      (∀ i j, i < j → j ≤ k → o.dot (p i) (o.F (p j)) = 0) ∧
      (∀ i j, i < j → j ≤ k → o.dot (o.P (o.S (o.Pt (r i)))) (r j) = 0) ∧
      (∀ i j, i < j → j ≤ k → o.dot (p i) (r j) = 0) := by
  obtain ⟨h1, h2⟩ := finite_of hl hs hd k h
  have c := claims hl hs k h1 (divisors hl hs hd k h1)
  refine ⟨fun j => (seq o j).x, fun j => (seq o j).r, fun j => (seq o j).p, ?_, ?_, ?_, ?_⟩
  · intro j hj
    rw [h2 j hj]
    refine ⟨rfl, rfl, rfl, rfl, direction hl hs.idem j, ?_⟩
    exact congrArg some (rho_eq hs _)
  · intro i j hij hj
    exact (c j hj).conj i hij
  · intro i j hij hj
    exact (c j hj).yr i hij
  · intro i j hij hj
    exact (c j hj).pr i hij

/-- **C62.** After at most as many steps as is the dimension of the range of the projector the multipliers are finite and solve the problem: the projected residual is zero. -/
theorem C62_finite [DecidableEq K] [FiniteDimensional K V] (o : Ops K V) (hl : Linear o) (hs : Symmetric o) (hd : Definite o) :
    ∃ m, m ≤ Module.finrank K (LinearMap.range (IsLinearMap.mk' o.P hl.P)) ∧ (∀ k, k < m → (iterate o k).yw ≠ some 0) ∧ (iterate o m).yw = some 0 ∧
      ∃ x, (iterate o m).x = some x ∧ o.Pt (o.d - o.F x) = 0 := by
  obtain ⟨m, hm, h1, h2⟩ := last hl hs hd (IsLinearMap.mk' o.P hl.P) (fun _ => rfl)
  have hp := divisors hl hs hd m h1
  have hit : ∀ k, k ≤ m → iterate o k = lift o (seq o k) := fun k hk => iterate_eq o k (fun j hj => h1 j (by omega)) (fun j hj => hp j (by omega))
  refine ⟨m, hm, ?_, ?_, (seq o m).x, ?_, ?_⟩
  · intro k hk h0
    rw [hit k (by omega)] at h0
    exact h1 k hk (Option.some.inj h0)
  · rw [hit m (Nat.le_refl m)]
    exact congrArg some h2
  · rw [hit m (Nat.le_refl m)]
    rfl
  · rw [← residual hl]
    exact w_zero hs hd h2

end

section
variable {K V : Type} [Field K] [LinearOrder K] [IsStrictOrderedRing K] [AddCommGroup V] [Module K V]

/-- **C62.** The multipliers minimise the energy `x F x - 2 x d` over all combinations of the directions used so far. -/
theorem C62_minimal (o : Ops K V) (hl : Linear o) (hs : Symmetric o) (hd : Definite o) (hpos : ∀ a, 0 ≤ o.dot (o.P a) (o.F (o.P a))) (k : Nat) (h : ∀ j, j < k → (iterate o j).yw ≠ some 0) :
    ∃ x, (iterate o k).x = some x ∧ x - o.l ∈ Submodule.span K {v | ∃ j, j < k ∧ (iterate o j).p = some v} ∧
      ∀ z ∈ Submodule.span K {v | ∃ j, j < k ∧ (iterate o j).p = some v}, o.dot x (o.F x) - 2 * o.dot x o.d ≤ o.dot (o.l + z) (o.F (o.l + z)) - 2 * o.dot (o.l + z) o.d := by
  obtain ⟨h1, h2⟩ := finite_of hl hs hd k h
  have c := claims hl hs k h1 (divisors hl hs hd k h1) k (Nat.le_refl k)
  have hset : {v | ∃ j, j < k ∧ (iterate o j).p = some v} = {v | ∃ j, j < k ∧ v = (seq o j).p} := by
    ext v
    constructor
    · rintro ⟨j, hj, hv⟩
      rw [h2 j (by omega)] at hv
      exact ⟨j, hj, (Option.some.inj hv).symm⟩
    · rintro ⟨j, hj, rfl⟩
      exact ⟨j, hj, by rw [h2 j (by omega)]; rfl⟩
  rw [hset]
  refine ⟨(seq o k).x, by rw [h2 k (Nat.le_refl k)]; rfl, x_span o k, ?_⟩
  intro z hz
  obtain ⟨v, hv⟩ : ∃ v, v = o.l + z - (seq o k).x := ⟨_, rfl⟩
  have hvs : v ∈ Submodule.span K {v | ∃ j, j < k ∧ v = (seq o j).p} := by
    have e : v = z - ((seq o k).x - o.l) := by rw [hv]; abel
    rw [e]
    exact Submodule.sub_mem _ hz (x_span o k)
  have hor := span_orth hs c hvs
  have hPv : o.P v = v := by
    clear hor hv
    induction hvs using Submodule.span_induction with
    | mem a ha => obtain ⟨j, _, rfl⟩ := ha; exact direction hl hs.idem j
    | zero => have := hl.P.map_smul 0 0; simpa using this
    | add a b _ _ ha hb => rw [hl.P.map_add, ha, hb]
    | smul a b _ hb => rw [hl.P.map_smul, hb]
  have hp := hpos v
  rw [hPv] at hp
  have hx : o.l + z = (seq o k).x + v := by rw [hv]; abel
  rw [residual hl] at hor
  have hor' : o.dot v o.d = o.dot v (o.F (seq o k).x) := by
    have : o.d = (o.d - o.F (seq o k).x) + o.F (seq o k).x := by abel
    rw [this, dot_add' hs, hor, zero_add]
  rw [hx, hl.F.map_add, hs.dot_add, dot_add' hs, dot_add' hs, hs.dot_add _ _ o.d, hor']
  have e : o.dot (seq o k).x (o.F v) = o.dot v (o.F (seq o k).x) := by rw [← hs.F, hs.dot_comm]
  rw [e]
  linarith

end

section
variable {K V : Type} [Field K] [LinearOrder K] [AddCommGroup V] [Module K V]

/-- **C63.** The run stops at the first check with a reason to stop and reports this reason and its number; the returned state is the one after this many steps.  The check number `i` measures the
state *before* its step: the returned multipliers themselves are not checked. -/
theorem C63_stops (o : Ops K V) (cfg : Config K) (hm : 1 ≤ cfg.maxStagnation) (hs : ¬ satisfiedAtStart cfg (iterate o 0).yw) (i : Nat) (hi : 1 ≤ i) (e : Error)
    (hall : ∀ j, 1 ≤ j → j < i → stopReason cfg (fun j => measured cfg (iterate o 0).yw (iterate o (j - 1)).yw) j = none)
    (hr : stopReason cfg (fun j => measured cfg (iterate o 0).yw (iterate o (j - 1)).yw) i = some e) :
    ∃ out, (∀ f, i ≤ f → solve o cfg f = some (iterate o i, out)) ∧ out.converged = true ∧ out.error = e ∧ out.iterations = i :=
  let ⟨out, h1, h2, h3, h4, _⟩ := solve_stops o cfg hm hs i hi e hall hr
  ⟨out, h1, h2, h3, h4⟩

/-- **C63.** The run does not stop without a reason. -/
theorem C63_reason (o : Ops K V) (cfg : Config K) (hm : 1 ≤ cfg.maxStagnation) (f : Nat) (s : State K V) (out : Info K) (h : solve o cfg f = some (s, out)) :
    (satisfiedAtStart cfg (iterate o 0).yw ∧ s = iterate o 0 ∧ out.error = .ok) ∨
    ∃ i, 1 ≤ i ∧ i ≤ f ∧ (∀ j, 1 ≤ j → j < i → stopReason cfg (fun j => measured cfg (iterate o 0).yw (iterate o (j - 1)).yw) j = none) ∧
      stopReason cfg (fun j => measured cfg (iterate o 0).yw (iterate o (j - 1)).yw) i = some out.error ∧ s = iterate o i ∧ out.iterations = i :=
  solve_some o cfg hm h

/-- **C63 (restricted).** The run ends within the given number of iterations, if this number is positive.  Missing: with `max_iterations = 0` (the default) the run does not have to end
(`C63_arioli_endless`). -/
theorem C63_terminates_partial (o : Ops K V) (cfg : Config K) (hm : 1 ≤ cfg.maxStagnation) (hi : 1 ≤ cfg.maxIterations) : ∃ r, solve o cfg cfg.maxIterations = some r := by
  classical
  by_contra hno
  by_cases hs : satisfiedAtStart cfg (iterate o 0).yw
  · exact hno ⟨_, solve_start o cfg hs _⟩
  · by_cases hex : ∃ i, (1 ≤ i ∧ i ≤ cfg.maxIterations) ∧ stopReason cfg (quantity o cfg) i ≠ none
    · obtain ⟨⟨h1, h2⟩, h3⟩ := Nat.find_spec hex
      obtain ⟨e, he⟩ := Option.ne_none_iff_exists'.1 h3
      obtain ⟨out, ho, _⟩ := solve_stops o cfg hm hs _ h1 e (fun j hj1 hj2 => by
        by_contra hne
        exact Nat.find_min hex hj2 ⟨⟨hj1, by omega⟩, hne⟩) he
      exact hno ⟨_, ho _ h2⟩
    · refine hex ⟨cfg.maxIterations, ⟨hi, Nat.le_refl _⟩, ?_⟩
      unfold stopReason
      split
      · simp
      split
      · simp
      split
      · simp
      simp

/-- **C63 (restricted).** A run that reports success has measured a value below the precision one step before the returned multipliers (or at the start), and if no value of `yw` was zero, the
returned multipliers are finite.  Missing: the returned multipliers satisfy the criterion; without the last hypothesis they need not be numbers (`C63_nan_reported_as_success`). -/
theorem C63_success_partial (o : Ops K V) (hl : Linear o) (hy : Symmetric o) (hd : Definite o) (cfg : Config K) (hm : 1 ≤ cfg.maxStagnation) (f : Nat) (s : State K V) (out : Info K)
    (h : solve o cfg f = some (s, out)) (hok : out.error = .ok) :
    (satisfiedAtStart cfg (iterate o 0).yw ∧ s = iterate o 0) ∨
    ∃ i, i < f ∧ s = iterate o (i + 1) ∧ (measured cfg (iterate o 0).yw (iterate o i).yw).less (.fin cfg.precision) = true ∧
      ((∀ j, j < i + 1 → (iterate o j).yw ≠ some 0) → ∃ x, s.x = some x ∧ s.r = some (o.d - o.F x)) := by
  rcases solve_some o cfg hm h with ⟨h1, h2, _⟩ | ⟨i, h1, h2, h3, h4, h5, h6⟩
  · exact Or.inl ⟨h1, h2⟩
  · right
    refine ⟨i - 1, by omega, by rw [Nat.sub_add_cancel h1, h5], ?_, ?_⟩
    · rw [hok] at h4
      unfold stopReason at h4
      split at h4
      · cases h4
      split at h4
      · cases h4
      split at h4
      · rename_i h; exact h
      split at h4 <;> cases h4
    · intro hne
      rw [Nat.sub_add_cancel h1] at hne
      obtain ⟨_, hfin⟩ := finite_of hl hy hd i hne
      refine ⟨(seq o i).x, by rw [h5, hfin i (Nat.le_refl i)]; rfl, ?_⟩
      rw [h5, hfin i (Nat.le_refl i), ← residual hl]
      rfl

/-- **C63.** With the criterion ARIOLI the quantity stays infinite: success is never reported, and with the default `max_iterations = 0` the run never ends. -/
theorem C63_arioli_endless (o : Ops K V) (cfg : Config K) (hm : 1 ≤ cfg.maxStagnation) (ha : cfg.criterion = .arioli) (h0 : cfg.maxIterations = 0) (f : Nat) : solve o cfg f = none := by
  refine solve_none o cfg hm (fun h => ?_) f ?_
  · rw [satisfiedAtStart, ha] at h
    exact absurd h.1 (by decide)
  · intro j h1 _
    have hq : ∀ i, quantity o cfg i = .inf := by
      intro i
      unfold quantity measured
      rw [ha]
    unfold stopReason
    rw [hq, hq]
    simp [Norm.less, h0, Nat.pos_iff_ne_zero.1 h1]

theorem C63_arioli_no_success (o : Ops K V) (cfg : Config K) (hm : 1 ≤ cfg.maxStagnation) (ha : cfg.criterion = .arioli) (f : Nat) (s : State K V) (out : Info K) (h : solve o cfg f = some (s, out)) :
    out.error = .maxIterations := by
  rcases solve_some o cfg hm h with ⟨h1, _⟩ | ⟨i, h1, h2, h3, h4, h5, h6⟩
  · rw [satisfiedAtStart, ha] at h1
    exact absurd h1.1 (by decide)
  · have hq : ∀ i, quantity o cfg i = .inf := by
      intro i
      unfold quantity measured
      rw [ha]
    unfold stopReason at h4
    rw [hq, hq] at h4
    simp [Norm.less] at h4
    exact h4.2.symm

/-- **C63.** `max_stagnation = 0` is undefined (a write to an empty vector) unless the start satisfies the criterion. -/
theorem C63_no_stagnation_undefined (cfg : Config K) (h0 : cfg.maxStagnation = 0) (yw ww : Option K) : updateInfo cfg (setInfo cfg yw) ww = none := by
  have : (setInfo cfg yw).buffer = [] := by simp [setInfo, h0]
  unfold updateInfo
  dsimp only
  rw [this]
  rfl

end

/-! ### Cases -/

/-- One multiplier, `F = P = S = 1`. -/
def unit : Ops ℚ ℚ := { F := id, P := id, Pt := id, S := id, d := 1, l := 0, dot := fun a b => a * b }

def unitConfig : Config ℚ := { criterion := .relative, precision := 1 / 100, maxStagnation := 50, maxIterations := 10, sqrt := id }

/-- **C63.** The method finds the solution `x = 1` in the first step, the second step divides zero by zero, and the multipliers that are not numbers are returned with the report of success. -/
theorem C63_nan_reported_as_success : (iterate unit 1).x = some 1 ∧ ∃ s out, solve unit unitConfig 10 = some (s, out) ∧ s.x = none ∧ out.converged = true ∧ out.error = .ok := by
  have h2 : (iterate unit 2).x = none := by decide +kernel
  refine ⟨by decide +kernel, ?_⟩
  obtain ⟨out, ho, hc, he, _⟩ := C63_stops unit unitConfig (by decide) (fun h => absurd h.1 (by decide)) 2 (by decide) .ok
    (fun j hj1 hj2 => by
      have : j = 1 := by omega
      subst this
      decide +kernel)
    (by decide +kernel)
  exact ⟨_, out, ho 10 (by decide), h2, hc, he⟩

/-- Two multipliers, the projector to the differences, a preconditioner that is not the identity. -/
def pair : Ops ℚ (ℚ × ℚ) where
  F := fun a => (2 * a.1 + a.2, a.1 + 3 * a.2)
  P := fun a => ((a.1 - a.2) / 2, (a.2 - a.1) / 2)
  Pt := fun a => ((a.1 - a.2) / 2, (a.2 - a.1) / 2)
  S := fun a => (a.1, 2 * a.2)
  d := (1, 4)
  l := (1, 1)
  dot := fun a b => a.1 * b.1 + a.2 * b.2

theorem pair_linear : Linear pair := by
  constructor <;> constructor <;> intros <;> ext <;> simp [pair] <;> ring

theorem pair_symmetric : Symmetric pair := by
  constructor <;> intros <;> simp [pair] <;> (try constructor) <;> ring

theorem pair_definite : Definite pair := by
  constructor
  · intro a h
    obtain ⟨t, ht⟩ : ∃ t, (a.1 - a.2) / 2 = t := ⟨_, rfl⟩
    have ht' : (a.2 - a.1) / 2 = -t := by rw [← ht]; ring
    simp only [pair, ht, ht'] at h ⊢
    have hne : t ≠ 0 := by
      intro h0
      apply h
      rw [h0]
      simp
    have : t * (2 * t + -t) + -t * (t + 3 * -t) = 3 * (t * t) := by ring
    rw [this]
    exact mul_ne_zero (by norm_num) (mul_ne_zero hne hne)
  · intro a h
    obtain ⟨t, ht⟩ : ∃ t, (a.1 - a.2) / 2 = t := ⟨_, rfl⟩
    have ht' : (a.2 - a.1) / 2 = -t := by rw [← ht]; ring
    simp only [pair, ht, ht'] at h ⊢
    have hne : t ≠ 0 := by
      intro h0
      apply h
      rw [h0]
      simp
    have : t * t + 2 * -t * -t = 3 * (t * t) := by ring
    rw [this]
    exact mul_ne_zero (by norm_num) (mul_ne_zero hne hne)

example := C62_finite pair pair_linear pair_symmetric pair_definite
example : (iterate pair 0).yw ≠ some 0 ∧ (iterate pair 1).yw = some 0 ∧ (iterate pair 1).x = some (1 / 3, 5 / 3) ∧ (iterate pair 1).w = some (0, 0) := by decide +kernel

theorem pair_first : ∀ j, j < 1 → (iterate pair j).yw ≠ some 0 := by
  intro j hj
  have : j = 0 := by omega
  subst this
  decide +kernel

example := C62_conjugate pair pair_linear pair_symmetric pair_definite 1 pair_first
example := C62_residual pair pair_linear 1 (1 / 3, 5 / 3) (by decide +kernel)

theorem pair_positive (a : ℚ × ℚ) : 0 ≤ pair.dot (pair.P a) (pair.F (pair.P a)) := by
  obtain ⟨t, ht⟩ : ∃ t, (a.1 - a.2) / 2 = t := ⟨_, rfl⟩
  have ht' : (a.2 - a.1) / 2 = -t := by rw [← ht]; ring
  simp only [pair, ht, ht']
  have : t * (2 * t + -t) + -t * (t + 3 * -t) = 3 * (t * t) := by ring
  rw [this]
  exact mul_nonneg (by norm_num) (mul_self_nonneg t)

example := C62_minimal pair pair_linear pair_symmetric pair_definite pair_positive 1 pair_first
example := C63_terminates_partial pair unitConfig (by decide) (by decide)
example := C63_arioli_endless pair { unitConfig with criterion := .arioli, maxIterations := 0 } (by decide) rfl rfl

/-- A quantity that grows is reported as stagnation by the third check of a buffer with three values. -/
example : stopReason { unitConfig with maxStagnation := 3 } (fun i => .fin (i : ℚ)) 2 = none ∧ stopReason { unitConfig with maxStagnation := 3 } (fun i => .fin (i : ℚ)) 3 = some .stagnation := by
  decide +kernel

end Verif.Pcpg
