import Verif.Spec.Transient
import Mathlib.Algebra.BigOperators.Ring.Finset
import Mathlib.Algebra.BigOperators.Group.Finset.Sigma
import Mathlib.Algebra.Order.BigOperators.Group.Finset
import Mathlib.Tactic.Ring
import Mathlib.Tactic.FieldSimp
import Mathlib.Tactic.Linarith
import Mathlib.Tactic.Positivity
import Mathlib.Tactic.LinearCombination
/-!
Bilinear forms of matrices, and the steps of the time integration.
-/
namespace Verif.Transient

open Finset

variable {K : Type} [Field K]

theorem sum_lin2 (n : Nat) (A : Nat → K) (x y : Vec K) (a b : K) :
    ∑ j ∈ range n, A j * (a * x j + b * y j) = a * (∑ j ∈ range n, A j * x j) + b * ∑ j ∈ range n, A j * y j := by
  rw [mul_sum, mul_sum, ← sum_add_distrib]
  exact sum_congr rfl fun j _ => by ring

theorem form_add_right (n : Nat) (A : Mat K) (x y z : Vec K) (a b : K) : form n A x (fun i => a * y i + b * z i) = a * form n A x y + b * form n A x z := by
  unfold form
  rw [mul_sum, mul_sum, ← sum_add_distrib]
  exact sum_congr rfl fun i _ => by rw [sum_lin2]; ring

theorem form_symm (n : Nat) (A : Mat K) (hA : Symm n A) (x y : Vec K) : form n A x y = form n A y x := by
  unfold form
  simp only [mul_sum]
  rw [sum_comm]
  refine sum_congr rfl fun i hi => sum_congr rfl fun j hj => ?_
  rw [hA j i (mem_range.1 hj) (mem_range.1 hi)]
  ring

theorem form_add_left (n : Nat) (A : Mat K) (x y z : Vec K) (a b : K) : form n A (fun i => a * y i + b * z i) x = a * form n A y x + b * form n A z x := by
  unfold form
  rw [mul_sum, mul_sum, ← sum_add_distrib]
  exact sum_congr rfl fun i _ => by ring

theorem form_congr (n : Nat) (A : Mat K) {x x' y y' : Vec K} (hx : ∀ i, i < n → x i = x' i) (hy : ∀ i, i < n → y i = y' i) : form n A x y = form n A x' y' := by
  unfold form
  refine sum_congr rfl fun i hi => ?_
  rw [hx i (mem_range.1 hi)]
  congr 1
  exact sum_congr rfl fun j hj => by rw [hy j (mem_range.1 hj)]

/-- The balance in the free rows, tested with a vector that vanishes in the fixed ones. -/
theorem form_balance (n : Nat) (fixed : Nat → Prop) (k m : Mat K) (x u w : Vec K) (hx : ∀ i, i < n → fixed i → x i = 0)
    (h : ∀ i, i < n → ¬fixed i → (∑ j ∈ range n, m i j * w j) + ∑ j ∈ range n, k i j * u j = 0) : form n m x w = -form n k x u := by
  unfold form
  rw [eq_neg_iff_add_eq_zero, ← sum_add_distrib]
  refine sum_eq_zero fun i hi => ?_
  have hi' := mem_range.1 hi
  by_cases hf : fixed i
  · rw [hx i hi' hf]; ring
  · rw [← mul_add, h i hi' hf, mul_zero]

theorem matrix_of {c : K} {e : Assembled K} {up : Bool} {a : Mat K} (h : MatrixOk c e up a) :
    (if (e.updated || up) = true then fun i j => 0 + 1 * e.k i j + c * e.m i j else a) = fun i j => 0 + 1 * e.k i j + c * e.m i j := by
  rcases h with h | h
  · rw [if_pos h]
  · split
    · rfl
    · funext i j
      rw [h]
      ring

/-! ### Heat transfer -/

/-- One pass of the loop, with the matrix of the step. -/
theorem heatStep_spec (n : Nat) (fixed : Nat → Prop) (alpha h : K) (ha : alpha ≠ 0) (hh : h ≠ 0) (keeps : Bool) (ev : K → Vec K → Assembled K) (solve : Solver K) (ok : SolverOk n fixed solve)
    (s : HeatState K) (fresh : MatrixOk (1 / (alpha * h)) (ev s.current s.u) s.aUpdated s.a) (hs : (heatStep n alpha h keeps ev solve s).solved = true) :
    let e := ev s.current s.u
    let s' := heatStep n alpha h keeps ev solve s
    (∀ i, i < n → fixed i → s'.u i = e.g i) ∧ HeatBalance n fixed e.k e.m e.f s'.u s'.v ∧ ∀ i, s'.u i = s.u i + h * ((1 - alpha) * s.v i + alpha * s'.v i) := by
  intro e s'
  have hu := ok _ _ _ hs
  refine ⟨fun i hi hf => hu.1 i hi hf, ?_, ?_⟩
  · intro i hi hf
    have h2 := hu.2 i hi hf
    rw [matrix_of fresh] at h2
    have e1 : ∑ j ∈ range n, e.m i j * s'.v j = 1 / (alpha * h) * (∑ j ∈ range n, e.m i j * s'.u j) - ∑ j ∈ range n, e.m i j * (0 + 1 / (alpha * h) * s.u j + (1 - alpha) / alpha * s.v j) := by
      rw [mul_sum, ← sum_sub_distrib]
      refine sum_congr rfl fun j _ => ?_
      change e.m i j * (-(1 - alpha) / alpha * s.v j + 1 / (alpha * h) * (s'.u j + -1 * s.u j)) = _
      ring
    have e2 : ∑ j ∈ range n, (0 + 1 * e.k i j + 1 / (alpha * h) * e.m i j) * s'.u j = (∑ j ∈ range n, e.k i j * s'.u j) + 1 / (alpha * h) * ∑ j ∈ range n, e.m i j * s'.u j := by
      rw [mul_sum, ← sum_add_distrib]
      exact sum_congr rfl fun j _ => by ring
    have e3 : ∑ j ∈ range n, (0 + 1 * e.k i j + 1 / (alpha * h) * e.m i j) * s'.u j = e.f i + 1 * ∑ j ∈ range n, e.m i j * (0 + 1 / (alpha * h) * s.u j + (1 - alpha) / alpha * s.v j) := by
      simp only [s', heatStep]
      rw [matrix_of fresh]
      exact h2
    rw [e1]
    rw [e2] at e3
    linear_combination e3
  · intro i
    change s'.u i = s.u i + h * ((1 - alpha) * s.v i + alpha * (-(1 - alpha) / alpha * s.v i + 1 / (alpha * h) * (s'.u i + -1 * s.u i)))
    field_simp
    ring

/-- The quadratic form of the mass matrix does not grow in a step of the trapezoidal rule with `alpha ≥ 1/2`. -/
theorem trapezoidal_decay [LinearOrder K] [IsStrictOrderedRing K] (n : Nat) (fixed : Nat → Prop) (k m : Mat K) (hm : Symm n m) (pk : Psd n k) (pm : Psd n m) (alpha h : K) (ha : 1 / 2 ≤ alpha)
    (hh : 0 < h) (u v u' v' : Vec K) (hf : ∀ i, i < n → fixed i → u i = 0) (hf' : ∀ i, i < n → fixed i → u' i = 0) (b : HeatBalance n fixed k m (fun _ => 0) u v)
    (b' : HeatBalance n fixed k m (fun _ => 0) u' v') (t : ∀ i, u' i = u i + h * ((1 - alpha) * v i + alpha * v' i)) : form n m u' u' ≤ form n m u u := by
  have c : ∀ x : Vec K, (∀ i, i < n → fixed i → x i = 0) → form n m x v = -form n k x u := fun x hx => form_balance n fixed k m x u v hx b
  have c' : ∀ x : Vec K, (∀ i, i < n → fixed i → x i = 0) → form n m x v' = -form n k x u' := fun x hx => form_balance n fixed k m x u' v' hx b'
  have tx : ∀ x : Vec K, form n m x u' = form n m x u + h * ((1 - alpha) * form n m x v + alpha * form n m x v') := by
    intro x
    rw [form_congr n m (x := x) (x' := x) (y := u') (y' := fun i => 1 * u i + h * ((1 - alpha) * v i + alpha * v' i)) (fun _ _ => rfl) (fun i _ => by rw [t i]; ring),
      form_add_right n m x u (fun i => (1 - alpha) * v i + alpha * v' i), form_add_right]
    ring
  have p1 := pk (fun i => (1 - alpha) * u i + alpha * u' i)
  rw [form_add_right, form_add_left, form_add_left] at p1
  have p2 := pm (fun i => 1 * u' i + -1 * u i)
  rw [form_add_right, form_add_left, form_add_left] at p2
  have t1 := tx u
  have t2 := tx u'
  rw [c u hf, c' u hf] at t1
  rw [c u' hf', c' u' hf'] at t2
  have sy := form_symm n m hm u u'
  have q1 := mul_nonneg (le_of_lt hh) p1
  have q2 := mul_nonneg (sub_nonneg.2 ha) p2
  nlinarith [q1, q2]

/-! ### Newmark's method -/

/-- One pass of the loop, with the matrix of the step. -/
theorem newmarkStep_spec (n : Nat) (fixed : Nat → Prop) (alpha delta : K) (h2 : (2 : K) ≠ 0) (hd : delta ≠ 0) (keeps : Bool) (cap : K → K) (ev : K → Vec K → Assembled K) (solve : Solver K) (ok : SolverOk n fixed solve)
    (s : NewmarkState K) (hh : cap s.shift ≠ 0) (fresh : MatrixOk (1 / (delta * cap s.shift * cap s.shift)) (ev (s.previous + cap s.shift) s.u) s.aUpdated s.a)
    (hs : (newmarkStep n alpha delta keeps cap false ev solve s).solved = true) :
    let e := ev (s.previous + cap s.shift) s.u
    let s' := newmarkStep n alpha delta keeps cap false ev solve s
    (∀ i, i < n → fixed i → s'.u i = e.g i) ∧ HeatBalance n fixed e.k e.m e.f s'.u s'.w ∧ Newmark delta alpha (cap s.shift) s.u s.v s.w s'.u s'.v s'.w := by
  intro e s'
  have hu := ok _ _ _ hs
  have hw : ∀ j, s'.w j = 0 + 1 / (delta * cap s.shift * cap s.shift) * (s'.u j + -1 * s.u j) + -(1 / (delta * cap s.shift)) * s.v j + -(1 / (2 * delta) - 1) * s.w j := fun j => rfl
  refine ⟨fun i hi hf => hu.1 i hi hf, ?_, ?_⟩
  · intro i hi hf
    have h2 := hu.2 i hi hf
    rw [matrix_of fresh] at h2
    have e1 : ∑ j ∈ range n, e.m i j * s'.w j = 1 / (delta * cap s.shift * cap s.shift) * (∑ j ∈ range n, e.m i j * s'.u j)
        - ∑ j ∈ range n, e.m i j * (0 + 1 / (delta * cap s.shift * cap s.shift) * s.u j + 1 / (delta * cap s.shift) * s.v j + (1 / (2 * delta) - 1) * s.w j) := by
      rw [mul_sum, ← sum_sub_distrib]
      refine sum_congr rfl fun j _ => ?_
      rw [hw]
      ring
    have e2 : ∑ j ∈ range n, (0 + 1 * e.k i j + 1 / (delta * cap s.shift * cap s.shift) * e.m i j) * s'.u j
        = (∑ j ∈ range n, e.k i j * s'.u j) + 1 / (delta * cap s.shift * cap s.shift) * ∑ j ∈ range n, e.m i j * s'.u j := by
      rw [mul_sum, ← sum_add_distrib]
      exact sum_congr rfl fun j _ => by ring
    have e3 : ∑ j ∈ range n, (0 + 1 * e.k i j + 1 / (delta * cap s.shift * cap s.shift) * e.m i j) * s'.u j
        = e.f i + 1 * ∑ j ∈ range n, e.m i j * (0 + 1 / (delta * cap s.shift * cap s.shift) * s.u j + 1 / (delta * cap s.shift) * s.v j + (1 / (2 * delta) - 1) * s.w j) := by
      simp only [s', newmarkStep, Bool.false_eq_true, if_false]
      rw [matrix_of fresh]
      exact h2
    rw [e1]
    rw [e2] at e3
    linear_combination e3
  · intro i
    refine ⟨?_, ?_⟩
    · rw [hw]
      field_simp
      ring
    · change s.v i + cap s.shift * (1 - alpha) * s.w i + cap s.shift * alpha * s'.w i = _
      ring

/-- The energy balance of Newmark's method without loads. -/
theorem newmark_energy [CharZero K] (n : Nat) (fixed : Nat → Prop) (k m : Mat K) (hk : Symm n k) (hm : Symm n m) (beta gamma h : K) (u v w u' v' w' : Vec K) (a : FreeMotion n fixed k m u v w)
    (a' : FreeMotion n fixed k m u' v' w') (t : Newmark beta gamma h u v w u' v' w') :
    energy n k m beta gamma h u' v' w' - energy n k m beta gamma h u v w
      = -(gamma - 1 / 2) * (form n k (fun i => 1 * u' i + -1 * u i) (fun i => 1 * u' i + -1 * u i) + h ^ 2 * (beta - gamma / 2) * form n m (fun i => 1 * w' i + -1 * w i) (fun i => 1 * w' i + -1 * w i)) := by
  have c : ∀ x : Vec K, (∀ i, i < n → fixed i → x i = 0) → form n m x w = -form n k x u := fun x hx => form_balance n fixed k m x u w hx a.balance
  have c' : ∀ x : Vec K, (∀ i, i < n → fixed i → x i = 0) → form n m x w' = -form n k x u' := fun x hx => form_balance n fixed k m x u' w' hx a'.balance
  have tv : ∀ x : Vec K, form n m x v' = form n m x v + h * ((1 - gamma) * form n m x w + gamma * form n m x w') := by
    intro x
    rw [form_congr n m (x := x) (x' := x) (y := v') (y' := fun i => 1 * v i + h * ((1 - gamma) * w i + gamma * w' i)) (fun _ _ => rfl) (fun i _ => by rw [(t i).2]; ring),
      form_add_right n m x v (fun i => (1 - gamma) * w i + gamma * w' i), form_add_right]
    ring
  have tu : ∀ x : Vec K, form n m x u' = form n m x u + h * form n m x v + h ^ 2 * ((1 / 2 - beta) * form n m x w + beta * form n m x w') := by
    intro x
    rw [form_congr n m (x := x) (x' := x) (y := u') (y' := fun i => 1 * (1 * u i + h * v i) + h ^ 2 * ((1 / 2 - beta) * w i + beta * w' i)) (fun _ _ => rfl) (fun i _ => by rw [(t i).1]; ring),
      form_add_right n m x (fun i => 1 * u i + h * v i) (fun i => (1 / 2 - beta) * w i + beta * w' i), form_add_right, form_add_right]
    ring
  have zu : ∀ i, i < n → fixed i → u i = 0 := fun i hi hf => (a.rest i hi hf).1
  have zu' : ∀ i, i < n → fixed i → u' i = 0 := fun i hi hf => (a'.rest i hi hf).1
  simp only [energy, form_add_right, form_add_left]
  have m1 := tv v
  have m2 := tv v'
  have sv := form_symm n m hm v v'
  have w1 := tu w
  have w2 := tv w
  have w3 := tu w'
  have w4 := tv w'
  have k1 := c u zu
  have k2 := c u' zu'
  have k3 := c' u zu
  have k4 := c' u' zu'
  have s1 := form_symm n m hm w u
  have s2 := form_symm n m hm w u'
  have s3 := form_symm n m hm w' u
  have s4 := form_symm n m hm w' u'
  have s5 := form_symm n m hm w v
  have s6 := form_symm n m hm w v'
  have s7 := form_symm n m hm w' v
  have s8 := form_symm n m hm w' v'
  have s9 := form_symm n m hm w' w
  have s10 := form_symm n k hk u' u
  rw [s1, s2, s5, k1, k2] at w1
  rw [s3, s4, s7, s9, k3, k4] at w3
  rw [s5, s6] at w2
  rw [s7, s8, s9] at w4
  rw [s9, s10]
  rw [s10] at w1
  rw [← sv] at m2
  linear_combination m1 / 2 + m2 / 2 - (1 - gamma) * w1 - gamma * w3 + (1 - gamma) * h / 2 * w2 + gamma * h / 2 * w4

end Verif.Transient
