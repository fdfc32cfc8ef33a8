import Verif.Proof.QuadratureRules
/-!
The moments of the tables of points and of the products of Gauss points.
-/
namespace Verif.Fem

/-- The sum of a rule for a monomial. -/
noncomputable def monSum (d : Nat) (pts : List (List ℝ × ℝ)) (e : Nat → Nat) : ℝ := (pts.map fun p => p.2 * ∏ k ∈ Finset.range d, p.1.getD k 0 ^ e k).sum

theorem monSum2 (pts : List (ℝ × ℝ × ℝ)) (e : Nat → Nat) :
    monSum 2 (pts.map fun p => ([p.1, p.2.1], p.2.2)) e = (pts.map fun p => p.2.2 * (p.1 ^ e 0 * p.2.1 ^ e 1)).sum := by
  simp only [monSum, List.map_map, Function.comp_def, prod_getD, Finset.prod_range_zero, mul_one, zero_add]

theorem monSum3 (pts : List (ℝ × ℝ × ℝ × ℝ)) (e : Nat → Nat) :
    monSum 3 (pts.map fun p => ([p.1, p.2.1, p.2.2.1], p.2.2.2)) e = (pts.map fun p => p.2.2.2 * (p.1 ^ e 0 * (p.2.1 ^ e 1 * p.2.2.1 ^ e 2))).sum := by
  simp only [monSum, List.map_map, Function.comp_def, prod_getD, Finset.prod_range_zero, mul_one, zero_add, Nat.reduceAdd]

theorem triangle_moment (pts : List (List ℝ × ℝ)) (hp : pts = ruleTriangle3 ∨ pts = ruleTriangle6) (e : Nat → Nat) (he : e 0 + e 1 ≤ 4) :
    |monSum 2 pts e - moment .triangle e| ≤ 1 / 10 ^ 14 := by
  rcases hp with rfl | rfl
  all_goals
    simp only [monSum, ruleTriangle3, ruleTriangle6, List.map_cons, List.map_nil, prod_getD, Finset.prod_range_zero, zero_add, moment]
    generalize e 0 = a at *
    generalize e 1 = b at *
    have ha : a ≤ 4 := by omega
    have hb : b ≤ 4 - a := by omega
    clear he
    interval_cases a <;> interval_cases b <;> norm_num [Nat.factorial, abs_le]

theorem tetra4_moment (e : Nat → Nat) (he : e 0 + e 1 + e 2 ≤ 2) : |monSum 3 ruleTetra4 e - moment .tetra e| ≤ 1 / 10 ^ 14 := by
  simp only [monSum, ruleTetra4, List.map_cons, List.map_nil, prod_getD, Finset.prod_range_zero, zero_add, moment, Nat.reduceAdd]
  generalize e 0 = a at *
  generalize e 1 = b at *
  generalize e 2 = c at *
  have ha : a ≤ 2 := by omega
  have hb : b ≤ 2 - a := by omega
  have hc : c ≤ 2 - a - b := by omega
  clear he
  interval_cases a <;> interval_cases b <;> interval_cases c <;> norm_num [Nat.factorial, abs_le]

theorem tetra10_moment (e : Nat → Nat) (he : e 0 + e 1 + e 2 ≤ 5) : |monSum 3 ruleTetra10 e - moment .tetra e| ≤ 1 / 10 ^ 14 := by
  simp only [monSum, ruleTetra10, List.map_cons, List.map_nil, prod_getD, Finset.prod_range_zero, zero_add, moment, Nat.reduceAdd]
  generalize e 0 = a at *
  generalize e 1 = b at *
  generalize e 2 = c at *
  have ha : a ≤ 5 := by omega
  have hb : b ≤ 5 - a := by omega
  have hc : c ≤ 5 - a - b := by omega
  clear he
  interval_cases a <;> interval_cases b <;> interval_cases c <;> norm_num [Nat.factorial, abs_le]

theorem pyramid13_moment (e : Nat → Nat) (he : e 0 + e 1 + e 2 ≤ 5) : |monSum 3 rulePyramid13 e - moment .cube e| ≤ 1 / 10 ^ 14 := by
  simp only [monSum, rulePyramid13, List.map_cons, List.map_nil, prod_getD, Finset.prod_range_zero, zero_add, moment, Nat.reduceAdd, m1]
  generalize e 0 = a at *
  generalize e 1 = b at *
  generalize e 2 = c at *
  have ha : a ≤ 5 := by omega
  have hb : b ≤ 5 - a := by omega
  have hc : c ≤ 5 - a - b := by omega
  clear he
  interval_cases a <;> interval_cases b <;> interval_cases c <;> norm_num [abs_le]

theorem prisma_moment (e : Nat → Nat) (h1 : e 0 + e 1 ≤ 2) (h2 : e 2 ≤ 5) : monSum 3 (rulePrisma6 Real.sqrt) e = moment .prism e := by
  have hg := gauss_moment3 (e 2) (by omega)
  have hs : monSum 3 (rulePrisma6 Real.sqrt) e =
      (1 / 6 * ((1 / 6) ^ e 0 * (1 / 6) ^ e 1 + (4 / 6) ^ e 0 * (1 / 6) ^ e 1 + (1 / 6) ^ e 0 * (4 / 6) ^ e 1)) *
      lineSum [(-√(3 / 5), 5 / 9), (0, 8 / 9), (√(3 / 5), 5 / 9)] (e 2) := by
    simp only [monSum, rulePrisma6, lineSum, List.map_cons, List.map_nil, prod_getD, Finset.prod_range_zero, zero_add, Nat.reduceAdd, List.sum_cons,
      List.sum_nil]
    ring
  rw [hs, hg]
  simp only [moment]
  congr 1
  generalize e 0 = a at *
  generalize e 1 = b at *
  have ha : a ≤ 2 := by omega
  have hb : b ≤ 2 - a := by omega
  clear h1 hs
  interval_cases a <;> interval_cases b <;> norm_num [Nat.factorial]

/-! ### Products of Gauss points -/

theorem sum_map_mul (l : List (ℝ × ℝ)) (a : ℝ) (f : ℝ × ℝ → ℝ) : (l.map fun x => a * f x).sum = a * (l.map f).sum := by
  induction l with
  | nil => simp
  | cons x l ih => simp only [List.map_cons, List.sum_cons, ih]; ring

theorem tensor_sum1 (rule : List (ℝ × ℝ)) (e : Nat → Nat) : monSum 1 (tensor rule 1) e = lineSum rule (e 0) := by
  simp only [monSum, tensor, List.map_map, Function.comp_def, prod_getD, Finset.prod_range_zero, mul_one, lineSum]

theorem sum_flatMap (l : List (ℝ × ℝ)) (f : ℝ × ℝ → List (List ℝ × ℝ)) (g : List ℝ × ℝ → ℝ) :
    ((l.flatMap f).map g).sum = (l.map fun x => ((f x).map g).sum).sum := by
  induction l with
  | nil => rfl
  | cons x l ih => simp only [List.flatMap_cons, List.map_append, List.sum_append, List.map_cons, List.sum_cons, ih]

theorem tensor_sum2 (rule : List (ℝ × ℝ)) (e : Nat → Nat) : monSum 2 (tensor rule 2) e = lineSum rule (e 0) * lineSum rule (e 1) := by
  simp only [monSum, tensor, sum_flatMap, List.map_map, Function.comp_def, prod_getD, Finset.prod_range_zero, mul_one]
  have h1 : ∀ x : ℝ × ℝ, (rule.map fun y => x.2 * y.2 * (x.1 ^ e 0 * y.1 ^ e (0 + 1))).sum = lineSum rule (e 1) * (x.2 * x.1 ^ e 0) := fun x => by
    rw [mul_comm, lineSum, ← sum_map_mul]
    exact congrArg List.sum (List.map_congr_left fun y _ => by rw [zero_add]; ring)
  simp only [h1]
  rw [sum_map_mul, mul_comm]
  rfl

theorem tensor_sum3 (rule : List (ℝ × ℝ)) (e : Nat → Nat) :
    monSum 3 (tensor rule 3) e = lineSum rule (e 0) * lineSum rule (e 1) * lineSum rule (e 2) := by
  simp only [monSum, tensor, sum_flatMap, List.map_map, Function.comp_def, prod_getD, Finset.prod_range_zero, mul_one]
  have h1 : ∀ x y : ℝ × ℝ, (rule.map fun z => x.2 * y.2 * z.2 * (x.1 ^ e 0 * (y.1 ^ e (0 + 1) * z.1 ^ e (0 + 1 + 1)))).sum =
      (lineSum rule (e 2) * (x.2 * x.1 ^ e 0)) * (y.2 * y.1 ^ e 1) := fun x y => by
    rw [show lineSum rule (e 2) * (x.2 * x.1 ^ e 0) * (y.2 * y.1 ^ e 1) = (x.2 * x.1 ^ e 0) * (y.2 * y.1 ^ e 1) * lineSum rule (e 2) by ring,
      lineSum, ← sum_map_mul]
    exact congrArg List.sum (List.map_congr_left fun y _ => by simp only [zero_add, Nat.reduceAdd]; ring)
  have h2 : ∀ x : ℝ × ℝ, (rule.map fun y => (lineSum rule (e 2) * (x.2 * x.1 ^ e 0)) * (y.2 * y.1 ^ e 1)).sum =
      (lineSum rule (e 2) * lineSum rule (e 1)) * (x.2 * x.1 ^ e 0) := fun x => by
    rw [sum_map_mul]
    rw [show (rule.map fun y => y.2 * y.1 ^ e 1).sum = lineSum rule (e 1) from rfl]
    ring
  simp only [h1, h2]
  rw [sum_map_mul, show (rule.map fun x => x.2 * x.1 ^ e 0).sum = lineSum rule (e 0) from rfl]
  ring

theorem m1_bound (k : Nat) : |m1 k| ≤ 2 := by
  unfold m1
  rw [abs_div, abs_of_pos (show (0 : ℝ) < k + 1 by positivity)]
  rw [div_le_iff₀ (by positivity)]
  have h : |(1 : ℝ) - (-1) ^ (k + 1)| ≤ 2 := by
    rcases neg_one_pow_eq_or ℝ (k + 1) with h | h <;> rw [h] <;> norm_num
  have : (0 : ℝ) ≤ k := Nat.cast_nonneg k
  linarith

theorem gaussTol_nonneg (n : Nat) : 0 ≤ gaussTol n := by unfold gaussTol; split <;> norm_num

theorem gaussTol_le (n : Nat) : gaussTol n ≤ 3 / 10 ^ 15 := by unfold gaussTol; split <;> norm_num

theorem mul_close {x y a b ε δ A B : ℝ} (h1 : |x - a| ≤ ε) (h2 : |y - b| ≤ δ) (ha : |a| ≤ A) (hb : |y| ≤ B) : |x * y - a * b| ≤ ε * B + A * δ := by
  have e : x * y - a * b = (x - a) * y + a * (y - b) := by ring
  rw [e]
  refine (abs_add_le _ _).trans (add_le_add ?_ ?_)
  · rw [abs_mul]; exact mul_le_mul h1 hb (abs_nonneg _) ((abs_nonneg _).trans h1)
  · rw [abs_mul]; exact mul_le_mul ha h2 (abs_nonneg _) ((abs_nonneg _).trans ha)

/-- The deviation of a product of Gauss points. -/
theorem tensor_moment (n : Nat) (rule : List (ℝ × ℝ)) (h : gauss Real.sqrt n = some rule) (d : Nat) (hd : d = 1 ∨ d = 2 ∨ d = 3) (e : Nat → Nat)
    (he : ∀ k < d, e k < 2 * n) :
    |monSum d (tensor rule d) e - moment (box d) e| ≤ 15 * gaussTol n := by
  have ht := gaussTol_nonneg n
  have hl := gaussTol_le n
  have close := fun k hk => gauss_moment n rule h k hk
  have bound : ∀ k < 2 * n, |lineSum rule k| ≤ 21 / 10 := fun k hk => by
    have := close k hk
    have := m1_bound k
    rw [abs_le] at *
    constructor <;> norm_num at * <;> linarith [close k hk]
  rcases hd with rfl | rfl | rfl
  · rw [tensor_sum1]
    exact (close _ (he 0 (by norm_num))).trans (by linarith)
  · rw [tensor_sum2]
    refine (mul_close (close _ (he 0 (by norm_num))) (close _ (he 1 (by norm_num))) (m1_bound _) (bound _ (he 1 (by norm_num)))).trans (by linarith)
  · rw [tensor_sum3]
    refine (mul_close (mul_close (close _ (he 0 (by norm_num))) (close _ (he 1 (by norm_num))) (m1_bound _) (bound _ (he 1 (by norm_num))))
      (close _ (he 2 (by norm_num))) (A := 4) (B := 21 / 10) ?_ (bound _ (he 2 (by norm_num)))).trans (by linarith)
    rw [abs_mul]
    exact (mul_le_mul (m1_bound _) (m1_bound _) (abs_nonneg _) (by norm_num)).trans (by norm_num)

end Verif.Fem
