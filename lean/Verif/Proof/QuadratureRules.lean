import Verif.Proof.Quadrature
/-!
The moments of the rules.
-/
namespace Verif.Fem

/-- The deviation of the tables of Gauss points: none for the closed forms, the rounding of the decimals for the others. -/
noncomputable def gaussTol (n : Nat) : ℝ := if n ≤ 5 then 0 else 3 / 10 ^ 15

/-- The sum of a rule in one dimension. -/
noncomputable def lineSum (rule : List (ℝ × ℝ)) (k : Nat) : ℝ := (rule.map fun x => x.2 * x.1 ^ k).sum

theorem gauss_moment2 (k : Nat) (hk : k < 4) : lineSum [(-(1 / √3), 1), (1 / √3, 1)] k = m1 k := by
  have h : (√3 : ℝ) ^ 2 = 3 := Real.sq_sqrt (by norm_num)
  have h0 : (√3 : ℝ) ≠ 0 := fun e => by rw [e] at h; norm_num at h
  have h' : (1 / √3 : ℝ) ^ 2 = 1 / 3 := by rw [div_pow, h, one_pow]
  generalize (1 / √3 : ℝ) = q at h'
  interval_cases k <;> simp only [lineSum, m1, List.map_cons, List.map_nil, List.sum_cons, List.sum_nil]
  · norm_num
  · ring
  · linear_combination 2 * h'
  · ring

theorem gauss_moment3 (k : Nat) (hk : k < 6) : lineSum [(-√(3 / 5), 5 / 9), (0, 8 / 9), (√(3 / 5), 5 / 9)] k = m1 k := by
  have h : (√(3 / 5) : ℝ) ^ 2 = 3 / 5 := Real.sq_sqrt (by norm_num)
  generalize (√(3 / 5) : ℝ) = q at h
  interval_cases k <;> simp only [lineSum, m1, List.map_cons, List.map_nil, List.sum_cons, List.sum_nil]
  · norm_num
  · ring
  · linear_combination 10 / 9 * h
  · ring
  · linear_combination 10 / 9 * (q ^ 2 + 3 / 5) * h
  · ring

theorem sqrt_scaled {a b c : ℝ} (hc : 0 ≤ c) (h : a = c ^ 2 * b) : √a = c * √b := by
  rw [h, Real.sqrt_mul (sq_nonneg c), Real.sqrt_sq hc]

theorem gauss_moment4 (k : Nat) (hk : k < 8) :
    lineSum [(-√(3 / 7 + √(6 / 5) * 2 / 7), (18 - √30) / 36), (-√(3 / 7 - √(6 / 5) * 2 / 7), (18 + √30) / 36),
      (√(3 / 7 - √(6 / 5) * 2 / 7), (18 + √30) / 36), (√(3 / 7 + √(6 / 5) * 2 / 7), (18 - √30) / 36)] k = m1 k := by
  have h : (√(6 / 5) : ℝ) ^ 2 = 6 / 5 := Real.sq_sqrt (by norm_num)
  have hs : √(30 : ℝ) = 5 * √(6 / 5) := sqrt_scaled (by norm_num) (by norm_num)
  have hle : (√(6 / 5) : ℝ) ≤ 3 / 2 := Real.sqrt_le_iff.2 ⟨by norm_num, by norm_num⟩
  rw [hs]
  have h0 : (0 : ℝ) ≤ √(6 / 5) := Real.sqrt_nonneg _
  generalize (√(6 / 5) : ℝ) = q at *
  have ha : (√(3 / 7 + q * 2 / 7)) ^ 2 = 3 / 7 + q * 2 / 7 := Real.sq_sqrt (by linarith)
  have hb : (√(3 / 7 - q * 2 / 7)) ^ 2 = 3 / 7 - q * 2 / 7 := Real.sq_sqrt (by linarith)
  generalize √(3 / 7 + q * 2 / 7) = a at *
  generalize √(3 / 7 - q * 2 / 7) = b at *
  have even : ∀ j : Nat, lineSum [(-a, (18 - 5 * q) / 36), (-b, (18 + 5 * q) / 36), (b, (18 + 5 * q) / 36), (a, (18 - 5 * q) / 36)] (2 * j) =
      2 * ((18 - 5 * q) / 36 * (3 / 7 + q * 2 / 7) ^ j + (18 + 5 * q) / 36 * (3 / 7 - q * 2 / 7) ^ j) := fun j => by
    simp only [lineSum, List.map_cons, List.map_nil, List.sum_cons, List.sum_nil, pow_mul, neg_sq, ha, hb]
    ring
  have odd : ∀ j : Nat, lineSum [(-a, (18 - 5 * q) / 36), (-b, (18 + 5 * q) / 36), (b, (18 + 5 * q) / 36), (a, (18 - 5 * q) / 36)] (2 * j + 1) = 0 := fun j => by
    simp only [lineSum, List.map_cons, List.map_nil, List.sum_cons, List.sum_nil, pow_succ, pow_mul, neg_sq]
    ring
  interval_cases k
  · refine (even 0).trans ?_; simp only [m1]; ring
  · refine (odd 0).trans ?_; norm_num [m1]
  · refine (even 1).trans ?_; simp only [m1]; linear_combination (-10 / 63) * h
  · refine (odd 1).trans ?_; norm_num [m1]
  · refine (even 2).trans ?_; simp only [m1]; linear_combination (12 / 441) * h
  · refine (odd 2).trans ?_; norm_num [m1]
  · refine (even 3).trans ?_; simp only [m1]; linear_combination (110 / 1029 - 40 / 3087 * q ^ 2) * h
  · refine (odd 3).trans ?_; norm_num [m1]

theorem gauss_moment5 (k : Nat) (hk : k < 10) :
    lineSum [(-(√(5 + 2 * √(10 / 7)) / 3), (322 - 13 * √70) / 900), (-(√(5 - 2 * √(10 / 7)) / 3), (322 + 13 * √70) / 900), (0, 128 / 225),
      (√(5 - 2 * √(10 / 7)) / 3, (322 + 13 * √70) / 900), (√(5 + 2 * √(10 / 7)) / 3, (322 - 13 * √70) / 900)] k = m1 k := by
  have h : (√(10 / 7) : ℝ) ^ 2 = 10 / 7 := Real.sq_sqrt (by norm_num)
  have hs : √(70 : ℝ) = 7 * √(10 / 7) := sqrt_scaled (by norm_num) (by norm_num)
  have hle : (√(10 / 7) : ℝ) ≤ 5 / 2 := Real.sqrt_le_iff.2 ⟨by norm_num, by norm_num⟩
  rw [hs]
  have h0 : (0 : ℝ) ≤ √(10 / 7) := Real.sqrt_nonneg _
  generalize (√(10 / 7) : ℝ) = q at *
  have ha : (√(5 + 2 * q) / 3) ^ 2 = (5 + 2 * q) / 9 := by rw [div_pow, Real.sq_sqrt (by linarith)]; norm_num
  have hb : (√(5 - 2 * q) / 3) ^ 2 = (5 - 2 * q) / 9 := by rw [div_pow, Real.sq_sqrt (by linarith)]; norm_num
  generalize √(5 + 2 * q) / 3 = a at *
  generalize √(5 - 2 * q) / 3 = b at *
  have even : ∀ j : Nat, lineSum [(-a, (322 - 13 * (7 * q)) / 900), (-b, (322 + 13 * (7 * q)) / 900), (0, 128 / 225), (b, (322 + 13 * (7 * q)) / 900),
      (a, (322 - 13 * (7 * q)) / 900)] (2 * j) =
      2 * ((322 - 13 * (7 * q)) / 900 * ((5 + 2 * q) / 9) ^ j + (322 + 13 * (7 * q)) / 900 * ((5 - 2 * q) / 9) ^ j) + 128 / 225 * 0 ^ (2 * j) := fun j => by
    simp only [lineSum, List.map_cons, List.map_nil, List.sum_cons, List.sum_nil, pow_mul, neg_sq, ha, hb]
    ring
  have odd : ∀ j : Nat, lineSum [(-a, (322 - 13 * (7 * q)) / 900), (-b, (322 + 13 * (7 * q)) / 900), (0, 128 / 225), (b, (322 + 13 * (7 * q)) / 900),
      (a, (322 - 13 * (7 * q)) / 900)] (2 * j + 1) = 0 := fun j => by
    simp only [lineSum, List.map_cons, List.map_nil, List.sum_cons, List.sum_nil, pow_succ, pow_mul, neg_sq]
    ring
  have h4 : q ^ 4 = 100 / 49 := by rw [show q ^ 4 = (q ^ 2) ^ 2 by ring, h]; norm_num
  interval_cases k
  · refine (even 0).trans ?_; simp only [m1]; ring
  · refine (odd 0).trans ?_; norm_num [m1]
  · refine (even 1).trans ?_; ring_nf; simp only [h, h4, m1]; norm_num
  · refine (odd 1).trans ?_; norm_num [m1]
  · refine (even 2).trans ?_; ring_nf; simp only [h, h4, m1]; norm_num
  · refine (odd 2).trans ?_; norm_num [m1]
  · refine (even 3).trans ?_; ring_nf; simp only [h, h4, m1]; norm_num
  · refine (odd 3).trans ?_; norm_num [m1]
  · refine (even 4).trans ?_; ring_nf; simp only [h, h4, m1]; norm_num
  · refine (odd 4).trans ?_; norm_num [m1]

theorem gauss_moment (n : Nat) (rule : List (ℝ × ℝ)) (h : gauss Real.sqrt n = some rule) (k : Nat) (hk : k < 2 * n) :
    |lineSum rule k - m1 k| ≤ gaussTol n := by
  unfold gauss at h
  split at h
  · obtain rfl := Option.some.inj h
    interval_cases k <;> norm_num [lineSum, m1, gaussTol]
  · obtain rfl := Option.some.inj h
    rw [gauss_moment2 k hk]; norm_num [gaussTol]
  · obtain rfl := Option.some.inj h
    rw [gauss_moment3 k hk]; norm_num [gaussTol]
  · obtain rfl := Option.some.inj h
    rw [gauss_moment4 k hk]; norm_num [gaussTol]
  · obtain rfl := Option.some.inj h
    rw [gauss_moment5 k hk]; norm_num [gaussTol]
  · obtain rfl := Option.some.inj h
    interval_cases k <;> norm_num [lineSum, m1, gaussTol, abs_le]
  · obtain rfl := Option.some.inj h
    interval_cases k <;> norm_num [lineSum, m1, gaussTol, abs_le]
  · obtain rfl := Option.some.inj h
    interval_cases k <;> norm_num [lineSum, m1, gaussTol, abs_le]
  · exact absurd h (by simp)

end Verif.Fem
