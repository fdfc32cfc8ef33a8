import Verif.Model.BonetWood
import Verif.Prop.NeoHookean
import Mathlib.Analysis.Real.Sqrt
import Mathlib.Analysis.SpecialFunctions.Sqrt
import Mathlib.Analysis.SpecialFunctions.ExpDeriv
import Mathlib.Tactic.Positivity
/-!
C89: the return mapping of the plasticity of Bonet and Wood.
-/
namespace Verif.Fem

/-- The functions of the reals. -/
noncomputable def realFn : Analytic ℝ := ⟨Real.sqrt, Real.log, Real.exp⟩

theorem realFn_log : realFn.log = Real.log := rfl
theorem realFn_exp : realFn.exp = Real.exp := rfl
theorem realFn_sqrt : realFn.sqrt = Real.sqrt := rfl

/-- A state that the code can meet: the moduli are positive, the yield limit is not negative. -/
structure Admissible (m : Plastic ℝ) (detF alpha : ℝ) : Prop where
  mu : 0 < m.mu
  hardening : 0 ≤ m.hardening
  limit : 0 ≤ m.sigmaY0 * detF
  alpha : 0 ≤ alpha
  detF : 0 < detF

/-- The length of a vector of three components. -/
noncomputable def length3 (v : Nat → ℝ) : ℝ := Real.sqrt (v 0 ^ 2 + v 1 ^ 2 + v 2 ^ 2)

theorem sqrt_32_23 : Real.sqrt (3 / 2) * Real.sqrt (2 / 3) = 1 := by
  rw [← Real.sqrt_mul (by norm_num)]
  norm_num

theorem length3_smul {c : ℝ} (hc : 0 ≤ c) (v : Nat → ℝ) : length3 (fun i => c * v i) = c * length3 v := by
  unfold length3
  rw [show (c * v 0) ^ 2 + (c * v 1) ^ 2 + (c * v 2) ^ 2 = c ^ 2 * (v 0 ^ 2 + v 1 ^ 2 + v 2 ^ 2) by ring, Real.sqrt_mul (sq_nonneg c), Real.sqrt_sq hc]

theorem normOf_eq (tau : Nat → ℝ) : normOf realFn tau = length3 tau := by simp only [normOf, realFn, length3, sq]

section
variable {m : Plastic ℝ} {detF alpha : ℝ} {lambda : Nat → ℝ}

/-- The factor by which a plastic step shrinks the deviatoric stress. -/
theorem shrink (ha : Admissible m detF alpha) {N f : ℝ} (hf : f = Real.sqrt (3 / 2) * N - (m.sigmaY0 * detF + m.hardening * alpha)) (h : 0 < f) :
    0 < N ∧ 1 - 2 * m.mu * (f / (3 * m.mu + m.hardening)) / (Real.sqrt (2 / 3) * N) =
      (m.sigmaY0 * detF + m.hardening * (alpha + f / (3 * m.mu + m.hardening))) / (Real.sqrt (3 / 2) * N) := by
  have hs : 0 < Real.sqrt (3 / 2) := Real.sqrt_pos.2 (by norm_num)
  have hs' : 0 < Real.sqrt (2 / 3) := Real.sqrt_pos.2 (by norm_num)
  have hlim : 0 ≤ m.sigmaY0 * detF + m.hardening * alpha := add_nonneg ha.limit (mul_nonneg ha.hardening ha.alpha)
  have hN : 0 < N := by
    by_contra hc
    have : Real.sqrt (3 / 2) * N ≤ 0 := mul_nonpos_of_nonneg_of_nonpos hs.le (not_lt.1 hc)
    linarith
  have hd : 0 < 3 * m.mu + m.hardening := by have := ha.mu; have := ha.hardening; linarith
  refine ⟨hN, ?_⟩
  have e1 : Real.sqrt (2 / 3) = 1 / Real.sqrt (3 / 2) := by rw [eq_div_iff hs.ne', mul_comm]; exact sqrt_32_23
  have e2 : Real.sqrt (3 / 2) * Real.sqrt (3 / 2) = 3 / 2 := Real.mul_self_sqrt (by norm_num)
  have e3 : m.sigmaY0 * detF = Real.sqrt (3 / 2) * N - m.hardening * alpha - f := by linarith
  have e4 : f = f / (3 * m.mu + m.hardening) * (3 * m.mu + m.hardening) := by field_simp
  generalize f / (3 * m.mu + m.hardening) = g at *
  rw [e1, e3, e4]
  generalize Real.sqrt (3 / 2) = q at *
  field_simp
  linear_combination (-2 * m.mu * g) * e2

/-- The stress after the step is admissible: it is within the yield surface of the saved state, and on it after a plastic step. -/
theorem C89_yield (ha : Admissible m detF alpha) :
    Real.sqrt (3 / 2) * length3 (fun i => detF * (returnMap realFn m detF alpha lambda).sigma i) ≤
        m.sigmaY0 * detF + m.hardening * (alpha + ((returnMap realFn m detF alpha lambda).plastic.map Prod.fst).getD 0) ∧
      ((returnMap realFn m detF alpha lambda).plastic.isSome → 0 < ((returnMap realFn m detF alpha lambda).plastic.map Prod.fst).getD 0 ∧
        Real.sqrt (3 / 2) * length3 (fun i => detF * (returnMap realFn m detF alpha lambda).sigma i) =
          m.sigmaY0 * detF + m.hardening * (alpha + ((returnMap realFn m detF alpha lambda).plastic.map Prod.fst).getD 0)) := by
  have hd : 0 < 3 * m.mu + m.hardening := by have := ha.mu; have := ha.hardening; linarith
  unfold returnMap
  dsimp only
  rw [normOf_eq]
  generalize tauTrial realFn m detF lambda = tau
  split
  · rename_i h
    have hf : yieldTrial realFn m detF alpha (length3 tau) = Real.sqrt (3 / 2) * length3 tau - (m.sigmaY0 * detF + m.hardening * alpha) := rfl
    generalize yieldTrial realFn m detF alpha (length3 tau) = f at h hf ⊢
    obtain ⟨hN, e⟩ := shrink ha hf h
    have hs : 0 < Real.sqrt (3 / 2) := Real.sqrt_pos.2 (by norm_num)
    have hg : 0 < f / (3 * m.mu + m.hardening) := div_pos h hd
    have hlim : 0 ≤ m.sigmaY0 * detF + m.hardening * (alpha + f / (3 * m.mu + m.hardening)) :=
      add_nonneg ha.limit (mul_nonneg ha.hardening (add_nonneg ha.alpha hg.le))
    simp only [Option.map_some, Option.getD_some, realFn, e]
    have key : Real.sqrt (3 / 2) * length3 (fun i => detF * ((m.sigmaY0 * detF + m.hardening * (alpha + f / (3 * m.mu + m.hardening))) /
        (Real.sqrt (3 / 2) * length3 tau) * tau i / detF)) = m.sigmaY0 * detF + m.hardening * (alpha + f / (3 * m.mu + m.hardening)) := by
      have e' : (fun i => detF * ((m.sigmaY0 * detF + m.hardening * (alpha + f / (3 * m.mu + m.hardening))) / (Real.sqrt (3 / 2) * length3 tau) * tau i / detF)) =
          fun i => ((m.sigmaY0 * detF + m.hardening * (alpha + f / (3 * m.mu + m.hardening))) / (Real.sqrt (3 / 2) * length3 tau)) * tau i := by
        funext i
        have := ha.detF.ne'
        generalize (m.sigmaY0 * detF + m.hardening * (alpha + f / (3 * m.mu + m.hardening))) / (Real.sqrt (3 / 2) * length3 tau) = z
        field_simp
      rw [e', length3_smul (div_nonneg hlim (mul_pos hs hN).le)]
      generalize m.sigmaY0 * detF + m.hardening * (alpha + f / (3 * m.mu + m.hardening)) = z
      field_simp
    exact ⟨key.le, fun _ => ⟨hg, key⟩⟩
  · rename_i h
    simp only [Option.map_none, Option.getD_none, add_zero, Option.isSome_none, Bool.false_eq_true, false_implies, and_true]
    have hf : yieldTrial realFn m detF alpha (length3 tau) = Real.sqrt (3 / 2) * length3 tau - (m.sigmaY0 * detF + m.hardening * alpha) := rfl
    have e' : (fun i => detF * (tau i / detF)) = tau := by
      funext i
      have := ha.detF.ne'
      field_simp
    rw [e']
    linarith [not_lt.1 h]

/-- Repeating the step from the saved state is elastic and gives the same stress. -/
theorem C89_again (ha : Admissible m detF alpha) {g : ℝ} {le : Nat → ℝ} (h : (returnMap realFn m detF alpha lambda).plastic = some (g, le)) :
    (returnMap realFn m detF (alpha + g) le).plastic = none ∧
      ∀ i, (returnMap realFn m detF (alpha + g) le).sigma i = (returnMap realFn m detF alpha lambda).sigma i := by
  have hy := (C89_yield (lambda := lambda) ha).2 (by rw [h]; rfl)
  rw [h] at hy
  simp only [Option.map_some, Option.getD_some] at hy
  have ht : tauTrial realFn m detF le = fun i => detF * (returnMap realFn m detF alpha lambda).sigma i := by
    funext i
    have hD := ha.detF.ne'
    revert h
    unfold returnMap
    dsimp only
    rw [normOf_eq]
    split
    · intro h
      simp only [Option.some.injEq, Prod.mk.injEq] at h
      obtain ⟨rfl, rfl⟩ := h
      rw [show ∀ le : Nat → ℝ, tauTrial realFn m detF le i = 2 * m.mu * Real.log (le i) - 2 / 3 * m.mu * Real.log detF from fun _ => rfl]
      have h0 : 2 / 3 * m.mu * Real.log detF = 2 * m.mu * Real.log (lambda i) - tauTrial realFn m detF lambda i := by
        rw [show tauTrial realFn m detF lambda i = 2 * m.mu * Real.log (lambda i) - 2 / 3 * m.mu * Real.log detF from rfl]
        ring
      simp only [realFn_log, realFn_exp, realFn_sqrt, Real.log_exp, h0]
      generalize length3 (tauTrial realFn m detF lambda) = N
      generalize tauTrial realFn m detF lambda i = t
      generalize yieldTrial realFn m detF alpha N = f
      have e : ∀ z : ℝ, detF * (z / detF) = z := fun z => by field_simp
      rw [e]
      ring
    · intro h
      cases h
  have hf : yieldTrial realFn m detF (alpha + g) (length3 (tauTrial realFn m detF le)) = 0 := by
    rw [ht]
    simp only [yieldTrial]
    exact sub_eq_zero.2 hy.2
  have e : returnMap realFn m detF (alpha + g) le = { sigma := fun i => tauTrial realFn m detF le i / detF, tangent := fun i j => 1 / detF * 2 * m.mu * eye13 i j, plastic := none } := by
    unfold returnMap
    dsimp only
    rw [normOf_eq, hf, if_neg (lt_irrefl _)]
  rw [e]
  refine ⟨rfl, fun i => ?_⟩
  have hD := ha.detF.ne'
  rw [ht]
  field_simp

/-- Plastic steps keep the volume: if the elastic stretches account for the whole change of volume, they do so after the step. -/
theorem stretch_product (hm : m.mu ≠ 0) (hd : 0 < detF) (hl : ∀ i < 3, 0 < lambda i) (hp : lambda 0 * lambda 1 * lambda 2 = detF) {g : ℝ} {le : Nat → ℝ}
    (h : (returnMap realFn m detF alpha lambda).plastic = some (g, le)) : le 0 * le 1 * le 2 = detF := by
  have ht : tauTrial realFn m detF lambda 0 + tauTrial realFn m detF lambda 1 + tauTrial realFn m detF lambda 2 = 0 := by
    simp only [tauTrial, realFn]
    rw [← hp, Real.log_mul (mul_ne_zero (hl 0 (by decide)).ne' (hl 1 (by decide)).ne') (hl 2 (by decide)).ne', Real.log_mul (hl 0 (by decide)).ne' (hl 1 (by decide)).ne']
    ring
  revert h
  unfold returnMap
  dsimp only
  rw [normOf_eq]
  split
  · intro h
    simp only [Option.some.injEq, Prod.mk.injEq] at h
    obtain ⟨rfl, rfl⟩ := h
    simp only [realFn_log, realFn_exp, realFn_sqrt]
    rw [← Real.exp_add, ← Real.exp_add]
    have e : ∀ a b c x y z G N : ℝ, x + y + z = 0 → a - G * (x / N) + (b - G * (y / N)) + (c - G * (z / N)) = a + b + c := by
      intro a b c x y z G N h
      have : x / N + y / N + z / N = 0 := by rw [← add_div, ← add_div, h, zero_div]
      linear_combination (-G) * this
    rw [e _ _ _ _ _ _ _ _ ht, ← Real.log_mul (hl 0 (by decide)).ne' (hl 1 (by decide)).ne',
      ← Real.log_mul (mul_ne_zero (hl 0 (by decide)).ne' (hl 1 (by decide)).ne') (hl 2 (by decide)).ne', hp, Real.exp_log hd]
  · intro h
    cases h

end

theorem congruence_eq (A B : Nat → ℝ) : matrix33 (congruence A B) = matrix33 A * matrix33 B * (matrix33 A).transpose := by
  ext i j
  fin_cases i <;> fin_cases j <;>
    simp [matrix33, congruence, sumLoop, List.range_succ, Matrix.mul_apply, Fin.sum_univ_three] <;> ring

theorem flatDet_eq (A : Nat → ℝ) : flatDet A = (matrix33 A).det := by
  simp [flatDet, matrix33, Matrix.det_fin_three]
  ring

theorem flatInv_eq {A : Nat → ℝ} (h : (matrix33 A).det ≠ 0) : matrix33 (flatInv A) * matrix33 A = 1 := by
  have e := flatDet_eq A
  have h' : flatDet A ≠ 0 := by rw [e]; exact h
  have hd : flatDet A = A 0 * A 4 * A 8 + A 1 * A 5 * A 6 + A 2 * A 3 * A 7 - A 2 * A 4 * A 6 - A 1 * A 3 * A 8 - A 0 * A 5 * A 7 := rfl
  ext i j
  fin_cases i <;> fin_cases j <;> simp [matrix33, flatInv, Matrix.mul_apply, Fin.sum_univ_three] <;> field_simp <;> rw [hd] <;> ring

theorem voigt_matrix (v : Nat → ℝ) : matrix33 (voigt6ToMatrix33 v) = unvoigt v := by
  ext i j
  fin_cases i <;> fin_cases j <;> rfl

/-- The symmetric tensor with the squares of the stretches as eigenvalues and the rows of `n` as eigenvectors. -/
noncomputable def spectral (lambda n : Nat → ℝ) : Matrix (Fin 3) (Fin 3) ℝ :=
  (matrix33 n).transpose * Matrix.diagonal (fun a : Fin 3 => lambda a ^ 2) * matrix33 n

theorem savedBe_eq (lambda n : Nat → ℝ) : matrix33 (savedBe lambda n) = spectral lambda n := by
  ext i j
  fin_cases i <;> fin_cases j <;>
    simp [matrix33, savedBe, spectral, sumLoop, List.range_succ, Matrix.mul_apply, Fin.sum_univ_three, Matrix.diagonal_apply] <;> ring

/-- The saved state has the elastic stretches of the return mapping: this is what the next evaluation with the same deformation reads. -/
theorem C89_state {F n : Nat → ℝ} {r : Returned ℝ} {s : PlasticState ℝ} {g : ℝ} {le : Nat → ℝ} (hF : (matrix33 F).det ≠ 0) (h : r.plastic = some (g, le)) :
    matrix33 (trialBe F (saveState F n r s)) = spectral le n ∧ (saveState F n r s).alpha = s.alpha + g := by
  unfold saveState trialBe
  rw [h]
  refine ⟨?_, rfl⟩
  rw [congruence_eq, voigt_matrix]
  have hsym : (matrix33 (congruence (flatInv F) (savedBe le n))).IsSymm := by
    rw [congruence_eq, savedBe_eq, spectral, Matrix.IsSymm]
    simp only [Matrix.transpose_mul, Matrix.transpose_transpose, Matrix.diagonal_transpose, Matrix.mul_assoc]
  have e : unvoigt (fun i => match i with
        | 0 => congruence (flatInv F) (savedBe le n) 0
        | 1 => congruence (flatInv F) (savedBe le n) 4
        | 2 => congruence (flatInv F) (savedBe le n) 8
        | 3 => congruence (flatInv F) (savedBe le n) 1
        | 4 => congruence (flatInv F) (savedBe le n) 5
        | 5 => congruence (flatInv F) (savedBe le n) 2
        | _ => 0) = matrix33 (congruence (flatInv F) (savedBe le n)) := by
    obtain ⟨s1, s2, s3⟩ := symm_of hsym
    simp [matrix33] at s1 s2 s3
    ext i j
    fin_cases i <;> fin_cases j <;> simp [unvoigt, matrix33, s1, s2, s3]
  refine (congrArg (fun X => matrix33 F * X * (matrix33 F).transpose) e).trans ?_
  rw [congruence_eq, savedBe_eq]
  have hi := flatInv_eq hF
  have hi' : matrix33 F * matrix33 (flatInv F) = 1 := mul_eq_one_comm.1 hi
  have ht : (matrix33 (flatInv F)).transpose * (matrix33 F).transpose = 1 := by rw [← Matrix.transpose_mul, hi', Matrix.transpose_one]
  calc matrix33 F * (matrix33 (flatInv F) * spectral le n * (matrix33 (flatInv F)).transpose) * (matrix33 F).transpose
      = (matrix33 F * matrix33 (flatInv F)) * spectral le n * ((matrix33 (flatInv F)).transpose * (matrix33 F).transpose) := by simp only [Matrix.mul_assoc]
    _ = spectral le n := by rw [hi', ht, Matrix.one_mul, Matrix.mul_one]

theorem spectral_det {lambda n : Nat → ℝ} (hn : matrix33 n * (matrix33 n).transpose = 1) : (spectral lambda n).det = (lambda 0 * lambda 1 * lambda 2) ^ 2 := by
  have h1 : (matrix33 n).det * (matrix33 n).det = 1 := by
    have := congrArg Matrix.det hn
    rwa [Matrix.det_mul, Matrix.det_transpose, Matrix.det_one] at this
  rw [spectral, Matrix.det_mul, Matrix.det_mul, Matrix.det_transpose, Matrix.det_diagonal, Fin.prod_univ_three]
  simp only [Fin.val_zero, Fin.val_one, Fin.val_two]
  linear_combination (lambda 0 ^ 2 * lambda 1 ^ 2 * lambda 2 ^ 2) * h1

/-- The plastic flow keeps the volume: `det Cp = 1` is an invariant of the state. -/
theorem C89_incompressible {m : Plastic ℝ} {F n lambda : Nat → ℝ} {s : PlasticState ℝ} (hm : m.mu ≠ 0) (hF : 0 < (matrix33 F).det)
    (hn : matrix33 n * (matrix33 n).transpose = 1) (hl : ∀ i < 3, 0 < lambda i) (he : matrix33 (trialBe F s) = spectral lambda n) (hs : (unvoigt s.invCp).det = 1) :
    (unvoigt (saveState F n (returnMap realFn m (flatDet F) s.alpha lambda) s).invCp).det = 1 := by
  have hdet : ∀ t : PlasticState ℝ, (matrix33 (trialBe F t)).det = (matrix33 F).det ^ 2 * (unvoigt t.invCp).det := fun t => by
    rw [trialBe, congruence_eq, voigt_matrix, Matrix.det_mul, Matrix.det_mul, Matrix.det_transpose]
    ring
  rcases hr : (returnMap realFn m (flatDet F) s.alpha lambda).plastic with - | ⟨g, le⟩
  · have : saveState F n (returnMap realFn m (flatDet F) s.alpha lambda) s = s := by unfold saveState; rw [hr]
    rw [this, hs]
  · have hprod : lambda 0 * lambda 1 * lambda 2 = flatDet F := by
      have h1 := hdet s
      rw [he, spectral_det hn, hs, mul_one] at h1
      rw [flatDet_eq]
      have hpos : 0 < lambda 0 * lambda 1 * lambda 2 := mul_pos (mul_pos (hl 0 (by decide)) (hl 1 (by decide))) (hl 2 (by decide))
      exact (pow_left_inj₀ hpos.le hF.le two_ne_zero).1 h1
    have h2 := stretch_product hm (by rw [flatDet_eq]; exact hF) hl hprod hr
    have h3 := hdet (saveState F n (returnMap realFn m (flatDet F) s.alpha lambda) s)
    rw [(C89_state hF.ne' hr).1, spectral_det hn, h2, flatDet_eq] at h3
    have : (matrix33 F).det ^ 2 ≠ 0 := pow_ne_zero 2 hF.ne'
    exact mul_left_cancel₀ this (by rw [flatDet_eq]; linarith)

/-- The stretches after the change `t h` of their logarithms. -/
noncomputable def stretched3 (lambda h : Nat → ℝ) (t : ℝ) (i : Nat) : ℝ := lambda i * Real.exp (t * h i)

/-- The determinant of the deformation after the change `t h` of the logarithms of the stretches. -/
noncomputable def grown (detF : ℝ) (h : Nat → ℝ) (t : ℝ) : ℝ := detF * Real.exp (t * (h 0 + h 1 + h 2))

theorem tau_line (m : Plastic ℝ) {detF : ℝ} (hd : 0 < detF) {lambda : Nat → ℝ} (h : Nat → ℝ) (t : ℝ) {i : Nat} (hl : 0 < lambda i) :
    tauTrial realFn m (grown detF h t) (stretched3 lambda h t) i = tauTrial realFn m detF lambda i + t * (2 * m.mu * (h i - (h 0 + h 1 + h 2) / 3)) := by
  simp only [tauTrial, realFn_log, grown, stretched3]
  rw [Real.log_mul hl.ne' (Real.exp_ne_zero _), Real.log_mul hd.ne' (Real.exp_ne_zero _), Real.log_exp, Real.log_exp]
  ring

theorem length3_line {v g : Nat → ℝ} (hN : 0 < length3 v) :
    HasDerivAt (fun t : ℝ => length3 fun i => v i + t * g i) ((v 0 * g 0 + v 1 * g 1 + v 2 * g 2) / length3 v) 0 := by
  have e : ∀ t : ℝ, (v 0 + t * g 0) ^ 2 + (v 1 + t * g 1) ^ 2 + (v 2 + t * g 2) ^ 2 =
      (v 0 ^ 2 + v 1 ^ 2 + v 2 ^ 2) + t * (2 * (v 0 * g 0 + v 1 * g 1 + v 2 * g 2)) + t ^ 2 * (g 0 ^ 2 + g 1 ^ 2 + g 2 ^ 2) + t ^ 3 * 0 := fun t => by ring
  have h0 : v 0 ^ 2 + v 1 ^ 2 + v 2 ^ 2 ≠ 0 := by
    intro h
    rw [length3, h, Real.sqrt_zero] at hN
    exact lt_irrefl _ hN
  have hq := poly_line (v 0 ^ 2 + v 1 ^ 2 + v 2 ^ 2) (2 * (v 0 * g 0 + v 1 * g 1 + v 2 * g 2)) (g 0 ^ 2 + g 1 ^ 2 + g 2 ^ 2) 0
  have hs := hq.sqrt (by simpa using h0)
  unfold length3
  rw [funext fun t => congrArg Real.sqrt (e t)]
  refine hs.congr_deriv ?_
  simp only [zero_mul, add_zero, ne_eq, OfNat.ofNat_ne_zero, not_false_eq_true, zero_pow]
  ring

theorem shrink_line {f N T : ℝ → ℝ} {f' N' T' mu D c : ℝ} (hf : HasDerivAt f f' 0) (hN : HasDerivAt N N' 0) (hT : HasDerivAt T T' 0) (hn : c * N 0 ≠ 0) :
    HasDerivAt (fun t => (1 - 2 * mu * (f t / D) / (c * N t)) * T t)
      (-((2 * mu * (f' / D) * (c * N 0) - 2 * mu * (f 0 / D) * (c * N')) / (c * N 0) ^ 2) * T 0 + (1 - 2 * mu * (f 0 / D) / (c * N 0)) * T') 0 :=
  ((((hf.div_const D).const_mul (2 * mu)).div (hN.const_mul c) hn).const_sub 1).mul hT

theorem shrink_algebra {mu D c s N f a b d p q r S x : ℝ} (i : Nat) (hi : i < 3) (hN : N ≠ 0) (hD : D ≠ 0) (hc : c ≠ 0) (hsc : s * c = 1) (hs : s * s = 3 / 2)
    (ht : a + b + d = 0) (hS : S = p + q + r) (ti hi' : ℝ) (h0 : i = 0 → ti = a ∧ hi' = p) (h1 : i = 1 → ti = b ∧ hi' = q) (h2 : i = 2 → ti = d ∧ hi' = r) :
    -((2 * mu * ((s * ((a * (2 * mu * (p - S / 3)) + b * (2 * mu * (q - S / 3)) + d * (2 * mu * (r - S / 3))) / N) - x) / D) * (c * N) -
        2 * mu * (f / D) * (c * ((a * (2 * mu * (p - S / 3)) + b * (2 * mu * (q - S / 3)) + d * (2 * mu * (r - S / 3))) / N))) / (c * N) ^ 2) * ti +
        (1 - 2 * mu * (f / D) / (c * N)) * (2 * mu * (hi' - S / 3)) =
      ((2 * mu * (1 - 2 * mu * (f / D) / (c * N)) * (eye13 (K := ℝ) i 0) - 4 * mu * mu * (ti / (c * N)) * (a / (c * N)) * (1 / D - c * (f / D) / N)) * p +
        (2 * mu * (1 - 2 * mu * (f / D) / (c * N)) * (eye13 (K := ℝ) i 1) - 4 * mu * mu * (ti / (c * N)) * (b / (c * N)) * (1 / D - c * (f / D) / N)) * q +
        (2 * mu * (1 - 2 * mu * (f / D) / (c * N)) * (eye13 (K := ℝ) i 2) - 4 * mu * mu * (ti / (c * N)) * (d / (c * N)) * (1 / D - c * (f / D) / N)) * r) +
      2 * mu * (ti / (c * N)) * x / D := by
  have hd : d = -a - b := by linarith
  have hsc' : s = 1 / c := by rw [eq_div_iff hc]; exact hsc
  have hW : a * (2 * mu * (p - S / 3)) + b * (2 * mu * (q - S / 3)) + d * (2 * mu * (r - S / 3)) = 2 * mu * (a * p + b * q + d * r) := by
    rw [hd]; ring
  rw [hW]
  have hE : (1 - 2 * mu * (f / D) / (c * N)) * (2 * mu * (hi' - S / 3)) =
      2 * mu * (1 - 2 * mu * (f / D) / (c * N)) * ((eye13 (K := ℝ) i 0) * p + (eye13 (K := ℝ) i 1) * q + (eye13 (K := ℝ) i 2) * r) := by
    rw [mul_comm (1 - _) _]
    have : hi' - S / 3 = (eye13 (K := ℝ) i 0) * p + (eye13 (K := ℝ) i 1) * q + (eye13 (K := ℝ) i 2) * r := by
      interval_cases i
      · rw [(h0 rfl).2, hS]; simp [eye13]; ring
      · rw [(h1 rfl).2, hS]; simp [eye13]; ring
      · rw [(h2 rfl).2, hS]; simp [eye13]; ring
    rw [this]
    ring
  rw [hE, hsc']
  generalize (eye13 (K := ℝ) i 0) = e0
  generalize (eye13 (K := ℝ) i 1) = e1
  generalize (eye13 (K := ℝ) i 2) = e2
  field_simp
  ring

/-- The derivative of the stress in a plastic step: the table of the code, and a contribution of the change of volume. -/
theorem C89_tangent {m : Plastic ℝ} {detF alpha : ℝ} {lambda : Nat → ℝ} (ha : Admissible m detF alpha) (hl : ∀ i < 3, 0 < lambda i)
    (hprod : lambda 0 * lambda 1 * lambda 2 = detF) (hp : (returnMap realFn m detF alpha lambda).plastic.isSome) (h : Nat → ℝ) {i : Nat} (hi : i < 3) :
    HasDerivAt (fun t => grown detF h t * (returnMap realFn m (grown detF h t) alpha (stretched3 lambda h t)).sigma i)
      (detF * (∑ j ∈ Finset.range 3, (returnMap realFn m detF alpha lambda).tangent i j * h j) +
        2 * m.mu * (tauTrial realFn m detF lambda i / (Real.sqrt (2 / 3) * length3 (tauTrial realFn m detF lambda))) *
          (m.sigmaY0 * detF * (h 0 + h 1 + h 2)) / (3 * m.mu + m.hardening)) 0 := by
  have hD : 0 < 3 * m.mu + m.hardening := by have := ha.mu; have := ha.hardening; linarith
  have ht : tauTrial realFn m detF lambda 0 + tauTrial realFn m detF lambda 1 + tauTrial realFn m detF lambda 2 = 0 := by
    simp only [tauTrial, realFn_log]
    rw [← hprod, Real.log_mul (mul_ne_zero (hl 0 (by decide)).ne' (hl 1 (by decide)).ne') (hl 2 (by decide)).ne', Real.log_mul (hl 0 (by decide)).ne' (hl 1 (by decide)).ne']
    ring
  have hf : 0 < yieldTrial realFn m detF alpha (length3 (tauTrial realFn m detF lambda)) := by
    unfold returnMap at hp
    dsimp only at hp
    rw [normOf_eq] at hp
    split at hp
    · assumption
    · cases hp
  have hN := (shrink ha rfl hf).1
  have htau := fun t => fun i (hi : i < 3) => tau_line m ha.detF (lambda := lambda) h t (hl i hi)
  have hnorm : ∀ t, length3 (tauTrial realFn m (grown detF h t) (stretched3 lambda h t)) =
      length3 fun i => tauTrial realFn m detF lambda i + t * (2 * m.mu * (h i - (h 0 + h 1 + h 2) / 3)) := fun t => by
    unfold length3
    rw [htau t 0 (by decide), htau t 1 (by decide), htau t 2 (by decide)]
  have dN := length3_line (g := fun i => 2 * m.mu * (h i - (h 0 + h 1 + h 2) / 3)) hN
  have dE : HasDerivAt (fun t : ℝ => grown detF h t) (detF * (h 0 + h 1 + h 2)) 0 := by
    have := (((hasDerivAt_id (0 : ℝ)).mul_const (h 0 + h 1 + h 2)).exp).const_mul detF
    refine this.congr_deriv ?_
    simp
  have g0 : grown detF h 0 = detF := by simp [grown]
  have dF : HasDerivAt (fun t => yieldTrial realFn m (grown detF h t) alpha (length3 (tauTrial realFn m (grown detF h t) (stretched3 lambda h t))))
      (Real.sqrt (3 / 2) * ((tauTrial realFn m detF lambda 0 * (2 * m.mu * (h 0 - (h 0 + h 1 + h 2) / 3)) +
        tauTrial realFn m detF lambda 1 * (2 * m.mu * (h 1 - (h 0 + h 1 + h 2) / 3)) + tauTrial realFn m detF lambda 2 * (2 * m.mu * (h 2 - (h 0 + h 1 + h 2) / 3))) /
        length3 (tauTrial realFn m detF lambda)) - m.sigmaY0 * (detF * (h 0 + h 1 + h 2))) 0 := by
    simp only [hnorm]
    exact (dN.const_mul (Real.sqrt (3 / 2))).sub (((dE.const_mul m.sigmaY0).add_const (m.hardening * alpha)))
  have l0 : stretched3 lambda h 0 = lambda := by funext i; simp [stretched3]
  have hpos : ∀ᶠ t in nhds (0 : ℝ), 0 < yieldTrial realFn m (grown detF h t) alpha (length3 (tauTrial realFn m (grown detF h t) (stretched3 lambda h t))) := by
    refine dF.continuousAt.eventually_const_lt ?_
    change 0 < yieldTrial realFn m (grown detF h 0) alpha (length3 (tauTrial realFn m (grown detF h 0) (stretched3 lambda h 0)))
    rw [g0, l0]
    exact hf
  have hev : (fun t => grown detF h t * (returnMap realFn m (grown detF h t) alpha (stretched3 lambda h t)).sigma i) =ᶠ[nhds 0] fun t =>
      (1 - 2 * m.mu * (yieldTrial realFn m (grown detF h t) alpha (length3 (tauTrial realFn m (grown detF h t) (stretched3 lambda h t))) / (3 * m.mu + m.hardening)) /
        (Real.sqrt (2 / 3) * length3 fun i => tauTrial realFn m detF lambda i + t * (2 * m.mu * (h i - (h 0 + h 1 + h 2) / 3)))) *
        (tauTrial realFn m detF lambda i + t * (2 * m.mu * (h i - (h 0 + h 1 + h 2) / 3))) := by
    filter_upwards [hpos] with t hpt
    have hg : grown detF h t ≠ 0 := mul_ne_zero ha.detF.ne' (Real.exp_ne_zero _)
    unfold returnMap
    dsimp only
    rw [normOf_eq, if_pos hpt]
    dsimp only
    rw [← htau t i hi, ← hnorm t, realFn_sqrt]
    rw [mul_div_assoc', mul_div_cancel_left₀ _ hg]
  have e1 : Real.sqrt (2 / 3) = 1 / Real.sqrt (3 / 2) := by
    have hs : 0 < Real.sqrt (3 / 2) := Real.sqrt_pos.2 (by norm_num)
    rw [eq_div_iff hs.ne', mul_comm]
    exact sqrt_32_23
  have dT : HasDerivAt (fun t : ℝ => tauTrial realFn m detF lambda i + t * (2 * m.mu * (h i - (h 0 + h 1 + h 2) / 3))) (2 * m.mu * (h i - (h 0 + h 1 + h 2) / 3)) 0 := by
    simpa using poly_line (tauTrial realFn m detF lambda i) (2 * m.mu * (h i - (h 0 + h 1 + h 2) / 3)) 0 0
  have hs : 0 < Real.sqrt (3 / 2) := Real.sqrt_pos.2 (by norm_num)
  have hs' : 0 < Real.sqrt (2 / 3) := Real.sqrt_pos.2 (by norm_num)
  have n0 : (length3 fun i => tauTrial realFn m detF lambda i + 0 * (2 * m.mu * (h i - (h 0 + h 1 + h 2) / 3))) = length3 (tauTrial realFn m detF lambda) := by
    simp only [zero_mul, add_zero]
  have f0 : yieldTrial realFn m (grown detF h 0) alpha (length3 (tauTrial realFn m (grown detF h 0) (stretched3 lambda h 0))) =
      yieldTrial realFn m detF alpha (length3 (tauTrial realFn m detF lambda)) := by rw [g0, l0]
  have key := shrink_line (mu := m.mu) (D := 3 * m.mu + m.hardening) (c := Real.sqrt (2 / 3)) dF dN dT (by rw [n0]; exact (mul_pos hs' hN).ne')
  refine (key.congr_of_eventuallyEq hev).congr_deriv ?_
  rw [f0, n0, zero_mul, add_zero]
  have hr : ∀ j, detF * (returnMap realFn m detF alpha lambda).tangent i j =
      2 * m.mu * (1 - 2 * m.mu * (yieldTrial realFn m detF alpha (length3 (tauTrial realFn m detF lambda)) / (3 * m.mu + m.hardening)) /
        (Real.sqrt (2 / 3) * length3 (tauTrial realFn m detF lambda))) * eye13 i j -
      4 * m.mu * m.mu * (tauTrial realFn m detF lambda i / (Real.sqrt (2 / 3) * length3 (tauTrial realFn m detF lambda))) *
        (tauTrial realFn m detF lambda j / (Real.sqrt (2 / 3) * length3 (tauTrial realFn m detF lambda))) *
        (1 / (3 * m.mu + m.hardening) - Real.sqrt (2 / 3) * (yieldTrial realFn m detF alpha (length3 (tauTrial realFn m detF lambda)) / (3 * m.mu + m.hardening)) /
          length3 (tauTrial realFn m detF lambda)) := by
    intro j
    unfold returnMap
    dsimp only
    rw [normOf_eq, if_pos hf]
    dsimp only
    rw [realFn_sqrt, ← mul_assoc, mul_one_div_cancel ha.detF.ne', one_mul]
  have hsum : detF * (∑ j ∈ Finset.range 3, (returnMap realFn m detF alpha lambda).tangent i j * h j) =
      (detF * (returnMap realFn m detF alpha lambda).tangent i 0) * h 0 + (detF * (returnMap realFn m detF alpha lambda).tangent i 1) * h 1 +
        (detF * (returnMap realFn m detF alpha lambda).tangent i 2) * h 2 := by
    simp only [Finset.sum_range_succ, Finset.sum_range_zero]
    ring
  rw [hsum, hr, hr, hr, show m.sigmaY0 * detF * (h 0 + h 1 + h 2) = m.sigmaY0 * (detF * (h 0 + h 1 + h 2)) by ring]
  exact shrink_algebra i hi hN.ne' hD.ne' hs'.ne' sqrt_32_23 (Real.mul_self_sqrt (by norm_num)) ht rfl (tauTrial realFn m detF lambda i) (h i) (fun e => by rw [e]; exact ⟨rfl, rfl⟩)
    (fun e => by rw [e]; exact ⟨rfl, rfl⟩) (fun e => by rw [e]; exact ⟨rfl, rfl⟩)

/-- If the change keeps the volume, the table of the code is the derivative of the stress. -/
theorem C89_tangent_partial {m : Plastic ℝ} {detF alpha : ℝ} {lambda : Nat → ℝ} (ha : Admissible m detF alpha) (hl : ∀ i < 3, 0 < lambda i)
    (hprod : lambda 0 * lambda 1 * lambda 2 = detF) (hp : (returnMap realFn m detF alpha lambda).plastic.isSome) {h : Nat → ℝ} (h0 : h 0 + h 1 + h 2 = 0)
    {i : Nat} (hi : i < 3) :
    HasDerivAt (fun t => grown detF h t * (returnMap realFn m (grown detF h t) alpha (stretched3 lambda h t)).sigma i)
      (detF * ∑ j ∈ Finset.range 3, (returnMap realFn m detF alpha lambda).tangent i j * h j) 0 :=
  (C89_tangent ha hl hprod hp h hi).congr_deriv (by rw [h0]; ring)

/-- If it does not, the table is not the derivative as soon as there is a yield stress and a trial stress in the direction. -/
theorem C89_tangent_wrong {m : Plastic ℝ} {detF alpha : ℝ} {lambda : Nat → ℝ} (ha : Admissible m detF alpha) (hl : ∀ i < 3, 0 < lambda i)
    (hprod : lambda 0 * lambda 1 * lambda 2 = detF) (hp : (returnMap realFn m detF alpha lambda).plastic.isSome) {h : Nat → ℝ} (h0 : h 0 + h 1 + h 2 ≠ 0)
    (hy : m.sigmaY0 ≠ 0) {i : Nat} (hi : i < 3) (ht : tauTrial realFn m detF lambda i ≠ 0) :
    ¬ HasDerivAt (fun t => grown detF h t * (returnMap realFn m (grown detF h t) alpha (stretched3 lambda h t)).sigma i)
      (detF * ∑ j ∈ Finset.range 3, (returnMap realFn m detF alpha lambda).tangent i j * h j) 0 := by
  intro hd
  have e := (C89_tangent ha hl hprod hp h hi).unique hd
  have hf : 0 < yieldTrial realFn m detF alpha (length3 (tauTrial realFn m detF lambda)) := by
    unfold returnMap at hp
    dsimp only at hp
    rw [normOf_eq] at hp
    split at hp
    · assumption
    · cases hp
  have hN := (shrink ha rfl hf).1
  have hD : 0 < 3 * m.mu + m.hardening := by have := ha.mu; have := ha.hardening; linarith
  have hs : 0 < Real.sqrt (2 / 3) := Real.sqrt_pos.2 (by norm_num)
  have hx := add_eq_left.1 e
  exact div_ne_zero (mul_ne_zero (mul_ne_zero (mul_ne_zero two_ne_zero ha.mu.ne') (div_ne_zero ht (mul_pos hs hN).ne'))
    (mul_ne_zero (mul_ne_zero hy ha.detF.ne') h0)) hD.ne' hx

/-- The elastic branch: the table is the derivative of the stress for every change. -/
theorem C89_tangent_elastic {m : Plastic ℝ} {detF alpha : ℝ} {lambda : Nat → ℝ} (hd : 0 < detF) (hl : ∀ i < 3, 0 < lambda i)
    (hf : yieldTrial realFn m detF alpha (normOf realFn (tauTrial realFn m detF lambda)) < 0) (h : Nat → ℝ) {i : Nat} (hi : i < 3) :
    HasDerivAt (fun t => grown detF h t * (returnMap realFn m (grown detF h t) alpha (stretched3 lambda h t)).sigma i)
      (detF * ∑ j ∈ Finset.range 3, (returnMap realFn m detF alpha lambda).tangent i j * h j) 0 := by
  have htau := fun t => fun i (hi : i < 3) => tau_line m hd (lambda := lambda) h t (hl i hi)
  have g0 : grown detF h 0 = detF := by simp [grown]
  have l0 : stretched3 lambda h 0 = lambda := by funext i; simp [stretched3]
  have hc : ContinuousAt (fun t => yieldTrial realFn m (grown detF h t) alpha (normOf realFn (tauTrial realFn m (grown detF h t) (stretched3 lambda h t)))) 0 := by
    have e : ∀ t, yieldTrial realFn m (grown detF h t) alpha (normOf realFn (tauTrial realFn m (grown detF h t) (stretched3 lambda h t))) =
        Real.sqrt (3 / 2) * Real.sqrt ((tauTrial realFn m detF lambda 0 + t * (2 * m.mu * (h 0 - (h 0 + h 1 + h 2) / 3))) ^ 2 +
          (tauTrial realFn m detF lambda 1 + t * (2 * m.mu * (h 1 - (h 0 + h 1 + h 2) / 3))) ^ 2 +
          (tauTrial realFn m detF lambda 2 + t * (2 * m.mu * (h 2 - (h 0 + h 1 + h 2) / 3))) ^ 2) -
        (m.sigmaY0 * (detF * Real.exp (t * (h 0 + h 1 + h 2))) + m.hardening * alpha) := fun t => by
      rw [normOf_eq]
      unfold length3
      rw [htau t 0 (by decide), htau t 1 (by decide), htau t 2 (by decide)]
      rfl
    rw [funext e]
    fun_prop
  have hneg : ∀ᶠ t in nhds (0 : ℝ), yieldTrial realFn m (grown detF h t) alpha (normOf realFn (tauTrial realFn m (grown detF h t) (stretched3 lambda h t))) < 0 := by
    refine hc.eventually_lt_const ?_
    change yieldTrial realFn m (grown detF h 0) alpha (normOf realFn (tauTrial realFn m (grown detF h 0) (stretched3 lambda h 0))) < 0
    rw [g0, l0]
    exact hf
  have hev : (fun t => grown detF h t * (returnMap realFn m (grown detF h t) alpha (stretched3 lambda h t)).sigma i) =ᶠ[nhds 0] fun t =>
      tauTrial realFn m detF lambda i + t * (2 * m.mu * (h i - (h 0 + h 1 + h 2) / 3)) := by
    filter_upwards [hneg] with t hpt
    have hg : grown detF h t ≠ 0 := mul_ne_zero hd.ne' (Real.exp_ne_zero _)
    unfold returnMap
    dsimp only
    rw [if_neg hpt.not_gt]
    dsimp only
    rw [← htau t i hi, mul_div_assoc', mul_div_cancel_left₀ _ hg]
  have dT : HasDerivAt (fun t : ℝ => tauTrial realFn m detF lambda i + t * (2 * m.mu * (h i - (h 0 + h 1 + h 2) / 3))) (2 * m.mu * (h i - (h 0 + h 1 + h 2) / 3)) 0 := by
    simpa using poly_line (tauTrial realFn m detF lambda i) (2 * m.mu * (h i - (h 0 + h 1 + h 2) / 3)) 0 0
  refine (dT.congr_of_eventuallyEq hev).congr_deriv ?_
  unfold returnMap
  dsimp only
  rw [if_neg hf.not_gt]
  simp only [Finset.sum_range_succ, Finset.sum_range_zero]
  have hd' := hd.ne'
  field_simp
  interval_cases i <;> simp [eye13] <;> ring

theorem walk_fold (c off n p : Nat) (l : List (Nat × Nat × Nat)) :
    (List.range n).foldl (fun s gp => (s.1 + 1, s.2 ++ [(c, off + gp, s.1)])) (p, l) = (p + n, l ++ (List.range n).map fun g => (c, off + g, p + g)) := by
  induction n with
  | zero => simp
  | succ n ih => rw [List.range_succ, List.foldl_append, ih]; simp [Nat.add_assoc]

/-- The positions of the state that the calls use: every call moves to the next one. -/
theorem stateWalk_eq (chunks gps nodes : Nat) (stress : Bool) :
    stateWalk chunks gps nodes stress = (List.range chunks).flatMap fun c =>
      (List.range (gps + if stress then nodes else 0)).map fun i => (c, i, c * (gps + if stress then nodes else 0) + i) := by
  have one : ∀ c p l, chunkWalk gps nodes stress c (p, l) =
      (p + (gps + if stress then nodes else 0), l ++ (List.range (gps + if stress then nodes else 0)).map fun i => (c, i, p + i)) := by
    intro c p l
    unfold chunkWalk
    have h1 := walk_fold c 0 gps p l
    simp only [Nat.zero_add] at h1
    cases stress with
    | false => simp only [h1, Bool.false_eq_true, if_false, Nat.add_zero]
    | true =>
      simp only [h1, if_true, walk_fold]
      refine Prod.ext (by simp [Nat.add_assoc]) ?_
      dsimp only
      rw [List.append_assoc, List.range_add, List.map_append, List.map_map]
      congr 2
      refine List.map_congr_left fun i _ => ?_
      simp [Nat.add_assoc]
  have all : ∀ n, (List.range n).foldl (fun s c => chunkWalk gps nodes stress c s) (0, []) =
      (n * (gps + if stress then nodes else 0), (List.range n).flatMap fun c =>
        (List.range (gps + if stress then nodes else 0)).map fun i => (c, i, c * (gps + if stress then nodes else 0) + i)) := by
    intro n
    induction n with
    | zero => simp
    | succ n ih =>
      rw [List.range_succ, List.foldl_append, ih]
      simp only [List.foldl_cons, List.foldl_nil, one, List.flatMap_append, List.flatMap_cons, List.flatMap_nil, List.append_nil]
      refine Prod.ext ?_ rfl
      dsimp only
      ring
  unfold stateWalk
  rw [all]

/-- Without stresses every point of every chunk has its own position, and it is in the allocated array. -/
theorem C89_positions_partial {chunks gps nodes : Nat} {c i p : Nat} (h : (c, i, p) ∈ stateWalk chunks gps nodes false) :
    p = c * gps + i ∧ p < stateSize chunks gps := by
  rw [stateWalk_eq] at h
  simp only [Bool.false_eq_true, if_false, Nat.add_zero, List.mem_flatMap, List.mem_range, List.mem_map, Prod.mk.injEq] at h
  obtain ⟨c', hc, i', hi, rfl, rfl, rfl⟩ := h
  refine ⟨rfl, ?_⟩
  unfold stateSize
  have : (c' + 1) * gps ≤ chunks * gps := Nat.mul_le_mul_right gps hc
  rw [Nat.add_mul, Nat.one_mul] at this
  omega

/-- With stresses the first point of every other chunk reads a position that is not its own, and the last call leaves the allocated array. -/
theorem C89_positions_wrong {chunks gps nodes : Nat} (hc : 2 ≤ chunks) (hg : 0 < gps) (hn : 0 < nodes) :
    (∀ c, 0 < c → c < chunks → ∃ p, (c, 0, p) ∈ stateWalk chunks gps nodes true ∧ p ≠ c * gps) ∧
      ∃ c i p, (c, i, p) ∈ stateWalk chunks gps nodes true ∧ stateSize chunks gps ≤ p := by
  rw [stateWalk_eq]
  simp only [if_true, List.mem_flatMap, List.mem_range, List.mem_map, Prod.mk.injEq]
  refine ⟨fun c h0 h => ⟨c * (gps + nodes), ⟨c, h, 0, by omega, rfl, rfl, rfl⟩, ?_⟩, chunks - 1, gps + nodes - 1, (chunks - 1) * (gps + nodes) + (gps + nodes - 1),
    ⟨chunks - 1, by omega, gps + nodes - 1, by omega, rfl, rfl, rfl⟩, ?_⟩
  · rw [Nat.mul_add]
    have := Nat.mul_pos h0 hn
    omega
  · unfold stateSize
    obtain ⟨k, rfl⟩ : ∃ k, chunks = k + 1 := ⟨chunks - 1, by omega⟩
    have : 0 < k * nodes := Nat.mul_pos (by omega) hn
    simp only [Nat.add_sub_cancel, Nat.mul_add, Nat.add_mul, Nat.one_mul]
    omega

/-- HEXA8 with stresses: the second chunk starts at the position 16, its state is at 8. -/
example : (1, 0, 16) ∈ stateWalk 2 8 8 true ∧ (1, 0, 8) ∈ stateWalk 2 8 8 false := by decide

/-- A material and a plastic step: the stretches `e`, `1 / e`, `1`. -/
noncomputable def metal : Plastic ℝ := { sigmaY0 := 1, hardening := 1, mu := 1 }

noncomputable def pulled (i : Nat) : ℝ := if i = 0 then Real.exp 1 else if i = 1 then Real.exp (-1) else 1

theorem pulled_plastic : (returnMap realFn metal 1 0 pulled).plastic.isSome := by
  have ht : ∀ i, tauTrial realFn metal 1 pulled i = if i = 0 then 2 else if i = 1 then -2 else 0 := by
    intro i
    simp only [tauTrial, realFn_log, metal, pulled, Real.log_one]
    split
    · rw [Real.log_exp]; norm_num
    · split
      · rw [Real.log_exp]; norm_num
      · rw [Real.log_one]; norm_num
  have hf : 0 < yieldTrial realFn metal 1 0 (length3 (tauTrial realFn metal 1 pulled)) := by
    unfold length3
    rw [ht 0, ht 1, ht 2, yieldTrial, realFn_sqrt, ← Real.sqrt_mul (by norm_num)]
    have : (1 : ℝ) < Real.sqrt (3 / 2 * ((if (0 : Nat) = 0 then 2 else if (0 : Nat) = 1 then -2 else 0) ^ 2 + (if (1 : Nat) = 0 then 2 else if (1 : Nat) = 1 then -2 else 0) ^ 2 +
        (if (2 : Nat) = 0 then 2 else if (2 : Nat) = 1 then -2 else 0) ^ 2)) := Real.lt_sqrt_of_sq_lt (by norm_num)
    simp only [metal]
    linarith
  unfold returnMap
  dsimp only
  rw [normOf_eq, if_pos hf]
  rfl

example : Admissible metal 1 0 ∧ (∀ i < 3, 0 < pulled i) ∧ pulled 0 * pulled 1 * pulled 2 = 1 ∧ (returnMap realFn metal 1 0 pulled).plastic.isSome := by
  refine ⟨⟨?_, ?_, ?_, ?_, ?_⟩, ?_, ?_, pulled_plastic⟩
  all_goals try (simp [metal]; done)
  · intro i _
    unfold pulled
    split
    · exact Real.exp_pos _
    · split
      · exact Real.exp_pos _
      · exact one_pos
  · simp [pulled, ← Real.exp_add]

end Verif.Fem
