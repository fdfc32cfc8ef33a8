import Verif.Model.NeoHookean
import Verif.Spec.NeoHookean
import Mathlib.LinearAlgebra.Matrix.Adjugate
import Mathlib.Tactic.FieldSimp
import Mathlib.Tactic.LinearCombination
import Mathlib.Tactic.FinCases
import Mathlib.Tactic.IntervalCases
/-!
C88: stress and elasticity of the neo-Hookean material.
-/
namespace Verif.Fem

/-- The matrix of nine entries. -/
def matrix33 (C2 : Nat → ℝ) : Matrix (Fin 3) (Fin 3) ℝ := !![C2 0, C2 1, C2 2; C2 3, C2 4, C2 5; C2 6, C2 7, C2 8]

/-- The stress of the neo-Hookean energy. -/
noncomputable def neoTrue (lambda mu : ℝ) (C : Matrix (Fin 3) (Fin 3) ℝ) : Matrix (Fin 3) (Fin 3) ℝ :=
  mu • (1 : Matrix (Fin 3) (Fin 3) ℝ) + (lambda / 2 * Real.log C.det - mu) • (C.det⁻¹ • C.adjugate)

theorem symm_of {H : Matrix (Fin 3) (Fin 3) ℝ} (h : H.IsSymm) : H 1 0 = H 0 1 ∧ H 2 0 = H 0 2 ∧ H 2 1 = H 1 2 := ⟨h.apply 0 1, h.apply 0 2, h.apply 1 2⟩

theorem poly_line (a b c d : ℝ) : HasDerivAt (fun t : ℝ => a + t * b + t ^ 2 * c + t ^ 3 * d) b 0 := by
  have h := (((hasDerivAt_const (0 : ℝ) a).add ((hasDerivAt_id (0 : ℝ)).mul_const b)).add (((hasDerivAt_id (0 : ℝ)).pow 2).mul_const c)).add
    (((hasDerivAt_id (0 : ℝ)).pow 3).mul_const d)
  exact HasDerivAt.congr_deriv h (by simp)

theorem det_line (C H : Matrix (Fin 3) (Fin 3) ℝ) :
    HasDerivAt (fun t : ℝ => (C + t • H).det) (∑ i, ∑ j, C.adjugate j i * H i j) 0 := by
  have e : ∀ t : ℝ, (C + t • H).det = C.det + t * (∑ i, ∑ j, C.adjugate j i * H i j) + t ^ 2 * (∑ i, ∑ j, H.adjugate j i * C i j) + t ^ 3 * H.det := by
    intro t
    simp [Matrix.det_fin_three, Matrix.adjugate_fin_three, Fin.sum_univ_three]
    ring
  rw [funext e]
  exact poly_line _ _ _ _

theorem adj_line (C H : Matrix (Fin 3) (Fin 3) ℝ) (a b : Fin 3) :
    ∃ d, HasDerivAt (fun t : ℝ => (C + t • H).adjugate a b) d 0 ∧
      d * C.det = C.adjugate a b * (∑ i, ∑ j, C.adjugate j i * H i j) - ∑ i, ∑ j, C.adjugate a i * H i j * C.adjugate j b := by
  have e : ∀ t : ℝ, (C + t • H).adjugate a b = C.adjugate a b + t * ((C + H).adjugate a b - C.adjugate a b - H.adjugate a b) + t ^ 2 * H.adjugate a b := by
    intro t
    fin_cases a <;> fin_cases b <;> simp [Matrix.adjugate_fin_three] <;> ring
  refine ⟨(C + H).adjugate a b - C.adjugate a b - H.adjugate a b, ?_, ?_⟩
  · rw [funext e]
    simpa using poly_line (C.adjugate a b) ((C + H).adjugate a b - C.adjugate a b - H.adjugate a b) (H.adjugate a b) 0
  · fin_cases a <;> fin_cases b <;> simp [Matrix.det_fin_three, Matrix.adjugate_fin_three, Fin.sum_univ_three] <;> ring

/-- The stress of the neo-Hookean energy is `mu 1 + (lambda log J - mu) C^-1`. -/
theorem neoTrue_stress (lambda mu : ℝ) (C : Matrix (Fin 3) (Fin 3) ℝ) (hs : C.IsSymm) (hC : 0 < C.det) : IsStress (neoEnergy lambda mu) C (neoTrue lambda mu C) := by
  obtain ⟨s1, s2, s3⟩ := symm_of hs
  have hadj : ∀ i j, C.adjugate j i = C.adjugate i j := by
    intro i j
    fin_cases i <;> fin_cases j <;> simp [Matrix.adjugate_fin_three, s1, s2, s3] <;> ring
  refine ⟨Matrix.IsSymm.ext fun i j => ?_, fun H _ => ?_⟩
  · simp only [neoTrue, Matrix.add_apply, Matrix.smul_apply, smul_eq_mul, hadj i j, Matrix.one_apply, eq_comm (a := j)]
  · have hd := det_line C H
    have h0 : (C + (0 : ℝ) • H).det = C.det := by simp
    have hl : HasDerivAt (fun t : ℝ => Real.log (C + t • H).det) ((∑ i, ∑ j, C.adjugate j i * H i j) / C.det) 0 := by
      have := hd.log (by rw [h0]; exact hC.ne')
      rwa [h0] at this
    have ht : HasDerivAt (fun t : ℝ => (C + t • H).trace) H.trace 0 := by
      have e : ∀ t : ℝ, (C + t • H).trace = C.trace + t * H.trace := fun t => by simp [Matrix.trace_add, Matrix.trace_smul]
      rw [funext e]
      have := poly_line C.trace H.trace 0 0
      simpa only [mul_zero, add_zero] using this
    have := (((ht.sub_const 3).const_mul (mu / 2)).sub ((hl.div_const 2).const_mul mu)).add (((hl.div_const 2).pow 2).const_mul (lambda / 2))
    refine this.congr_deriv ?_
    rw [h0]
    have e1 : ∑ i, ∑ j, neoTrue lambda mu C i j * H i j = mu * H.trace + (lambda / 2 * Real.log C.det - mu) * (C.det⁻¹ * ∑ i, ∑ j, C.adjugate j i * H i j) := by
      simp only [neoTrue, Matrix.add_apply, Matrix.smul_apply, smul_eq_mul, fun i j => hadj i j, Fin.sum_univ_three, Matrix.trace_fin_three, Matrix.one_apply]
      simp
      ring
    rw [e1]
    field_simp
    ring

theorem neoTrue_line (lambda mu : ℝ) (C H : Matrix (Fin 3) (Fin 3) ℝ) (hC : 0 < C.det) (a b : Fin 3) :
    HasDerivAt (fun t : ℝ => neoTrue lambda mu (C + t • H) a b)
      (lambda / 2 * (C.det⁻¹ * C.adjugate a b) * (∑ i, ∑ j, C.det⁻¹ * C.adjugate j i * H i j) +
        (mu - lambda / 2 * Real.log C.det) * ∑ i, ∑ j, (C.det⁻¹ * C.adjugate a i) * H i j * (C.det⁻¹ * C.adjugate j b)) 0 := by
  have hd := det_line C H
  obtain ⟨d, hj, e⟩ := adj_line C H a b
  have h0 : C + (0 : ℝ) • H = C := by simp
  have hl := hd.log (by rw [h0]; exact hC.ne')
  have hi := hd.inv (by rw [h0]; exact hC.ne')
  have := (hasDerivAt_const (0 : ℝ) (mu * (1 : Matrix (Fin 3) (Fin 3) ℝ) a b)).add (((hl.const_mul (lambda / 2)).sub_const mu).mul (hi.mul hj))
  refine this.congr_deriv ?_
  simp only [h0, Pi.inv_apply, Pi.mul_apply]
  have q1 : ∑ i, ∑ j, C.det⁻¹ * C.adjugate j i * H i j = C.det⁻¹ * ∑ i, ∑ j, C.adjugate j i * H i j := by
    simp only [Finset.mul_sum, mul_assoc]
  have q2 : ∑ i, ∑ j, (C.det⁻¹ * C.adjugate a i) * H i j * (C.det⁻¹ * C.adjugate j b) = C.det⁻¹ * C.det⁻¹ * ∑ i, ∑ j, C.adjugate a i * H i j * C.adjugate j b := by
    simp only [Finset.mul_sum]
    exact Finset.sum_congr rfl fun i _ => Finset.sum_congr rfl fun j _ => by ring
  rw [q1, q2]
  have e2 : ∑ i, ∑ j, C.adjugate a i * H i j * C.adjugate j b = C.adjugate a b * (∑ i, ∑ j, C.adjugate j i * H i j) - d * C.det := by rw [e]; ring
  rw [e2]
  field_simp
  ring

/-- The entries of `unvoigt`. -/
def voigtEntry (v : Nat → ℝ) (i j : Fin 3) : ℝ :=
  match i, j with
  | 0, 0 => v 0
  | 1, 1 => v 1
  | 2, 2 => v 2
  | 0, 1 => v 3
  | 1, 0 => v 3
  | 1, 2 => v 4
  | 2, 1 => v 4
  | 0, 2 => v 5
  | 2, 0 => v 5

theorem neo_products (lambda mu L : ℝ) (v : Nat → ℝ) (H : Matrix (Fin 3) (Fin 3) ℝ) (hH : H.IsSymm) (a b : Fin 3) :
    lambda / 2 * unvoigt v a b * (∑ i, ∑ j, unvoigt v j i * H i j) + (mu - lambda / 2 * L) * ∑ i, ∑ j, unvoigt v a i * H i j * unvoigt v j b =
      unvoigt (fun i => ∑ j ∈ Finset.range 6, symmetrize (neoElasticity lambda mu L v) (i * 6 + j) * halfChange H j) a b := by
  obtain ⟨t1, t2, t3⟩ := symm_of hH
  have e : ∀ i j, unvoigt v i j = voigtEntry v i j := by
    intro i j
    fin_cases i <;> fin_cases j <;> rfl
  have e' : ∀ f : Nat → ℝ, ∀ i j, unvoigt f i j = voigtEntry f i j := by
    intro f i j
    fin_cases i <;> fin_cases j <;> rfl
  simp only [e, e', Fin.sum_univ_three, t1, t2, t3, Finset.sum_range_succ, Finset.sum_range_zero, halfChange]
  generalize H 0 0 = h0
  generalize H 0 1 = h1
  generalize H 0 2 = h2
  generalize H 1 1 = h3
  generalize H 1 2 = h4
  generalize H 2 2 = h5
  fin_cases a <;> fin_cases b <;> simp only [voigtEntry, Fin.zero_eta, Fin.mk_one, Fin.reduceFinMk] <;>
    norm_num [symmetrize, neoElasticity, symodot, voigtEntry, -mul_eq_mul_left_iff, -mul_eq_mul_right_iff] <;> ring

/-- `symodot_vCinv` and `vCinv` are the products of the inverse: the table gives the elasticity of the energy, if `vCinv` is the inverse. -/
theorem neo_elasticity (lambda mu : ℝ) (C : Matrix (Fin 3) (Fin 3) ℝ) (hs : C.IsSymm) (hC : 0 < C.det) (v : Nat → ℝ)
    (hv : C.det⁻¹ • C.adjugate = unvoigt v) : IsElasticity (neoEnergy lambda mu) C (symmetrize (neoElasticity lambda mu (Real.log C.det) v)) := by
  refine ⟨neoTrue lambda mu, fun X h1 h2 => neoTrue_stress lambda mu X h1 h2, fun H hH a b => (neoTrue_line lambda mu C H hC a b).congr_deriv ?_⟩
  have hv' : ∀ i j, C.det⁻¹ * C.adjugate i j = unvoigt v i j := fun i j => by rw [← hv]; rfl
  simp only [hv']
  exact neo_products lambda mu _ v H hH a b

theorem neo_stress (lambda mu : ℝ) (C : Matrix (Fin 3) (Fin 3) ℝ) (v : Nat → ℝ) (hv : C.det⁻¹ • C.adjugate = unvoigt v) :
    unvoigt (neoStress lambda mu (Real.log C.det) v) = neoTrue lambda mu C := by
  rw [neoTrue, hv]
  ext i j
  fin_cases i <;> fin_cases j <;> simp [unvoigt, neoStress, -mul_eq_mul_right_iff] <;> ring

/-- The logarithm of the code: NaN outside of its domain. -/
noncomputable def realLog (x : ℝ) : Option ℝ := if 0 < x then some (Real.log x) else none

/-- The first constant of Lame. -/
noncomputable def lame1 (ex mi : ℝ) : ℝ := ex * mi / ((1 + mi) * (1 - 2 * mi))

/-- The second constant of Lame. -/
noncomputable def lame2 (ex mi : ℝ) : ℝ := ex / (2 * (1 + mi))

/-- The tensors whose inverse is computed correctly. -/
def Lucky (C2 : Nat → ℝ) : Prop := C2 2 = 0 ∧ C2 5 = 0 ∨ C2 0 = C2 4 ∧ C2 2 ^ 2 = C2 5 ^ 2

theorem neo_det {C2 : Nat → ℝ} (hs : (matrix33 C2).IsSymm) : (matrix33 C2).det =
    C2 0 * C2 4 * C2 8 + 2 * C2 1 * C2 5 * C2 2 - C2 0 * C2 5 * C2 5 - C2 4 * C2 2 * C2 2 - C2 8 * C2 1 * C2 1 := by
  obtain ⟨s1, s2, s3⟩ := symm_of hs
  simp [matrix33] at s1 s2 s3
  simp [matrix33, Matrix.det_fin_three, s1, s2, s3]
  ring

theorem neo_adjugate {C2 : Nat → ℝ} (hs : (matrix33 C2).IsSymm) : (matrix33 C2).adjugate = unvoigt fun i => match i with
    | 0 => C2 4 * C2 8 - C2 5 * C2 5
    | 1 => C2 0 * C2 8 - C2 2 * C2 2
    | 2 => C2 0 * C2 4 - C2 1 * C2 1
    | 3 => C2 5 * C2 2 - C2 8 * C2 1
    | 4 => C2 1 * C2 2 - C2 0 * C2 5
    | _ => C2 1 * C2 5 - C2 4 * C2 2 := by
  obtain ⟨s1, s2, s3⟩ := symm_of hs
  simp [matrix33] at s1 s2 s3
  ext i j
  fin_cases i <;> fin_cases j <;> simp [matrix33, unvoigt, Matrix.adjugate_fin_three, s1, s2, s3] <;> ring

/-- `vCinv` is the inverse of `C` for exactly the tensors with vanishing shears 13 and 23 and those that do not distinguish the first two axes. -/
theorem C88_inverse {C2 : Nat → ℝ} (hs : (matrix33 C2).IsSymm) (hC : 0 < (matrix33 C2).det) (hm : 0 < C2 0 * C2 4 - C2 1 * C2 1) (hJ : neoJ2 C2 ≠ 0) :
    unvoigt (neoInverse C2 (1 / neoJ2 C2)) = (matrix33 C2)⁻¹ ↔ Lucky C2 := by
  have hi : (matrix33 C2)⁻¹ = (matrix33 C2).det⁻¹ • (matrix33 C2).adjugate := by rw [Matrix.inv_def, Ring.inverse_eq_inv']
  rw [hi, neo_adjugate hs]
  have hd := neo_det hs
  constructor
  · intro h
    have h22 := congrFun (congrFun h 2) 2
    have h00 := congrFun (congrFun h 0) 0
    have h12 := congrFun (congrFun h 1) 2
    have h02 := congrFun (congrFun h 0) 2
    simp [unvoigt, neoInverse, -mul_eq_mul_left_iff, -mul_eq_mul_right_iff] at h22 h00 h12 h02
    have hJd : neoJ2 C2 = (matrix33 C2).det := by
      rw [mul_comm] at h22
      have := mul_right_cancel₀ hm.ne' h22
      exact inv_injective this
    rw [hJd, mul_comm] at h00 h12 h02
    have hz : (matrix33 C2).det⁻¹ ≠ 0 := inv_ne_zero hC.ne'
    have e0 := mul_left_cancel₀ hz h00
    have e1 := mul_left_cancel₀ hz h12
    have e2 := mul_left_cancel₀ hz h02
    by_cases hq : C2 0 = C2 4
    · exact .inr ⟨hq, by linarith⟩
    · refine .inl ⟨?_, ?_⟩
      · have : (C2 0 - C2 4) * C2 2 = 0 := by linarith
        exact (mul_eq_zero.1 this).resolve_left (sub_ne_zero.2 hq)
      · have : (C2 0 - C2 4) * C2 5 = 0 := by linarith
        exact (mul_eq_zero.1 this).resolve_left (sub_ne_zero.2 hq)
  · intro h
    have hJd : neoJ2 C2 = (matrix33 C2).det := by
      rw [hd, neoJ2]
      rcases h with ⟨h1, h2⟩ | ⟨h1, h2⟩
      · rw [h1, h2]
      · linear_combination (C2 5 * C2 5 - C2 2 * C2 2) * h1
    rw [hJd]
    ext i j
    rcases h with ⟨h1, h2⟩ | ⟨h1, h2⟩
    · fin_cases i <;> fin_cases j <;> simp [unvoigt, neoInverse, h1, h2, -mul_eq_mul_left_iff, -mul_eq_mul_right_iff] <;> ring
    · have h2' : C2 2 * C2 2 = C2 5 * C2 5 := by linarith
      fin_cases i <;> fin_cases j <;> simp [unvoigt, neoInverse, h1, h2', -mul_eq_mul_left_iff, -mul_eq_mul_right_iff] <;> ring

theorem lucky_det {C2 : Nat → ℝ} (hs : (matrix33 C2).IsSymm) (h : Lucky C2) : neoJ2 C2 = (matrix33 C2).det := by
  rw [neo_det hs, neoJ2]
  rcases h with ⟨h1, h2⟩ | ⟨h1, h2⟩
  · rw [h1, h2]
  · linear_combination (C2 5 * C2 5 - C2 2 * C2 2) * h1

theorem neoHookean_eq {ex mi : ℝ} (h1 : 1 + mi ≠ 0) (h2 : 1 - 2 * mi ≠ 0) {C2 : Nat → ℝ} (hJ : 0 < neoJ2 C2) : neoHookean realLog ex mi C2 =
    some (symmetrize (neoElasticity (lame1 ex mi) (lame2 ex mi) (Real.log (neoJ2 C2)) (neoInverse C2 (1 / neoJ2 C2))),
      neoStress (lame1 ex mi) (lame2 ex mi) (Real.log (neoJ2 C2)) (neoInverse C2 (1 / neoJ2 C2))) := by
  have h3 : 2 + 2 * mi ≠ 0 := by
    intro h
    exact h1 (by linarith)
  rw [neoHookean, if_neg (by simp [h1, h2, h3]), if_neg hJ.ne', realLog, if_pos hJ]
  simp only [Option.bind_eq_bind, Option.bind_some, lame1, lame2, show 2 + 2 * mi = 2 * (1 + mi) by ring]

/-- For tensors of `Lucky`, the stress and the elasticity of the code belong to the neo-Hookean energy. Missing: all other tensors (`C88_inverse`, `C88_shear_wrong`,
`C88_undefined`). -/
theorem C88_material_partial {ex mi : ℝ} (h1 : 1 + mi ≠ 0) (h2 : 1 - 2 * mi ≠ 0) {C2 : Nat → ℝ} (hs : (matrix33 C2).IsSymm) (hC : 0 < (matrix33 C2).det)
    (hm : 0 < C2 0 * C2 4 - C2 1 * C2 1) (h : Lucky C2) :
    ∃ r, neoHookean realLog ex mi C2 = some r ∧ IsStress (neoEnergy (lame1 ex mi) (lame2 ex mi)) (matrix33 C2) (unvoigt r.2) ∧
      IsElasticity (neoEnergy (lame1 ex mi) (lame2 ex mi)) (matrix33 C2) r.1 := by
  have hJ := lucky_det hs h
  have hi := (C88_inverse hs hC hm (by rw [hJ]; exact hC.ne')).2 h
  rw [Matrix.inv_def, Ring.inverse_eq_inv'] at hi
  refine ⟨_, neoHookean_eq h1 h2 (by rw [hJ]; exact hC), ?_, ?_⟩
  · rw [hJ] at hi ⊢
    rw [neo_stress _ _ _ _ hi.symm]
    exact neoTrue_stress _ _ _ hs hC
  · rw [hJ] at hi ⊢
    exact neo_elasticity _ _ _ hs hC _ hi.symm

/-- The stress of an energy is unique. -/
theorem stress_unique {W : Matrix (Fin 3) (Fin 3) ℝ → ℝ} {C S T : Matrix (Fin 3) (Fin 3) ℝ} (hS : IsStress W C S) (hT : IsStress W C T) : S = T := by
  have key : ∀ H : Matrix (Fin 3) (Fin 3) ℝ, H.IsSymm → ∑ i, ∑ j, S i j * H i j = ∑ i, ∑ j, T i j * H i j := fun H hH => by
    have := (hS.2 H hH).unique (hT.2 H hH)
    linarith
  obtain ⟨s1, s2, s3⟩ := symm_of hS.1
  obtain ⟨t1, t2, t3⟩ := symm_of hT.1
  have k : ∀ v : Nat → ℝ, ∑ i, ∑ j, S i j * unvoigt v i j = ∑ i, ∑ j, T i j * unvoigt v i j := fun v => by
    refine key _ (Matrix.IsSymm.ext fun i j => ?_)
    fin_cases i <;> fin_cases j <;> rfl
  have k0 := k fun i => if i = 0 then 1 else 0
  have k1 := k fun i => if i = 1 then 1 else 0
  have k2 := k fun i => if i = 2 then 1 else 0
  have k3 := k fun i => if i = 3 then 1 else 0
  have k4 := k fun i => if i = 4 then 1 else 0
  have k5 := k fun i => if i = 5 then 1 else 0
  simp [unvoigt, Fin.sum_univ_three] at k0 k1 k2 k3 k4 k5
  ext i j
  fin_cases i <;> fin_cases j <;> simp <;> linarith

/-- The right Cauchy-Green tensor of a deformation is symmetric and its determinant is the square of the one of the deformation. -/
theorem cauchy_det (F : Nat → ℝ) : (matrix33 (cauchyGreen 3 F)).IsSymm ∧ (matrix33 (cauchyGreen 3 F)).det = (matrix33 F).det ^ 2 := by
  have e : matrix33 (cauchyGreen 3 F) = (matrix33 F).transpose * matrix33 F := by
    ext i j
    fin_cases i <;> fin_cases j <;>
      simp [matrix33, cauchyGreen, multAtBEntry, sumLoop, List.range_succ, Matrix.mul_apply, Fin.sum_univ_three]
  rw [e]
  refine ⟨?_, by rw [Matrix.det_mul, Matrix.det_transpose, sq]⟩
  rw [Matrix.IsSymm, Matrix.transpose_mul, Matrix.transpose_transpose]

/-- Simple shear of the first direction along the third. -/
def shear13 (g : ℝ) (i : Nat) : ℝ := if i = 2 then g else if i = 0 ∨ i = 4 ∨ i = 8 then 1 else 0

/-- The stress of the code is wrong for every simple shear: the normal stress `-mu g^2` of the first direction is missing. -/
theorem C88_shear_wrong {ex mi g : ℝ} (h1 : 1 + mi ≠ 0) (h2 : 1 - 2 * mi ≠ 0) (he : ex ≠ 0) (hg : g ≠ 0) :
    ∃ r, neoHookean realLog ex mi (cauchyGreen 3 (shear13 g)) = some r ∧ r.2 0 = 0 ∧
      ¬ IsStress (neoEnergy (lame1 ex mi) (lame2 ex mi)) (matrix33 (cauchyGreen 3 (shear13 g))) (unvoigt r.2) := by
  have c0 : cauchyGreen 3 (shear13 g) 0 = 1 := by simp [cauchyGreen, multAtBEntry, sumLoop, List.range_succ, shear13]
  have c1 : cauchyGreen 3 (shear13 g) 1 = 0 := by simp [cauchyGreen, multAtBEntry, sumLoop, List.range_succ, shear13]
  have c2 : cauchyGreen 3 (shear13 g) 2 = g := by simp [cauchyGreen, multAtBEntry, sumLoop, List.range_succ, shear13]
  have c4 : cauchyGreen 3 (shear13 g) 4 = 1 := by simp [cauchyGreen, multAtBEntry, sumLoop, List.range_succ, shear13]
  have c5 : cauchyGreen 3 (shear13 g) 5 = 0 := by simp [cauchyGreen, multAtBEntry, sumLoop, List.range_succ, shear13]
  have c8 : cauchyGreen 3 (shear13 g) 8 = g * g + 1 := by simp [cauchyGreen, multAtBEntry, sumLoop, List.range_succ, shear13]
  obtain ⟨hs, hd⟩ := cauchy_det (shear13 g)
  have hd1 : (matrix33 (cauchyGreen 3 (shear13 g))).det = 1 := by rw [neo_det hs, c0, c1, c2, c4, c5, c8]; ring
  have hJ : neoJ2 (cauchyGreen 3 (shear13 g)) = 1 := by rw [neoJ2, c0, c1, c2, c4, c5, c8]; ring
  have e0 : neoStress (lame1 ex mi) (lame2 ex mi) (Real.log (neoJ2 (cauchyGreen 3 (shear13 g))))
      (neoInverse (cauchyGreen 3 (shear13 g)) (1 / neoJ2 (cauchyGreen 3 (shear13 g)))) 0 = 0 := by
    rw [hJ, neoStress, neoInverse, c2, c4, c8, Real.log_one]
    ring
  refine ⟨_, neoHookean_eq h1 h2 (by rw [hJ]; exact one_pos), e0, fun hS => ?_⟩
  have := congrFun (congrFun (stress_unique hS (neoTrue_stress _ _ _ hs (by rw [hd1]; exact one_pos))) 0) 0
  have this := (e0.symm.trans this)
  rw [neoTrue, hd1, neo_adjugate hs] at this
  simp [unvoigt, c4, c5, c8] at this
  have hmu : lame2 ex mi ≠ 0 := div_ne_zero he (mul_ne_zero two_ne_zero h1)
  have h0 : lame2 ex mi * (g * g) = 0 := by linarith
  rcases mul_eq_zero.1 h0 with h | h
  · exact hmu h
  · exact hg (mul_self_eq_zero.1 h)

/-- A stretch with a shear, its determinant is 2. -/
def stretchShear (i : Nat) : ℝ := if i = 0 then 2 else if i = 2 ∨ i = 4 ∨ i = 8 then 1 else 0

/-- The code takes the logarithm of a negative number for a harmless deformation, whatever the constants of the material are. -/
theorem C88_undefined (ex mi : ℝ) : (matrix33 stretchShear).det = 2 ∧ neoHookean realLog ex mi (cauchyGreen 3 stretchShear) = none := by
  constructor
  · simp [matrix33, Matrix.det_fin_three, stretchShear]
  · have hJ : neoJ2 (cauchyGreen 3 stretchShear) = -8 := by
      simp [neoJ2, cauchyGreen, multAtBEntry, sumLoop, List.range_succ, stretchShear]
      norm_num
    rw [neoHookean]
    split
    · rfl
    · simp [hJ, realLog]

/-- In the rest state there is no stress and the elasticity is the one of Hooke. -/
theorem C88_rest {ex mi : ℝ} (h1 : 1 + mi ≠ 0) (h2 : 1 - 2 * mi ≠ 0) {C2 : Nat → ℝ} (h0 : ∀ i < 9, C2 i = if i = 0 ∨ i = 4 ∨ i = 8 then 1 else 0) :
    ∃ r, neoHookean realLog ex mi C2 = some r ∧ (∀ i, r.2 i = 0) ∧ ∀ i < 36, r.1 i = symmetrize (kirchhoff3 (lame1 ex mi) (lame2 ex mi)) i := by
  have c0 := h0 0 (by decide)
  have c1 := h0 1 (by decide)
  have c2 := h0 2 (by decide)
  have c4 := h0 4 (by decide)
  have c5 := h0 5 (by decide)
  have c8 := h0 8 (by decide)
  simp at c0 c1 c2 c4 c5 c8
  have hJ : neoJ2 C2 = 1 := by rw [neoJ2, c0, c1, c2, c4, c5, c8]; ring
  refine ⟨_, neoHookean_eq h1 h2 (by rw [hJ]; exact one_pos), fun i => ?_, fun i hi => ?_⟩
  · dsimp only
    rw [hJ, Real.log_one]
    unfold neoStress
    dsimp only
    split <;> simp [neoInverse, c0, c1, c2, c4, c5, c8]
  · rw [hJ, Real.log_one]
    interval_cases i <;> simp [symmetrize, neoElasticity, symodot, neoInverse, kirchhoff3, c0, c1, c2, c4, c5, c8] <;> ring

/-- A stretch of the third direction with a shear of the other two meets the hypotheses of `C88_material_partial`. -/
example : ∃ F : Nat → ℝ, (matrix33 F).det = 2 ∧ Lucky (cauchyGreen 3 F) ∧ cauchyGreen 3 F 1 = 1 ∧
    0 < cauchyGreen 3 F 0 * cauchyGreen 3 F 4 - cauchyGreen 3 F 1 * cauchyGreen 3 F 1 := by
  refine ⟨fun i => if i = 8 then 2 else if i = 0 ∨ i = 1 ∨ i = 4 then 1 else 0, ?_, .inl ⟨?_, ?_⟩, ?_, ?_⟩ <;>
    simp [matrix33, Matrix.det_fin_three, cauchyGreen, multAtBEntry, sumLoop, List.range_succ]

end Verif.Fem
