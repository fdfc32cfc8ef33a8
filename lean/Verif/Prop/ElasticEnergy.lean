import Verif.Prop.ElasticLarge
import Verif.Prop.ElasticAxi
import Mathlib.Analysis.Calculus.Deriv.Pow
import Mathlib.Analysis.Calculus.Deriv.Add
import Mathlib.Analysis.Calculus.Deriv.Mul
/-!
C82: the inner forces are the derivative of the energy, the matrix is the derivative of the inner forces; rotations store no energy.
-/
namespace Verif.Fem

variable {c : Code} {gps : Nat} {m : Elastic ℝ} {thickness : Nat → ℝ} {coords : Nat → Nat → ℝ} {pts : List (List ℝ × ℝ)}

section
variable {ι : Type} [Fintype ι] [DecidableEq ι]

omit [DecidableEq ι] in
theorem contract_add_left (a b e : Matrix ι ι ℝ) : contract (a + b) e = contract a e + contract b e := by
  simp only [contract, Matrix.add_apply, add_mul, Finset.sum_add_distrib]

omit [DecidableEq ι] in
theorem contract_smul_left (t : ℝ) (a e : Matrix ι ι ℝ) : contract (t • a) e = t * contract a e := by
  simp only [contract, Matrix.smul_apply, smul_eq_mul, Finset.mul_sum, mul_assoc]

omit [DecidableEq ι] in
theorem contract_add_right (a b e : Matrix ι ι ℝ) : contract e (a + b) = contract e a + contract e b := by
  rw [contract_comm, contract_add_left, contract_comm a, contract_comm b]

omit [DecidableEq ι] in
theorem contract_smul_right (t : ℝ) (a e : Matrix ι ι ℝ) : contract e (t • a) = t * contract e a := by
  rw [contract_comm, contract_smul_left, contract_comm a]

theorem law_add (m : Elastic ℝ) (d : Nat) (p : List ℝ) (a b : Matrix ι ι ℝ) : m.law d p (a + b) = m.law d p a + m.law d p b := by
  simp only [Elastic.law, hooke, Matrix.trace_add, mul_add, add_smul, smul_add]
  abel

theorem law_smul (m : Elastic ℝ) (d : Nat) (p : List ℝ) (t : ℝ) (a : Matrix ι ι ℝ) : m.law d p (t • a) = t • m.law d p a := by
  simp only [Elastic.law, hooke, Matrix.trace_smul, smul_eq_mul, smul_add, smul_smul]
  rw [mul_left_comm, mul_comm t (2 * _)]

theorem law_transpose (m : Elastic ℝ) (d : Nat) (p : List ℝ) {a : Matrix ι ι ℝ} (h : a.transpose = a) : (m.law d p a).transpose = m.law d p a := by
  rw [Elastic.law, hooke, Matrix.transpose_add, Matrix.transpose_smul, Matrix.transpose_smul, Matrix.transpose_one, h]

theorem greenStrain_transpose (F : Matrix ι ι ℝ) : (greenStrain F).transpose = greenStrain F := by
  simp [greenStrain, Matrix.transpose_mul]

theorem greenStrain_add (F G : Matrix ι ι ℝ) (t : ℝ) :
    greenStrain (F + t • G) = greenStrain F + t • strainOf F G + t ^ 2 • ((1 / 2 : ℝ) • (G.transpose * G)) := by
  simp only [greenStrain, strainOf, Matrix.transpose_add, Matrix.transpose_smul, Matrix.add_mul, Matrix.mul_add, Matrix.smul_mul, Matrix.mul_smul]
  ext i j
  simp only [Matrix.smul_apply, Matrix.add_apply, Matrix.sub_apply, smul_eq_mul]
  ring

omit [DecidableEq ι] in
theorem strainOf_add (F G V : Matrix ι ι ℝ) (t : ℝ) : strainOf (F + t • G) V = strainOf F V + t • strainOf G V := by
  simp only [strainOf, Matrix.transpose_add, Matrix.transpose_smul, Matrix.add_mul, Matrix.mul_add, Matrix.smul_mul, Matrix.mul_smul]
  ext i j
  simp only [Matrix.smul_apply, Matrix.add_apply, smul_eq_mul]
  ring

omit [DecidableEq ι] in
/-- A symmetric stress works on the whole product as on its symmetric part. -/
theorem contract_strainOf {s : Matrix ι ι ℝ} (hs : s.transpose = s) (F V : Matrix ι ι ℝ) : contract s (strainOf F V) = contract (F * s) V := by
  have e1 : contract s (V.transpose * F) = contract s (F.transpose * V) := by
    have : V.transpose * F = (F.transpose * V).transpose := by rw [Matrix.transpose_mul, Matrix.transpose_transpose]
    rw [this]
    unfold contract
    rw [Finset.sum_comm]
    refine Finset.sum_congr rfl fun i _ => Finset.sum_congr rfl fun j _ => ?_
    rw [Matrix.transpose_apply, show s j i = s i j from congrFun (congrFun hs i) j]
  have e2 : contract s (F.transpose * V) = contract (F * s) V := by
    simp only [contract, Matrix.mul_apply, Matrix.transpose_apply, Finset.mul_sum, Finset.sum_mul]
    rw [Finset.sum_comm' (t' := Finset.univ) (s' := fun _ => Finset.univ) (by simp)]
    rw [Finset.sum_congr rfl fun j _ => Finset.sum_comm]
    rw [Finset.sum_comm]
    refine Finset.sum_congr rfl fun k _ => Finset.sum_congr rfl fun j _ => Finset.sum_congr rfl fun i _ => by ring
  rw [strainOf, contract_smul_right, contract_add_right, e1, e2]
  ring

end

theorem gradAt_add (u V : Nat → ℝ) (t : ℝ) (p : List ℝ) :
    gradAt c gps coords (fun i => u i + t * V i) p = gradAt c gps coords u p + t • gradAt c gps coords V p := by
  ext j i
  simp only [gradAt, displacementGradient, Matrix.add_apply, Matrix.smul_apply, smul_eq_mul, Finset.mul_sum, ← Finset.sum_add_distrib]
  exact Finset.sum_congr rfl fun n _ => by ring

theorem deformationAt_add (u V : Nat → ℝ) (t : ℝ) (p : List ℝ) :
    deformationAt c gps coords (fun i => u i + t * V i) p = deformationAt c gps coords u p + t • gradAt c gps coords V p := by
  rw [deformationAt, gradAt_add, deformationAt, add_assoc]

theorem poly_deriv (a0 a1 a2 a3 a4 : ℝ) {f : ℝ → ℝ} (h : ∀ t, f t = a0 + a1 * t + a2 * t ^ 2 + a3 * t ^ 3 + a4 * t ^ 4) : HasDerivAt f a1 0 := by
  have e : f = fun t => a0 + a1 * t + a2 * t ^ 2 + a3 * t ^ 3 + a4 * t ^ 4 := funext h
  rw [e]
  have h1 := ((((hasDerivAt_const (0 : ℝ) a0).add ((hasDerivAt_id (0 : ℝ)).const_mul a1)).add ((hasDerivAt_pow 2 (0 : ℝ)).const_mul a2)).add
    ((hasDerivAt_pow 3 (0 : ℝ)).const_mul a3)).add ((hasDerivAt_pow 4 (0 : ℝ)).const_mul a4)
  refine h1.congr_deriv ?_
  norm_num

theorem sum_deriv {ι : Type} (l : List ι) (f : ι → ℝ → ℝ) (f' : ι → ℝ) (h : ∀ i ∈ l, HasDerivAt (f i) (f' i) 0) :
    HasDerivAt (fun t => (l.map fun i => f i t).sum) (l.map f').sum 0 := by
  induction l with
  | nil => simpa using hasDerivAt_const (0 : ℝ) (0 : ℝ)
  | cons a l ih =>
    simp only [List.map_cons, List.sum_cons]
    exact (h a (by simp)).add (ih fun i hi => h i (by simp [hi]))

theorem energy_deriv (pts : List (List ℝ × ℝ)) (u V : Nat → ℝ) :
    HasDerivAt (fun t => strainEnergy c gps m thickness coords pts fun i => u i + t * V i) (innerWork c gps m thickness coords pts u V) 0 := by
  unfold strainEnergy innerWork
  refine sum_deriv pts _ _ fun p _ => HasDerivAt.const_mul _ ?_
  generalize hF : deformationAt c gps coords u p.1 = F
  generalize hG : gradAt c gps coords V p.1 = G
  obtain ⟨E, hE⟩ : ∃ E, greenStrain F = E := ⟨_, rfl⟩
  obtain ⟨D, hD⟩ : ∃ D, strainOf F G = D := ⟨_, rfl⟩
  obtain ⟨Q, hQ⟩ : ∃ Q, (1 / 2 : ℝ) • (G.transpose * G) = Q := ⟨_, rfl⟩
  have sym := law_symm m (edim c) p.1 (ι := Fin (edim c))
  rw [hE, hD]
  refine poly_deriv (1 / 2 * contract (m.law (edim c) p.1 E) E) _ (contract (m.law (edim c) p.1 E) Q + 1 / 2 * contract (m.law (edim c) p.1 D) D)
    (contract (m.law (edim c) p.1 D) Q) (1 / 2 * contract (m.law (edim c) p.1 Q) Q) fun t => ?_
  rw [deformationAt_add, hF, hG, greenStrain_add, hE, hD, hQ]
  simp only [law_add, law_smul, contract_add_left, contract_add_right, contract_smul_left, contract_smul_right]
  rw [sym D E, sym Q E, sym Q D]
  ring

theorem work_deriv (pts : List (List ℝ × ℝ)) (u U V : Nat → ℝ) :
    HasDerivAt (fun t => innerWork c gps m thickness coords pts (fun i => u i + t * U i) V) (tangentForm c gps m thickness coords pts u U V) 0 := by
  unfold tangentForm innerWork
  refine sum_deriv pts _ _ fun p _ => HasDerivAt.const_mul _ ?_
  generalize hF : deformationAt c gps coords u p.1 = F
  generalize hG : gradAt c gps coords U p.1 = G
  generalize hH : gradAt c gps coords V p.1 = H
  rw [← contract_strainOf (law_transpose m (edim c) p.1 (greenStrain_transpose F))]
  obtain ⟨E, hE⟩ : ∃ E, greenStrain F = E := ⟨_, rfl⟩
  obtain ⟨D, hD⟩ : ∃ D, strainOf F G = D := ⟨_, rfl⟩
  obtain ⟨B, hB⟩ : ∃ B, strainOf F H = B := ⟨_, rfl⟩
  obtain ⟨W, hW⟩ : ∃ W, strainOf G H = W := ⟨_, rfl⟩
  obtain ⟨Q, hQ⟩ : ∃ Q, (1 / 2 : ℝ) • (G.transpose * G) = Q := ⟨_, rfl⟩
  rw [hE, hD, hB, hW]
  refine poly_deriv (contract (m.law (edim c) p.1 E) B) _ (contract (m.law (edim c) p.1 Q) B + contract (m.law (edim c) p.1 D) W)
    (contract (m.law (edim c) p.1 Q) W) 0 fun t => ?_
  rw [deformationAt_add, hF, hG, greenStrain_add, strainOf_add, hE, hD, hB, hW, hQ]
  simp only [law_add, law_smul, contract_add_left, contract_add_right, contract_smul_left, contract_smul_right]
  ring

section
variable {u : Nat → ℝ} {y : List ℝ × List ℝ}

/-- The inner forces are the derivative of the energy, and the matrix is the derivative of the inner forces, in every direction: the Newton method of the
solver gets the exact tangent in every state. -/
theorem C82_tangent (hd : edim c = 2 ∨ edim c = 3) (hb : edim c = 2 → m.behaviour ≠ .axisymmetric)
    (h : elementElasticityLarge Real.sqrt c gps m thickness (fun n j => u (j * nodes c + n)) coords = some y) :
    ∃ pts, rulePoints Real.sqrt c gps = some pts ∧
      (∀ V, HasDerivAt (fun t => strainEnergy c gps m thickness coords pts fun i => u i + t * V i) (workOf (edim c * nodes c) y.2 V) 0) ∧
      ∀ U V, ∃ f : ℝ → List ℝ × List ℝ, (∀ t, elementElasticityLarge Real.sqrt c gps m thickness (fun n j => u (j * nodes c + n) + t * U (j * nodes c + n)) coords = some (f t)) ∧
        HasDerivAt (fun t => workOf (edim c * nodes c) (f t).2 V) (formOf (edim c * nodes c) y.1 U V) 0 := by
  obtain ⟨pts, hp, -, -, h1, h2⟩ := C82_form hd hb h
  refine ⟨pts, hp, fun V => by rw [h2]; exact energy_deriv pts u V, fun U V => ?_⟩
  have hdef := (C82_defined hd hb hp thickness u coords).1 ⟨y, h⟩
  have hex := fun t : ℝ => (C82_defined (m := m) hd hb hp thickness (fun i => u i + t * U i) coords).2 hdef
  choose f hf using hex
  refine ⟨f, hf, ?_⟩
  rw [h1]
  have e : (fun t => workOf (edim c * nodes c) (f t).2 V) = fun t => innerWork c gps m thickness coords pts (fun i => u i + t * U i) V := by
    funext t
    obtain ⟨pts', hp', -, -, -, h4⟩ := C82_form (u := fun i => u i + t * U i) hd hb (hf t)
    rw [hp] at hp'
    obtain rfl := Option.some.inj hp'
    exact h4 V
  rw [e]
  exact work_deriv pts u U V

/-- The tangent matrix is symmetric. -/
theorem C82_symmetric (hd : edim c = 2 ∨ edim c = 3) (hb : edim c = 2 → m.behaviour ≠ .axisymmetric)
    (h : elementElasticityLarge Real.sqrt c gps m thickness (fun n j => u (j * nodes c + n)) coords = some y) (a b : Nat) (ha : a < edim c * nodes c)
    (hb' : b < edim c * nodes c) : entry y.1 (a * (edim c * nodes c) + b) = entry y.1 (b * (edim c * nodes c) + a) := by
  obtain ⟨pts, -, -, -, hf, -⟩ := C82_form hd hb h
  rw [← formOf_unit y.1 ha hb', ← formOf_unit y.1 hb' ha, hf, hf, tangentForm, tangentForm]
  refine congrArg List.sum (List.map_congr_left fun p _ => ?_)
  rw [law_symm]
  congr 2
  have s := law_transpose m (edim c) p.1 (greenStrain_transpose (deformationAt c gps coords u p.1))
  rw [← contract_strainOf s, ← contract_strainOf s, strainOf, strainOf, add_comm]

theorem large_regular (hd : edim c = 2 ∨ edim c = 3) (hb : edim c = 2 → m.behaviour ≠ .axisymmetric)
    (h : elementElasticityLarge Real.sqrt c gps m thickness (fun n j => u (j * nodes c + n)) coords = some y) (hp : rulePoints Real.sqrt c gps = some pts) :
    ∀ p ∈ pts, (∃ tab, setAt c gps p.1 = some tab ∧ integrate (edim c) (nodes c) (slopeOf tab) coords = some (geometryAt c gps coords p.1)) ∧
      (geometryAt c gps coords p.1).det = detAt c gps coords p.1 := by
  intro p hpp
  obtain ⟨h1, h2⟩ := (C82_defined hd hb hp thickness u coords).1 ⟨y, h⟩ p hpp
  obtain ⟨tab, ht⟩ := point_table hp hpp
  exact ⟨⟨tab, ht, (point_geometry hd ht h1).1⟩, (point_geometry hd ht h1).2⟩

/-- A turned and moved element, of any size of the turn, has no inner forces. -/
theorem C82_rotation (hd : edim c = 2 ∨ edim c = 3) (hb : edim c = 2 → m.behaviour ≠ .axisymmetric)
    (h : elementElasticityLarge Real.sqrt c gps m thickness (fun n j => u (j * nodes c + n)) coords = some y)
    (a : Nat → ℝ) (R : Matrix (Fin (edim c)) (Fin (edim c)) ℝ) (hR : R.transpose * R = 1)
    (hu : ∀ j : Fin (edim c), ∀ n < nodes c, coords n j + u (j * nodes c + n) = a j + ∑ i, R j i * coords n i) (i : Nat) (hi : i < edim c * nodes c) : entry y.2 i = 0 := by
  obtain ⟨pts, hp, -, -, -, h2⟩ := C82_form hd hb h
  rw [← workOf_unit y.2 hi, h2, innerWork, List.map_congr_left (g := fun _ => (0 : ℝ)), List.map_const', List.sum_replicate, smul_zero]
  intro p hpp
  obtain ⟨⟨tab, ht, hg⟩, -⟩ := large_regular hd hb h hp p hpp
  have e := gradAt_linear (rule_length hp p hpp) ht hg a (R - 1) u fun j n hn => by
    have := hu j n hn
    simp only [Matrix.sub_apply, sub_mul, Finset.sum_sub_distrib, Matrix.one_apply, ite_mul, one_mul, zero_mul, Finset.sum_ite_eq, Finset.mem_univ, if_true]
    linarith
  have e2 : greenStrain (deformationAt c gps coords u p.1) = 0 := by
    rw [deformationAt, e, add_sub_cancel, greenStrain, hR, sub_self, smul_zero]
  rw [e2]
  simp [Elastic.law, hooke, contract]

/-- The energy does not see rotations: turning the deformed element by `R` leaves its energy. -/
theorem C82_objective (hd : edim c = 2 ∨ edim c = 3) (hp : rulePoints Real.sqrt c gps = some pts) (hJ : ∀ p ∈ pts, detAt c gps coords p.1 ≠ 0)
    (u' : Nat → ℝ) (a : Nat → ℝ) (R : Matrix (Fin (edim c)) (Fin (edim c)) ℝ) (hR : R.transpose * R = 1)
    (hu : ∀ j : Fin (edim c), ∀ n < nodes c, coords n j + u' (j * nodes c + n) = a j + ∑ i : Fin (edim c), R j i * (coords n i + u (i * nodes c + n))) :
    strainEnergy c gps m thickness coords pts u' = strainEnergy c gps m thickness coords pts u := by
  unfold strainEnergy
  refine congrArg List.sum (List.map_congr_left fun p hpp => ?_)
  have key : deformationAt c gps coords u' p.1 = R * deformationAt c gps coords u p.1 := by
    obtain ⟨tab, ht⟩ := point_table hp hpp
    have hg := (point_geometry hd ht (hJ p hpp)).1
    have e := gradAt_linear (rule_length hp p hpp) ht hg a (R - 1) (fun i => a (i / nodes c) + ∑ k : Fin (edim c), (if i / nodes c < edim c then (if h : i / nodes c < edim c then (R - 1) ⟨i / nodes c, h⟩ k else 0) else 0) * coords (i % nodes c) k)
      fun j n hn => by
        have d1 : (j * nodes c + n) / nodes c = j := by rw [mul_comm, Nat.mul_add_div (by omega), Nat.div_eq_of_lt hn, add_zero]
        have d2 : (j * nodes c + n) % nodes c = n := by rw [mul_comm, Nat.mul_add_mod, Nat.mod_eq_of_lt hn]
        simp only [d1, d2, j.isLt, if_true, dif_pos]
    have e2 : gradAt c gps coords u' p.1 = (R - 1) + R * gradAt c gps coords u p.1 := by
      rw [← e]
      ext j i
      rw [Matrix.add_apply, Matrix.mul_apply]
      simp only [gradAt, displacementGradient, Finset.mul_sum]
      rw [Finset.sum_comm, ← Finset.sum_add_distrib]
      refine Finset.sum_congr rfl fun n hn => ?_
      have hn := Finset.mem_range.1 hn
      have d1 : (j * nodes c + n) / nodes c = j := by rw [mul_comm, Nat.mul_add_div (by omega), Nat.div_eq_of_lt hn, add_zero]
      have d2 : (j * nodes c + n) % nodes c = n := by rw [mul_comm, Nat.mul_add_mod, Nat.mod_eq_of_lt hn]
      simp only [d1, d2, j.isLt, if_true, dif_pos]
      have := hu j n hn
      have e3 : u' (j * nodes c + n) = a j + ∑ k : Fin (edim c), (R - 1) j k * coords n k + ∑ k : Fin (edim c), R j k * u (k * nodes c + n) := by
        simp only [Matrix.sub_apply, sub_mul, Finset.sum_sub_distrib, Matrix.one_apply, ite_mul, one_mul, zero_mul, Finset.sum_ite_eq, Finset.mem_univ, if_true]
        simp only [mul_add, Finset.sum_add_distrib] at this
        linarith
      rw [e3, add_mul _ (∑ k : Fin (edim c), R j k * u (k * nodes c + n)), Finset.sum_mul]
      simp only [mul_assoc]
    rw [deformationAt, e2, deformationAt, Matrix.mul_add, Matrix.mul_one, ← add_assoc, add_sub_cancel]
  have e4 : greenStrain (deformationAt c gps coords u' p.1) = greenStrain (deformationAt c gps coords u p.1) := by
    rw [key, greenStrain, greenStrain, Matrix.transpose_mul, Matrix.mul_assoc, ← Matrix.mul_assoc R.transpose, hR, Matrix.one_mul]
  rw [e4]

/-- The inner forces are in equilibrium: their sum in every direction is zero. -/
theorem C82_balance (hd : edim c = 2 ∨ edim c = 3) (hb : edim c = 2 → m.behaviour ≠ .axisymmetric)
    (h : elementElasticityLarge Real.sqrt c gps m thickness (fun n j => u (j * nodes c + n)) coords = some y) (V : Nat → ℝ) (a : Nat → ℝ)
    (w : Matrix (Fin (edim c)) (Fin (edim c)) ℝ) (hw : w.transpose = -w)
    (hV : ∀ j : Fin (edim c), ∀ n < nodes c, V (j * nodes c + n) = a j + ∑ i : Fin (edim c), w j i * (coords n i + u (i * nodes c + n))) :
    workOf (edim c * nodes c) y.2 V = 0 := by
  obtain ⟨pts, hp, -, -, -, h2⟩ := C82_form hd hb h
  rw [h2, innerWork, List.map_congr_left (g := fun _ => (0 : ℝ)), List.map_const', List.sum_replicate, smul_zero]
  intro p hpp
  obtain ⟨⟨tab, ht, hg⟩, -⟩ := large_regular hd hb h hp p hpp
  have key : gradAt c gps coords V p.1 = w * deformationAt c gps coords u p.1 := by
    have e := gradAt_linear (rule_length hp p hpp) ht hg a w (fun i => a (i / nodes c) + ∑ k : Fin (edim c), (if i / nodes c < edim c then (if h : i / nodes c < edim c then w ⟨i / nodes c, h⟩ k else 0) else 0) * coords (i % nodes c) k)
      fun j n hn => by
        have d1 : (j * nodes c + n) / nodes c = j := by rw [mul_comm, Nat.mul_add_div (by omega), Nat.div_eq_of_lt hn, add_zero]
        have d2 : (j * nodes c + n) % nodes c = n := by rw [mul_comm, Nat.mul_add_mod, Nat.mod_eq_of_lt hn]
        simp only [d1, d2, j.isLt, if_true, dif_pos]
    rw [deformationAt, Matrix.mul_add, Matrix.mul_one]
    conv_rhs => rw [← e]
    ext j i
    rw [Matrix.add_apply, e, Matrix.mul_apply]
    rw [show w j i = gradAt c gps coords _ p.1 j i from (congrFun (congrFun e j) i).symm]
    simp only [gradAt, displacementGradient, Finset.mul_sum]
    rw [Finset.sum_comm, ← Finset.sum_add_distrib]
    refine Finset.sum_congr rfl fun n hn => ?_
    have hn := Finset.mem_range.1 hn
    have d1 : (j * nodes c + n) / nodes c = j := by rw [mul_comm, Nat.mul_add_div (by omega), Nat.div_eq_of_lt hn, add_zero]
    have d2 : (j * nodes c + n) % nodes c = n := by rw [mul_comm, Nat.mul_add_mod, Nat.mod_eq_of_lt hn]
    simp only [d1, d2, j.isLt, if_true, dif_pos]
    rw [hV j n hn]
    simp only [mul_add, Finset.sum_add_distrib]
    rw [add_mul, add_mul, add_mul, Finset.sum_mul _ _ (_ : ℝ), Finset.sum_mul _ (fun k : Fin (edim c) => w j k * u (k * nodes c + n))]
    simp only [mul_assoc]
    ring
  have e4 : strainOf (deformationAt c gps coords u p.1) (gradAt c gps coords V p.1) = 0 := by
    rw [key, strainOf, Matrix.transpose_mul, hw, Matrix.mul_neg, Matrix.neg_mul, ← Matrix.mul_assoc, Matrix.mul_assoc _ w, add_neg_cancel, smul_zero]
  rw [e4]
  simp [contract]

end

end Verif.Fem
