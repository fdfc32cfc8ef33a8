import Verif.Prop.ElasticEnergy
/-!
C84: the tangent of the rest state against the matrix of small displacements, and the thickness the latter leaves out.
-/
namespace Verif.Fem

variable {c : Code} {gps : Nat} {m : Elastic ℝ} {pi : ℝ} {coords u₀ : Nat → Nat → ℝ} {A : List ℝ} {y : List ℝ × List ℝ}

/-- In the rest state and with the constant thickness `t` the tangent is `t` times the matrix of small displacements (in space, the same matrix). -/
theorem C84_scaled (hd : edim c = 2 ∨ edim c = 3) (hb : edim c = 2 → m.behaviour ≠ .axisymmetric) (t : ℝ)
    (h : elementElasticityLarge Real.sqrt c gps m (fun _ => t) (fun _ _ => 0) coords = some y)
    (h' : elementElasticity Real.sqrt pi c gps m u₀ coords = some A) (U V : Nat → ℝ) :
    formOf (edim c * nodes c) y.1 U V = (if edim c = 2 then t else 1) * formOf (edim c * nodes c) A U V := by
  obtain ⟨pts, hp, -, -, h1, -⟩ := C82_form (u := fun _ => 0) hd hb h
  obtain ⟨pts', hp', -, h2⟩ := C81_form hd hb h'
  rw [hp] at hp'
  obtain rfl := Option.some.inj hp'
  rw [h1, h2, tangentForm, elasticForm, mul_list_sum]
  refine congrArg List.sum (List.map_congr_left fun p hpp => ?_)
  obtain ⟨tab, ht⟩ := point_table hp hpp
  have hu := (C75_basis c gps).unity p.1 tab (rule_length hp p hpp) ht
  have e : thickAt c gps (fun _ => t) p.1 = if edim c = 2 then t else 1 := by
    simp only [thickAt, tabAt, ht, Option.getD_some]
    rw [← Finset.sum_mul, hu, one_mul]
  have g0 : gradAt c gps coords (fun _ => 0) p.1 = 0 := by
    ext j i
    simp [gradAt, displacementGradient]
  have f0 : deformationAt c gps coords (fun _ => 0) p.1 = 1 := by rw [deformationAt, g0, add_zero]
  have e0 : greenStrain (1 : Matrix (Fin (edim c)) (Fin (edim c)) ℝ) = 0 := by simp [greenStrain]
  have l0 : m.law (edim c) p.1 (0 : Matrix (Fin (edim c)) (Fin (edim c)) ℝ) = 0 := by simp [Elastic.law, hooke]
  have c0 : ∀ X : Matrix (Fin (edim c)) (Fin (edim c)) ℝ, contract 0 X = 0 := fun X => by simp [contract]
  rw [e, f0, e0, l0, Matrix.mul_zero, c0, add_zero, strainAt, strainAt]
  ring

/-- In space, and for plates of unit thickness, the matrix of small displacements is the tangent of the rest state. False for other plates
(`C84_thickness_missing`). -/
theorem C84_same_partial (hd : edim c = 2 ∨ edim c = 3) (hb : edim c = 2 → m.behaviour ≠ .axisymmetric) (t : ℝ) (ht : edim c = 2 → t = 1)
    (h : elementElasticityLarge Real.sqrt c gps m (fun _ => t) (fun _ _ => 0) coords = some y)
    (h' : elementElasticity Real.sqrt pi c gps m u₀ coords = some A) : y.1 = A := by
  obtain ⟨-, -, l1, -, -, -⟩ := C82_form (u := fun _ => 0) hd hb h
  obtain ⟨-, -, l2, -⟩ := C81_form hd hb h'
  refine List.ext_getElem (l1.trans l2.symm) fun i h1 h2 => ?_
  have hM : 0 < edim c * nodes c := by
    rw [l1] at h1
    exact Nat.pos_of_ne_zero fun h0 => by rw [h0] at h1; simp at h1
  have hi : i < edim c * nodes c * (edim c * nodes c) := l1 ▸ h1
  have e := C84_scaled hd hb t h h' (fun k => if k = i / (edim c * nodes c) then 1 else 0) (fun k => if k = i % (edim c * nodes c) then 1 else 0)
  have a1 : i / (edim c * nodes c) < edim c * nodes c := Nat.div_lt_of_lt_mul hi
  have a2 : i % (edim c * nodes c) < edim c * nodes c := Nat.mod_lt _ hM
  rw [formOf_unit _ a1 a2, formOf_unit _ a1 a2, Nat.div_add_mod'] at e
  have e2 : (if edim c = 2 then t else 1) = 1 := by
    split
    · exact ht ‹_›
    · rfl
  rw [e2, one_mul] at e
  simpa [entry, h1, h2] using e

/-- A stretch of the unit square. -/
def stretch : Nat → ℝ := fun i => if i = 1 ∨ i = 2 then 1 else 0

theorem stretch_not_rigid : ¬ Rigid 2 4 square stretch := by
  rintro ⟨a, w, hw, h⟩
  have w0 : w 0 0 = 0 := by
    have : w 0 0 = - w 0 0 := congrFun (congrFun hw 0) 0
    linarith
  have h0 := h 0 0 (by norm_num)
  have h1 := h 0 1 (by norm_num)
  rw [Fin.sum_univ_two, w0] at h0 h1
  simp [stretch, square] at h0 h1
  linarith

/-- Defect: the matrix of small displacements leaves the thickness out. A plate of thickness two, "plane stress with thickness", has half the stiffness with small
displacements (`op.matrix.elasticity.h:78`) as with large ones (`op.matrix.elasticity.h:58`), although both describe the same plate at rest. -/
theorem C84_thickness_missing : ∃ (A : List ℝ) (y : List ℝ × List ℝ) (U : Nat → ℝ),
    elementElasticity Real.sqrt Real.pi .square4 4 (steel .planeStressThickness) (fun _ _ => 0) square = some A ∧
    elementElasticityLarge Real.sqrt .square4 4 (steel .planeStressThickness) (fun _ => 2) (fun _ _ => 0) square = some y ∧
    formOf 8 y.1 U U = 2 * formOf 8 A U U ∧ formOf 8 y.1 U U ≠ formOf 8 A U U := by
  obtain ⟨pts, hp⟩ : ∃ pts, rulePoints Real.sqrt .square4 4 = some pts := ⟨_, rfl⟩
  have hdet : ∀ p ∈ pts, detAt .square4 4 square p.1 = 1 / 4 := fun p hpp => square_det p.1 (rule_length hp p hpp)
  have hdef : ∀ p ∈ pts, detAt .square4 4 square p.1 ≠ 0 ∧ (steel .planeStressThickness).defined (edim .square4) p.1 := fun p hpp =>
    ⟨by rw [hdet p hpp]; norm_num, steel_defined _ _ _⟩
  have hb : edim .square4 = 2 → (steel .planeStressThickness).behaviour ≠ .axisymmetric := fun _ => by simp [steel]
  obtain ⟨A, hA⟩ := (C81_defined (c := .square4) (.inl rfl) hb hp Real.pi (fun _ _ => 0) square).2 hdef
  obtain ⟨y, hy⟩ := (C82_defined (c := .square4) (.inl rfl) hb hp (fun _ => 2) (fun _ => 0) square).2 hdef
  have hne : formOf 8 A stretch stretch ≠ 0 := fun h0 => stretch_not_rigid
    ((C81_rigid_only_partial (c := .square4) (.inr (.inr rfl)) hb (C79_points (.square4, 4) (by simp)).1 hA hp (fun p _ => steel_stable _ _ _)
      (fun p hpp => by rw [hdet p hpp]; norm_num) stretch).1 h0)
  have e := C84_scaled (c := .square4) (.inl rfl) hb 2 hy hA stretch stretch
  have e : formOf 8 y.1 stretch stretch = 2 * formOf 8 A stretch stretch := e
  refine ⟨A, y, stretch, hA, hy, e, ?_⟩
  rw [e]
  intro h
  exact hne (by linarith)

/-- A turned and stretched state meets the hypotheses of C82. -/
example (u : Nat → ℝ) (b : Behaviour) (hb : b ≠ .axisymmetric) :
    ∃ y, elementElasticityLarge Real.sqrt .square4 4 (steel b) (fun _ => 2) (fun n j => u (j * 4 + n)) square = some y := by
  obtain ⟨pts, hp⟩ : ∃ pts, rulePoints Real.sqrt .square4 4 = some pts := ⟨_, rfl⟩
  have hdet : ∀ p ∈ pts, detAt .square4 4 square p.1 = 1 / 4 := fun p hpp => square_det p.1 (rule_length hp p hpp)
  exact (C82_defined (c := .square4) (.inl rfl) (fun _ => hb) hp (fun _ => 2) u square).2 fun p hpp => ⟨by rw [hdet p hpp]; norm_num, steel_defined _ _ _⟩

/-- A quarter turn of the unit square: a displacement as in `C82_rotation`. -/
example : ∃ (R : Matrix (Fin 2) (Fin 2) ℝ) (u : Nat → ℝ), R.transpose * R = 1 ∧ u 1 = -1 ∧ u 5 = 1 ∧
    ∀ j : Fin 2, ∀ n < 4, square n j + u (j * 4 + n) = 0 + ∑ i, R j i * square n i := by
  refine ⟨!![0, -1; 1, 0], fun i => match i with | 1 => -1 | 2 => -2 | 3 => -1 | 5 => 1 | 7 => -1 | _ => 0, ?_, by norm_num, by norm_num, ?_⟩
  · ext i j
    fin_cases i <;> fin_cases j <;> simp [Matrix.mul_apply, Fin.sum_univ_two]
  · intro j n hn
    interval_cases n <;> fin_cases j <;> simp [square, Fin.sum_univ_two] <;> norm_num

end Verif.Fem
