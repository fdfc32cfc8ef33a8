import Verif.Prop.Conductivity
/-!
C79: the properties of the element matrix of the heat conduction over the real numbers.
-/
namespace Verif.Fem

theorem point_table {c : Code} {gps : Nat} {pts : List (List ℝ × ℝ)} (hp : rulePoints Real.sqrt c gps = some pts) {p : List ℝ × ℝ} (h : p ∈ pts) :
    ∃ tab, setAt c gps p.1 = some tab := by
  obtain ⟨tab, ht, -⟩ := (C75_basis c gps).defined p.1 (rule_length hp p h)
  exact ⟨tab, ht⟩

theorem point_geometry {c : Code} {gps : Nat} {p : List ℝ} {tab : List (ℝ × List ℝ)} {coords : Nat → Nat → ℝ} (hd : edim c = 2 ∨ edim c = 3)
    (ht : setAt c gps p = some tab) (h : detAt c gps coords p ≠ 0) :
    integrate (edim c) (nodes c) (slopeOf tab) coords = some (geometryAt c gps coords p) ∧ (geometryAt c gps coords p).det = detAt c gps coords p := by
  cases hg : integrate (edim c) (nodes c) (slopeOf tab) coords with
  | none =>
    rw [integrate_none hd] at hg
    exact absurd (by rw [detAt_eq hd ht, detOf_eq hd]; exact hg) h
  | some g =>
    have : geometryAt c gps coords p = g := by simp [geometryAt, tabAt, ht, hg]
    rw [this]
    refine ⟨rfl, ?_⟩
    rw [(integrate_spec hg).det_eq, detAt_eq hd ht, detOf_eq hd]

/-- The kernel stops (with a division by zero) exactly if the geometry is singular in a point of the rule. -/
theorem C79_defined {c : Code} {gps : Nat} (hd : edim c = 2 ∨ edim c = 3) {pts : List (List ℝ × ℝ)} (hp : rulePoints Real.sqrt c gps = some pts)
    (m : Material ℝ) (thickness old : Nat → ℝ) (coords : Nat → Nat → ℝ) :
    (∃ A, elementConductivity Real.sqrt c gps m thickness old coords = some A) ↔ ∀ p ∈ pts, detAt c gps coords p.1 ≠ 0 := by
  unfold elementConductivity
  obtain ⟨h1, -⟩ := conductionLoop (gps := gps) hd m thickness coords pts (List.replicate (nodes c * nodes c) 0) old (by simp)
  rw [hp]
  simp only [Option.bind_eq_bind, Option.bind_some, Option.pure_def] at h1 ⊢
  have e : ∀ o : Option (List ℝ × (Nat → ℝ)), (∃ A, (o.bind fun r => some r.1) = some A) ↔ o.isSome := by
    intro o; cases o <;> simp
  rw [e, h1]
  refine forall₂_congr fun p hpp => ?_
  obtain ⟨tab, ht⟩ := point_table hp hpp
  constructor
  · rintro ⟨t, g, e1, e2⟩
    rw [ht] at e1
    obtain rfl := Option.some.inj e1
    rw [detAt_eq hd ht, detOf_eq hd, ← (integrate_spec e2).det_eq]
    exact (integrate_spec e2).det_ne
  · intro h
    exact ⟨tab, _, ht, (point_geometry hd ht h).1⟩

theorem elementConductivity_regular {c : Code} {gps : Nat} (hd : edim c = 2 ∨ edim c = 3) {m : Material ℝ} {thickness old : Nat → ℝ}
    {coords : Nat → Nat → ℝ} {A : List ℝ} (h : elementConductivity Real.sqrt c gps m thickness old coords = some A)
    {pts : List (List ℝ × ℝ)} (hp : rulePoints Real.sqrt c gps = some pts) :
    ∀ p ∈ pts, ∃ tab, setAt c gps p.1 = some tab ∧
      integrate (edim c) (nodes c) (slopeOf tab) coords = some (geometryAt c gps coords p.1) ∧ (geometryAt c gps coords p.1).det = detAt c gps coords p.1 ∧
      detAt c gps coords p.1 ≠ 0 := by
  intro p hpp
  have h1 := (C79_defined hd hp m thickness old coords).1 ⟨A, h⟩ p hpp
  obtain ⟨tab, ht⟩ := point_table hp hpp
  exact ⟨tab, ht, (point_geometry hd ht h1).1, (point_geometry hd ht h1).2, h1⟩

theorem gradientAt_linear {c : Code} {gps : Nat} (hd : edim c = 2 ∨ edim c = 3) {m : Material ℝ} {thickness old : Nat → ℝ}
    {coords : Nat → Nat → ℝ} {A : List ℝ} (h : elementConductivity Real.sqrt c gps m thickness old coords = some A)
    {pts : List (List ℝ × ℝ)} (hp : rulePoints Real.sqrt c gps = some pts) (a : ℝ) (b : Fin (edim c) → ℝ) (u : Nat → ℝ)
    (hu : ∀ n < nodes c, u n = a + ∑ i, b i * coords n i) : ∀ p ∈ pts, gradientAt c gps coords u p.1 = b := by
  intro p hpp
  obtain ⟨tab, ht, hg, -, -⟩ := elementConductivity_regular hd h hp p hpp
  funext i
  exact C76_linear c gps coords p.1 tab (rule_length hp p hpp) ht _ hg a b u hu i

/-- Constant temperatures conduct no heat: the sums of the rows are zero. -/
theorem C79_constants {c : Code} {gps : Nat} (hd : edim c = 2 ∨ edim c = 3) {m : Material ℝ} {thickness old : Nat → ℝ}
    {coords : Nat → Nat → ℝ} {A : List ℝ} (h : elementConductivity Real.sqrt c gps m thickness old coords = some A) (a : Nat) (ha : a < nodes c) :
    ∑ b ∈ Finset.range (nodes c), entry A (a * nodes c + b) = 0 := by
  obtain ⟨pts, hp, hf⟩ := C79_form hd h
  have := hf (fun n => if n = a then 1 else 0) fun _ => 1
  simp only [mul_one, ite_mul, one_mul, zero_mul] at this
  have e : ∀ n ∈ Finset.range (nodes c), (∑ b ∈ Finset.range (nodes c), if n = a then entry A (n * nodes c + b) else 0) =
      if n = a then ∑ b ∈ Finset.range (nodes c), entry A (n * nodes c + b) else 0 := by
    intro n _; split <;> simp
  rw [Finset.sum_congr rfl e, Finset.sum_ite_eq' (Finset.range (nodes c)) a, if_pos (Finset.mem_range.2 ha)] at this
  rw [this, conductionForm]
  have z : ∀ p ∈ pts, thickAt c gps thickness p.1 * (geometryAt c gps coords p.1).det * p.2 *
    ∑ i, ∑ j, gradientAt c gps coords (fun n => if n = a then 1 else 0) p.1 i * m.tensor (edim c) p.1 i j * gradientAt c gps coords (fun _ => 1) p.1 j = 0 := by
    intro p hpp
    rw [gradientAt_linear hd h hp 1 (fun _ => 0) (fun _ => 1) (by simp) p hpp]
    simp
  rw [List.map_congr_left z]
  simp

/-- No heat is created in an element: the sums of the columns are zero. -/
theorem C79_columns {c : Code} {gps : Nat} (hd : edim c = 2 ∨ edim c = 3) {m : Material ℝ} {thickness old : Nat → ℝ}
    {coords : Nat → Nat → ℝ} {A : List ℝ} (h : elementConductivity Real.sqrt c gps m thickness old coords = some A) (T : Nat → ℝ) :
    ∑ a ∈ Finset.range (nodes c), ∑ b ∈ Finset.range (nodes c), entry A (a * nodes c + b) * T b = 0 := by
  obtain ⟨pts, hp, hf⟩ := C79_form hd h
  have := hf (fun _ => 1) T
  simp only [one_mul] at this
  rw [this, conductionForm]
  have z : ∀ p ∈ pts, thickAt c gps thickness p.1 * (geometryAt c gps coords p.1).det * p.2 *
    ∑ i, ∑ j, gradientAt c gps coords (fun _ => 1) p.1 i * m.tensor (edim c) p.1 i j * gradientAt c gps coords T p.1 j = 0 := by
    intro p hpp
    rw [gradientAt_linear hd h hp 1 (fun _ => 0) (fun _ => 1) (by simp) p hpp]
    simp
  rw [List.map_congr_left z]
  simp

theorem tensorOf_symmetric {d : Nat} {model : Conduct} (hm : model ≠ .anisotropic) (c : Nat → ℝ) : (tensorOf d model c).transpose = tensorOf d model c := by
  ext i j
  rw [Matrix.transpose_apply]
  cases model
  · by_cases h : i = j
    · rw [h]
    · simp [tensorOf, h, Ne.symm h]
  · by_cases h : i = j
    · rw [h]
    · simp [tensorOf, h, Ne.symm h]
  · simp only [tensorOf, min_comm, max_comm]
  · exact absurd rfl hm

theorem tensor_symmetric {d : Nat} {m : Material ℝ} (hm : m.model ≠ .anisotropic) (p : List ℝ) : (m.tensor d p).transpose = m.tensor d p := by
  unfold Material.tensor
  split
  · split
    · rw [Matrix.transpose_mul, Matrix.transpose_mul, Matrix.transpose_transpose, tensorOf_symmetric hm, Matrix.mul_assoc]
    · rw [Matrix.transpose_mul, Matrix.transpose_mul, Matrix.transpose_transpose, tensorOf_symmetric hm, Matrix.mul_assoc]
    · exact tensorOf_symmetric hm _
  · exact tensorOf_symmetric hm _

/-- The matrix is symmetric unless the material is anisotropic. -/
theorem C79_symmetric {c : Code} {gps : Nat} (hd : edim c = 2 ∨ edim c = 3) {m : Material ℝ} (hm : m.model ≠ .anisotropic) {thickness old : Nat → ℝ}
    {coords : Nat → Nat → ℝ} {A : List ℝ} (h : elementConductivity Real.sqrt c gps m thickness old coords = some A)
    (a b : Nat) (ha : a < nodes c) (hb : b < nodes c) : entry A (a * nodes c + b) = entry A (b * nodes c + a) := by
  obtain ⟨pts, hp, -, -, h⟩ := elementConductivity_eq hd h
  rw [h a ha b hb, h b hb a ha]
  congr 1
  refine List.map_congr_left fun p _ => ?_
  congr 1
  rw [Finset.sum_comm]
  refine Finset.sum_congr rfl fun i _ => Finset.sum_congr rfl fun j _ => ?_
  have : m.tensor (edim c) p.1 i j = m.tensor (edim c) p.1 j i := by
    conv_lhs => rw [← tensor_symmetric hm p.1]
    rfl
  rw [this]
  ring

/-- The weights of all rules are positive. -/
theorem gauss_positive {order : Nat} {rule : List (ℝ × ℝ)} (h : gauss Real.sqrt order = some rule) : ∀ r ∈ rule, 0 < r.2 := by
  have h30 : Real.sqrt 30 < 18 := by rw [Real.sqrt_lt' (by norm_num)]; norm_num
  have h70 : Real.sqrt 70 < 9 := by rw [Real.sqrt_lt' (by norm_num)]; norm_num
  have g30 := Real.sqrt_nonneg 30
  have g70 := Real.sqrt_nonneg 70
  unfold gauss at h
  split at h <;> first
    | (obtain rfl := Option.some.inj h
       simp only [List.mem_cons, List.not_mem_nil, or_false, forall_eq_or_imp, forall_eq]
       norm_num
       try (refine ⟨?_, ?_, ?_⟩ <;> linarith))
    | simp at h

theorem rule_positive {c : Code} {gps : Nat} {pts : List (List ℝ × ℝ)} (h : rulePoints Real.sqrt c gps = some pts) : ∀ p ∈ pts, 0 < p.2 := by
  unfold rulePoints at h
  split at h
  · obtain rfl := Option.some.inj h; simp [ruleTriangle3]
  · obtain rfl := Option.some.inj h; simp [ruleTriangle6]
  · obtain rfl := Option.some.inj h; simp [ruleTetra4]
  · obtain rfl := Option.some.inj h; simp [ruleTetra10]
  · obtain rfl := Option.some.inj h; simp [rulePyramid13]
  · obtain rfl := Option.some.inj h; simp [rulePrisma6]
  · obtain rfl := Option.some.inj h; simp [rulePrisma15]
  · simp only [Option.bind_eq_bind, Option.bind_eq_some_iff, Option.pure_def, Option.some.injEq] at h
    obtain ⟨order, ho, rule, hr, rfl⟩ := h
    have hd : edim c = 1 ∨ edim c = 2 ∨ edim c = 3 := by cases c <;> decide
    have hpos := gauss_positive hr
    intro p hp
    rcases hd with hd | hd | hd <;> rw [hd] at hp <;> simp only [tensor, List.mem_map, List.mem_flatMap] at hp
    · obtain ⟨r, hr, rfl⟩ := hp; exact hpos r hr
    · obtain ⟨r, hr, s, hs, rfl⟩ := hp; exact mul_pos (hpos r hr) (hpos s hs)
    · obtain ⟨r, hr, s, hs, t, ht, rfl⟩ := hp; exact mul_pos (mul_pos (hpos r hr) (hpos s hs)) (hpos t ht)

/-- Heat flows from warm to cold: with a conducting material (its tensor is not negative), a thickness that is not negative and an element that
is not turned over, the matrix is positive semidefinite. -/
theorem C79_dissipation {c : Code} {gps : Nat} (hd : edim c = 2 ∨ edim c = 3) {m : Material ℝ} {thickness old : Nat → ℝ}
    {coords : Nat → Nat → ℝ} {A : List ℝ} (h : elementConductivity Real.sqrt c gps m thickness old coords = some A)
    {pts : List (List ℝ × ℝ)} (hp : rulePoints Real.sqrt c gps = some pts)
    (hC : ∀ p ∈ pts, ∀ v : Fin (edim c) → ℝ, 0 ≤ ∑ i, ∑ j, v i * m.tensor (edim c) p.1 i j * v j)
    (ht : ∀ p ∈ pts, 0 ≤ thickAt c gps thickness p.1) (hJ : ∀ p ∈ pts, 0 < detAt c gps coords p.1) (T : Nat → ℝ) :
    0 ≤ ∑ a ∈ Finset.range (nodes c), ∑ b ∈ Finset.range (nodes c), T a * entry A (a * nodes c + b) * T b := by
  obtain ⟨pts', hp', hf⟩ := C79_form hd h
  rw [hp] at hp'
  obtain rfl := Option.some.inj hp'
  rw [hf, conductionForm]
  refine List.sum_nonneg fun x hx => ?_
  obtain ⟨p, hpp, rfl⟩ := List.mem_map.1 hx
  obtain ⟨tab, -, -, hdet, -⟩ := elementConductivity_regular hd h hp p hpp
  rw [hdet]
  exact mul_nonneg (mul_nonneg (mul_nonneg (ht p hpp) (hJ p hpp).le) (rule_positive hp p hpp).le) (hC p hpp _)

/-- The energy of a linear temperature in a homogeneous element of unit thickness is its volume times the density of the energy. -/
theorem C79_energy {c : Code} {gps : Nat} (hd : edim c = 2 ∨ edim c = 3) {m : Material ℝ} {thickness old : Nat → ℝ}
    {coords : Nat → Nat → ℝ} {A : List ℝ} (h : elementConductivity Real.sqrt c gps m thickness old coords = some A)
    {v : ℝ} (hv : elementVolume Real.sqrt c gps coords = some v) (C : Matrix (Fin (edim c)) (Fin (edim c)) ℝ)
    (hC : ∀ p, m.tensor (edim c) p = C) (ht : ∀ n, thickness n = 1)
    (a a' : ℝ) (b b' : Fin (edim c) → ℝ) (S T : Nat → ℝ) (hS : ∀ n < nodes c, S n = a + ∑ i, b i * coords n i)
    (hT : ∀ n < nodes c, T n = a' + ∑ i, b' i * coords n i) :
    ∑ k ∈ Finset.range (nodes c), ∑ l ∈ Finset.range (nodes c), S k * entry A (k * nodes c + l) * T l = v * ∑ i, ∑ j, b i * C i j * b' j := by
  obtain ⟨pts, hp, hf⟩ := C79_form hd h
  obtain ⟨pts', hp', rfl⟩ := elementVolume_eq hd hv
  rw [hp] at hp'
  obtain rfl := Option.some.inj hp'
  rw [hf, conductionForm, ruleSum, mul_comm, mul_list_sum]
  congr 1
  refine List.map_congr_left fun p hpp => ?_
  obtain ⟨tab, htab, -, hdet, -⟩ := elementConductivity_regular hd h hp p hpp
  rw [gradientAt_linear hd h hp a b S hS p hpp, gradientAt_linear hd h hp a' b' T hT p hpp, hC, hdet]
  have e : thickAt c gps thickness p.1 = 1 := by
    unfold thickAt
    split
    · have hu := (C75_basis c gps).unity p.1 tab (rule_length hp p hpp) htab
      simp only [tabAt, htab, Option.getD_some, ht, mul_one]
      exact hu
    · rfl
  rw [e]
  ring

/-- The flux of a linear temperature: node `a` receives `∫ t ∇N_a · C b`, the flux `C b` of the homogeneous field through the element
(the patch test). -/
theorem C79_patch {c : Code} {gps : Nat} (hd : edim c = 2 ∨ edim c = 3) {m : Material ℝ} {thickness old : Nat → ℝ}
    {coords : Nat → Nat → ℝ} {A : List ℝ} (h : elementConductivity Real.sqrt c gps m thickness old coords = some A)
    (a : ℝ) (b : Fin (edim c) → ℝ) (T : Nat → ℝ) (hT : ∀ n < nodes c, T n = a + ∑ i, b i * coords n i) (S : Nat → ℝ) :
    ∃ pts, rulePoints Real.sqrt c gps = some pts ∧ ∑ k ∈ Finset.range (nodes c), ∑ l ∈ Finset.range (nodes c), S k * entry A (k * nodes c + l) * T l =
      ruleSum pts fun p => detAt c gps coords p * (thickAt c gps thickness p * ∑ i, gradientAt c gps coords S p i * ∑ j, m.tensor (edim c) p i j * b j) := by
  obtain ⟨pts, hp, hf⟩ := C79_form hd h
  refine ⟨pts, hp, ?_⟩
  rw [hf, conductionForm, ruleSum]
  congr 1
  refine List.map_congr_left fun p hpp => ?_
  obtain ⟨tab, htab, -, hdet, -⟩ := elementConductivity_regular hd h hp p hpp
  rw [gradientAt_linear hd h hp a b T hT p hpp, hdet]
  simp only [Finset.mul_sum]
  refine Finset.sum_congr rfl fun i _ => Finset.sum_congr rfl fun j _ => ?_
  ring

end Verif.Fem
