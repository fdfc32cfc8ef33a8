import Verif.Prop.Elasticity
import Mathlib.Tactic.Linarith
/-!
C81: the properties of the element matrix of the linear elasticity over the real numbers.
-/
namespace Verif.Fem

variable {c : Code} {gps : Nat} {m : Elastic ℝ} {pi : ℝ} {u coords : Nat → Nat → ℝ} {A : List ℝ} {pts : List (List ℝ × ℝ)}

theorem regular_iff (hd : edim c = 2 ∨ edim c = 3) (hp : rulePoints Real.sqrt c gps = some pts) {p : List ℝ × ℝ} (h : p ∈ pts) :
    Regular c gps coords p.1 ↔ detAt c gps coords p.1 ≠ 0 := by
  obtain ⟨tab, ht⟩ := point_table hp h
  constructor
  · rintro ⟨t, g, e1, e2⟩
    rw [ht] at e1
    obtain rfl := Option.some.inj e1
    rw [detAt_eq hd ht, detOf_eq hd, ← (integrate_spec e2).det_eq]
    exact (integrate_spec e2).det_ne
  · intro h
    exact ⟨tab, _, ht, (point_geometry hd ht h).1⟩

/-- The kernel divides by zero exactly if the geometry is singular in a point of the rule or a denominator of the law vanishes. -/
theorem C81_defined (hd : edim c = 2 ∨ edim c = 3) (hb : edim c = 2 → m.behaviour ≠ .axisymmetric) (hp : rulePoints Real.sqrt c gps = some pts) (pi : ℝ)
    (u coords : Nat → Nat → ℝ) :
    (∃ A, elementElasticity Real.sqrt pi c gps m u coords = some A) ↔ ∀ p ∈ pts, detAt c gps coords p.1 ≠ 0 ∧ m.defined (edim c) p.1 := by
  unfold elementElasticity
  rw [hp]
  simp only [Option.bind_eq_bind, Option.bind_some]
  rw [← Option.isSome_iff_exists, (elasticLoop hd hb pi u coords pts _ (by simp)).1]
  refine forall₂_congr fun p hpp => ?_
  rw [regular_iff hd hp hpp]

theorem elasticity_regular (hd : edim c = 2 ∨ edim c = 3) (hb : edim c = 2 → m.behaviour ≠ .axisymmetric)
    (h : elementElasticity Real.sqrt pi c gps m u coords = some A) (hp : rulePoints Real.sqrt c gps = some pts) :
    ∀ p ∈ pts, (∃ tab, setAt c gps p.1 = some tab ∧ integrate (edim c) (nodes c) (slopeOf tab) coords = some (geometryAt c gps coords p.1)) ∧
      (geometryAt c gps coords p.1).det = detAt c gps coords p.1 ∧ detAt c gps coords p.1 ≠ 0 ∧ m.defined (edim c) p.1 := by
  intro p hpp
  obtain ⟨h1, h2⟩ := (C81_defined hd hb hp pi u coords).1 ⟨A, h⟩ p hpp
  obtain ⟨tab, ht⟩ := point_table hp hpp
  exact ⟨⟨tab, ht, (point_geometry hd ht h1).1⟩, (point_geometry hd ht h1).2, h1, h2⟩

/-- Linear displacements have their exact gradient in every regular point. -/
theorem gradAt_linear {tab : List (ℝ × List ℝ)} {p : List ℝ} (hl : p.length = edim c) (ht : setAt c gps p = some tab)
    (hg : integrate (edim c) (nodes c) (slopeOf tab) coords = some (geometryAt c gps coords p)) (a : Nat → ℝ) (b : Matrix (Fin (edim c)) (Fin (edim c)) ℝ)
    (U : Nat → ℝ) (hU : ∀ j : Fin (edim c), ∀ n < nodes c, U (j * nodes c + n) = a j + ∑ i, b j i * coords n i) : gradAt c gps coords U p = b := by
  ext j i
  exact C76_linear c gps coords p tab hl ht _ hg (a j) (b j) (fun n => U (j * nodes c + n)) (fun n hn => hU j n hn) i

theorem contract_comm {ι : Type} [Fintype ι] (a b : Matrix ι ι ℝ) : contract a b = contract b a := by
  unfold contract
  exact Finset.sum_congr rfl fun i _ => Finset.sum_congr rfl fun j _ => mul_comm _ _

theorem contract_hooke {ι : Type} [Fintype ι] [DecidableEq ι] (lambda mu : ℝ) (a b : Matrix ι ι ℝ) :
    contract (hooke lambda mu a) b = lambda * a.trace * b.trace + 2 * mu * contract a b := by
  simp only [contract, hooke, Matrix.add_apply, Matrix.smul_apply, smul_eq_mul, Matrix.one_apply, add_mul, Finset.sum_add_distrib]
  congr 1
  · simp [Matrix.trace, Finset.mul_sum]
  · simp only [Finset.mul_sum]
    exact Finset.sum_congr rfl fun i _ => Finset.sum_congr rfl fun j _ => by ring

theorem hooke_symm {ι : Type} [Fintype ι] [DecidableEq ι] (lambda mu : ℝ) (a b : Matrix ι ι ℝ) :
    contract (hooke lambda mu a) b = contract (hooke lambda mu b) a := by
  rw [contract_hooke, contract_hooke, contract_comm a b]
  ring

theorem law_symm (m : Elastic ℝ) (d : Nat) {ι : Type} [Fintype ι] [DecidableEq ι] (p : List ℝ) (a b : Matrix ι ι ℝ) :
    contract (m.law d p a) b = contract (m.law d p b) a := hooke_symm _ _ _ _

/-- The matrix is symmetric. -/
theorem C81_symmetric (hd : edim c = 2 ∨ edim c = 3) (hb : edim c = 2 → m.behaviour ≠ .axisymmetric)
    (h : elementElasticity Real.sqrt pi c gps m u coords = some A) (a b : Nat) (ha : a < edim c * nodes c) (hb' : b < edim c * nodes c) :
    entry A (a * (edim c * nodes c) + b) = entry A (b * (edim c * nodes c) + a) := by
  obtain ⟨pts, -, -, hf⟩ := C81_form hd hb h
  rw [← formOf_unit A ha hb', ← formOf_unit A hb' ha, hf, hf, elasticForm, elasticForm]
  refine congrArg List.sum (List.map_congr_left fun p _ => ?_)
  rw [law_symm]

/-- The law stores energy: the moduli of a stable material. -/
def Elastic.stable (m : Elastic ℝ) (d : Nat) (p : List ℝ) : Prop :=
  0 < m.young p ∧ -1 < m.poisson p ∧
    if d = 2 ∧ (m.behaviour = .planeStress ∨ m.behaviour = .planeStressThickness) then m.poisson p < 1 else m.poisson p < 1 / 2

theorem contract_nonneg {ι : Type} [Fintype ι] (a : Matrix ι ι ℝ) : 0 ≤ contract a a :=
  Finset.sum_nonneg fun i _ => Finset.sum_nonneg fun j _ => mul_self_nonneg _

theorem contract_zero {ι : Type} [Fintype ι] {a : Matrix ι ι ℝ} (h : contract a a = 0) : a = 0 := by
  ext i j
  have h1 := (Finset.sum_eq_zero_iff_of_nonneg fun i _ => Finset.sum_nonneg fun j _ => mul_self_nonneg (a i j)).1 h i (Finset.mem_univ i)
  have h2 := (Finset.sum_eq_zero_iff_of_nonneg fun j _ => mul_self_nonneg (a i j)).1 h1 j (Finset.mem_univ j)
  exact mul_self_eq_zero.1 h2

theorem trace_sq {d : Nat} (hd : d = 2 ∨ d = 3) (a : Matrix (Fin d) (Fin d) ℝ) : a.trace ^ 2 ≤ d * contract a a := by
  rcases hd with rfl | rfl
  · simp only [Matrix.trace, Matrix.diag, contract, Fin.sum_univ_two]
    push_cast
    nlinarith [sq_nonneg (a 0 0 - a 1 1), mul_self_nonneg (a 0 1), mul_self_nonneg (a 1 0)]
  · simp only [Matrix.trace, Matrix.diag, contract, Fin.sum_univ_three]
    push_cast
    nlinarith [sq_nonneg (a 0 0 - a 1 1), sq_nonneg (a 0 0 - a 2 2), sq_nonneg (a 1 1 - a 2 2), mul_self_nonneg (a 0 1), mul_self_nonneg (a 1 0),
      mul_self_nonneg (a 0 2), mul_self_nonneg (a 2 0), mul_self_nonneg (a 1 2), mul_self_nonneg (a 2 1)]

theorem stable_moduli {d : Nat} (hd : d = 2 ∨ d = 3) {p : List ℝ} (h : m.stable d p) :
    0 < lameMu (m.young p) (m.poisson p) ∧ 0 < d * lameLambda d m.behaviour (m.young p) (m.poisson p) + 2 * lameMu (m.young p) (m.poisson p) := by
  obtain ⟨h1, h2, h3⟩ := h
  have g1 : 0 < 1 + m.poisson p := by linarith
  refine ⟨by unfold lameMu; positivity, ?_⟩
  unfold lameLambda lameMu
  split at h3
  · rename_i hc
    rw [if_pos hc]
    have g2 : 0 < 1 - m.poisson p := by linarith
    obtain rfl := hc.1
    have : ((2 : ℕ) : ℝ) * (m.young p * m.poisson p / ((1 + m.poisson p) * (1 - m.poisson p))) + 2 * (m.young p / (2 * (1 + m.poisson p))) =
        m.young p / (1 - m.poisson p) := by
      push_cast
      field_simp
      ring
    rw [this]
    positivity
  · rename_i hc
    rw [if_neg hc]
    obtain ⟨e, he⟩ : ∃ e, 1 - 2 * m.poisson p = e := ⟨_, rfl⟩
    have g2 : 0 < e := by linarith
    rw [he]
    rcases hd with rfl | rfl
    · have : ((2 : ℕ) : ℝ) * (m.young p * m.poisson p / ((1 + m.poisson p) * e)) + 2 * (m.young p / (2 * (1 + m.poisson p))) =
          m.young p / ((1 + m.poisson p) * e) := by
        push_cast
        field_simp
        rw [← he]
        ring
      rw [this]
      positivity
    · have : ((3 : ℕ) : ℝ) * (m.young p * m.poisson p / ((1 + m.poisson p) * e)) + 2 * (m.young p / (2 * (1 + m.poisson p))) =
          m.young p / e := by
        push_cast
        field_simp
        rw [← he]
        ring
      rw [this]
      positivity

theorem law_nonneg {d : Nat} (hd : d = 2 ∨ d = 3) {p : List ℝ} (h : m.stable d p) (e : Matrix (Fin d) (Fin d) ℝ) :
    0 ≤ contract (m.law d p e) e ∧ (contract (m.law d p e) e = 0 → e = 0) := by
  obtain ⟨h1, h2⟩ := stable_moduli hd h
  rw [Elastic.law, contract_hooke]
  have t := trace_sq hd e
  have n := contract_nonneg e
  have hd0 : (0 : ℝ) < d := by rcases hd with rfl | rfl <;> norm_num
  obtain ⟨la, hla⟩ : ∃ la, la = lameLambda d m.behaviour (m.young p) (m.poisson p) := ⟨_, rfl⟩
  obtain ⟨mu, hmu⟩ : ∃ mu, mu = lameMu (m.young p) (m.poisson p) := ⟨_, rfl⟩
  rw [← hla, ← hmu] at h2 ⊢
  rw [← hmu] at h1
  have key : (d : ℝ) * (la * e.trace * e.trace + 2 * mu * contract e e) =
      (d * la + 2 * mu) * e.trace ^ 2 + 2 * mu * (d * contract e e - e.trace ^ 2) := by ring
  have k1 : 0 ≤ (d * la + 2 * mu) * e.trace ^ 2 := mul_nonneg h2.le (sq_nonneg _)
  have k2 : 0 ≤ 2 * mu * (d * contract e e - e.trace ^ 2) := mul_nonneg (by linarith) (by linarith)
  constructor
  · have : 0 ≤ (d : ℝ) * (la * e.trace * e.trace + 2 * mu * contract e e) := by rw [key]; linarith
    exact nonneg_of_mul_nonneg_right this hd0
  · intro hz
    rw [hz, mul_zero] at key
    have z1 : (d * la + 2 * mu) * e.trace ^ 2 = 0 := by linarith
    have z2 : 2 * mu * (d * contract e e - e.trace ^ 2) = 0 := by linarith
    have t0 : e.trace ^ 2 = 0 := (mul_eq_zero.1 z1).resolve_left h2.ne'
    have t1 : d * contract e e - e.trace ^ 2 = 0 := (mul_eq_zero.1 z2).resolve_left (mul_pos two_pos h1).ne'
    rw [t0, sub_zero] at t1
    exact contract_zero ((mul_eq_zero.1 t1).resolve_left hd0.ne')

theorem elastic_nonneg (hd : edim c = 2 ∨ edim c = 3) (hb : edim c = 2 → m.behaviour ≠ .axisymmetric)
    (h : elementElasticity Real.sqrt pi c gps m u coords = some A) (hp : rulePoints Real.sqrt c gps = some pts)
    (hm : ∀ p ∈ pts, m.stable (edim c) p.1) (hJ : ∀ p ∈ pts, 0 < detAt c gps coords p.1) (U : Nat → ℝ) :
    ∀ p ∈ pts, 0 ≤ (geometryAt c gps coords p.1).det * p.2 * contract (m.law (edim c) p.1 (strainAt c gps coords U p.1)) (strainAt c gps coords U p.1) := by
  intro p hpp
  obtain ⟨-, hdet, -, -⟩ := elasticity_regular hd hb h hp p hpp
  rw [hdet]
  exact mul_nonneg (mul_nonneg (hJ p hpp).le (rule_positive hp p hpp).le) (law_nonneg hd (hm p hpp) _).1

/-- No displacement gives energy back: for a stable material and an element that is not turned over, the matrix is positive semidefinite. -/
theorem C81_energy_nonneg (hd : edim c = 2 ∨ edim c = 3) (hb : edim c = 2 → m.behaviour ≠ .axisymmetric)
    (h : elementElasticity Real.sqrt pi c gps m u coords = some A) (hp : rulePoints Real.sqrt c gps = some pts)
    (hm : ∀ p ∈ pts, m.stable (edim c) p.1) (hJ : ∀ p ∈ pts, 0 < detAt c gps coords p.1) (U : Nat → ℝ) : 0 ≤ formOf (edim c * nodes c) A U U := by
  obtain ⟨pts', hp', -, hf⟩ := C81_form hd hb h
  rw [hp] at hp'
  obtain rfl := Option.some.inj hp'
  rw [hf, elasticForm]
  refine List.sum_nonneg fun x hx => ?_
  obtain ⟨p, hpp, rfl⟩ := List.mem_map.1 hx
  exact elastic_nonneg hd hb h hp hm hJ U p hpp

/-- The energy vanishes exactly for the displacements without strain in the points of the rule. -/
theorem C81_kernel (hd : edim c = 2 ∨ edim c = 3) (hb : edim c = 2 → m.behaviour ≠ .axisymmetric)
    (h : elementElasticity Real.sqrt pi c gps m u coords = some A) (hp : rulePoints Real.sqrt c gps = some pts)
    (hm : ∀ p ∈ pts, m.stable (edim c) p.1) (hJ : ∀ p ∈ pts, 0 < detAt c gps coords p.1) (U : Nat → ℝ) :
    formOf (edim c * nodes c) A U U = 0 ↔ ∀ p ∈ pts, strainAt c gps coords U p.1 = 0 := by
  obtain ⟨pts', hp', -, hf⟩ := C81_form hd hb h
  rw [hp] at hp'
  obtain rfl := Option.some.inj hp'
  rw [hf, elasticForm]
  have hnn := elastic_nonneg hd hb h hp hm hJ U
  constructor
  · intro hz p hpp
    have hle := List.single_le_sum (l := pts.map fun p => (geometryAt c gps coords p.1).det * p.2 *
      contract (m.law (edim c) p.1 (strainAt c gps coords U p.1)) (strainAt c gps coords U p.1))
      (fun x hx => by obtain ⟨q, hq, rfl⟩ := List.mem_map.1 hx; exact hnn q hq) _ (List.mem_map.2 ⟨p, hpp, rfl⟩)
    rw [hz] at hle
    have z := le_antisymm hle (hnn p hpp)
    obtain ⟨-, hdet, -, -⟩ := elasticity_regular hd hb h hp p hpp
    rw [hdet] at z
    refine (law_nonneg hd (hm p hpp) _).2 ((mul_eq_zero.1 z).resolve_left (mul_pos (hJ p hpp) (rule_positive hp p hpp)).ne')
  · intro hz
    rw [List.map_congr_left (g := fun _ => (0 : ℝ)) fun p hpp => by rw [hz p hpp]; simp [contract]]
    simp

/-- A rigid motion of small rotation: a translation and an antisymmetric gradient. -/
def Rigid (d N : Nat) (coords : Nat → Nat → ℝ) (U : Nat → ℝ) : Prop :=
  ∃ (a : Nat → ℝ) (w : Matrix (Fin d) (Fin d) ℝ), w.transpose = -w ∧ ∀ j : Fin d, ∀ n < N, U (j * N + n) = a j + ∑ i, w j i * coords n i

theorem strain_rigid (hd : edim c = 2 ∨ edim c = 3) (hb : edim c = 2 → m.behaviour ≠ .axisymmetric)
    (h : elementElasticity Real.sqrt pi c gps m u coords = some A) (hp : rulePoints Real.sqrt c gps = some pts)
    {U : Nat → ℝ} (hU : Rigid (edim c) (nodes c) coords U) : ∀ p ∈ pts, strainAt c gps coords U p.1 = 0 := by
  obtain ⟨a, w, hw, hU⟩ := hU
  intro p hpp
  obtain ⟨⟨tab, ht, hg⟩, -, -, -⟩ := elasticity_regular hd hb h hp p hpp
  rw [strainAt, gradAt_linear (rule_length hp p hpp) ht hg a w U hU, strainOf, Matrix.transpose_one, one_mul, mul_one, hw, add_neg_cancel, smul_zero]

/-- Rigid motions need no forces: they are in the kernel of the matrix of every element, whatever its shape and material. -/
theorem C81_rigid (hd : edim c = 2 ∨ edim c = 3) (hb : edim c = 2 → m.behaviour ≠ .axisymmetric)
    (h : elementElasticity Real.sqrt pi c gps m u coords = some A) {U : Nat → ℝ} (hU : Rigid (edim c) (nodes c) coords U) (a : Nat) (ha : a < edim c * nodes c) :
    ∑ b ∈ Finset.range (edim c * nodes c), entry A (a * (edim c * nodes c) + b) * U b = 0 := by
  obtain ⟨pts, hp, -, hf⟩ := C81_form hd hb h
  have e : formOf (edim c * nodes c) A (fun i => if i = a then 1 else 0) U = ∑ b ∈ Finset.range (edim c * nodes c), entry A (a * (edim c * nodes c) + b) * U b := by
    unfold formOf
    rw [Finset.sum_eq_single a]
    · simp
    · intro i _ hi; simp [hi]
    · intro h; exact absurd (Finset.mem_range.2 ha) h
  rw [← e, hf, elasticForm, List.map_congr_left (g := fun _ => (0 : ℝ)) fun p hpp => by
    rw [strain_rigid hd hb h hp hU p hpp]; simp [contract]]
  simp

/-- The patch test: a linear displacement has one stress in the whole element, and the forces in the nodes are its tractions. -/
theorem C81_patch (hd : edim c = 2 ∨ edim c = 3) (hb : edim c = 2 → m.behaviour ≠ .axisymmetric)
    (h : elementElasticity Real.sqrt pi c gps m u coords = some A) (a : Nat → ℝ) (b : Matrix (Fin (edim c)) (Fin (edim c)) ℝ)
    (U : Nat → ℝ) (hU : ∀ j : Fin (edim c), ∀ n < nodes c, U (j * nodes c + n) = a j + ∑ i, b j i * coords n i) (V : Nat → ℝ) :
    ∃ pts, rulePoints Real.sqrt c gps = some pts ∧ formOf (edim c * nodes c) A U V =
      ruleSum pts fun p => detAt c gps coords p * contract (m.law (edim c) p ((1 / 2 : ℝ) • (b + b.transpose))) (gradAt c gps coords V p) := by
  obtain ⟨pts, hp, -, hf⟩ := C81_form hd hb h
  refine ⟨pts, hp, ?_⟩
  rw [hf, elasticForm, ruleSum]
  congr 1
  refine List.map_congr_left fun p hpp => ?_
  obtain ⟨⟨tab, ht, hg⟩, hdet, -, -⟩ := elasticity_regular hd hb h hp p hpp
  have e1 : strainAt c gps coords U p.1 = (1 / 2 : ℝ) • (b + b.transpose) := by
    rw [strainAt, gradAt_linear (rule_length hp p hpp) ht hg a b U hU, strainOf, Matrix.transpose_one, one_mul, mul_one]
  have sym : ∀ (s : Matrix (Fin (edim c)) (Fin (edim c)) ℝ), s.transpose = s → ∀ G, contract s (strainOf 1 G) = contract s G := by
    intro s hs G
    have e2 : contract s (strainOf 1 G) = 1 / 2 * (contract s G + contract s G.transpose) := by
      simp only [contract, strainOf, Matrix.transpose_one, one_mul, mul_one, Matrix.smul_apply, Matrix.add_apply, smul_eq_mul, ← Finset.sum_add_distrib, Finset.mul_sum]
      exact Finset.sum_congr rfl fun i _ => Finset.sum_congr rfl fun j _ => by ring
    have e3 : contract s G.transpose = contract s G := by
      unfold contract
      rw [Finset.sum_comm]
      refine Finset.sum_congr rfl fun i _ => Finset.sum_congr rfl fun j _ => ?_
      rw [Matrix.transpose_apply, show s j i = s i j from congrFun (congrFun hs i) j]
    rw [e2, e3]
    ring
  rw [e1, hdet, strainAt, sym]
  · ring
  · rw [Elastic.law, hooke, Matrix.transpose_add, Matrix.transpose_smul, Matrix.transpose_smul, Matrix.transpose_one, Matrix.transpose_smul, Matrix.transpose_add,
      Matrix.transpose_transpose, add_comm b.transpose]

/-- The energy of a linear displacement of a homogeneous element is its volume times the density of the energy. -/
theorem C81_energy (hd : edim c = 2 ∨ edim c = 3) (hb : edim c = 2 → m.behaviour ≠ .axisymmetric)
    (h : elementElasticity Real.sqrt pi c gps m u coords = some A) {v : ℝ} (hv : elementVolume Real.sqrt c gps coords = some v)
    {E nu : ℝ} (hE : ∀ p, m.young p = E) (hnu : ∀ p, m.poisson p = nu)
    (a : Nat → ℝ) (b : Matrix (Fin (edim c)) (Fin (edim c)) ℝ)
    (U : Nat → ℝ) (hU : ∀ j : Fin (edim c), ∀ n < nodes c, U (j * nodes c + n) = a j + ∑ i, b j i * coords n i) :
    formOf (edim c * nodes c) A U U =
      v * contract (hooke (lameLambda (edim c) m.behaviour E nu) (lameMu E nu) ((1 / 2 : ℝ) • (b + b.transpose))) ((1 / 2 : ℝ) • (b + b.transpose)) := by
  obtain ⟨pts, hp, -, hf⟩ := C81_form hd hb h
  obtain ⟨pts', hp', rfl⟩ := elementVolume_eq hd hv
  rw [hp] at hp'
  obtain rfl := Option.some.inj hp'
  rw [hf, elasticForm, ruleSum, mul_comm, mul_list_sum]
  congr 1
  refine List.map_congr_left fun p hpp => ?_
  obtain ⟨⟨tab, ht, hg⟩, hdet, -, -⟩ := elasticity_regular hd hb h hp p hpp
  have e1 : strainAt c gps coords U p.1 = (1 / 2 : ℝ) • (b + b.transpose) := by
    rw [strainAt, gradAt_linear (rule_length hp p hpp) ht hg a b U hU, strainOf, Matrix.transpose_one, one_mul, mul_one]
  rw [e1, hdet, Elastic.law, hE, hnu]
  ring

end Verif.Fem
