import Verif.Prop.BodyLoads
import Verif.Proof.MassKernel
import Mathlib.LinearAlgebra.FiniteDimensional.Basic
import Mathlib.LinearAlgebra.Dimension.Constructions
/-!
C86: the mass matrices of elements.
-/
namespace Verif.Fem

section
variable {K : Type} [Field K] [DecidableEq K]

theorem massPoint_spec {c : Code} {gps : Nat} (dim : Nat) (rho : List K → K) (coords : Nat → Nat → K) (p : List K × K) (M : List K)
    (hM : M.length = dim * nodes c * (dim * nodes c)) :
    ((massPoint dim c gps rho coords M p).isSome ↔ Regular c gps coords p.1) ∧
    ∀ B, massPoint dim c gps rho coords M p = some B → B.length = dim * nodes c * (dim * nodes c) ∧
      ∀ U V, formOf (dim * nodes c) B U V = formOf (dim * nodes c) M U V + (geometryAt c gps coords p.1).det * p.2 * rho p.1 *
        ∑ d ∈ Finset.range dim, fieldAt c gps U p.1 d * fieldAt c gps V p.1 d := by
  unfold massPoint Regular
  cases ht : setAt c gps p.1 with
  | none => simp
  | some tab =>
    cases hg : integrate (edim c) (nodes c) (slopeOf tab) coords with
    | none => simp [hg]
    | some g =>
      have e1 : tabAt c gps p.1 = tab := by simp [tabAt, ht]
      have e2 : geometryAt c gps coords p.1 = g := by simp [geometryAt, e1, hg]
      obtain ⟨B, b1, b2, b3⟩ := massAdds_form dim (nodes c) g.det p.2 (rho p.1) (valueOf tab) hM
      simp only [Option.bind_eq_bind, Option.bind_some, hg, b1]
      refine ⟨by simp [hg], fun C hC => ?_⟩
      obtain rfl := Option.some.inj hC
      exact ⟨b2, fun U V => by rw [b3, e2]; simp only [fieldAt, e1]⟩

/-- The mass matrix is the quadrature of `∫ ρ U · V` over the element. -/
theorem C86_form {sqrt : K → K} {dim : Nat} {c : Code} {gps : Nat} {rho : List K → K} {coords : Nat → Nat → K} {M : List K}
    (h : elementMass sqrt dim c gps rho coords = some M) :
    ∃ pts, rulePoints sqrt c gps = some pts ∧ M.length = dim * nodes c * (dim * nodes c) ∧
      ∀ U V, formOf (dim * nodes c) M U V = massForm dim c gps rho coords pts U V := by
  unfold elementMass at h
  simp only [Option.bind_eq_bind, Option.bind_eq_some_iff] at h
  obtain ⟨pts, hp, hB⟩ := h
  obtain ⟨-, h2⟩ := formLoop (dim * nodes c) (massPoint dim c gps rho coords) _ _ pts (fun p _ A hA => massPoint_spec dim rho coords p A hA) _ List.length_replicate
  obtain ⟨h3, h4⟩ := h2 M hB
  exact ⟨pts, hp, h3, fun U V => by rw [h4, formOf_zero, zero_add, massForm]⟩

end

variable {dim : Nat} {c : Code} {gps : Nat} {rho : List ℝ → ℝ} {coords : Nat → Nat → ℝ} {M : List ℝ} {pts : List (List ℝ × ℝ)}

/-- The kernel divides by zero exactly if the geometry is singular in a point of the rule. -/
theorem C86_defined (hd : edim c = 2 ∨ edim c = 3) (hp : rulePoints Real.sqrt c gps = some pts) (dim : Nat) (rho : List ℝ → ℝ) (coords : Nat → Nat → ℝ) :
    (∃ M, elementMass Real.sqrt dim c gps rho coords = some M) ↔ ∀ p ∈ pts, detAt c gps coords p.1 ≠ 0 := by
  unfold elementMass
  rw [hp]
  simp only [Option.bind_eq_bind, Option.bind_some]
  rw [← Option.isSome_iff_exists, (formLoop (dim * nodes c) (massPoint dim c gps rho coords) _ _ pts
    (fun p _ A hA => massPoint_spec dim rho coords p A hA) _ (by simp)).1]
  exact forall₂_congr fun p hpp => regular_iff hd hp hpp

/-- The mass matrix is symmetric. -/
theorem C86_symmetric (h : elementMass Real.sqrt dim c gps rho coords = some M) {a b : Nat} (ha : a < dim * nodes c) (hb : b < dim * nodes c) :
    entry M (a * (dim * nodes c) + b) = entry M (b * (dim * nodes c) + a) := by
  obtain ⟨pts, -, -, hf⟩ := C86_form h
  rw [← formOf_unit M ha hb, ← formOf_unit M hb ha, hf, hf, massForm, massForm]
  refine congrArg List.sum (List.map_congr_left fun p _ => ?_)
  congr 1
  exact Finset.sum_congr rfl fun d _ => mul_comm _ _

theorem mass_det (hd : edim c = 2 ∨ edim c = 3) (h : elementMass Real.sqrt dim c gps rho coords = some M) (hp : rulePoints Real.sqrt c gps = some pts) :
    ∀ p ∈ pts, (geometryAt c gps coords p.1).det = detAt c gps coords p.1 := by
  intro p hpp
  obtain ⟨tab, ht⟩ := point_table hp hpp
  exact (point_geometry hd ht ((C86_defined hd hp dim rho coords).1 ⟨M, h⟩ p hpp)).2

theorem mass_nonneg (hd : edim c = 2 ∨ edim c = 3) (h : elementMass Real.sqrt dim c gps rho coords = some M) (hp : rulePoints Real.sqrt c gps = some pts)
    (hr : ∀ p ∈ pts, 0 ≤ rho p.1) (hJ : ∀ p ∈ pts, 0 < detAt c gps coords p.1) (U : Nat → ℝ) :
    ∀ p ∈ pts, 0 ≤ (geometryAt c gps coords p.1).det * p.2 * rho p.1 * ∑ d ∈ Finset.range dim, fieldAt c gps U p.1 d * fieldAt c gps U p.1 d := by
  intro p hpp
  rw [mass_det hd h hp p hpp]
  exact mul_nonneg (mul_nonneg (mul_pos (hJ p hpp) (rule_positive hp p hpp)).le (hr p hpp)) (Finset.sum_nonneg fun d _ => mul_self_nonneg _)

/-- The kinetic energy is not negative. -/
theorem C86_energy_nonneg (hd : edim c = 2 ∨ edim c = 3) (h : elementMass Real.sqrt dim c gps rho coords = some M) (hp : rulePoints Real.sqrt c gps = some pts)
    (hr : ∀ p ∈ pts, 0 ≤ rho p.1) (hJ : ∀ p ∈ pts, 0 < detAt c gps coords p.1) (U : Nat → ℝ) : 0 ≤ formOf (dim * nodes c) M U U := by
  obtain ⟨pts', hp', -, hf⟩ := C86_form h
  rw [hp] at hp'
  obtain rfl := Option.some.inj hp'
  rw [hf, massForm]
  refine List.sum_nonneg fun x hx => ?_
  obtain ⟨p, hpp, rfl⟩ := List.mem_map.1 hx
  exact mass_nonneg hd h hp hr hJ U p hpp

/-- The kinetic energy vanishes exactly if the field vanishes in all points of the rule. -/
theorem C86_kernel (hd : edim c = 2 ∨ edim c = 3) (h : elementMass Real.sqrt dim c gps rho coords = some M) (hp : rulePoints Real.sqrt c gps = some pts)
    (hr : ∀ p ∈ pts, 0 < rho p.1) (hJ : ∀ p ∈ pts, 0 < detAt c gps coords p.1) (U : Nat → ℝ) :
    formOf (dim * nodes c) M U U = 0 ↔ ∀ p ∈ pts, ∀ d < dim, fieldAt c gps U p.1 d = 0 := by
  obtain ⟨pts', hp', -, hf⟩ := C86_form h
  rw [hp] at hp'
  obtain rfl := Option.some.inj hp'
  rw [hf, massForm]
  have hnn := mass_nonneg hd h hp (fun p hpp => (hr p hpp).le) hJ U
  constructor
  · intro hz p hpp d hd'
    have hle := List.single_le_sum (l := pts.map fun p => (geometryAt c gps coords p.1).det * p.2 * rho p.1 *
      ∑ d ∈ Finset.range dim, fieldAt c gps U p.1 d * fieldAt c gps U p.1 d)
      (fun x hx => by obtain ⟨q, hq, rfl⟩ := List.mem_map.1 hx; exact hnn q hq) _ (List.mem_map.2 ⟨p, hpp, rfl⟩)
    rw [hz] at hle
    have z := le_antisymm hle (hnn p hpp)
    rw [mass_det hd h hp p hpp] at z
    have z := (mul_eq_zero.1 z).resolve_left (mul_pos (mul_pos (hJ p hpp) (rule_positive hp p hpp)) (hr p hpp)).ne'
    have z := (Finset.sum_eq_zero_iff_of_nonneg fun d _ => mul_self_nonneg _).1 z d (Finset.mem_range.2 hd')
    exact mul_self_eq_zero.1 z
  · intro hz
    rw [List.map_congr_left (g := fun _ => (0 : ℝ)) fun p hpp => by
      rw [Finset.sum_eq_zero fun d hd' => by rw [hz p hpp d (Finset.mem_range.1 hd'), mul_zero], mul_zero]]
    simp

/-- The mass matrix is positive definite: for a positive density and elements that are not turned over, only zero velocities have no kinetic energy. This
excludes the prisms with 15 nodes and nine points (`C86_prisma15_singular`). -/
theorem C86_definite_partial (hd : edim c = 2 ∨ edim c = 3) (hs : SeesAll c gps) (h15 : ¬ (c = .prisma15 ∧ gps = 9))
    (h : elementMass Real.sqrt dim c gps rho coords = some M) (hp : rulePoints Real.sqrt c gps = some pts)
    (hr : ∀ p ∈ pts, 0 < rho p.1) (hJ : ∀ p ∈ pts, 0 < detAt c gps coords p.1) (U : Nat → ℝ) :
    formOf (dim * nodes c) M U U = 0 ↔ ∀ i < dim * nodes c, U i = 0 := by
  rw [C86_kernel hd h hp hr hJ]
  have hn : 0 < nodes c := by cases c <;> decide
  constructor
  · intro hz i hi
    have hd' : i / nodes c < dim := Nat.div_lt_of_lt_mul (by rwa [mul_comm])
    have := values_kernel hd hs h15 hp (fun n => U (i / nodes c * nodes c + n)) (fun p hpp tab ht => by
      have := hz p hpp _ hd'
      rwa [fieldAt, show tabAt c gps p.1 = tab by simp [tabAt, ht]] at this) (i % nodes c) (Nat.mod_lt _ hn)
    rwa [mul_comm, Nat.div_add_mod] at this
  · intro hz p _ d hd'
    refine Finset.sum_eq_zero fun n hn' => ?_
    have hn' := Finset.mem_range.1 hn'
    rw [hz, mul_zero]
    have : (d + 1) * nodes c ≤ dim * nodes c := Nat.mul_le_mul_right _ hd'
    rw [add_mul, one_mul] at this
    omega

/-- With less points than nodes, the mass matrix is singular whatever the shape and the density. -/
theorem C86_few_points (h : elementMass Real.sqrt dim c gps rho coords = some M) (hp : rulePoints Real.sqrt c gps = some pts) (hdim : 0 < dim)
    (hn : pts.length < nodes c) : ∃ U : Nat → ℝ, (∃ i < dim * nodes c, U i ≠ 0) ∧ ∀ V, formOf (dim * nodes c) M U V = 0 := by
  let L : (Fin (nodes c) → ℝ) →ₗ[ℝ] (Fin pts.length → ℝ) :=
    { toFun := fun u k => ∑ n : Fin (nodes c), valueOf (tabAt c gps (pts[k]).1) n * u n
      map_add' := fun u v => by funext k; simp [mul_add, Finset.sum_add_distrib]
      map_smul' := fun a u => by funext k; simp only [Pi.smul_apply, smul_eq_mul, RingHom.id_apply, Finset.mul_sum]; exact Finset.sum_congr rfl fun n _ => by ring }
  obtain ⟨u, hu, hne⟩ := Submodule.exists_mem_ne_zero_of_ne_bot (LinearMap.ker_ne_bot_of_finrank_lt (f := L) (by simpa using hn))
  have hne : ∃ n, u n ≠ 0 := by
    by_contra hall
    push Not at hall
    exact hne (funext hall)
  obtain ⟨n, hn0⟩ := hne
  let w : Nat → ℝ := fun n => if h : n < nodes c then u ⟨n, h⟩ else 0
  have hw : ∀ p ∈ pts, ∑ n ∈ Finset.range (nodes c), valueOf (tabAt c gps p.1) n * w n = 0 := by
    intro p hpp
    obtain ⟨k, hk, rfl⟩ := List.getElem_of_mem hpp
    have := congrFun (LinearMap.mem_ker.1 hu) ⟨k, hk⟩
    rw [Finset.sum_range]
    refine Eq.trans (Finset.sum_congr rfl fun m _ => ?_) this
    simp [w]
  refine ⟨along (nodes c) 0 w, ⟨n, lt_of_lt_of_le n.isLt (Nat.le_mul_of_pos_left _ hdim), ?_⟩, fun V => ?_⟩
  · have := along_same (d := 0) n.isLt w
    rw [zero_mul, zero_add] at this
    rw [this]
    simpa [w] using hn0
  · obtain ⟨pts', hp', -, hf⟩ := C86_form h
    rw [hp] at hp'
    obtain rfl := Option.some.inj hp'
    rw [hf, massForm, List.map_congr_left (g := fun _ => (0 : ℝ)) fun p hpp => ?_]
    · simp
    · rw [Finset.sum_eq_zero fun d _ => ?_, mul_zero]
      rw [fieldAt_along]
      split
      · rw [hw p hpp, zero_mul]
      · rw [zero_mul]

/-- The mass matrices of all prisms with 15 nodes are singular: their rule has nine points only. -/
theorem C86_prisma15_singular (h : elementMass Real.sqrt dim .prisma15 9 rho coords = some M) (hdim : 0 < dim) :
    ∃ U : Nat → ℝ, (∃ i < dim * 15, U i ≠ 0) ∧ ∀ V, formOf (dim * 15) M U V = 0 := by
  obtain ⟨pts, hp⟩ : ∃ pts, rulePoints Real.sqrt .prisma15 9 = some pts := ⟨_, rfl⟩
  refine C86_few_points (c := .prisma15) h hp hdim ?_
  have e : some (rulePrisma15 Real.sqrt) = some pts := hp
  obtain rfl := Option.some.inj e
  simp [rulePrisma15, nodes]

/-- The mass in one direction is the mass of the element. -/
theorem C86_total (hd : edim c = 2 ∨ edim c = 3) (h : elementMass Real.sqrt dim c gps rho coords = some M) (hp : rulePoints Real.sqrt c gps = some pts)
    (d : Nat) (hd' : d < dim) :
    formOf (dim * nodes c) M (along (nodes c) d fun _ => 1) (along (nodes c) d fun _ => 1) = ruleSum pts fun p => detAt c gps coords p * rho p := by
  obtain ⟨pts', hp', -, hf⟩ := C86_form h
  rw [hp] at hp'
  obtain rfl := Option.some.inj hp'
  rw [hf, massForm, ruleSum]
  refine congrArg List.sum (List.map_congr_left fun p hpp => ?_)
  rw [mass_det hd h hp p hpp, Finset.sum_eq_single d]
  · have : fieldAt c gps (along (nodes c) d fun _ => 1) p.1 d = 1 := fieldAt_const hp hpp fun n hn => along_same hn _
    rw [this]
    ring
  · intro e _ he
    rw [fieldAt_along, if_neg he, mul_zero]
  · intro h
    exact absurd (Finset.mem_range.2 hd') h

/-- The nodal accelerations of a body that moves as a whole. -/
def together (N : Nat) (a : Nat → ℝ) (i : Nat) : ℝ := a (i / N)

theorem fieldAt_together (hp : rulePoints Real.sqrt c gps = some pts) {p : List ℝ × ℝ} (hpp : p ∈ pts) (a : Nat → ℝ) (d : Nat) :
    fieldAt c gps (together (nodes c) a) p.1 d = a d := by
  refine fieldAt_const hp hpp fun n hn => ?_
  rw [together, mul_comm, Nat.mul_add_div (by omega), Nat.div_eq_of_lt hn, add_zero]

/-- Free fall: the forces of a constant acceleration are the mass matrix times this acceleration, multiplied by the thickness. Partial: the mass matrix does not
contain the thickness (`C86_thickness_wrong`); bodies of revolution are excluded. -/
theorem C86_free_fall_partial (hd : edim c = 2 ∨ edim c = 3) (h : elementMass Real.sqrt (edim c) c gps rho coords = some M)
    {pi : ℝ} {m : Body ℝ} {thickness : Nat → ℝ} {f : List ℝ} (hf : elementBody Real.sqrt pi c gps m thickness coords = some f) (ho : m.angular = none)
    (hb : m.behaviour ≠ .axisymmetric) (hx : m.gpcoo = true ∨ ∀ x, m.density x = m.density 0) (hr : ∀ p, rho p = m.density (placeAt c gps coords p))
    {a : Nat → ℝ} (ha : ∀ x, m.acceleration x = a) {t : ℝ} (ht : edim c = 3 ∧ t = 1 ∨ ∀ n < nodes c, thickness n = t) {i : Nat} (hi : i < edim c * nodes c) :
    entry f i = (if edim c = 2 then t else 1) * ∑ j ∈ Finset.range (edim c * nodes c), entry M (i * (edim c * nodes c) + j) * together (nodes c) a j := by
  obtain ⟨pts, hp, -, hw⟩ := C85_work_partial hd hf (hx.imp id fun h => ⟨h, fun x => by rw [ha, ha]⟩) (fun _ o e => by rw [ho] at e; cases e)
  obtain ⟨pts', hp', -, hm⟩ := C86_form h
  rw [hp] at hp'
  obtain rfl := Option.some.inj hp'
  rw [← workOf_unit f hi, hw]
  have e : formOf (edim c * nodes c) M (fun j => if j = i then 1 else 0) (together (nodes c) a) =
      ∑ j ∈ Finset.range (edim c * nodes c), entry M (i * (edim c * nodes c) + j) * together (nodes c) a j := by
    unfold formOf
    rw [Finset.sum_eq_single i]
    · simp
    · intro j _ hj; simp [hj]
    · intro h; exact absurd (Finset.mem_range.2 hi) h
  rw [← e, hm, massForm, bodyWork, mul_list_sum]
  refine congrArg List.sum (List.map_congr_left fun p hpp => ?_)
  have hv : volumeAt pi m.behaviour c gps thickness coords p.1 = (if edim c = 2 then t else 1) * (geometryAt c gps coords p.1).det := by
    rw [volumeAt, if_neg (fun h => hb h.2), thickAt]
    congr 1
    split
    · rename_i h2
      rcases ht with ⟨h3, -⟩ | ht
      · omega
      · obtain ⟨tab, htab⟩ := point_table hp hpp
        have hu := (C75_basis c gps).unity p.1 tab (rule_length hp p hpp) htab
        rw [Finset.sum_congr rfl fun n hn => by rw [ht n (Finset.mem_range.1 hn)], ← Finset.sum_mul, show tabAt c gps p.1 = tab by simp [tabAt, htab], hu, one_mul]
    · rfl
  rw [bodyWorkAt, hv, ← hr, ho, ha]
  dsimp only
  rw [Finset.sum_congr rfl fun d _ => show (pullOf (edim c) m.behaviour a d + 0) * fieldAt c gps (fun j => if j = i then 1 else 0) p.1 d =
    fieldAt c gps (fun j => if j = i then 1 else 0) p.1 d * fieldAt c gps (together (nodes c) a) p.1 d by
      rw [fieldAt_together hp hpp, pullOf, if_neg (fun h => hb h.2)]; ring]
  ring

/-- The heat mass matrix: `∫ ρ T V`. -/
theorem C86_heat (hd : edim c = 2 ∨ edim c = 3) {density capacity : List ℝ → ℝ} {thickness : Nat → ℝ}
    (h : heatMass Real.sqrt c gps density capacity thickness coords = some M) (hp : rulePoints Real.sqrt c gps = some pts) :
    formOf (nodes c) M (fun _ => 1) (fun _ => 1) = ruleSum pts fun p => detAt c gps coords p * density p := by
  have e := C86_total (dim := 1) hd h hp 0 (by decide)
  rw [← e, one_mul]
  unfold formOf
  refine Finset.sum_congr rfl fun a ha => Finset.sum_congr rfl fun b hb => ?_
  have e1 : along (nodes c) 0 (fun _ => 1) a = 1 := by
    have := along_same (d := 0) (Finset.mem_range.1 ha) (fun _ => 1)
    rwa [zero_mul, zero_add] at this
  have e2 : along (nodes c) 0 (fun _ => 1) b = 1 := by
    have := along_same (d := 0) (Finset.mem_range.1 hb) (fun _ => 1)
    rwa [zero_mul, zero_add] at this
  rw [e1, e2]

theorem points_nonempty (hp : rulePoints Real.sqrt c gps = some pts) : pts ≠ [] := by
  rintro rfl
  unfold rulePoints at hp
  split at hp
  all_goals first
    | (have := Option.some.inj hp; revert this; simp [ruleTriangle3, ruleTriangle6, ruleTetra4, ruleTetra10, rulePyramid13, rulePrisma6, rulePrisma15]; done)
    | skip
  simp only [Option.bind_eq_bind, Option.bind_eq_some_iff, Option.pure_def, Option.some.injEq] at hp
  obtain ⟨order, -, rule, hr, e⟩ := hp
  have hl := gauss_length hr
  have ho : 0 < order := by
    rcases Nat.eq_zero_or_pos order with rfl | h
    · simp [gauss] at hr
    · exact h
  cases rule with
  | nil => simp at hl; omega
  | cons r rule =>
    unfold tensor at e
    split at e <;> simp at e

theorem mass_positive (hp : rulePoints Real.sqrt c gps = some pts) (hr : ∀ p ∈ pts, 0 < rho p.1) (hJ : ∀ p ∈ pts, 0 < detAt c gps coords p.1) :
    0 < ruleSum pts fun p => detAt c gps coords p * rho p := by
  unfold ruleSum
  refine List.sum_pos _ (fun x hx => ?_) (by simpa using points_nonempty hp)
  obtain ⟨p, hpp, rfl⟩ := List.mem_map.1 hx
  have := hJ p hpp
  have := hr p hpp
  have := rule_positive hp p hpp
  positivity

/-- The mass matrix of a plate does not contain its thickness (general/op.matrix.mass.h:59), but the loads do: a plate of constant thickness `t ≠ 1` does not
fall with the prescribed acceleration. -/
theorem C86_thickness_wrong (hd : edim c = 2) (h : elementMass Real.sqrt (edim c) c gps rho coords = some M) (hp : rulePoints Real.sqrt c gps = some pts)
    {pi : ℝ} {m : Body ℝ} {thickness : Nat → ℝ} {f : List ℝ} (hf : elementBody Real.sqrt pi c gps m thickness coords = some f) (ho : m.angular = none)
    (hb : m.behaviour ≠ .axisymmetric) (hx : m.gpcoo = true ∨ ∀ x, m.density x = m.density 0) (hr : ∀ p, rho p = m.density (placeAt c gps coords p))
    (hr' : ∀ p ∈ pts, 0 < rho p.1) (hJ : ∀ p ∈ pts, 0 < detAt c gps coords p.1)
    {a : Nat → ℝ} (ha : ∀ x, m.acceleration x = a) (ha0 : a 0 ≠ 0) {t : ℝ} (ht : ∀ n < nodes c, thickness n = t) (ht1 : t ≠ 1) :
    ∃ i < edim c * nodes c, entry f i ≠ ∑ j ∈ Finset.range (edim c * nodes c), entry M (i * (edim c * nodes c) + j) * together (nodes c) a j := by
  by_contra hall
  push Not at hall
  have hz : ∀ i < edim c * nodes c, ∑ j ∈ Finset.range (edim c * nodes c), entry M (i * (edim c * nodes c) + j) * together (nodes c) a j = 0 := by
    intro i hi
    have e1 := hall i hi
    have e2 := C86_free_fall_partial (.inl hd) h hf ho hb hx hr ha (.inr ht) hi
    rw [e1, if_pos hd] at e2
    generalize ∑ j ∈ Finset.range (edim c * nodes c), entry M (i * (edim c * nodes c) + j) * together (nodes c) a j = x at e2
    have : (t - 1) * x = 0 := by linear_combination -e2
    exact (mul_eq_zero.1 this).resolve_left (sub_ne_zero.2 ht1)
  obtain ⟨pts', hp', -, hm⟩ := C86_form h
  rw [hp] at hp'
  obtain rfl := Option.some.inj hp'
  have e := hm (along (nodes c) 0 fun _ => 1) (together (nodes c) a)
  have e1 : formOf (edim c * nodes c) M (along (nodes c) 0 fun _ => 1) (together (nodes c) a) = 0 := by
    unfold formOf
    refine Finset.sum_eq_zero fun i hi => ?_
    have := hz i (Finset.mem_range.1 hi)
    simp only [mul_assoc]
    rw [← Finset.mul_sum, this, mul_zero]
  have e2 : massForm (edim c) c gps rho coords pts (along (nodes c) 0 fun _ => 1) (together (nodes c) a) = a 0 * ruleSum pts fun p => detAt c gps coords p * rho p := by
    rw [massForm, ruleSum, mul_list_sum]
    refine congrArg List.sum (List.map_congr_left fun p hpp => ?_)
    rw [mass_det (.inl hd) h hp p hpp, Finset.sum_eq_single 0]
    · rw [fieldAt_together hp hpp, fieldAt_const hp hpp fun n hn => along_same hn _]
      ring
    · intro e _ he
      rw [fieldAt_along, if_neg he, zero_mul]
    · intro h
      exact absurd (Finset.mem_range.2 (by omega)) h
  rw [e1, e2] at e
  exact (mul_ne_zero ha0 (mass_positive hp hr' hJ).ne') e.symm

/-- The mass matrix of the heat transfer does not contain the heat capacity: for a constant capacity other than one, the stored heat of a constant temperature
is wrong in every element. -/
theorem C86_capacity_wrong (hd : edim c = 2 ∨ edim c = 3) {density capacity : List ℝ → ℝ}
    (h : heatMass Real.sqrt c gps density capacity (fun _ => 1) coords = some M) (hp : rulePoints Real.sqrt c gps = some pts)
    (hr : ∀ p ∈ pts, 0 < density p.1) (hJ : ∀ p ∈ pts, 0 < detAt c gps coords p.1) {k : ℝ} (hk : ∀ p, capacity p = k) (hk1 : k ≠ 1) :
    formOf (nodes c) M (fun _ => 1) (fun _ => 1) ≠ heatForm c gps density capacity (fun _ => 1) coords pts (fun _ => 1) (fun _ => 1) := by
  rw [C86_heat hd h hp]
  have e : heatForm c gps density capacity (fun _ => 1) coords pts (fun _ => 1) (fun _ => 1) = k * ruleSum pts fun p => detAt c gps coords p * density p := by
    rw [heatForm, ruleSum, mul_list_sum]
    refine congrArg List.sum (List.map_congr_left fun p hpp => ?_)
    obtain ⟨tab, ht⟩ := point_table hp hpp
    have hu := (C75_basis c gps).unity p.1 tab (rule_length hp p hpp) ht
    have e1 : thickAt c gps (fun _ => 1) p.1 = 1 := by
      rw [thickAt]
      split
      · simp only [mul_one, show tabAt c gps p.1 = tab by simp [tabAt, ht], hu]
      · rfl
    simp only [mul_one, show tabAt c gps p.1 = tab by simp [tabAt, ht], hu, e1, hk, mass_det hd h hp p hpp]
    ring
  rw [e]
  have := mass_positive hp hr hJ
  intro h
  apply hk1
  have : (k - 1) * ruleSum pts (fun p => detAt c gps coords p * density p) = 0 := by linear_combination -h
  have := (mul_eq_zero.1 this).resolve_right (mass_positive hp hr hJ).ne'
  linarith

/-- The unit square: its mass matrix is defined and positive definite. -/
example (rho : ℝ) (hr : 0 < rho) : ∃ M, elementMass Real.sqrt 2 .square4 4 (fun _ => rho) square = some M ∧
    ∀ U, formOf (2 * 4) M U U = 0 ↔ ∀ i < 2 * 4, U i = 0 := by
  obtain ⟨pts, hp⟩ : ∃ pts, rulePoints Real.sqrt .square4 4 = some pts := ⟨_, rfl⟩
  have hdet : ∀ p ∈ pts, detAt .square4 4 square p.1 = 1 / 4 := fun p hpp => square_det p.1 (rule_length hp p hpp)
  obtain ⟨M, hM⟩ := (C86_defined (c := .square4) (gps := 4) (.inl rfl) hp 2 (fun _ => rho) square).2 fun p hpp => by rw [hdet p hpp]; norm_num
  exact ⟨M, hM, fun U => C86_definite_partial (.inl rfl) (C79_points (.square4, 4) (by simp)).1 (by decide) hM hp (fun _ _ => hr)
    (fun p hpp => by rw [hdet p hpp]; norm_num) U⟩

/-- The unit square with the thickness two does not fall as it should. -/
example : ∃ M f, elementMass Real.sqrt 2 .square4 4 (fun _ => 1) square = some M ∧
    elementBody Real.sqrt 0 .square4 4 ⟨.planeStress, false, fun _ => 1, fun _ i => if i = 0 then 1 else 0, none⟩ (fun _ => 2) square = some f ∧
    ∃ i < 2 * 4, entry f i ≠ ∑ j ∈ Finset.range (2 * 4), entry M (i * (2 * 4) + j) * together 4 (fun i => if i = 0 then 1 else 0) j := by
  obtain ⟨pts, hp⟩ : ∃ pts, rulePoints Real.sqrt .square4 4 = some pts := ⟨_, rfl⟩
  have hdet : ∀ p ∈ pts, detAt .square4 4 square p.1 = 1 / 4 := fun p hpp => square_det p.1 (rule_length hp p hpp)
  obtain ⟨M, hM⟩ := (C86_defined (c := .square4) (gps := 4) (.inl rfl) hp 2 (fun _ => 1) square).2 fun p hpp => by rw [hdet p hpp]; norm_num
  obtain ⟨f, hf⟩ := (C85_defined (c := .square4) (gps := 4) (.inl rfl) hp 0 ⟨.planeStress, false, fun _ => 1, fun _ i => if i = 0 then 1 else 0, none⟩ (fun _ => 2)
    square).2 fun p hpp => by rw [hdet p hpp]; norm_num
  exact ⟨M, f, hM, hf, C86_thickness_wrong (c := .square4) rfl hM hp hf rfl (by simp) (.inr fun _ => rfl) (fun _ => rfl) (fun _ _ => one_pos)
    (fun p hpp => by rw [hdet p hpp]; norm_num) (fun _ => rfl) (by simp) (fun _ _ => rfl) (by norm_num)⟩

end Verif.Fem
