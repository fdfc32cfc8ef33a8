import Verif.Prop.Loads
import Verif.Prop.ElasticForm
import Verif.Prop.HeatExample
/-!
C85: the forces on the volume over the real numbers: their resultant, and what is wrong with them.
-/
namespace Verif.Fem

variable {c : Code} {gps : Nat} {m : Body ℝ} {pi : ℝ} {thickness : Nat → ℝ} {coords : Nat → Nat → ℝ} {f : List ℝ} {pts : List (List ℝ × ℝ)}

/-- The kernels divide by zero exactly if the geometry is singular in a point of the rule. -/
theorem C85_defined (hd : edim c = 2 ∨ edim c = 3) (hp : rulePoints Real.sqrt c gps = some pts) (pi : ℝ) (m : Body ℝ) (thickness : Nat → ℝ)
    (coords : Nat → Nat → ℝ) : (∃ f, elementBody Real.sqrt pi c gps m thickness coords = some f) ↔ ∀ p ∈ pts, detAt c gps coords p.1 ≠ 0 := by
  unfold elementBody
  rw [hp]
  simp only [Option.bind_eq_bind, Option.bind_some]
  rw [← Option.isSome_iff_exists, (workLoop (edim c * nodes c) (bodyPoint pi c gps m thickness coords)
    (fun p V => bodyWorkCode pi c gps m thickness coords p V) _ pts (fun p _ A hA => bodyPoint_spec hd pi m thickness coords p A hA) _ (by simp)).1]
  exact forall₂_congr fun p hpp => regular_iff hd hp hpp

/-- Nodal values of a constant are the constant in every point. -/
theorem fieldAt_const (hp : rulePoints Real.sqrt c gps = some pts) {p : List ℝ × ℝ} (hpp : p ∈ pts) {U : Nat → ℝ} {d : Nat} {a : ℝ}
    (h : ∀ n < nodes c, U (d * nodes c + n) = a) : fieldAt c gps U p.1 d = a := by
  obtain ⟨tab, ht⟩ := point_table hp hpp
  have hu := (C75_basis c gps).unity p.1 tab (rule_length hp p hpp) ht
  unfold fieldAt
  rw [Finset.sum_congr rfl fun n hn => by rw [h n (Finset.mem_range.1 hn)], ← Finset.sum_mul, show tabAt c gps p.1 = tab by simp [tabAt, ht], hu, one_mul]

/-- Nodal values of linear functions are the linear functions in every point. -/
theorem fieldAt_linear (hp : rulePoints Real.sqrt c gps = some pts) {p : List ℝ × ℝ} (hpp : p ∈ pts) {U : Nat → ℝ} {d : Nat} {a : ℝ} {b : Nat → ℝ} {k : Nat}
    (h : ∀ n < nodes c, U (d * nodes c + n) = a + ∑ i ∈ Finset.range k, b i * coords n i) :
    fieldAt c gps U p.1 d = a + ∑ i ∈ Finset.range k, b i * placeAt c gps coords p.1 i := by
  obtain ⟨tab, ht⟩ := point_table hp hpp
  have hu := (C75_basis c gps).unity p.1 tab (rule_length hp p hpp) ht
  unfold fieldAt placeAt
  rw [show tabAt c gps p.1 = tab by simp [tabAt, ht]]
  rw [Finset.sum_congr rfl fun n hn => by rw [h n (Finset.mem_range.1 hn), mul_add, Finset.mul_sum], Finset.sum_add_distrib, ← Finset.sum_mul, hu, one_mul,
    Finset.sum_comm]
  congr 1
  refine Finset.sum_congr rfl fun i _ => ?_
  rw [Finset.mul_sum]
  exact Finset.sum_congr rfl fun n _ => by ring

/-- A displacement of one component. -/
def along (N d : Nat) (u : Nat → ℝ) (i : Nat) : ℝ := if d * N ≤ i ∧ i < (d + 1) * N then u (i - d * N) else 0

theorem along_same {N d n : Nat} (hn : n < N) (u : Nat → ℝ) : along N d u (d * N + n) = u n := by
  unfold along
  rw [if_pos ⟨by omega, by rw [add_mul, one_mul]; omega⟩, Nat.add_sub_cancel_left]

theorem along_other {N d e n : Nat} (hn : n < N) (h : e ≠ d) (u : Nat → ℝ) : along N d u (e * N + n) = 0 := by
  unfold along
  rw [if_neg]
  rintro ⟨h1, h2⟩
  rcases Nat.lt_or_gt_of_ne h with h | h
  · have : (e + 1) * N ≤ d * N := Nat.mul_le_mul_right N h
    rw [add_mul, one_mul] at this
    omega
  · have : (d + 1) * N ≤ e * N := Nat.mul_le_mul_right N h
    omega

theorem fieldAt_along (c : Code) (gps : Nat) (p : List ℝ) (d e : Nat) (u : Nat → ℝ) :
    fieldAt c gps (along (nodes c) d u) p e = if e = d then ∑ n ∈ Finset.range (nodes c), valueOf (tabAt c gps p) n * u n else 0 := by
  unfold fieldAt
  split
  · rename_i h
    subst h
    exact Finset.sum_congr rfl fun n hn => by rw [along_same (Finset.mem_range.1 hn)]
  · rename_i h
    exact Finset.sum_eq_zero fun n hn => by rw [along_other (Finset.mem_range.1 hn) h, mul_zero]

/-- The work along one component is the sum over its nodes. -/
theorem workOf_along {D N d : Nat} (hd : d < D) (f : List ℝ) (u : Nat → ℝ) :
    workOf (D * N) f (along N d u) = ∑ n ∈ Finset.range N, entry f (d * N + n) * u n := by
  unfold workOf
  have hle : (d + 1) * N ≤ D * N := Nat.mul_le_mul_right N hd
  rw [add_mul, one_mul] at hle
  have e1 : Finset.range (D * N) = Finset.range (d * N + (N + (D * N - (d * N + N)))) := by
    congr 1; omega
  rw [e1, Finset.sum_range_add, Finset.sum_range_add]
  have z1 : ∑ x ∈ Finset.range (d * N), entry f x * along N d u x = 0 := Finset.sum_eq_zero fun x hx => by
    have := Finset.mem_range.1 hx
    rw [along, if_neg (by omega), mul_zero]
  have z2 : ∑ x ∈ Finset.range (D * N - (d * N + N)), entry f (d * N + (N + x)) * along N d u (d * N + (N + x)) = 0 := Finset.sum_eq_zero fun x hx => by
    rw [along, if_neg (by rw [add_mul, one_mul]; omega), mul_zero]
  rw [z1, z2, zero_add, add_zero]
  exact Finset.sum_congr rfl fun n hn => by rw [along_same (Finset.mem_range.1 hn)]

/-- The mass of an element as the loads see it: with the thickness or the way around the axis. -/
noncomputable def bodyMass (pi : ℝ) (c : Code) (gps : Nat) (m : Body ℝ) (thickness : Nat → ℝ) (coords : Nat → Nat → ℝ) (pts : List (List ℝ × ℝ)) : ℝ :=
  (pts.map fun p => volumeAt pi m.behaviour c gps thickness coords p.1 * p.2 * m.density (placeAt c gps coords p.1)).sum

/-- The weight: under a constant acceleration, the forces of the nodes sum up to the mass times the acceleration. -/
theorem C85_weight (hd : edim c = 2 ∨ edim c = 3) (h : elementBody Real.sqrt pi c gps m thickness coords = some f) (ho : m.angular = none)
    (hx : m.gpcoo = true ∨ ∀ x, m.density x = m.density 0) {a : Nat → ℝ} (ha : ∀ x, m.acceleration x = a) (d : Nat) (hd' : d < edim c) :
    ∃ pts, rulePoints Real.sqrt c gps = some pts ∧
      ∑ n ∈ Finset.range (nodes c), entry f (d * nodes c + n) = bodyMass pi c gps m thickness coords pts * pullOf (edim c) m.behaviour a d := by
  obtain ⟨pts, hp, -, hw⟩ := C85_work_partial hd h (hx.imp id fun h => ⟨h, fun x => by rw [ha, ha]⟩) (fun _ o e => by rw [ho] at e; cases e)
  refine ⟨pts, hp, ?_⟩
  have e := hw (along (nodes c) d fun _ => 1)
  rw [workOf_along hd'] at e
  simp only [mul_one] at e
  rw [e, bodyWork, bodyMass, mul_comm, mul_list_sum]
  refine congrArg List.sum (List.map_congr_left fun p hpp => ?_)
  rw [bodyWorkAt, Finset.sum_eq_single d]
  · have : fieldAt c gps (along (nodes c) d fun _ => 1) p.1 d = 1 := fieldAt_const hp hpp fun n hn => along_same hn _
    rw [this, ho, ha]
    dsimp only
    ring
  · intro e _ he
    rw [fieldAt_along, if_neg he, mul_zero]
  · intro h
    exact absurd (Finset.mem_range.2 hd') h

/-- The weight of a solid of constant density. -/
theorem C85_weight_solid (hd : edim c = 3) (h : elementBody Real.sqrt pi c gps m thickness coords = some f) (ho : m.angular = none)
    {v rho : ℝ} (hv : elementVolume Real.sqrt c gps coords = some v) (hr : ∀ x, m.density x = rho) {a : Nat → ℝ} (ha : ∀ x, m.acceleration x = a)
    (d : Nat) (hd' : d < 3) : ∑ n ∈ Finset.range (nodes c), entry f (d * nodes c + n) = rho * v * a d := by
  obtain ⟨pts, hp, e⟩ := C85_weight (.inr hd) h ho (.inr fun x => by rw [hr, hr]) ha d (by omega)
  obtain ⟨pts', hp', rfl⟩ := elementVolume_eq (.inr hd) hv
  rw [hp] at hp'
  obtain rfl := Option.some.inj hp'
  rw [e]
  have hdef := (C85_defined (.inr hd) hp pi m thickness coords).1 ⟨f, h⟩
  congr 1
  · rw [bodyMass, ruleSum, mul_list_sum]
    refine congrArg List.sum (List.map_congr_left fun p hpp => ?_)
    obtain ⟨tab, ht⟩ := point_table hp hpp
    have := (point_geometry (.inr hd) ht (hdef p hpp)).2
    rw [hr, volumeAt, this, thickAt, if_neg (by omega), if_neg (by omega)]
    ring
  · rw [pullOf, if_neg (by omega)]

theorem placeAt_along (c : Code) (gps : Nat) (coords : Nat → Nat → ℝ) (p : List ℝ) (d i : Nat) :
    fieldAt c gps (along (nodes c) d fun n => coords n i) p d = placeAt c gps coords p i := by
  rw [fieldAt_along, if_pos rfl]
  rfl

/-- A body of density one that rotates around the axis `(1, 1, 0)`. -/
noncomputable def tilted : Body ℝ := ⟨.planeStress, false, fun _ => 1, fun _ _ => 0, some fun _ i => if i < 2 then 1 else 0⟩

/-- The forces of a rotation around an axis that is not an axis of the coordinates are wrong, in every solid element that is not turned over and has an
integration point off the plane `y = 0`: the mixed products of the angular velocity are missing (op.angularvelocity.h:48-57). -/
theorem C85_angular_wrong (hd : edim c = 3) (hp : rulePoints Real.sqrt c gps = some pts) (pi : ℝ) (thickness : Nat → ℝ)
    (hJ : ∀ p ∈ pts, 0 < detAt c gps coords p.1) (hy : ∃ p ∈ pts, placeAt c gps coords p.1 1 ≠ 0) :
    ∃ f V, elementBody Real.sqrt pi c gps tilted thickness coords = some f ∧ workOf (edim c * nodes c) f V ≠ bodyWork pi c gps tilted thickness coords pts V := by
  obtain ⟨f, hf⟩ := (C85_defined (.inr hd) hp pi tilted thickness coords).2 fun p hpp => (hJ p hpp).ne'
  refine ⟨f, along (nodes c) 0 fun n => coords n 1, hf, ?_⟩
  obtain ⟨pts', hp', -, hw⟩ := elementBody_spec (.inr hd) hf
  rw [hp] at hp'
  obtain rfl := Option.some.inj hp'
  rw [hw, bodyWork]
  refine ne_of_gt (List.sum_lt_sum _ _ ?_ ?_)
  all_goals
    have e : ∀ p ∈ pts, bodyWorkCode pi c gps tilted thickness coords p (along (nodes c) 0 fun n => coords n 1) =
        bodyWorkAt pi c gps tilted thickness coords (along (nodes c) 0 fun n => coords n 1) p + detAt c gps coords p.1 * p.2 * placeAt c gps coords p.1 1 ^ 2 := by
      intro p hpp
      obtain ⟨tab, ht⟩ := point_table hp hpp
      have hg := (point_geometry (.inr hd) ht (hJ p hpp).ne').2
      have hv : volumeAt pi .planeStress c gps thickness coords p.1 = detAt c gps coords p.1 := by
        rw [volumeAt, hg, thickAt, if_neg (by omega), if_neg (by omega), one_mul]
      unfold bodyWorkCode bodyWorkAt
      simp only [tilted, hv, fieldAt_along, mul_ite, mul_zero, Finset.sum_ite_eq', Finset.mem_range, hd]
      simp only [show (0 : Nat) < 3 by decide, if_true]
      have e2 : ∑ n ∈ Finset.range (nodes c), valueOf (tabAt c gps p.1) n * coords n 1 = placeAt c gps coords p.1 1 := rfl
      rw [e2]
      simp [pullOf, spinOf, spinCode, centrifugal, spaceAt, hd]
      ring
  · intro p hpp
    rw [e p hpp]
    have := mul_nonneg (mul_nonneg (hJ p hpp).le (rule_positive hp p hpp).le) (sq_nonneg (placeAt c gps coords p.1 1))
    exact le_add_of_nonneg_right this
  · obtain ⟨p, hpp, hne⟩ := hy
    refine ⟨p, hpp, ?_⟩
    rw [e p hpp]
    have := mul_pos (mul_pos (hJ p hpp) (rule_positive hp p hpp)) (pow_pos (abs_pos.2 hne) 2)
    rw [sq_abs] at this
    exact lt_add_of_pos_right _ this

/-- A body of density one with the acceleration `(x, 0, 0)` and a material that does not need coordinates. -/
noncomputable def stretched : Body ℝ := ⟨.planeStress, false, fun _ => 1, fun x i => if i = 0 then x 0 else 0, none⟩

/-- The code does not interpolate the coordinates to the points if only the acceleration (or the density) depends on them (structuralmechanics.cpp:399-401):
the forces of the acceleration `(x, 0, 0)` vanish, although they should not. -/
theorem C85_coordinates_wrong (hd : edim c = 2 ∨ edim c = 3) (hp : rulePoints Real.sqrt c gps = some pts) (pi : ℝ)
    (hJ : ∀ p ∈ pts, 0 < detAt c gps coords p.1) (hx : ∃ p ∈ pts, placeAt c gps coords p.1 0 ≠ 0) :
    ∃ f V, elementBody Real.sqrt pi c gps stretched (fun _ => 1) coords = some f ∧ (∀ W, workOf (edim c * nodes c) f W = 0) ∧
      0 < bodyWork pi c gps stretched (fun _ => 1) coords pts V := by
  obtain ⟨f, hf⟩ := (C85_defined hd hp pi stretched (fun _ => 1) coords).2 fun p hpp => (hJ p hpp).ne'
  refine ⟨f, along (nodes c) 0 fun n => coords n 0, hf, fun W => ?_, ?_⟩
  · obtain ⟨pts', hp', -, hw⟩ := elementBody_spec hd hf
    rw [hw]
    refine List.sum_eq_zero fun x hx => ?_
    obtain ⟨p, -, rfl⟩ := List.mem_map.1 hx
    unfold bodyWorkCode
    simp [stretched, seenAt, Body.gpcoo, pullOf]
  · have e : ∀ p ∈ pts, bodyWorkAt pi c gps stretched (fun _ => 1) coords (along (nodes c) 0 fun n => coords n 0) p = detAt c gps coords p.1 * p.2 * placeAt c gps coords p.1 0 ^ 2 := by
      intro p hpp
      obtain ⟨tab, ht⟩ := point_table hp hpp
      have hg := (point_geometry hd ht (hJ p hpp).ne').2
      have hv : volumeAt pi .planeStress c gps (fun _ => 1) coords p.1 = detAt c gps coords p.1 := by
        rw [volumeAt, hg, if_neg (by simp), thickAt]
        split
        · have hu := (C75_basis c gps).unity p.1 tab (rule_length hp p hpp) ht
          simp only [mul_one, show tabAt c gps p.1 = tab by simp [tabAt, ht], hu, one_mul]
        · rw [one_mul]
      unfold bodyWorkAt
      simp only [stretched, hv, fieldAt_along, mul_ite, mul_zero, Finset.sum_ite_eq', Finset.mem_range]
      rw [if_pos (by omega)]
      have e2 : ∑ n ∈ Finset.range (nodes c), valueOf (tabAt c gps p.1) n * coords n 0 = placeAt c gps coords p.1 0 := rfl
      rw [e2, pullOf, if_neg (by simp), if_pos rfl]
      ring
    have hnn : ∀ p ∈ pts, 0 ≤ detAt c gps coords p.1 * p.2 * placeAt c gps coords p.1 0 ^ 2 := fun p hpp =>
      mul_nonneg (mul_nonneg (hJ p hpp).le (rule_positive hp p hpp).le) (sq_nonneg _)
    rw [bodyWork, List.map_congr_left e]
    obtain ⟨p, hpp, hne⟩ := hx
    refine lt_of_lt_of_le ?_ (List.single_le_sum (fun x hx => by obtain ⟨q, hq, rfl⟩ := List.mem_map.1 hx; exact hnn q hq) _ (List.mem_map.2 ⟨p, hpp, rfl⟩))
    exact mul_pos (mul_pos (hJ p hpp) (rule_positive hp p hpp)) (by positivity)

theorem square_place (p : List ℝ) (hp : p.length = 2) : placeAt .square4 4 square p 0 = (1 + p.getD 0 0) / 2 ∧ placeAt .square4 4 square p 1 = (1 + p.getD 1 0) / 2 := by
  obtain ⟨r, s, rfl⟩ := List.length_eq_two.1 hp
  obtain ⟨tab, ht, -⟩ := (C75_basis .square4 4).defined [r, s] rfl
  have e : tabAt .square4 4 [r, s] = tab := by simp [tabAt, ht]
  unfold placeAt
  rw [e]
  rw [setAt_degraded rfl] at ht
  simp [degradedTerms, degrade, nOrder, terms4x2, nodes, edim, addTerm, wr] at ht
  subst ht
  constructor
  · simp [nodes, Finset.sum_range_succ, valueOf, square]; ring
  · simp [nodes, Finset.sum_range_succ, valueOf, square]; ring

/-- The unit cube. -/
def cube : Nat → Nat → ℝ := fun n i => match n, i with
  | 1, 0 => 1 | 2, 0 => 1 | 2, 1 => 1 | 3, 1 => 1 | 4, 2 => 1 | 5, 0 => 1 | 5, 2 => 1 | 6, 0 => 1 | 6, 1 => 1 | 6, 2 => 1 | 7, 1 => 1 | 7, 2 => 1 | _, _ => 0

theorem cube_table {p : List ℝ} (hp : p.length = 3) : ∃ r s t tab, p = [r, s, t] ∧ setAt .hexa8 8 p = some tab ∧ tab = terms8x3 r s t := by
  obtain ⟨r, s, t, rfl⟩ := List.length_eq_three.1 hp
  obtain ⟨tab, ht, -⟩ := (C75_basis .hexa8 8).defined [r, s, t] rfl
  refine ⟨r, s, t, tab, rfl, ht, ?_⟩
  rw [setAt_degraded rfl] at ht
  simp [degradedTerms, degrade, nOrder, terms8x3, nodes, edim, addTerm, wr] at ht
  subst ht
  simp [terms8x3]

theorem cube_det {p : List ℝ} (hp : p.length = 3) : detAt .hexa8 8 cube p = 1 / 8 := by
  obtain ⟨r, s, t, tab, rfl, ht, rfl⟩ := cube_table hp
  rw [detAt_eq (by decide) ht]
  simp [detOf, det33, jacobian3, List.range_succ, slopeOf, edim, nodes, cube, terms8x3]
  ring

theorem cube_place {p : List ℝ} (hp : p.length = 3) : placeAt .hexa8 8 cube p 1 = (1 + p.getD 1 0) / 2 := by
  obtain ⟨r, s, t, tab, rfl, ht, rfl⟩ := cube_table hp
  unfold placeAt
  rw [show tabAt .hexa8 8 [r, s, t] = terms8x3 r s t by simp [tabAt, ht]]
  simp [nodes, Finset.sum_range_succ, valueOf, cube, terms8x3]
  ring

/-- A cube of density `ρ` under gravity: its weight. -/
example (rho g : ℝ) : ∃ f, elementBody Real.sqrt 0 .hexa8 8 ⟨.planeStress, false, fun _ => rho, fun _ i => if i = 2 then -g else 0, none⟩ (fun _ => 1) cube = some f ∧
    ∑ n ∈ Finset.range 8, entry f (2 * 8 + n) = -(rho * g) := by
  obtain ⟨pts, hp⟩ : ∃ pts, rulePoints Real.sqrt .hexa8 8 = some pts := ⟨_, rfl⟩
  have hdet : ∀ p ∈ pts, detAt .hexa8 8 cube p.1 = 1 / 8 := fun p hpp => cube_det (rule_length hp p hpp)
  obtain ⟨f, hf⟩ := (C85_defined (c := .hexa8) (gps := 8) (.inr rfl) hp 0 ⟨.planeStress, false, fun _ => rho, fun _ i => if i = 2 then -g else 0, none⟩
    (fun _ => 1) cube).2 fun p hpp => by rw [hdet p hpp]; norm_num
  refine ⟨f, hf, ?_⟩
  obtain ⟨pts', hp', e⟩ := C85_weight (.inr rfl) hf rfl (.inr fun _ => rfl) (fun _ => rfl) 2 (by decide)
  rw [hp] at hp'
  obtain rfl := Option.some.inj hp'
  change ∑ n ∈ Finset.range 8, entry f (2 * 8 + n) = _ at e
  rw [e]
  have : bodyMass 0 .hexa8 8 ⟨.planeStress, false, fun _ => rho, fun _ i => if i = 2 then -g else 0, none⟩ (fun _ => 1) cube pts = rho := by
    have h1 : bodyMass 0 .hexa8 8 ⟨.planeStress, false, fun _ => rho, fun _ i => if i = 2 then -g else 0, none⟩ (fun _ => 1) cube pts = rho * ruleSum pts fun _ => 1 / 8 := by
      rw [bodyMass, ruleSum, mul_list_sum]
      refine congrArg List.sum (List.map_congr_left fun p hpp => ?_)
      obtain ⟨tab, ht⟩ := point_table hp hpp
      have hg := (point_geometry (.inr rfl) ht (by rw [hdet p hpp]; norm_num)).2
      rw [volumeAt, hg, hdet p hpp]
      simp [thickAt, edim]
      ring
    rw [h1, ruleSum_const fun _ _ => rfl]
    simp only [rulePoints, edim, getOrder, gauss, tensor, Option.bind_eq_bind, Option.bind_some, Option.pure_def, Option.some.injEq] at hp
    subst hp
    norm_num
  rw [this]
  simp [pullOf]

/-- The cube and the rotation around `(1, 1, 0)`, the square and the acceleration `(x, 0)`. -/
example : (∃ f V pts, rulePoints Real.sqrt .hexa8 8 = some pts ∧ elementBody Real.sqrt 0 .hexa8 8 tilted (fun _ => 1) cube = some f ∧
      workOf (3 * 8) f V ≠ bodyWork 0 .hexa8 8 tilted (fun _ => 1) cube pts V) ∧
    ∃ f V pts, rulePoints Real.sqrt .square4 4 = some pts ∧ elementBody Real.sqrt 0 .square4 4 stretched (fun _ => 1) square = some f ∧
      workOf (2 * 4) f V = 0 ∧ 0 < bodyWork 0 .square4 4 stretched (fun _ => 1) square pts V := by
  constructor
  · obtain ⟨pts, hp⟩ : ∃ pts, rulePoints Real.sqrt .hexa8 8 = some pts := ⟨_, rfl⟩
    obtain ⟨f, V, h1, h2⟩ := C85_angular_wrong (coords := cube) rfl hp 0 (fun _ => 1) (fun p hpp => by rw [cube_det (rule_length hp p hpp)]; norm_num) (by
      have hl := rule_length hp
      have hm : ([1 / Real.sqrt 3, 1 / Real.sqrt 3, 1 / Real.sqrt 3], (1 : ℝ)) ∈ pts := by
        simp only [rulePoints, edim, getOrder, gauss, tensor, Option.bind_eq_bind, Option.bind_some, Option.pure_def, Option.some.injEq] at hp
        subst hp
        simp
      refine ⟨_, hm, ?_⟩
      rw [cube_place (hl _ hm)]
      have : 0 < 1 / Real.sqrt 3 := by positivity
      simp only [List.getD_cons_succ, List.getD_cons_zero]
      positivity)
    exact ⟨f, V, pts, hp, h1, h2⟩
  · obtain ⟨pts, hp⟩ : ∃ pts, rulePoints Real.sqrt .square4 4 = some pts := ⟨_, rfl⟩
    obtain ⟨f, V, h1, h2, h3⟩ := C85_coordinates_wrong (coords := square) (.inl rfl) hp 0 (fun p hpp => by rw [square_det p.1 (rule_length hp p hpp)]; norm_num) (by
      have hl := rule_length hp
      have hm : ([1 / Real.sqrt 3, 1 / Real.sqrt 3], (1 : ℝ)) ∈ pts := by
        simp only [rulePoints, edim, getOrder, gauss, tensor, Option.bind_eq_bind, Option.bind_some, Option.pure_def, Option.some.injEq] at hp
        subst hp
        simp
      refine ⟨_, hm, ?_⟩
      rw [(square_place _ (hl _ hm)).1]
      have : 0 < 1 / Real.sqrt 3 := by positivity
      simp only [List.getD_cons_zero]
      positivity)
    exact ⟨f, V, pts, hp, h1, h2 V, h3⟩

end Verif.Fem
