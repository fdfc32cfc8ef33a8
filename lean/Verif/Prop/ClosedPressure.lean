import Verif.Prop.Pressure
import Mathlib.Data.List.Perm.Basic
import Mathlib.Data.List.Count
/-!
C87: a constant pressure on a closed boundary has no resultant; pressures that depend on the place are wrong.
-/
namespace Verif.Fem

/-- The edges of the structural mechanics and their points (structuralmechanics/kernel.h, `LINE2` 2 and `LINE3` 4 points) and of the heat transfer. -/
def EdgeRule (c : Code) (gps : Nat) : Prop := c = .line2 ∧ gps = 2 ∨ c = .line3 ∧ (gps = 3 ∨ gps = 4)

theorem line2_tangent (gps : Nat) (coords : Nat → Nat → ℝ) (r : ℝ) (i : Nat) : tangentAt .line2 gps coords [r] 0 i = (coords 1 i - coords 0 i) / 2 := by
  obtain ⟨tab, ht, -⟩ := (C75_basis .line2 gps).defined [r] rfl
  have e : tabAt .line2 gps [r] = tab := by simp [tabAt, ht]
  rw [tangentAt, e]
  rw [setAt_degraded rfl] at ht
  simp [degradedTerms, degrade, nOrder, terms2x1, nodes, edim, addTerm, wr] at ht
  subst ht
  simp [nodes, Finset.sum_range_succ, slopeOf]
  ring

theorem line3_tangent (gps : Nat) (coords : Nat → Nat → ℝ) (r : ℝ) (i : Nat) :
    tangentAt .line3 gps coords [r] 0 i = (coords 1 i - coords 0 i) / 2 + r * (coords 0 i + coords 1 i - 2 * coords 2 i) := by
  obtain ⟨tab, ht, -⟩ := (C75_basis .line3 gps).defined [r] rfl
  have e : tabAt .line3 gps [r] = tab := by simp [tabAt, ht]
  rw [tangentAt, e]
  rw [setAt_degraded rfl] at ht
  simp [degradedTerms, degrade, nOrder, terms3x1, nodes, edim, addTerm, wr] at ht
  subst ht
  simp [nodes, Finset.sum_range_succ, slopeOf]
  ring

variable {c : Code} {gps : Nat} {coords : Nat → Nat → ℝ} {pi : ℝ} {l : Push ℝ} {f : List ℝ} {pts : List (List ℝ × ℝ)}

/-- The tangents of an edge sum up to the vector between its ends, also if the edge is curved. -/
theorem edge_sum (he : EdgeRule c gps) (hp : rulePoints Real.sqrt c gps = some pts) (coords : Nat → Nat → ℝ) (i : Nat) :
    (ruleSum pts fun p => tangentAt c gps coords p 0 i) = coords 1 i - coords 0 i := by
  rcases he with ⟨rfl, rfl⟩ | ⟨rfl, rfl | rfl⟩
  · simp only [rulePoints, edim, getOrder, gauss, tensor, Option.bind_eq_bind, Option.bind_some, Option.pure_def, Option.some.injEq] at hp
    subst hp
    simp [ruleSum, line2_tangent]
    try ring
  · simp only [rulePoints, edim, getOrder, gauss, tensor, Option.bind_eq_bind, Option.bind_some, Option.pure_def, Option.some.injEq] at hp
    subst hp
    simp [ruleSum, line3_tangent]
    ring
  · simp only [rulePoints, edim, getOrder, gauss, tensor, Option.bind_eq_bind, Option.bind_some, Option.pure_def, Option.some.injEq] at hp
    subst hp
    simp [ruleSum, line3_tangent]
    ring

/-- The resultant of a normal pressure on an edge depends on its ends only. -/
theorem C87_edge (he : EdgeRule c gps) (h : elementPush Real.sqrt pi 2 c gps l coords = some f) (ha : l.behaviour ≠ .axisymmetric) {q : ℝ}
    (h1 : ∀ x, l.normalPressure x = q) (h2 : ∀ x, l.pressure x = 0) (h3 : ∀ x, l.direction x = l.direction 0) :
    ∑ n ∈ Finset.range (nodes c), entry f (0 * nodes c + n) = q * (coords 0 1 - coords 1 1) ∧
    ∑ n ∈ Finset.range (nodes c), entry f (1 * nodes c + n) = q * (coords 1 0 - coords 0 0) := by
  have hb : IsBoundary 2 c := .inl ⟨rfl, by rcases he with ⟨rfl, -⟩ | ⟨rfl, -⟩ <;> rfl⟩
  obtain ⟨pts, hp, -⟩ := C87_work_partial hb h (.inr ⟨fun x => by rw [h1, h1], fun x => by rw [h2, h2], h3⟩)
  have r0 := C87_resultant hb h hp ha h1 h2 h3 0 (by decide)
  have r1 := C87_resultant hb h hp ha h1 h2 h3 1 (by decide)
  rw [zero_mul, zero_mul, add_zero] at r1
  simp only [zero_mul, add_zero] at r0 ⊢
  rw [r0, r1]
  have e0 : (ruleSum pts fun p => inwardAt 2 c gps coords p 0) = -ruleSum pts fun p => tangentAt c gps coords p 0 1 := by
    have : ∀ pts : List (List ℝ × ℝ), (ruleSum pts fun p => inwardAt 2 c gps coords p 0) = -ruleSum pts fun p => tangentAt c gps coords p 0 1 := by
      intro pts
      induction pts with
      | nil => simp [ruleSum]
      | cons p pts ih =>
        simp only [ruleSum, List.map_cons, List.sum_cons] at ih ⊢
        rw [ih, show inwardAt 2 c gps coords p.1 0 = -tangentAt c gps coords p.1 0 1 from rfl]
        ring
    exact this pts
  have e1 : (ruleSum pts fun p => inwardAt 2 c gps coords p 1) = ruleSum pts fun p => tangentAt c gps coords p 0 0 := rfl
  rw [e0, e1, edge_sum he hp, edge_sum he hp]
  exact ⟨by ring, rfl⟩

theorem sum_rotate (M : Nat) (g : Nat → ℝ) : ∑ k ∈ Finset.range M, g ((k + 1) % M) = ∑ k ∈ Finset.range M, g k := by
  cases M with
  | zero => rfl
  | succ m =>
    rw [Finset.sum_range_succ, Nat.mod_self, Finset.sum_range_succ' g]
    congr 1
    exact Finset.sum_congr rfl fun k hk => by rw [Nat.mod_eq_of_lt (by have := Finset.mem_range.1 hk; omega)]

/-- A constant pressure on a closed line of straight and curved edges has no resultant. -/
theorem C87_closed (M : Nat) (c : Nat → Code) (gps : Nat → Nat) (X : Nat → Nat → Nat → ℝ) (F : Nat → List ℝ)
    (he : ∀ k < M, EdgeRule (c k) (gps k)) (hX : ∀ k < M, ∀ i, X k 1 i = X ((k + 1) % M) 0 i)
    (hF : ∀ k < M, elementPush Real.sqrt pi 2 (c k) (gps k) l (X k) = some (F k)) (ha : l.behaviour ≠ .axisymmetric) {q : ℝ}
    (h1 : ∀ x, l.normalPressure x = q) (h2 : ∀ x, l.pressure x = 0) (h3 : ∀ x, l.direction x = l.direction 0) (d : Nat) (hd : d < 2) :
    ∑ k ∈ Finset.range M, ∑ n ∈ Finset.range (nodes (c k)), entry (F k) (d * nodes (c k) + n) = 0 := by
  have key : ∀ i, ∑ k ∈ Finset.range M, (X k 1 i - X k 0 i) = 0 := fun i => by
    rw [Finset.sum_sub_distrib, Finset.sum_congr rfl fun k hk => hX k (Finset.mem_range.1 hk) i, sum_rotate M fun k => X k 0 i, sub_self]
  interval_cases d
  · rw [Finset.sum_congr rfl fun k hk => (C87_edge (he k (Finset.mem_range.1 hk)) (hF k (Finset.mem_range.1 hk)) ha h1 h2 h3).1, ← Finset.mul_sum]
    rw [Finset.sum_congr rfl fun k _ => show X k 0 1 - X k 1 1 = -(X k 1 1 - X k 0 1) by ring, Finset.sum_neg_distrib, key, neg_zero, mul_zero]
  · rw [Finset.sum_congr rfl fun k hk => (C87_edge (he k (Finset.mem_range.1 hk)) (hF k (Finset.mem_range.1 hk)) ha h1 h2 h3).2, ← Finset.mul_sum, key, mul_zero]

/-- The cross product of two places. -/
def crossOf (a b : Nat → ℝ) (d : Nat) : ℝ :=
  match d with
  | 0 => a 1 * b 2 - a 2 * b 1
  | 1 => a 2 * b 0 - a 0 * b 2
  | _ => a 0 * b 1 - a 1 * b 0

theorem triangle_inward (coords : Nat → Nat → ℝ) (r s : ℝ) (d : Nat) (hd : d < 3) : inwardAt 3 .triangle3 4 coords [r, s] d =
    -((crossOf (coords 0) (coords 1) d + crossOf (coords 1) (coords 2) d + crossOf (coords 2) (coords 0) d) * ((1 - s) / 8)) := by
  obtain ⟨tab, h', -⟩ := (C75_basis .triangle3 4).defined [r, s] rfl
  have e : tabAt .triangle3 4 [r, s] = tab := by simp [tabAt, h']
  have ht : ∀ i, tangentAt .triangle3 4 coords [r, s] 0 i = ∑ n ∈ Finset.range 3, slopeOf tab n 0 * coords n i := fun i => by rw [tangentAt, e]; rfl
  have ht1 : ∀ i, tangentAt .triangle3 4 coords [r, s] 1 i = ∑ n ∈ Finset.range 3, slopeOf tab n 1 * coords n i := fun i => by rw [tangentAt, e]; rfl
  rw [setAt_degraded rfl] at h'
  simp [degradedTerms, degrade, nOrder, terms4x2, nodes, edim, addTerm, wr] at h'
  subst h'
  unfold inwardAt
  simp only [ht, ht1, Finset.sum_range_succ, Finset.sum_range_zero, crossOf]
  interval_cases d <;> simp [slopeOf] <;> ring

/-- The resultant of a normal pressure on a triangle: half of the cross product of its edges, into the body. -/
theorem C87_triangle (h : elementPush Real.sqrt pi 3 .triangle3 4 l coords = some f) (ha : l.behaviour ≠ .axisymmetric) {q : ℝ}
    (h1 : ∀ x, l.normalPressure x = q) (h2 : ∀ x, l.pressure x = 0) (h3 : ∀ x, l.direction x = l.direction 0) (d : Nat) (hd : d < 3) :
    ∑ n ∈ Finset.range 3, entry f (d * 3 + n) =
      -(q / 2) * (crossOf (coords 0) (coords 1) d + crossOf (coords 1) (coords 2) d + crossOf (coords 2) (coords 0) d) := by
  have hb : IsBoundary 3 .triangle3 := .inr ⟨rfl, rfl⟩
  obtain ⟨pts, hp, -⟩ := C87_work_partial hb h (.inr ⟨fun x => by rw [h1, h1], fun x => by rw [h2, h2], h3⟩)
  have r0 := C87_resultant hb h hp ha h1 h2 h3 d hd
  rw [zero_mul, zero_mul, add_zero] at r0
  change ∑ n ∈ Finset.range 3, entry f (d * 3 + n) = _ at r0
  rw [r0]
  simp only [rulePoints, edim, getOrder, gauss, tensor, Option.bind_eq_bind, Option.bind_some, Option.pure_def, Option.some.injEq] at hp
  subst hp
  simp [ruleSum, triangle_inward _ _ _ d hd]
  ring

/-- The edges of triangles. -/
def edgesOf {ι : Type} (T : List (ι × ι × ι)) : List (ι × ι) := T.flatMap fun t => [(t.1, t.2.1), (t.2.1, t.2.2), (t.2.2, t.1)]

/-- The vertices of a triangle. -/
def vertexOf {ι : Type} (t : ι × ι × ι) (n : Nat) : ι := match n with | 0 => t.1 | 1 => t.2.1 | _ => t.2.2

theorem edges_cancel {ι : Type} [DecidableEq ι] (E : List (ι × ι)) (hE : ∀ u v, E.count (u, v) = E.count (v, u)) (h : ι → ι → ℝ) (ha : ∀ u v, h u v = -h v u) :
    (E.map fun e => h e.1 e.2).sum = 0 := by
  have hperm : (E.map Prod.swap).Perm E := by
    rw [List.perm_iff_count]
    rintro ⟨u, v⟩
    rw [hE u v, show ((u, v) : ι × ι) = Prod.swap (v, u) from rfl, List.count_map_of_injective _ _ Prod.swap_injective]
  have e1 : ((E.map Prod.swap).map fun e => h e.1 e.2).sum = (E.map fun e => h e.1 e.2).sum := (hperm.map _).sum_eq
  have e2 : ((E.map Prod.swap).map fun e => h e.1 e.2).sum = -(E.map fun e => h e.1 e.2).sum := by
    rw [List.map_map]
    have : ∀ E : List (ι × ι), (E.map ((fun e => h e.1 e.2) ∘ Prod.swap)).sum = -(E.map fun e => h e.1 e.2).sum := by
      intro E
      induction E with
      | nil => simp
      | cons e E ih => simp only [List.map_cons, List.sum_cons, ih, Function.comp, Prod.swap, ha e.2 e.1]; ring
    exact this E
  linarith

/-- A constant pressure on a closed surface of triangles has no resultant: the surface is closed if every edge is passed as often as its opposite. -/
theorem C87_closed_surface {ι : Type} [DecidableEq ι] (T : List (ι × ι × ι)) (X : ι → Nat → ℝ) (F : ι × ι × ι → List ℝ)
    (hE : ∀ u v, (edgesOf T).count (u, v) = (edgesOf T).count (v, u))
    (hF : ∀ t ∈ T, elementPush Real.sqrt pi 3 .triangle3 4 l (fun n => X (vertexOf t n)) = some (F t)) (ha : l.behaviour ≠ .axisymmetric) {q : ℝ}
    (h1 : ∀ x, l.normalPressure x = q) (h2 : ∀ x, l.pressure x = 0) (h3 : ∀ x, l.direction x = l.direction 0) (d : Nat) (hd : d < 3) :
    (T.map fun t => ∑ n ∈ Finset.range 3, entry (F t) (d * 3 + n)).sum = 0 := by
  have anti : ∀ u v, crossOf (X u) (X v) d = -crossOf (X v) (X u) d := by
    intro u v
    unfold crossOf
    split <;> ring
  have e1 : ∀ t ∈ T, ∑ n ∈ Finset.range 3, entry (F t) (d * 3 + n) =
      -(q / 2) * ([(t.1, t.2.1), (t.2.1, t.2.2), (t.2.2, t.1)].map fun e : ι × ι => crossOf (X e.1) (X e.2) d).sum := by
    intro t ht
    rw [C87_triangle (hF t ht) ha h1 h2 h3 d hd]
    simp [vertexOf, add_assoc]
  rw [List.map_congr_left e1, ← mul_list_sum]
  have e2 : (T.map fun t => ([(t.1, t.2.1), (t.2.1, t.2.2), (t.2.2, t.1)].map fun e : ι × ι => crossOf (X e.1) (X e.2) d).sum).sum =
      ((edgesOf T).map fun e => crossOf (X e.1) (X e.2) d).sum := by
    unfold edgesOf
    clear hE hF e1
    induction T with
    | nil => simp
    | cons t T ih => rw [List.map_cons, List.sum_cons, ih, List.flatMap_cons, List.map_append, List.sum_append]
  rw [e2, edges_cancel _ hE (fun u v => crossOf (X u) (X v) d) anti, mul_zero]

/-- The pressure `x` into the direction of `x`. -/
noncomputable def growing : Push ℝ := ⟨.planeStress, fun _ => 0, fun x => x 0, fun _ i => if i = 0 then 1 else 0⟩

/-- The code does not interpolate the coordinates to the points of the boundary (structuralmechanics.cpp:456): the forces of the pressure `x` vanish, although
they should not. -/
theorem C87_coordinates_wrong {ndim : Nat} (hb : IsBoundary ndim c) (hp : rulePoints Real.sqrt c gps = some pts) (pi : ℝ)
    (hJ : ∀ p ∈ pts, ∃ d < ndim, inwardAt ndim c gps coords p.1 d ≠ 0) (hx : ∃ p ∈ pts, placeAt c gps coords p.1 0 ≠ 0) :
    ∃ f V, elementPush Real.sqrt pi ndim c gps growing coords = some f ∧ (∀ W, workOf (ndim * nodes c) f W = 0) ∧
      0 < pushWork Real.sqrt pi ndim c gps growing coords pts V := by
  obtain ⟨f, hf⟩ := (C87_defined hb hp pi growing coords).2 hJ
  have hn : 0 < ndim := by rcases hb with ⟨h, -⟩ | ⟨h, -⟩ <;> omega
  refine ⟨f, along (nodes c) 0 fun n => coords n 0, hf, fun W => ?_, ?_⟩
  · obtain ⟨pts', hp', -, hw⟩ := elementPush_spec hb hf
    rw [hw]
    refine List.sum_eq_zero fun x hx => ?_
    obtain ⟨p, -, rfl⟩ := List.mem_map.1 hx
    simp [pushWorkCode, growing, seenAt]
  · have e : ∀ p ∈ pts, pushWorkAt Real.sqrt pi ndim c gps growing coords (along (nodes c) 0 fun n => coords n 0) p =
        p.2 * Real.sqrt (∑ i ∈ Finset.range ndim, inwardAt ndim c gps coords p.1 i ^ 2) * placeAt c gps coords p.1 0 ^ 2 := by
      intro p hpp
      unfold pushWorkAt aroundAt
      dsimp only
      rw [Finset.sum_eq_single 0]
      · rw [placeAt_along, if_neg (by simp [growing])]
        simp [growing]
        ring
      · intro e _ he
        rw [fieldAt_along, if_neg he, mul_zero]
      · intro h
        exact absurd (Finset.mem_range.2 hn) h
    have hnn : ∀ p ∈ pts, 0 ≤ p.2 * Real.sqrt (∑ i ∈ Finset.range ndim, inwardAt ndim c gps coords p.1 i ^ 2) * placeAt c gps coords p.1 0 ^ 2 := fun p hpp =>
      mul_nonneg (mul_nonneg (rule_positive hp p hpp).le (Real.sqrt_nonneg _)) (sq_nonneg _)
    rw [pushWork, List.map_congr_left e]
    obtain ⟨p, hpp, hne⟩ := hx
    refine lt_of_lt_of_le ?_ (List.single_le_sum (fun x hx => by obtain ⟨q, hq, rfl⟩ := List.mem_map.1 hx; exact hnn q hq) _ (List.mem_map.2 ⟨p, hpp, rfl⟩))
    obtain ⟨d, hd, hd'⟩ := hJ p hpp
    have : 0 < ∑ i ∈ Finset.range ndim, inwardAt ndim c gps coords p.1 i ^ 2 :=
      Finset.sum_pos' (fun i _ => sq_nonneg _) ⟨d, Finset.mem_range.2 hd, by positivity⟩
    exact mul_pos (mul_pos (rule_positive hp p hpp) (Real.sqrt_pos.2 this)) (by positivity)

/-- The edge from `(0, 0)` to `(2, 0)`: the body is above the edge, the pressure pushes upwards. -/
example : ∃ f, elementPush Real.sqrt 0 2 .line2 2 ⟨.planeStress, fun _ => 3, fun _ => 0, fun _ _ => 0⟩ (fun n i => if n = 1 ∧ i = 0 then 2 else 0) = some f ∧
    ∑ n ∈ Finset.range 2, entry f (1 * 2 + n) = 6 := by
  obtain ⟨pts, hp⟩ : ∃ pts, rulePoints Real.sqrt .line2 2 = some pts := ⟨_, rfl⟩
  obtain ⟨f, hf⟩ := (C87_defined (ndim := 2) (c := .line2) (.inl ⟨rfl, rfl⟩) hp 0 ⟨.planeStress, fun _ => 3, fun _ => 0, fun _ _ => 0⟩
    (fun n i => if n = 1 ∧ i = 0 then 2 else 0)).2 fun p hpp => by
      obtain ⟨r, e⟩ := List.length_eq_one_iff.1 (rule_length hp p hpp)
      rw [e]
      refine ⟨1, by decide, ?_⟩
      rw [show ∀ X : Nat → Nat → ℝ, inwardAt 2 .line2 2 X [r] 1 = tangentAt .line2 2 X [r] 0 0 from fun _ => rfl, line2_tangent]
      norm_num
  refine ⟨f, hf, ?_⟩
  have := (C87_edge (q := 3) (.inl ⟨rfl, rfl⟩) hf (by simp) (fun _ => rfl) (fun _ => rfl) (fun _ => rfl)).2
  change ∑ n ∈ Finset.range 2, entry f (1 * 2 + n) = _ at this
  rw [this]
  norm_num

/-- The surface of a tetrahedron is closed. -/
example : ∀ u v : Fin 4, (edgesOf [(0, 2, 1), (0, 1, 3), (1, 2, 3), (2, 0, 3)]).count (u, v) = (edgesOf [(0, 2, 1), (0, 1, 3), (1, 2, 3), (2, 0, 3)]).count (v, u) := by
  decide

end Verif.Fem
