import Verif.Prop.Mass
/-!
C87: the loads of a boundary.
-/
namespace Verif.Fem

variable {ndim : Nat} {c : Code} {gps : Nat} {coords : Nat → Nat → ℝ} {pi : ℝ} {l : Push ℝ} {f : List ℝ} {pts : List (List ℝ × ℝ)}

/-- The boundary elements: edges in the plane and faces in space. -/
def IsBoundary (ndim : Nat) (c : Code) : Prop := ndim = 2 ∧ edim c = 1 ∨ ndim = 3 ∧ edim c = 2

theorem tangent_eq {tab : List (ℝ × List ℝ)} {p : List ℝ} (ht : setAt c gps p = some tab) :
    tangent (nodes c) (slopeOf tab) coords = tangentAt c gps coords p := by
  funext j i
  simp [tangent, tangentAt, tabAt, ht]

theorem surface_spec (hb : IsBoundary ndim c) {tab : List (ℝ × List ℝ)} {p : List ℝ} (ht : setAt c gps p = some tab) (coords : Nat → Nat → ℝ) :
    ((surfaceOf Real.sqrt ndim (edim c) (nodes c) (slopeOf tab) coords).isSome ↔ ∃ d < ndim, inwardAt ndim c gps coords p d ≠ 0) ∧
    ∀ S, surfaceOf Real.sqrt ndim (edim c) (nodes c) (slopeOf tab) coords = some S →
      S.det = Real.sqrt (∑ i ∈ Finset.range ndim, inwardAt ndim c gps coords p i ^ 2) ∧
      ∀ d < ndim, S.det * (if ndim = 2 then S.normal d else -S.normal d) = inwardAt ndim c gps coords p d := by
  rcases hb with ⟨rfl, he⟩ | ⟨rfl, he⟩
  · rw [he]
    have hD : (List.range (nodes c)).foldl (fun (D : ℝ × ℝ) n => (D.1 + slopeOf tab n 0 * coords n 0, D.2 + slopeOf tab n 0 * coords n 1)) (0, 0) =
        (tangentAt c gps coords p 0 0, tangentAt c gps coords p 0 1) := by
      rw [← tangent_eq ht]
      refine Prod.ext ?_ ?_
      · exact (foldl_sum _ (fun D : ℝ × ℝ => D.1) _ (fun _ _ => rfl) _ _).trans (zero_add _)
      · exact (foldl_sum _ (fun D : ℝ × ℝ => D.2) _ (fun _ _ => rfl) _ _).trans (zero_add _)
    have e : surfaceOf Real.sqrt 2 1 (nodes c) (slopeOf tab) coords =
        (fun D : ℝ × ℝ => let det := Real.sqrt (D.1 * D.1 + D.2 * D.2)
          if det = 0 then none else some { det := det, normal := fun d => match d with | 0 => -D.2 / det | _ => D.1 / det })
        ((List.range (nodes c)).foldl (fun (D : ℝ × ℝ) n => (D.1 + slopeOf tab n 0 * coords n 0, D.2 + slopeOf tab n 0 * coords n 1)) (0, 0)) := rfl
    rw [e, hD]
    dsimp only
    set a := tangentAt c gps coords p 0 0 with ha
    set b := tangentAt c gps coords p 0 1 with hb
    have i0 : inwardAt 2 c gps coords p 0 = -b := rfl
    have i1 : inwardAt 2 c gps coords p 1 = a := rfl
    have hs : ∑ i ∈ Finset.range 2, inwardAt 2 c gps coords p i ^ 2 = a * a + b * b := by
      rw [Finset.sum_range_succ, Finset.sum_range_succ, Finset.sum_range_zero, i0, i1]; ring
    have h0 : 0 ≤ a * a + b * b := add_nonneg (mul_self_nonneg _) (mul_self_nonneg _)
    rw [hs]
    constructor
    · rw [Option.isSome_iff_exists]
      constructor
      · rintro ⟨S, hS⟩
        by_contra hall
        push Not at hall
        have z0 := hall 0 (by decide)
        have z1 := hall 1 (by decide)
        rw [i0] at z0; rw [i1] at z1
        rw [if_pos (by rw [z1, neg_eq_zero.1 z0]; simp)] at hS
        cases hS
      · rintro ⟨d, hd, hne⟩
        rw [if_neg]
        · exact ⟨_, rfl⟩
        · rw [Real.sqrt_eq_zero h0]
          intro hz
          have za : a = 0 := by nlinarith [mul_self_nonneg a, mul_self_nonneg b]
          have zb : b = 0 := by nlinarith [mul_self_nonneg a, mul_self_nonneg b]
          interval_cases d
          · exact hne (by rw [i0, zb, neg_zero])
          · exact hne (by rw [i1, za])
    · intro S hS
      split at hS
      · cases hS
      rename_i hne
      obtain rfl := Option.some.inj hS
      refine ⟨rfl, fun d hd => ?_⟩
      interval_cases d
      · rw [if_pos rfl, i0]; exact mul_div_cancel₀ _ hne
      · rw [if_pos rfl, i1]; exact mul_div_cancel₀ _ hne
  · rw [he]
    have e : surfaceOf Real.sqrt 3 2 (nodes c) (slopeOf tab) coords = face3 Real.sqrt (nodes c) (slopeOf tab) coords := rfl
    have hf := face3_eq (nodes c) (slopeOf tab) coords
    dsimp only at hf
    rw [e, hf, tangent_eq ht]
    set t := tangentAt c gps coords p with ht'
    set x := t 0 1 * t 1 2 - t 0 2 * t 1 1 with hx
    set y := t 0 2 * t 1 0 - t 0 0 * t 1 2 with hy
    set z := t 0 0 * t 1 1 - t 0 1 * t 1 0 with hz
    have i0 : inwardAt 3 c gps coords p 0 = -x := rfl
    have i1 : inwardAt 3 c gps coords p 1 = -y := rfl
    have i2 : inwardAt 3 c gps coords p 2 = -z := rfl
    have hs : ∑ i ∈ Finset.range 3, inwardAt 3 c gps coords p i ^ 2 = x * x + y * y + z * z := by
      rw [Finset.sum_range_succ, Finset.sum_range_succ, Finset.sum_range_succ, Finset.sum_range_zero, i0, i1, i2]; ring
    have h0 : 0 ≤ x * x + y * y + z * z := add_nonneg (add_nonneg (mul_self_nonneg _) (mul_self_nonneg _)) (mul_self_nonneg _)
    rw [hs]
    constructor
    · rw [Option.isSome_iff_exists]
      constructor
      · rintro ⟨S, hS⟩
        by_contra hall
        push Not at hall
        have z0 := hall 0 (by decide)
        have z1 := hall 1 (by decide)
        have z2 := hall 2 (by decide)
        rw [i0] at z0; rw [i1] at z1; rw [i2] at z2
        rw [if_pos (by rw [neg_eq_zero.1 z0, neg_eq_zero.1 z1, neg_eq_zero.1 z2]; simp)] at hS
        cases hS
      · rintro ⟨d, hd, hne⟩
        rw [if_neg]
        · exact ⟨_, rfl⟩
        · rw [Real.sqrt_eq_zero h0]
          intro hq
          have zx : x = 0 := by nlinarith [mul_self_nonneg x, mul_self_nonneg y, mul_self_nonneg z]
          have zy : y = 0 := by nlinarith [mul_self_nonneg x, mul_self_nonneg y, mul_self_nonneg z]
          have zz : z = 0 := by nlinarith [mul_self_nonneg x, mul_self_nonneg y, mul_self_nonneg z]
          interval_cases d
          · exact hne (by rw [i0, zx, neg_zero])
          · exact hne (by rw [i1, zy, neg_zero])
          · exact hne (by rw [i2, zz, neg_zero])
    · intro S hS
      split at hS
      · cases hS
      rename_i hne
      obtain rfl := Option.some.inj hS
      refine ⟨rfl, fun d hd => ?_⟩
      interval_cases d
      · rw [if_neg (by decide), i0, mul_neg]; exact congrArg Neg.neg (mul_div_cancel₀ _ hne)
      · rw [if_neg (by decide), i1, mul_neg]; exact congrArg Neg.neg (mul_div_cancel₀ _ hne)
      · rw [if_neg (by decide), i2, mul_neg]; exact congrArg Neg.neg (mul_div_cancel₀ _ hne)

/-- What the kernels add in a point: as `pushWorkAt`, but with the place as the kernels see it. -/
noncomputable def pushWorkCode (pi : ℝ) (ndim : Nat) (c : Code) (gps : Nat) (l : Push ℝ) (coords : Nat → Nat → ℝ) (p : List ℝ × ℝ) (V : Nat → ℝ) : ℝ :=
  let x := seenAt (decide (l.behaviour = .axisymmetric)) c gps coords p.1
  let n := inwardAt ndim c gps coords p.1
  aroundAt pi ndim l.behaviour c gps coords p.1 * p.2 * ∑ d ∈ Finset.range ndim,
    (l.normalPressure x * n d + l.pressure x * Real.sqrt (∑ i ∈ Finset.range ndim, n i ^ 2) * l.direction x d) * fieldAt c gps V p.1 d

theorem pushPoint_spec (hb : IsBoundary ndim c) (pi : ℝ) (l : Push ℝ) (coords : Nat → Nat → ℝ) (p : List ℝ × ℝ) (hp : p.1.length = edim c) (f : List ℝ)
    (hf : f.length = ndim * nodes c) :
    ((pushPoint Real.sqrt pi ndim c gps l coords f p).isSome ↔ ∃ d < ndim, inwardAt ndim c gps coords p.1 d ≠ 0) ∧
    ∀ g, pushPoint Real.sqrt pi ndim c gps l coords f p = some g → g.length = ndim * nodes c ∧
      ∀ V, workOf (ndim * nodes c) g V = workOf (ndim * nodes c) f V + pushWorkCode pi ndim c gps l coords p V := by
  have hn : ndim = 2 ∨ ndim = 3 := hb.imp And.left And.left
  obtain ⟨tab, ht, -⟩ := (C75_basis c gps).defined p.1 hp
  obtain ⟨s1, s2⟩ := surface_spec hb ht coords
  rw [← s1]
  unfold pushPoint
  rw [ht]
  simp only [Option.bind_eq_bind, Option.bind_some]
  cases hS : surfaceOf Real.sqrt ndim (edim c) (nodes c) (slopeOf tab) coords with
  | none => simp
  | some S =>
    obtain ⟨s3, s4⟩ := s2 S hS
    have e1 : tabAt c gps p.1 = tab := by simp [tabAt, ht]
    have e3 : gpCoords (decide (l.behaviour = .axisymmetric)) (nodes c) tab coords = seenAt (decide (l.behaviour = .axisymmetric)) c gps coords p.1 := by
      funext d
      simp only [gpCoords, seenAt, placeAt, e1, pointCoordinate, sumLoop_eq]
    have ha : (if ndim = 2 ∧ l.behaviour = .axisymmetric then 2 * pi * seenAt (decide (l.behaviour = .axisymmetric)) c gps coords p.1 0 else 1) =
        aroundAt pi ndim l.behaviour c gps coords p.1 := by
      unfold aroundAt
      split
      · rename_i h; simp [seenAt, h.2]
      · rfl
    simp only [Option.bind_some, e3]
    rw [normalPressureLoads_eq hn]
    obtain ⟨B, b1, b2, b3⟩ := pressureLoads_work hn l.behaviour pi (nodes c) S.det p.2 (seenAt (decide (l.behaviour = .axisymmetric)) c gps coords p.1) (valueOf tab)
      (l.normalPressure (seenAt (decide (l.behaviour = .axisymmetric)) c gps coords p.1)) (fun e => if ndim = 2 then S.normal e else -S.normal e) hf
    obtain ⟨C, c1, c2, c3⟩ := pressureLoads_work hn l.behaviour pi (nodes c) S.det p.2 (seenAt (decide (l.behaviour = .axisymmetric)) c gps coords p.1) (valueOf tab)
      (l.pressure (seenAt (decide (l.behaviour = .axisymmetric)) c gps coords p.1)) (l.direction (seenAt (decide (l.behaviour = .axisymmetric)) c gps coords p.1)) b2
    rw [b1]
    simp only [Option.bind_some]
    rw [c1]
    refine ⟨by simp, fun g hg => ?_⟩
    obtain rfl := Option.some.inj hg
    refine ⟨c2, fun V => ?_⟩
    have fld : ∀ V : Nat → ℝ, ∀ e, ∑ n ∈ Finset.range (nodes c), valueOf tab n * V (e * nodes c + n) = fieldAt c gps V p.1 e := fun V e => by
      simp [fieldAt, e1]
    simp only [fld] at b3 c3
    rw [c3, b3, ha, add_assoc]
    congr 1
    unfold pushWorkCode
    dsimp only
    rw [← s3, Finset.mul_sum, Finset.mul_sum, Finset.mul_sum, ← Finset.sum_add_distrib]
    refine Finset.sum_congr rfl fun d hd => ?_
    rw [← s4 d (Finset.mem_range.1 hd)]
    ring

/-- The kernels divide by zero exactly if the surface is degenerate in a point of the rule. -/
theorem C87_defined (hb : IsBoundary ndim c) (hp : rulePoints Real.sqrt c gps = some pts) (pi : ℝ) (l : Push ℝ) (coords : Nat → Nat → ℝ) :
    (∃ f, elementPush Real.sqrt pi ndim c gps l coords = some f) ↔ ∀ p ∈ pts, ∃ d < ndim, inwardAt ndim c gps coords p.1 d ≠ 0 := by
  unfold elementPush
  rw [hp]
  simp only [Option.bind_eq_bind, Option.bind_some]
  rw [← Option.isSome_iff_exists]
  exact (workLoop (ndim * nodes c) (pushPoint Real.sqrt pi ndim c gps l coords) (fun p V => pushWorkCode pi ndim c gps l coords p V)
    (fun p => ∃ d < ndim, inwardAt ndim c gps coords p.1 d ≠ 0) pts
    (fun p hpp A hA => pushPoint_spec hb pi l coords p (rule_length hp p hpp) A hA) _ (by simp)).1

theorem elementPush_spec (hb : IsBoundary ndim c) (h : elementPush Real.sqrt pi ndim c gps l coords = some f) :
    ∃ pts, rulePoints Real.sqrt c gps = some pts ∧ f.length = ndim * nodes c ∧
      ∀ V, workOf (ndim * nodes c) f V = (pts.map fun p => pushWorkCode pi ndim c gps l coords p V).sum := by
  unfold elementPush at h
  simp only [Option.bind_eq_bind, Option.bind_eq_some_iff] at h
  obtain ⟨pts, hp, hB⟩ := h
  obtain ⟨-, h2⟩ := workLoop (ndim * nodes c) (pushPoint Real.sqrt pi ndim c gps l coords) (fun p V => pushWorkCode pi ndim c gps l coords p V)
    (fun p => ∃ d < ndim, inwardAt ndim c gps coords p.1 d ≠ 0) pts
    (fun p hpp A hA => pushPoint_spec hb pi l coords p (rule_length hp p hpp) A hA) (List.replicate (ndim * nodes c) 0) (by simp)
  obtain ⟨h3, h4⟩ := h2 f hB
  exact ⟨pts, hp, h3, fun V => by rw [h4, workOf_zero, zero_add]⟩

/-- The pressures: for every displacement of the nodes, the work of the right-hand side is the quadrature of the work of the pressures over the boundary; the
normal pressure pushes into the body. Partial: if the body is not axisymmetric, the pressures are constants (`C87_coordinates_wrong`). -/
theorem C87_work_partial (hb : IsBoundary ndim c) (h : elementPush Real.sqrt pi ndim c gps l coords = some f)
    (hx : l.behaviour = .axisymmetric ∨ (∀ x, l.normalPressure x = l.normalPressure 0) ∧ (∀ x, l.pressure x = l.pressure 0) ∧ ∀ x, l.direction x = l.direction 0) :
    ∃ pts, rulePoints Real.sqrt c gps = some pts ∧ f.length = ndim * nodes c ∧
      ∀ V, workOf (ndim * nodes c) f V = pushWork Real.sqrt pi ndim c gps l coords pts V := by
  obtain ⟨pts, hp, hl, hw⟩ := elementPush_spec hb h
  refine ⟨pts, hp, hl, fun V => ?_⟩
  rw [hw, pushWork]
  refine congrArg List.sum (List.map_congr_left fun p _ => ?_)
  rcases hx with hx | ⟨h1, h2, h3⟩
  · have : seenAt (decide (l.behaviour = .axisymmetric)) c gps coords p.1 = placeAt c gps coords p.1 := by
      funext d; simp [seenAt, hx]
    simp only [pushWorkCode, pushWorkAt, this]
  · simp only [pushWorkCode, pushWorkAt]
    rw [h1, h2, h3, h1 (placeAt c gps coords p.1), h2 (placeAt c gps coords p.1), h3 (placeAt c gps coords p.1)]

/-- The resultant of constant pressures: the normal pressure times the vector of the surface, the other pressure times the area into its direction. -/
theorem C87_resultant (hb : IsBoundary ndim c) (h : elementPush Real.sqrt pi ndim c gps l coords = some f) (hp : rulePoints Real.sqrt c gps = some pts)
    (ha : l.behaviour ≠ .axisymmetric) {q r : ℝ} {e : Nat → ℝ} (h1 : ∀ x, l.normalPressure x = q) (h2 : ∀ x, l.pressure x = r) (h3 : ∀ x, l.direction x = e)
    (d : Nat) (hd : d < ndim) :
    ∑ n ∈ Finset.range (nodes c), entry f (d * nodes c + n) = q * (ruleSum pts fun p => inwardAt ndim c gps coords p d) +
      r * e d * ruleSum pts fun p => Real.sqrt (∑ i ∈ Finset.range ndim, inwardAt ndim c gps coords p i ^ 2) := by
  obtain ⟨pts', hp', -, hw⟩ := C87_work_partial hb h (.inr ⟨fun x => by rw [h1, h1], fun x => by rw [h2, h2], fun x => by rw [h3, h3]⟩)
  rw [hp] at hp'
  obtain rfl := Option.some.inj hp'
  have e' := hw (along (nodes c) d fun _ => 1)
  rw [workOf_along hd] at e'
  simp only [mul_one] at e'
  rw [e', pushWork, ruleSum, ruleSum, mul_list_sum, mul_list_sum, ← List.sum_map_add]
  refine congrArg List.sum (List.map_congr_left fun p hpp => ?_)
  unfold pushWorkAt aroundAt
  rw [if_neg fun h => ha h.2]
  dsimp only
  rw [Finset.sum_eq_single d]
  · have : fieldAt c gps (along (nodes c) d fun _ => 1) p.1 d = 1 := fieldAt_const hp hpp fun n hn => along_same hn _
    rw [this, h1, h2, h3]
    ring
  · intro e _ he
    rw [fieldAt_along, if_neg he, mul_zero]
  · intro h
    exact absurd (Finset.mem_range.2 hd) h

end Verif.Fem
