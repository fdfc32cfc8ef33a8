import Verif.Proof.Loads
/-!
C85: the loads of the volume; C86: the mass matrix; C87: the loads of a boundary.
-/
namespace Verif.Fem

section
variable {K : Type} [Field K]

/-- A loop whose steps add to the work of a vector. -/
theorem workLoop {ι : Type} (M : Nat) (step : List K → ι → Option (List K)) (val : ι → (Nat → K) → K) (R : ι → Prop) (pts : List ι)
    (h : ∀ p ∈ pts, ∀ A : List K, A.length = M → ((step A p).isSome ↔ R p) ∧
      ∀ B, step A p = some B → B.length = M ∧ ∀ V, workOf M B V = workOf M A V + val p V) (A : List K) (hA : A.length = M) :
    ((pts.foldlM step A).isSome ↔ ∀ p ∈ pts, R p) ∧
    ∀ B, pts.foldlM step A = some B → B.length = M ∧ ∀ V, workOf M B V = workOf M A V + (pts.map fun p => val p V).sum := by
  induction pts generalizing A with
  | nil => simp [hA]
  | cons p pts ih =>
    obtain ⟨h1, h2⟩ := h p (by simp) A hA
    rw [List.foldlM_cons]
    cases hs : step A p with
    | none =>
      have : ¬ R p := fun hr => by rw [hs] at h1; simp [hr] at h1
      simp [this]
    | some B =>
      obtain ⟨b1, b2⟩ := h2 B hs
      have hR : R p := h1.1 (by rw [hs]; rfl)
      obtain ⟨i1, i2⟩ := ih (fun q hq => h q (by simp [hq])) B b1
      simp only [Option.bind_eq_bind, Option.bind_some]
      refine ⟨by rw [i1]; simp [hR], fun C hC => ?_⟩
      obtain ⟨c1, c2⟩ := i2 C hC
      exact ⟨c1, fun V => by rw [c2, b2, List.map_cons, List.sum_cons, add_assoc]⟩

end

section
variable {K : Type} [Field K] [DecidableEq K]

/-- The place of a point as the kernels see it. -/
def seenAt (toGPs : Bool) (c : Code) (gps : Nat) (coords : Nat → Nat → K) (p : List K) (d : Nat) : K := if toGPs then placeAt c gps coords p d else 0

/-- What the kernels add in a point: as `bodyWork`, but with the place as the kernels see it and without the mixed products of the angular velocity. -/
def bodyWorkCode (pi : K) (c : Code) (gps : Nat) (m : Body K) (thickness : Nat → K) (coords : Nat → Nat → K) (p : List K × K) (V : Nat → K) : K :=
  volumeAt pi m.behaviour c gps thickness coords p.1 * p.2 * m.density (seenAt m.gpcoo c gps coords p.1) *
    ∑ d ∈ Finset.range (edim c), (pullOf (edim c) m.behaviour (m.acceleration (seenAt m.gpcoo c gps coords p.1)) d +
      match m.angular with
      | none => 0
      | some o => spinCode (edim c) (spinOf (edim c) m.behaviour (o (seenAt m.gpcoo c gps coords p.1))) (spaceAt c gps coords p.1) d) * fieldAt c gps V p.1 d

theorem bodyPoint_spec {c : Code} {gps : Nat} (hd : edim c = 2 ∨ edim c = 3) (pi : K) (m : Body K) (thickness : Nat → K) (coords : Nat → Nat → K)
    (p : List K × K) (f : List K) (hf : f.length = edim c * nodes c) :
    ((bodyPoint pi c gps m thickness coords f p).isSome ↔ Regular c gps coords p.1) ∧
    ∀ g, bodyPoint pi c gps m thickness coords f p = some g → g.length = edim c * nodes c ∧
      ∀ V, workOf (edim c * nodes c) g V = workOf (edim c * nodes c) f V + bodyWorkCode pi c gps m thickness coords p V := by
  unfold bodyPoint Regular
  cases ht : setAt c gps p.1 with
  | none => simp
  | some tab =>
    cases hg : integrate (edim c) (nodes c) (slopeOf tab) coords with
    | none => simp [hg]
    | some g =>
      have e1 : tabAt c gps p.1 = tab := by simp [tabAt, ht]
      have e2 : geometryAt c gps coords p.1 = g := by simp [geometryAt, e1, hg]
      have e3 : gpCoords m.gpcoo (nodes c) tab coords = seenAt m.gpcoo c gps coords p.1 := by
        funext d
        simp only [gpCoords, seenAt, placeAt, e1, pointCoordinate, sumLoop_eq]
      have e4 : ∀ h : edim c = 2, thicknessAt (nodes c) tab thickness = thickAt c gps thickness p.1 := by
        intro h
        rw [thickAt, if_pos h, e1, thicknessAt_eq]
      simp only [Option.bind_eq_bind, Option.bind_some, hg, e3]
      obtain ⟨B, b1, b2, b3⟩ := accelerationLoads_work hd m.behaviour pi (nodes c) (thicknessAt (nodes c) tab thickness) g.det p.2
        (m.density (seenAt m.gpcoo c gps coords p.1)) (seenAt m.gpcoo c gps coords p.1) (valueOf tab) (m.acceleration (seenAt m.gpcoo c gps coords p.1)) hf
      rw [b1]
      simp only [Option.bind_some]
      have vol : (if edim c = 2 then (if m.behaviour = .axisymmetric then 2 * pi * seenAt m.gpcoo c gps coords p.1 0 else
          thicknessAt (nodes c) tab thickness) else 1) * g.det = volumeAt pi m.behaviour c gps thickness coords p.1 := by
        unfold volumeAt
        rw [e2]
        congr 1
        by_cases h : edim c = 2
        · by_cases hb : m.behaviour = .axisymmetric
          · simp [h, hb, seenAt, Body.gpcoo]
          · simp [h, hb, e4 h]
        · simp [h, thickAt]
      have fld : ∀ V : Nat → K, ∀ e, ∑ n ∈ Finset.range (nodes c), valueOf tab n * V (e * nodes c + n) = fieldAt c gps V p.1 e := fun V e => by
        simp [fieldAt, e1]
      simp only [fld, mul_assoc] at b3
      simp only [← mul_assoc] at b3
      rw [vol] at b3
      cases ha : m.angular with
      | none =>
        refine ⟨by simp [hg], fun g' hg' => ?_⟩
        obtain rfl := Option.some.inj hg'
        refine ⟨b2, fun V => ?_⟩
        rw [b3]
        simp [bodyWorkCode, ha]
      | some o =>
        obtain ⟨C, c1, c2, c3⟩ := angularLoads_work hd m.behaviour pi (nodes c) (thicknessAt (nodes c) tab thickness) g.det p.2
          (m.density (seenAt m.gpcoo c gps coords p.1)) (seenAt m.gpcoo c gps coords p.1) (valueOf tab) (o (seenAt m.gpcoo c gps coords p.1)) b2
        dsimp only
        rw [c1]
        refine ⟨by simp [hg], fun g' hg' => ?_⟩
        obtain rfl := Option.some.inj hg'
        refine ⟨c2, fun V => ?_⟩
        simp only [fld, mul_assoc] at c3
        simp only [← mul_assoc] at c3
        rw [vol] at c3
        rw [c3, b3]
        have hs : (fun i => if edim c = 2 ∧ i = 2 then 0 else seenAt m.gpcoo c gps coords p.1 i) = spaceAt c gps coords p.1 := by
          funext i
          have hgp : m.gpcoo = true := by simp [Body.gpcoo, ha]
          rw [hgp]
          simp [spaceAt, seenAt]
        rw [hs]
        simp only [bodyWorkCode, ha, add_mul, Finset.sum_add_distrib, mul_add, add_assoc]

theorem elementBody_spec {sqrt : K → K} {pi : K} {c : Code} {gps : Nat} (hd : edim c = 2 ∨ edim c = 3) {m : Body K} {thickness : Nat → K}
    {coords : Nat → Nat → K} {f : List K} (h : elementBody sqrt pi c gps m thickness coords = some f) :
    ∃ pts, rulePoints sqrt c gps = some pts ∧ f.length = edim c * nodes c ∧
      ∀ V, workOf (edim c * nodes c) f V = (pts.map fun p => bodyWorkCode pi c gps m thickness coords p V).sum := by
  unfold elementBody at h
  simp only [Option.bind_eq_bind, Option.bind_eq_some_iff] at h
  obtain ⟨pts, hp, hB⟩ := h
  obtain ⟨-, h2⟩ := workLoop (edim c * nodes c) (bodyPoint pi c gps m thickness coords) (fun p V => bodyWorkCode pi c gps m thickness coords p V) _ pts
    (fun p _ A hA => bodyPoint_spec hd pi m thickness coords p A hA) (List.replicate (edim c * nodes c) 0) (by simp)
  obtain ⟨h3, h4⟩ := h2 f hB
  exact ⟨pts, hp, h3, fun V => by rw [h4, workOf_zero, zero_add]⟩

/-- The forces on the volume: for every displacement `V` of the nodes, the work of the right-hand side is the quadrature of `∫ ρ (a - o × (o × x)) · V` over the
volume. Partial: the rotation in space is around an axis of the coordinates (`C85_angular_wrong`) and, if the code does not interpolate the coordinates to the
points, the density and the acceleration are constants (`C85_coordinates_wrong`). -/
theorem C85_work_partial {sqrt : K → K} {pi : K} {c : Code} {gps : Nat} (hd : edim c = 2 ∨ edim c = 3) {m : Body K} {thickness : Nat → K}
    {coords : Nat → Nat → K} {f : List K} (h : elementBody sqrt pi c gps m thickness coords = some f)
    (hx : m.gpcoo = true ∨ (∀ x, m.density x = m.density 0) ∧ ∀ x, m.acceleration x = m.acceleration 0)
    (ho : edim c = 3 → ∀ o, m.angular = some o → ∀ x, ∀ i < 3, ∀ j < 3, i ≠ j → o x i * o x j = 0) :
    ∃ pts, rulePoints sqrt c gps = some pts ∧ f.length = edim c * nodes c ∧
      ∀ V, workOf (edim c * nodes c) f V = bodyWork pi c gps m thickness coords pts V := by
  obtain ⟨pts, hp, hl, hw⟩ := elementBody_spec hd h
  refine ⟨pts, hp, hl, fun V => ?_⟩
  rw [hw, bodyWork]
  refine congrArg List.sum (List.map_congr_left fun p _ => ?_)
  unfold bodyWorkCode bodyWorkAt
  have e1 : m.density (seenAt m.gpcoo c gps coords p.1) = m.density (placeAt c gps coords p.1) := by
    rcases hx with hx | ⟨hx, -⟩
    · congr 1; funext d; simp [seenAt, hx]
    · rw [hx, ← hx (placeAt c gps coords p.1)]
  have e2 : m.acceleration (seenAt m.gpcoo c gps coords p.1) = m.acceleration (placeAt c gps coords p.1) := by
    rcases hx with hx | ⟨-, hx⟩
    · congr 1; funext d; simp [seenAt, hx]
    · rw [hx, ← hx (placeAt c gps coords p.1)]
  rw [e1, e2]
  refine congrArg _ (Finset.sum_congr rfl fun d hd' => ?_)
  congr 2
  cases ha : m.angular with
  | none => rfl
  | some o =>
    dsimp only
    have hs : seenAt m.gpcoo c gps coords p.1 = placeAt c gps coords p.1 := by
      funext i; simp [seenAt, Body.gpcoo, ha]
    rw [hs]
    unfold spinCode
    split
    · rename_i h3
      have hd' := Finset.mem_range.1 hd'
      rw [h3] at hd'
      have h01 := ho h3 o ha (placeAt c gps coords p.1) 0 (by decide) 1 (by decide) (by decide)
      have h02 := ho h3 o ha (placeAt c gps coords p.1) 0 (by decide) 2 (by decide) (by decide)
      have h12 := ho h3 o ha (placeAt c gps coords p.1) 1 (by decide) 2 (by decide) (by decide)
      simp only [centrifugal, spinOf, h3, show ¬ (3 = 2) by decide, if_false]
      interval_cases d
      · linear_combination spaceAt c gps coords p.1 1 * h01 + spaceAt c gps coords p.1 2 * h02
      · linear_combination spaceAt c gps coords p.1 0 * h01 + spaceAt c gps coords p.1 2 * h12
      · linear_combination spaceAt c gps coords p.1 0 * h02 + spaceAt c gps coords p.1 1 * h12
    · rfl

end

end Verif.Fem
