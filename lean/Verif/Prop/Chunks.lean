import Verif.Model.Chunks
import Verif.Prop.BaseFunctions
import Verif.Proof.ElementVolume
import Mathlib.Algebra.BigOperators.Group.List.Basic
import Mathlib.Data.List.TakeDrop
/-!
C78: the measure of an interval of elements and the heat through a boundary.
-/
namespace Verif.Fem

section
variable {E K : Type} [Field K]

theorem loadLanes_full (zero : E) : ∀ (lanes enodes : List E), lanes.length ≤ enodes.length →
    loadLanes zero lanes enodes = (enodes.take lanes.length, enodes.drop lanes.length)
  | [], enodes, _ => by simp [loadLanes]
  | _ :: lanes, [], h => by simp at h
  | _ :: lanes, e :: enodes, h => by simp [loadLanes, loadLanes_full zero lanes enodes (by simpa using h)]

theorem loadLanes_end (zero : E) : ∀ (lanes enodes : List E), enodes.length < lanes.length →
    loadLanes zero lanes enodes = (enodes ++ zero :: lanes.drop (enodes.length + 1), [])
  | [], enodes, h => by simp at h
  | _ :: lanes, [], _ => by simp [loadLanes]
  | _ :: lanes, e :: enodes, h => by simp [loadLanes, loadLanes_end zero lanes enodes (by simpa using h)]

theorem zipWith_sum : ∀ (a b : List K), a.length = b.length → (List.zipWith (· + ·) a b).sum = a.sum + b.sum
  | [], [], _ => by simp
  | x :: a, y :: b, h => by
    rw [List.zipWith_cons_cons, List.sum_cons, zipWith_sum a b (by simpa using h), List.sum_cons, List.sum_cons]
    ring
  | [], _ :: _, h => by simp at h
  | _ :: _, [], h => by simp at h

theorem foldl_add_sum (l : List K) (a : K) : l.foldl (· + ·) a = a + l.sum := by
  induction l generalizing a with
  | nil => simp
  | cons x l ih => rw [List.foldl_cons, ih, List.sum_cons, add_assoc]

/-- The elements counted twice: in the lanes behind the lane that is set to zero, the elements of the last full chunk. -/
def stale (size : Nat) (elements : List E) : List E :=
  if elements.length % size = 0 ∨ elements.length < size then []
  else ((elements.drop ((elements.length / size - 1) * size)).take size).drop (elements.length % size + 1)

theorem fullChunks (size : Nat) (zero : E) (measure : E → K) (elements : List E) (k : Nat) (hk : k * size ≤ elements.length) :
    let s := (List.range k).foldl (fun s _ => measureChunk zero measure s) ⟨List.replicate size zero, elements, List.replicate size 0⟩
    s.coords = (if k = 0 then List.replicate size zero else (elements.drop ((k - 1) * size)).take size) ∧ s.enodes = elements.drop (k * size) ∧
      s.volume.length = size ∧ s.volume.sum = ((elements.take (k * size)).map measure).sum := by
  induction k with
  | zero => simp
  | succ k ih =>
    have hk' : (k + 1) * size = k * size + size := by ring
    have ih := ih (by omega)
    dsimp only at ih ⊢
    rw [List.range_succ, List.foldl_append, List.foldl_cons, List.foldl_nil]
    generalize (List.range k).foldl (fun s _ => measureChunk zero measure s) ⟨List.replicate size zero, elements, List.replicate size 0⟩ = s at ih ⊢
    obtain ⟨h1, h2, h3, h4⟩ := ih
    have hl : s.coords.length = size := by
      rw [h1]
      split
      · simp
      · rename_i hne
        obtain ⟨j, rfl⟩ : ∃ j, k = j + 1 := ⟨k - 1, by omega⟩
        have : (j + 1) * size = j * size + size := by ring
        simp only [List.length_take, List.length_drop, Nat.add_sub_cancel]
        omega
    have hload := loadLanes_full zero s.coords s.enodes (by rw [hl, h2, List.length_drop]; omega)
    rw [hl] at hload
    simp only [measureChunk, hload]
    have ht : (s.enodes.take size).length = size := by rw [h2, List.length_take, List.length_drop]; omega
    refine ⟨?_, ?_, ?_, ?_⟩
    · rw [if_neg (Nat.succ_ne_zero k), h2, Nat.add_sub_cancel]
    · rw [h2, List.drop_drop, hk']
    · simp only [List.length_zipWith, List.length_map, h3, ht, Nat.min_self]
    · rw [zipWith_sum _ _ (by rw [List.length_map, h3, ht]), h4, hk', List.take_add, List.map_append, List.sum_append, h2]

/-- What is computed: the measures of all elements and of those counted twice. -/
theorem C78_measure (size : Nat) (hs : 0 < size) (zero : E) (measure : E → K) (hz : measure zero = 0) (elements : List E) :
    measureInterval size zero measure elements = (elements.map measure).sum + ((stale size elements).map measure).sum := by
  have hdm := Nat.div_add_mod elements.length size
  rw [mul_comm] at hdm
  have hlt := Nat.mod_lt elements.length hs
  obtain ⟨h1, h2, h3, h4⟩ := fullChunks size zero measure elements (elements.length / size) (by omega)
  unfold measureInterval
  dsimp only
  rw [foldl_add_sum, zero_add]
  by_cases hr : elements.length % size = 0
  · rw [if_neg (by simpa using hr), Nat.add_zero, h4, List.take_of_length_le (by omega)]
    simp [stale, hr]
  · rw [if_pos hr, List.range_succ, List.foldl_append, List.foldl_cons, List.foldl_nil]
    generalize (List.range (elements.length / size)).foldl (fun s _ => measureChunk zero measure s)
      ⟨List.replicate size zero, elements, List.replicate size 0⟩ = s at h1 h2 h3 h4 ⊢
    have hl : s.coords.length = size := by
      rw [h1]
      split
      · simp
      · rename_i hne
        obtain ⟨j, hj⟩ := Nat.exists_eq_succ_of_ne_zero hne
        rw [Nat.succ_eq_add_one] at hj
        rw [hj] at hdm ⊢
        have : (j + 1) * size = j * size + size := by ring
        simp only [List.length_take, List.length_drop, Nat.add_sub_cancel]
        omega
    have he : s.enodes.length = elements.length % size := by
      rw [h2, List.length_drop]
      generalize elements.length / size * size = qs at hdm ⊢
      omega
    have hload := loadLanes_end zero s.coords s.enodes (by omega)
    simp only [measureChunk, hload]
    have hlen : (s.enodes ++ zero :: s.coords.drop (s.enodes.length + 1)).length = size := by
      simp only [List.length_append, List.length_cons, List.length_drop]
      omega
    rw [zipWith_sum _ _ (by rw [List.length_map, h3, hlen]), h4, List.map_append, List.sum_append, List.map_cons, List.sum_cons, hz, zero_add, h2,
      ← add_assoc, ← List.sum_append, ← List.map_append, List.take_append_drop, ← h2, he, h1]
    congr 1
    unfold stale
    by_cases hq : elements.length / size = 0
    · rw [if_pos hq, if_pos (.inr ((Nat.div_eq_zero_iff_lt hs).1 hq)), List.drop_replicate, List.map_replicate, hz]
      simp
    · rw [if_neg hq, if_neg]
      rintro (h | h)
      · exact hr h
      · exact hq ((Nat.div_eq_zero_iff_lt hs).2 h)

theorem stale_eq_nil (size : Nat) (hs : 0 < size) (elements : List E) :
    stale size elements = [] ↔ elements.length % size = 0 ∨ elements.length < size ∨ elements.length % size + 1 = size := by
  have hdm := Nat.div_add_mod elements.length size
  rw [mul_comm] at hdm
  have hlt := Nat.mod_lt elements.length hs
  unfold stale
  split
  · rename_i h
    simp only [true_iff]
    omega
  · rename_i h
    push Not at h
    obtain ⟨j, hj⟩ : ∃ j, elements.length / size = j + 1 := ⟨elements.length / size - 1, by
      have := Nat.div_pos h.2 hs
      omega⟩
    rw [hj] at hdm ⊢
    have : (j + 1) * size = j * size + size := by ring
    rw [List.drop_eq_nil_iff, List.length_take, List.length_drop, Nat.add_sub_cancel]
    generalize j * size = js at *
    omega

/-- The measure of an interval is the sum of the measures of its elements if no lane keeps an element of the previous chunk: at most two lanes,
or a single chunk, or at most one unused lane in the last chunk. -/
theorem C78_measure_partial (size : Nat) (hs : 0 < size) (zero : E) (measure : E → K) (hz : measure zero = 0) (elements : List E)
    (h : size ≤ 2 ∨ elements.length < size ∨ elements.length % size = 0 ∨ elements.length % size + 1 = size) :
    measureInterval size zero measure elements = (elements.map measure).sum := by
  rw [C78_measure size hs zero measure hz, (stale_eq_nil size hs elements).2, List.map_nil, List.sum_nil, add_zero]
  have := Nat.mod_lt elements.length hs
  omega

/-- Otherwise it is wrong for every interval of elements of positive measure. -/
theorem C78_measure_wrong [LinearOrder K] [IsStrictOrderedRing K] (size : Nat) (hs : 0 < size) (zero : E) (measure : E → K) (hz : measure zero = 0)
    (elements : List E) (hpos : ∀ e ∈ elements, 0 < measure e)
    (h : ¬ (size ≤ 2 ∨ elements.length < size ∨ elements.length % size = 0 ∨ elements.length % size + 1 = size)) :
    (elements.map measure).sum < measureInterval size zero measure elements := by
  rw [C78_measure size hs zero measure hz, lt_add_iff_pos_right]
  have hne : stale size elements ≠ [] := fun e => h (by
    have := (stale_eq_nil size hs elements).1 e
    omega)
  refine List.sum_pos _ (fun x hx => ?_) (by simpa using hne)
  obtain ⟨e, he, rfl⟩ := List.mem_map.1 hx
  refine hpos e ?_
  unfold stale at he
  split at he
  · simp at he
  · exact List.mem_of_mem_drop (List.mem_of_mem_take (List.mem_of_mem_drop he))

end

/-! ### The heat through a boundary -/

theorem mapIdx_sum (f : List ℝ) (g : Nat → ℝ) : (f.mapIdx fun n x => x + g n).sum = f.sum + ∑ n ∈ Finset.range f.length, g n := by
  induction f generalizing g with
  | nil => simp
  | cons x f ih =>
    rw [List.mapIdx_cons, List.sum_cons, List.sum_cons, ih fun n => g (n + 1), List.length_cons, Finset.sum_range_succ']
    ring

/-- The loop of the loads and the loop of the area run together: the entries sum to `q · thickness · area`. -/
theorem C78_load (ndim : Nat) (c : Code) (gps : Nat) (l : HeatLoad ℝ) (coords : Nat → Nat → ℝ) (area : ℝ)
    (h : boundaryArea Real.sqrt ndim c gps coords = some area) :
    ∃ f, boundaryLoad Real.sqrt ndim c gps l coords = some f ∧ f.length = nodes c ∧ f.sum = l.q * l.thickness * area := by
  unfold boundaryArea at h
  simp only [Option.bind_eq_bind, Option.bind_eq_some_iff] at h
  obtain ⟨pts, hp, h⟩ := h
  have key : ∀ (pts : List (List ℝ × ℝ)), (∀ p ∈ pts, p.1.length = edim c) → ∀ (f : List ℝ) (a0 area : ℝ), f.length = nodes c → f.sum = l.q * l.thickness * a0 →
      pts.foldlM (fun surface p => do
        let tab ← setAt c gps p.1
        let det ← boundaryDet Real.sqrt ndim (edim c) (nodes c) (slopeOf tab) coords
        pure (surface + det * p.2)) a0 = some area →
      ∃ f', pts.foldlM (fun f p => do
        let tab ← setAt c gps p.1
        let det ← boundaryDet Real.sqrt ndim (edim c) (nodes c) (slopeOf tab) coords
        pure (f.mapIdx fun n fn => fn + l.q * l.thickness * det * p.2 * valueOf tab n)) f = some f' ∧ f'.length = nodes c ∧
          f'.sum = l.q * l.thickness * area := by
    intro pts
    induction pts with
    | nil =>
      intro _ f a0 area hl hf h
      cases h
      exact ⟨f, rfl, hl, hf⟩
    | cons p pts ih =>
      intro hlen f a0 area hl hf h
      rw [List.foldlM_cons] at h
      simp only [Option.bind_eq_bind, Option.bind_eq_some_iff, Option.pure_def, Option.some.injEq] at h
      obtain ⟨_, ⟨tab, ht, det, hdet, rfl⟩, h⟩ := h
      have hu := (C75_basis c gps).unity p.1 tab (hlen p (by simp)) ht
      obtain ⟨f', h1, h2, h3⟩ := ih (fun q hq => hlen q (by simp [hq])) (f.mapIdx fun n fn => fn + l.q * l.thickness * det * p.2 * valueOf tab n)
        (a0 + det * p.2) area (by rw [List.length_mapIdx, hl])
        (by rw [mapIdx_sum f fun n => l.q * l.thickness * det * p.2 * valueOf tab n, hf, hl, ← Finset.mul_sum, hu]; ring) h
      refine ⟨f', ?_, h2, h3⟩
      rw [List.foldlM_cons]
      simp only [Option.bind_eq_bind, ht, hdet, Option.bind_some, Option.pure_def]
      exact h1
  obtain ⟨f, h1, h2, h3⟩ := key pts (rule_length hp) (List.replicate (nodes c) 0) 0 area (by simp) (by simp) h
  exact ⟨f, by simp only [boundaryLoad, hp, Option.bind_eq_bind, Option.bind_some]; exact h1, h2, h3⟩

/-- The area of a boundary element as the loop over the lanes sees it: the lane of zeros has the determinant zero. -/
noncomputable def laneArea (ndim : Nat) (c : Code) (gps : Nat) (coords : Nat → Nat → ℝ) : ℝ := (boundaryArea Real.sqrt ndim c gps coords).getD 0

/-- All loads of an interval of regular boundary elements. -/
noncomputable def totalLoad (ndim : Nat) (c : Code) (gps : Nat) (l : HeatLoad ℝ) (faces : List (Nat → Nat → ℝ)) : ℝ :=
  (faces.map fun coords => ((boundaryLoad Real.sqrt ndim c gps l coords).getD []).sum).sum

theorem totalLoad_eq (ndim : Nat) (c : Code) (gps : Nat) (l : HeatLoad ℝ) (faces : List (Nat → Nat → ℝ))
    (h : ∀ coords ∈ faces, (boundaryArea Real.sqrt ndim c gps coords).isSome) :
    totalLoad ndim c gps l faces = l.q * l.thickness * (faces.map (laneArea ndim c gps)).sum := by
  unfold totalLoad
  induction faces with
  | nil => simp
  | cons coords faces ih =>
    rw [List.map_cons, List.sum_cons, List.map_cons, List.sum_cons, ih fun x hx => h x (by simp [hx])]
    obtain ⟨area, ha⟩ := Option.isSome_iff_exists.1 (h coords (by simp))
    obtain ⟨f, h1, -, h3⟩ := C78_load ndim c gps l coords area ha
    rw [h1, Option.getD_some, h3, laneArea, ha, Option.getD_some]
    ring

theorem boundaryDet_zero (ndim d nodes : Nat) (dN : Nat → Nat → ℝ) (det : ℝ) (h : boundaryDet Real.sqrt ndim d nodes dN (fun _ _ => 0) = some det) : det = 0 := by
  have ht : ∀ j i, tangent nodes dN (fun _ _ => 0) j i = 0 := fun j i => by simp [tangent]
  unfold boundaryDet at h
  split at h
  · simp only [Option.map_eq_some_iff] at h
    obtain ⟨S, hS, rfl⟩ := h
    have := (C76_face nodes dN fun _ _ => 0).1.2 (by simp [ht])
    rw [this] at hS
    simp at hS
  · simp only [Option.map_eq_some_iff] at h
    obtain ⟨S, hS, rfl⟩ := h
    have := (C76_edge nodes dN fun _ _ => 0).1.2 ⟨ht 0 0, ht 0 1⟩
    rw [this] at hS
    simp at hS
  · simp only [Option.some.injEq] at h
    subst h
    have hD : (List.range nodes).foldl (fun (D : ℝ × ℝ × ℝ) n => (D.1 + dN n 0 * 0, D.2.1 + dN n 0 * 0, D.2.2 + dN n 0 * 0)) (0, 0, 0) = (0, 0, 0) := by
      refine List.foldlRecOn (motive := fun D : ℝ × ℝ × ℝ => D = (0, 0, 0)) _ _ rfl ?_
      rintro D rfl n -
      simp
    simp only [edge3]
    rw [hD]
    simp
  · simp at h

theorem boundaryArea_zero (ndim : Nat) (c : Code) (gps : Nat) : laneArea ndim c gps (fun _ _ => 0) = 0 := by
  unfold laneArea
  cases h : boundaryArea Real.sqrt ndim c gps fun _ _ => 0 with
  | none => rfl
  | some v =>
    unfold boundaryArea at h
    simp only [Option.bind_eq_bind, Option.bind_eq_some_iff] at h
    obtain ⟨pts, -, h⟩ := h
    have key : ∀ (pts : List (List ℝ × ℝ)) (v0 v : ℝ), pts.foldlM (fun surface p => do
        let tab ← setAt c gps p.1
        let det ← boundaryDet Real.sqrt ndim (edim c) (nodes c) (slopeOf tab) fun _ _ => 0
        pure (surface + det * p.2)) v0 = some v → v = v0 := by
      intro pts
      induction pts with
      | nil => intro v0 v h; exact (Option.some.inj h).symm
      | cons p pts ih =>
        intro v0 v h
        rw [List.foldlM_cons] at h
        simp only [Option.bind_eq_bind, Option.bind_eq_some_iff, Option.pure_def, Option.some.injEq] at h
        obtain ⟨_, ⟨tab, ht, det, hdet, rfl⟩, h⟩ := h
        rw [ih _ _ h, boundaryDet_zero _ _ _ _ _ hdet, zero_mul, add_zero]
    rw [Option.getD_some, key pts 0 v h]

/-- A prescribed heat flow and nothing else. -/
noncomputable def flowOnly (heatFlow area : ℝ) : HeatLoad ℝ := ⟨heatFlow, 0, 0, 0, 1 / area, 1⟩

/-- The prescribed heat flow (and nothing else) enters the body if the measured surface is right. -/
theorem C78_flow_partial (size : Nat) (hs : 0 < size) (ndim : Nat) (c : Code) (gps : Nat) (faces : List (Nat → Nat → ℝ)) (heatFlow : ℝ)
    (h : ∀ coords ∈ faces, (boundaryArea Real.sqrt ndim c gps coords).isSome) (hpos : (faces.map (laneArea ndim c gps)).sum ≠ 0)
    (hc : size ≤ 2 ∨ faces.length < size ∨ faces.length % size = 0 ∨ faces.length % size + 1 = size) :
    totalLoad ndim c gps (flowOnly heatFlow (measureInterval size (fun _ _ => 0) (laneArea ndim c gps) faces)) faces = heatFlow := by
  rw [totalLoad_eq _ _ _ _ _ h, C78_measure_partial size hs _ _ (boundaryArea_zero ndim c gps) faces hc]
  simp only [HeatLoad.q, flowOnly]
  field_simp
  ring

/-- Otherwise less than the prescribed heat flow enters the body. -/
theorem C78_flow_wrong (size : Nat) (hs : 0 < size) (ndim : Nat) (c : Code) (gps : Nat) (faces : List (Nat → Nat → ℝ)) (heatFlow : ℝ) (hf : 0 < heatFlow)
    (h : ∀ coords ∈ faces, (boundaryArea Real.sqrt ndim c gps coords).isSome) (hpos : ∀ coords ∈ faces, 0 < laneArea ndim c gps coords)
    (hc : ¬ (size ≤ 2 ∨ faces.length < size ∨ faces.length % size = 0 ∨ faces.length % size + 1 = size)) :
    totalLoad ndim c gps (flowOnly heatFlow (measureInterval size (fun _ _ => 0) (laneArea ndim c gps) faces)) faces < heatFlow := by
  rw [totalLoad_eq _ _ _ _ _ h]
  have hlt := C78_measure_wrong size hs _ _ (boundaryArea_zero ndim c gps) faces hpos hc
  have h0 : 0 ≤ (faces.map (laneArea ndim c gps)).sum := List.sum_nonneg fun x hx => by
    obtain ⟨e, he, rfl⟩ := List.mem_map.1 hx
    exact (hpos e he).le
  simp only [HeatLoad.q, flowOnly]
  generalize measureInterval size (fun _ _ => (0 : ℝ)) (laneArea ndim c gps) faces = m at hlt ⊢
  generalize (faces.map (laneArea ndim c gps)).sum = a at hlt h0 ⊢
  have hm : 0 < m := h0.trans_lt hlt
  rw [show (0 + heatFlow * (1 / m) + 0 + 0 * 0) * 1 * a = heatFlow * (a / m) by ring]
  exact mul_lt_of_lt_one_right hf ((div_lt_one hm).2 hlt)

/-! ### Examples -/

/-- Five elements of the measure one in four lanes are measured as seven, in two lanes as five; four and seven elements are right. -/
example : measureInterval 4 (0 : Rat) id [1, 1, 1, 1, 1] = 7 ∧ measureInterval 2 (0 : Rat) id [1, 1, 1, 1, 1] = 5 ∧
    measureInterval 4 (0 : Rat) id [1, 1, 1, 1] = 4 ∧ measureInterval 4 (0 : Rat) id [1, 1, 1, 1, 1, 1, 1] = 7 := by decide +kernel

/-- A square face in three dimensions. -/
noncomputable def squareFace : Nat → Nat → ℝ := fun n i => match n, i with
  | 0, 0 => -1 | 0, 1 => -1 | 1, 0 => 1 | 1, 1 => -1 | 2, 0 => 1 | 2, 1 => 1 | 3, 0 => -1 | 3, 1 => 1 | _, _ => 0

theorem squareFace_det (r s : ℝ) : ∃ tab, setAt .square4 4 [r, s] = some tab ∧ boundaryDet Real.sqrt 3 2 4 (slopeOf tab) squareFace = some 1 := by
  obtain ⟨tab, h, -⟩ := (C75_basis .square4 4).defined [r, s] rfl
  refine ⟨tab, h, ?_⟩
  rw [setAt_degraded rfl] at h
  simp [degradedTerms, degrade, nOrder, terms4x2, nodes, edim, addTerm, wr] at h
  have e00 : tangent 4 (slopeOf tab) squareFace 0 0 = 1 := by subst h; simp [tangent, Finset.sum_range_succ, slopeOf, squareFace]; ring
  have e01 : tangent 4 (slopeOf tab) squareFace 0 1 = 0 := by subst h; simp [tangent, Finset.sum_range_succ, slopeOf, squareFace]
  have e02 : tangent 4 (slopeOf tab) squareFace 0 2 = 0 := by subst h; simp [tangent, Finset.sum_range_succ, slopeOf, squareFace]
  have e10 : tangent 4 (slopeOf tab) squareFace 1 0 = 0 := by subst h; simp [tangent, Finset.sum_range_succ, slopeOf, squareFace]
  have e11 : tangent 4 (slopeOf tab) squareFace 1 1 = 1 := by subst h; simp [tangent, Finset.sum_range_succ, slopeOf, squareFace]; ring
  have e12 : tangent 4 (slopeOf tab) squareFace 1 2 = 0 := by subst h; simp [tangent, Finset.sum_range_succ, slopeOf, squareFace]
  have := face3_eq 4 (slopeOf tab) squareFace
  simp only [e00, e01, e02, e10, e11, e12] at this
  simp [boundaryDet, this]

theorem squareFace_area : boundaryArea Real.sqrt 3 .square4 4 squareFace = some 4 := by
  have h : ∀ r s : ℝ, (setAt .square4 4 [r, s]).bind (fun tab => boundaryDet Real.sqrt 3 2 4 (slopeOf tab) squareFace) = some 1 := fun r s => by
    obtain ⟨tab, h1, h2⟩ := squareFace_det r s
    rw [h1, Option.bind_some, h2]
  have h' : ∀ (a r s w : ℝ), ((setAt .square4 4 [r, s]).bind fun tab => (boundaryDet Real.sqrt 3 2 4 (slopeOf tab) squareFace).bind fun det => some (a + det * w)) =
      some (a + w) := fun a r s w => by
    rw [← Option.bind_assoc, h, Option.bind_some, one_mul]
  simp only [boundaryArea, rulePoints, edim, nodes, getOrder, gauss, tensor, Option.bind_eq_bind, Option.bind_some, Option.pure_def, List.flatMap_cons,
    List.flatMap_nil, List.map_cons, List.map_nil, List.cons_append, List.nil_append, List.append_nil, List.foldlM_cons, List.foldlM_nil, h']
  norm_num

/-- Five such faces in four lanes: five sevenths of the heat flow. -/
example : totalLoad 3 .square4 4 (flowOnly 7 (measureInterval 4 (fun _ _ => 0) (laneArea 3 .square4 4) (List.replicate 5 squareFace)))
    (List.replicate 5 squareFace) = 5 := by
  have ha : laneArea 3 .square4 4 squareFace = 4 := by rw [laneArea, squareFace_area]; rfl
  rw [totalLoad_eq _ _ _ _ _ (fun x hx => by rw [List.eq_of_mem_replicate hx, squareFace_area]; rfl),
    C78_measure 4 (by decide) _ _ (boundaryArea_zero 3 .square4 4)]
  simp [stale, ha, HeatLoad.q, flowOnly]
  norm_num

/-- Seven of them get all of it. -/
example : totalLoad 3 .square4 4 (flowOnly 7 (measureInterval 4 (fun _ _ => 0) (laneArea 3 .square4 4) (List.replicate 7 squareFace)))
    (List.replicate 7 squareFace) = 7 := by
  have ha : laneArea 3 .square4 4 squareFace = 4 := by rw [laneArea, squareFace_area]; rfl
  refine C78_flow_partial 4 (by decide) _ _ _ _ _ (fun x hx => by rw [List.eq_of_mem_replicate hx, squareFace_area]; rfl) (by norm_num [ha]) (by decide)

end Verif.Fem
