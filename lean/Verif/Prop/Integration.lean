import Verif.Proof.Integration
import Verif.Prop.BaseFunctions
import Mathlib.Analysis.Calculus.Deriv.Prod
import Mathlib.Analysis.Calculus.Deriv.Comp
import Mathlib.Analysis.Real.Sqrt
import Mathlib.Tactic.Linarith
/-!
C76: the geometry of an element in a point: the Jacobian, the derivatives by the coordinates of the mesh, the normal of a boundary.
-/
namespace Verif.Fem

/-- The point of the mesh of a point of the reference element. -/
noncomputable def position {d : Nat} (f : List ℝ → Option (List (ℝ × List ℝ))) (nodes : Nat) (coords : Nat → Nat → ℝ) (q : List ℝ) : Fin d → ℝ :=
  fun i => ∑ n ∈ Finset.range nodes, valueIn f n q * coords n i

/-- The interpolation of nodal values. -/
noncomputable def interpolated (f : List ℝ → Option (List (ℝ × List ℝ))) (nodes : Nat) (u : Nat → ℝ) (q : List ℝ) : ℝ :=
  ∑ n ∈ Finset.range nodes, valueIn f n q * u n

theorem interpolated_deriv {dim nodes : Nat} {axis : Nat → Nat} {f : List ℝ → Option (List (ℝ × List ℝ))} (h : IsBasis dim nodes axis f)
    {p : List ℝ} {tab : List (ℝ × List ℝ)} (hp : p.length = dim) (ht : f p = some tab) {j : Nat} (hj : j < dim) (u : Nat → ℝ) :
    HasDerivAt (fun y => interpolated f nodes u (p.set (axis j) y)) (∑ n ∈ Finset.range nodes, u n * slopeOf tab n j) (p.getD (axis j) 0) := by
  unfold interpolated
  refine HasDerivAt.fun_sum fun n hn => ?_
  rw [mul_comm]
  exact (h.derivative p tab j n hp ht hj (Finset.mem_range.1 hn)).mul_const (u n)

theorem axis_bound (c : Code) (gps d : Nat) (hd : d < edim c) : axis c gps d < edim c := by
  unfold axis
  split
  · change d < 3 at hd; change swapped d < 3; interval_cases d <;> decide
  · change d < 3 at hd; change swapped d < 3; interval_cases d <;> decide
  · exact hd

/-- The matrix of the kernel is the derivative of the position, its determinant is `det`. -/
theorem C76_jacobian (c : Code) (gps : Nat) (coords : Nat → Nat → ℝ) (p : List ℝ) (tab : List (ℝ × List ℝ)) (hp : p.length = edim c)
    (ht : setAt c gps p = some tab) (g : Geometry ℝ) (hg : integrate (edim c) (nodes c) (slopeOf tab) coords = some g) :
    ∃ J : Matrix (Fin (edim c)) (Fin (edim c)) ℝ, g.det = J.det ∧ J.det ≠ 0 ∧
      ∀ i j : Fin (edim c), HasDerivAt (fun y => position (setAt c gps) (nodes c) coords (p.set (axis c gps j) y) i) (J i j) (p.getD (axis c gps j) 0) := by
  have h := integrate_spec hg
  refine ⟨_, h.det_eq, h.det_eq ▸ h.det_ne, fun i j => ?_⟩
  have := interpolated_deriv (C75_basis c gps) hp ht j.isLt fun n => coords n i
  have e : jacobian (edim c) (nodes c) (slopeOf tab) coords i j = ∑ n ∈ Finset.range (nodes c), coords n i * slopeOf tab n j :=
    Finset.sum_congr rfl fun n _ => mul_comm _ _
  rw [e]
  exact this

/-- The kernel divides by zero exactly where the derivative of the position is singular. -/
theorem C76_defined (c : Code) (hd : edim c = 2 ∨ edim c = 3) (coords : Nat → Nat → ℝ) (tab : List (ℝ × List ℝ)) :
    integrate (edim c) (nodes c) (slopeOf tab) coords = none ↔
      (Matrix.of fun (i j : Fin (edim c)) => ∑ n ∈ Finset.range (nodes c), slopeOf tab n j * coords n i).det = 0 := integrate_none hd

/-- For every function on the mesh that is represented by the element (its composition with the position is the interpolation of nodal values),
`dND` gives its gradient. -/
theorem C76_gradient (c : Code) (gps : Nat) (coords : Nat → Nat → ℝ) (u : Nat → ℝ) (p : List ℝ) (tab : List (ℝ × List ℝ)) (hp : p.length = edim c)
    (ht : setAt c gps p = some tab) (g : Geometry ℝ) (hg : integrate (edim c) (nodes c) (slopeOf tab) coords = some g)
    (φ : (Fin (edim c) → ℝ) → ℝ) (φ' : (Fin (edim c) → ℝ) →L[ℝ] ℝ)
    (hφ : HasFDerivAt φ φ' (position (setAt c gps) (nodes c) coords p))
    (hu : ∀ q, q.length = edim c → φ (position (setAt c gps) (nodes c) coords q) = interpolated (setAt c gps) (nodes c) u q) (i : Fin (edim c)) :
    ∑ n ∈ Finset.range (nodes c), u n * g.dND n i = φ' (Pi.single i 1) := by
  have h := integrate_spec hg
  have key : (fun i : Fin (edim c) => ∑ n ∈ Finset.range (nodes c), u n * g.dND n i) = fun i => φ' (Pi.single i 1) := by
    refine h.unique fun j => ?_
    rw [h.gradient u j]
    have h1 := interpolated_deriv (C75_basis c gps) hp ht j.isLt u
    have h2 : HasDerivAt (fun y => position (d := edim c) (setAt c gps) (nodes c) coords (p.set (axis c gps j) y))
        (fun i => jacobian (edim c) (nodes c) (slopeOf tab) coords i j) (p.getD (axis c gps j) 0) := by
      rw [hasDerivAt_pi]
      intro i
      have := interpolated_deriv (C75_basis c gps) hp ht j.isLt fun n => coords n i
      have e : jacobian (edim c) (nodes c) (slopeOf tab) coords i j = ∑ n ∈ Finset.range (nodes c), coords n i * slopeOf tab n j :=
        Finset.sum_congr rfl fun n _ => mul_comm _ _
      rw [e]
      exact this
    have hset : p.set (axis c gps j) (p.getD (axis c gps j) 0) = p := by
      have hl : axis c gps j < p.length := by rw [hp]; exact axis_bound c gps j j.isLt
      rw [List.getD_eq_getElem?_getD, List.getElem?_eq_getElem hl, Option.getD_some, List.set_getElem_self]
    have h3 := HasFDerivAt.comp_hasDerivAt (p.getD (axis c gps j) 0) (by rw [hset]; exact hφ) h2
    have h4 := h3.unique (h1.congr_of_eventuallyEq (Filter.Eventually.of_forall fun y => by simpa using hu _ (by simpa using hp)))
    rw [← h4]
    rw [show (fun i => jacobian (edim c) (nodes c) (slopeOf tab) coords i j) =
      ∑ i : Fin (edim c), jacobian (edim c) (nodes c) (slopeOf tab) coords i j • (Pi.single i (1 : ℝ) : Fin (edim c) → ℝ) from ?_]
    · rw [map_sum]
      exact Finset.sum_congr rfl fun i _ => by rw [map_smul, smul_eq_mul, mul_comm]
    · funext k
      simp [Finset.sum_apply, Pi.single_apply]
  exact congrFun key i

/-- The patch test: linear functions of the coordinates have their exact gradient in every point of every element, whatever the shape. -/
theorem C76_linear (c : Code) (gps : Nat) (coords : Nat → Nat → ℝ) (p : List ℝ) (tab : List (ℝ × List ℝ)) (hp : p.length = edim c)
    (ht : setAt c gps p = some tab) (g : Geometry ℝ) (hg : integrate (edim c) (nodes c) (slopeOf tab) coords = some g)
    (a : ℝ) (b : Fin (edim c) → ℝ) (u : Nat → ℝ) (hu : ∀ n < nodes c, u n = a + ∑ i, b i * coords n i) (i : Fin (edim c)) :
    ∑ n ∈ Finset.range (nodes c), u n * g.dND n i = b i := by
  have h := integrate_spec hg
  refine congrFun (h.unique (v := fun i => ∑ n ∈ Finset.range (nodes c), u n * g.dND n i) (w := b) fun j => ?_) i
  rw [h.gradient u j]
  have hb := (C75_basis c gps).balance p tab j hp ht j.isLt
  calc ∑ n ∈ Finset.range (nodes c), u n * slopeOf tab n j
      = ∑ n ∈ Finset.range (nodes c), (a * slopeOf tab n j + ∑ i, b i * (slopeOf tab n j * coords n i)) :=
        Finset.sum_congr rfl fun n hn => by
          rw [hu n (Finset.mem_range.1 hn), add_mul, Finset.sum_mul]
          congr 1
          exact Finset.sum_congr rfl fun i _ => by ring
    _ = ∑ i, b i * jacobian (edim c) (nodes c) (slopeOf tab) coords i j := by
        rw [Finset.sum_add_distrib, ← Finset.mul_sum, hb, mul_zero, zero_add, Finset.sum_comm]
        exact Finset.sum_congr rfl fun i _ => by rw [← Finset.mul_sum]; rfl

/-! ### The nodes of degraded elements -/

/-- The row of `dNN` has no derivative in the first coordinate. -/
def flatRow (c : Code) (gps row : Nat) : Bool :=
  match nodeTables (K := Rat) c gps with
  | some rows =>
    match rows[row]? with
    | some (some tab) => (List.range (nodes c)).all fun n => decide (slopeOf tab n 0 = 0)
    | _ => false
  | none => false

theorem integrate_flat {c : Code} {gps row : Nat} (hd : edim c = 2 ∨ edim c = 3) (h : flatRow c gps row = true) :
    ∃ rows tab, nodeTables (K := Rat) c gps = some rows ∧ rows[row]? = some (some tab) ∧
      ∀ coords, integrate (edim c) (nodes c) (slopeOf tab) coords = none := by
  unfold flatRow at h
  split at h
  · rename_i rows e1
    split at h
    · rename_i tab e2
      refine ⟨rows, tab, e1, e2, fun coords => ?_⟩
      simp only [List.all_eq_true, List.mem_range, decide_eq_true_eq] at h
      rw [integrate_none hd]
      have hpos : 0 < edim c := by omega
      refine Matrix.det_eq_zero_of_column_eq_zero ⟨0, hpos⟩ fun i => ?_
      exact Finset.sum_eq_zero fun n hn => by rw [show slopeOf tab n (⟨0, hpos⟩ : Fin (edim c)) = 0 from h n (Finset.mem_range.1 hn), zero_mul]
    · simp at h
  · simp at h

/-- The evaluation of stresses in the nodes (`coordsInNodes`) divides by zero in the merged nodes of the triangle, the tetrahedron, the pyramids
and the prism, with the numbers of integration points of the structural mechanics, whatever the coordinates of the element are. -/
theorem C76_merged_nodes_wrong :
    ∀ x ∈ [(Code.triangle3, 4, 2), (.tetra4, 8, 2), (.tetra4, 8, 3), (.pyramid5, 8, 4), (.prisma6, 8, 2), (.prisma6, 8, 5), (.pyramid13, 27, 4)],
      ∃ rows tab, nodeTables (K := Rat) x.1 x.2.1 = some rows ∧ rows[x.2.2]? = some (some tab) ∧
        ∀ coords, integrate (edim x.1) (nodes x.1) (slopeOf tab) coords = none := by
  intro x hx
  simp only [List.mem_cons, List.not_mem_nil, or_false] at hx
  rcases hx with rfl | rfl | rfl | rfl | rfl | rfl | rfl
  · exact integrate_flat (by decide) (by decide +kernel)
  · exact integrate_flat (by decide) (by decide +kernel)
  · exact integrate_flat (by decide) (by decide +kernel)
  · exact integrate_flat (by decide) (by decide +kernel)
  · exact integrate_flat (by decide) (by decide +kernel)
  · exact integrate_flat (by decide) (by decide +kernel)
  · exact integrate_flat (by decide) (by decide +kernel)

/-! ### Boundaries -/

/-- The tangent of a boundary element in column `j` of the derivatives. -/
noncomputable def tangent (nodes : Nat) (dN coords : Nat → Nat → ℝ) (j i : Nat) : ℝ := ∑ n ∈ Finset.range nodes, dN n j * coords n i

theorem face3_eq (nodes : Nat) (dN coords : Nat → Nat → ℝ) :
    let t := tangent nodes dN coords
    let x := t 0 1 * t 1 2 - t 0 2 * t 1 1
    let y := t 0 2 * t 1 0 - t 0 0 * t 1 2
    let z := t 0 0 * t 1 1 - t 0 1 * t 1 0
    let det := Real.sqrt (x * x + y * y + z * z)
    face3 Real.sqrt nodes dN coords = if det = 0 then none else
      some { det := det, normal := fun d => match d with | 0 => x / det | 1 => y / det | _ => z / det } := by
  have hD : (List.range nodes).foldl (fun (D : ℝ × ℝ × ℝ × ℝ × ℝ × ℝ) n =>
      (D.1 + dN n 0 * coords n 0, D.2.1 + dN n 0 * coords n 1, D.2.2.1 + dN n 0 * coords n 2,
      D.2.2.2.1 + dN n 1 * coords n 0, D.2.2.2.2.1 + dN n 1 * coords n 1, D.2.2.2.2.2 + dN n 1 * coords n 2)) (0, 0, 0, 0, 0, 0) =
      (tangent nodes dN coords 0 0, tangent nodes dN coords 0 1, tangent nodes dN coords 0 2,
      tangent nodes dN coords 1 0, tangent nodes dN coords 1 1, tangent nodes dN coords 1 2) := by
    refine Prod.ext ?_ (Prod.ext ?_ (Prod.ext ?_ (Prod.ext ?_ (Prod.ext ?_ ?_))))
    · exact (foldl_sum _ (fun D : ℝ × ℝ × ℝ × ℝ × ℝ × ℝ => D.1) _ (fun _ _ => rfl) _ _).trans (zero_add _)
    · exact (foldl_sum _ (fun D : ℝ × ℝ × ℝ × ℝ × ℝ × ℝ => D.2.1) _ (fun _ _ => rfl) _ _).trans (zero_add _)
    · exact (foldl_sum _ (fun D : ℝ × ℝ × ℝ × ℝ × ℝ × ℝ => D.2.2.1) _ (fun _ _ => rfl) _ _).trans (zero_add _)
    · exact (foldl_sum _ (fun D : ℝ × ℝ × ℝ × ℝ × ℝ × ℝ => D.2.2.2.1) _ (fun _ _ => rfl) _ _).trans (zero_add _)
    · exact (foldl_sum _ (fun D : ℝ × ℝ × ℝ × ℝ × ℝ × ℝ => D.2.2.2.2.1) _ (fun _ _ => rfl) _ _).trans (zero_add _)
    · exact (foldl_sum _ (fun D : ℝ × ℝ × ℝ × ℝ × ℝ × ℝ => D.2.2.2.2.2) _ (fun _ _ => rfl) _ _).trans (zero_add _)
  simp only [face3]
  rw [hD]
  rfl

theorem sq_div_sqrt {x y z : ℝ} (h : Real.sqrt (x * x + y * y + z * z) ≠ 0) :
    (x / Real.sqrt (x * x + y * y + z * z)) ^ 2 + (y / Real.sqrt (x * x + y * y + z * z)) ^ 2 + (z / Real.sqrt (x * x + y * y + z * z)) ^ 2 = 1 := by
  have h0 : 0 ≤ x * x + y * y + z * z := add_nonneg (add_nonneg (mul_self_nonneg _) (mul_self_nonneg _)) (mul_self_nonneg _)
  have h1 := Real.sq_sqrt h0
  rw [div_pow, div_pow, div_pow, ← add_div, ← add_div, div_eq_one_iff_eq (pow_ne_zero 2 h), h1]
  ring

/-- A face in three dimensions: the normal has the length one and is perpendicular to both tangents, the determinant is the area of the
parallelogram of the tangents (Gram determinant) and positive; it divides by zero only for dependent tangents. -/
theorem C76_face (nodes : Nat) (dN coords : Nat → Nat → ℝ) :
    let t := tangent nodes dN coords
    let gram := (∑ i ∈ Finset.range 3, t 0 i * t 0 i) * (∑ i ∈ Finset.range 3, t 1 i * t 1 i) - (∑ i ∈ Finset.range 3, t 0 i * t 1 i) ^ 2
    (face3 Real.sqrt nodes dN coords = none ↔ gram = 0) ∧
      ∀ S, face3 Real.sqrt nodes dN coords = some S → 0 < S.det ∧ S.det ^ 2 = gram ∧
        (∑ i ∈ Finset.range 3, S.normal i ^ 2 = 1) ∧ (∀ j < 2, ∑ i ∈ Finset.range 3, S.normal i * t j i = 0) ∧
        S.det * S.normal 2 = t 0 0 * t 1 1 - t 0 1 * t 1 0 := by
  intro t gram
  have he := face3_eq nodes dN coords
  dsimp only at he
  rw [he]
  change _ ∧ ∀ S, _
  simp only [← show t = tangent nodes dN coords from rfl]
  set x := t 0 1 * t 1 2 - t 0 2 * t 1 1 with hx
  set y := t 0 2 * t 1 0 - t 0 0 * t 1 2 with hy
  set z := t 0 0 * t 1 1 - t 0 1 * t 1 0 with hz
  have hg : x * x + y * y + z * z = gram := by
    simp only [gram, Finset.sum_range_succ, Finset.sum_range_zero, hx, hy, hz]
    ring
  have h0 : 0 ≤ x * x + y * y + z * z := add_nonneg (add_nonneg (mul_self_nonneg _) (mul_self_nonneg _)) (mul_self_nonneg _)
  constructor
  · rw [← hg]
    constructor
    · intro h
      by_contra hne
      rw [if_neg (Real.sqrt_ne_zero'.2 (lt_of_le_of_ne h0 (Ne.symm hne)))] at h
      exact absurd h (by simp)
    · intro h
      rw [if_pos (by rw [h, Real.sqrt_zero])]
  · intro S hS
    split at hS
    · simp at hS
    rename_i hne
    obtain rfl := Option.some.inj hS
    refine ⟨lt_of_le_of_ne (Real.sqrt_nonneg _) (Ne.symm hne), by rw [← hg]; exact Real.sq_sqrt h0, ?_, ?_, ?_⟩
    · simp only [Finset.sum_range_succ, Finset.sum_range_zero, zero_add]
      exact sq_div_sqrt hne
    · intro j hj
      simp only [Finset.sum_range_succ, Finset.sum_range_zero, zero_add]
      have e : ∀ a b c : ℝ, x / √(x * x + y * y + z * z) * a + y / √(x * x + y * y + z * z) * b + z / √(x * x + y * y + z * z) * c =
          (x * a + y * b + z * c) / √(x * x + y * y + z * z) := fun a b c => by ring
      rw [e]
      interval_cases j
      · rw [show x * t 0 0 + y * t 0 1 + z * t 0 2 = 0 by rw [hx, hy, hz]; ring, zero_div]
      · rw [show x * t 1 0 + y * t 1 1 + z * t 1 2 = 0 by rw [hx, hy, hz]; ring, zero_div]
    · exact mul_div_cancel₀ _ hne

/-- An edge in two dimensions: the same for its length and its normal. -/
theorem C76_edge (nodes : Nat) (dN coords : Nat → Nat → ℝ) :
    let t := tangent nodes dN coords 0
    (edge2 Real.sqrt nodes dN coords = none ↔ t 0 = 0 ∧ t 1 = 0) ∧
      ∀ S, edge2 Real.sqrt nodes dN coords = some S → 0 < S.det ∧ S.det ^ 2 = t 0 ^ 2 + t 1 ^ 2 ∧
        S.normal 0 ^ 2 + S.normal 1 ^ 2 = 1 ∧ S.normal 0 * t 0 + S.normal 1 * t 1 = 0 ∧ S.det * S.normal 1 = t 0 := by
  intro t
  have hD : (List.range nodes).foldl (fun (D : ℝ × ℝ) n => (D.1 + dN n 0 * coords n 0, D.2 + dN n 0 * coords n 1)) (0, 0) = (t 0, t 1) := by
    refine Prod.ext ?_ ?_
    · exact (foldl_sum _ (fun D : ℝ × ℝ => D.1) _ (fun _ _ => rfl) _ _).trans (zero_add _)
    · exact (foldl_sum _ (fun D : ℝ × ℝ => D.2) _ (fun _ _ => rfl) _ _).trans (zero_add _)
  have he : edge2 Real.sqrt nodes dN coords = if Real.sqrt (t 0 * t 0 + t 1 * t 1) = 0 then none else
      some { det := Real.sqrt (t 0 * t 0 + t 1 * t 1),
             normal := fun d => match d with | 0 => -(t 1) / Real.sqrt (t 0 * t 0 + t 1 * t 1) | _ => t 0 / Real.sqrt (t 0 * t 0 + t 1 * t 1) } := by
    simp only [edge2]
    rw [hD]
    rfl
  rw [he]
  have h0 : 0 ≤ t 0 * t 0 + t 1 * t 1 := add_nonneg (mul_self_nonneg _) (mul_self_nonneg _)
  constructor
  · constructor
    · intro h
      by_contra hne
      have : t 0 * t 0 + t 1 * t 1 ≠ 0 := fun e => hne ⟨by nlinarith [mul_self_nonneg (t 0), mul_self_nonneg (t 1)], by nlinarith [mul_self_nonneg (t 0), mul_self_nonneg (t 1)]⟩
      rw [if_neg (Real.sqrt_ne_zero'.2 (lt_of_le_of_ne h0 (Ne.symm this)))] at h
      exact absurd h (by simp)
    · rintro ⟨h1, h2⟩
      rw [if_pos (by rw [h1, h2]; simp)]
  · intro S hS
    split at hS
    · simp at hS
    rename_i hne
    obtain rfl := Option.some.inj hS
    have hq := Real.sq_sqrt h0
    refine ⟨lt_of_le_of_ne (Real.sqrt_nonneg _) (Ne.symm hne), by rw [hq]; ring, ?_, ?_, mul_div_cancel₀ _ hne⟩
    · change (-(t 1) / √(t 0 * t 0 + t 1 * t 1)) ^ 2 + (t 0 / √(t 0 * t 0 + t 1 * t 1)) ^ 2 = 1
      rw [div_pow, div_pow, ← add_div, div_eq_one_iff_eq (pow_ne_zero 2 hne), hq]
      ring
    · change -(t 1) / √(t 0 * t 0 + t 1 * t 1) * t 0 + t 0 / √(t 0 * t 0 + t 1 * t 1) * t 1 = 0
      rw [div_mul_eq_mul_div, div_mul_eq_mul_div, ← add_div, show -(t 1) * t 0 + t 0 * t 1 = 0 by ring, zero_div]

/-! ### Examples -/

/-- A tetrahedron with the vertices `0`, `2 e₁`, `3 e₂`, `4 e₃`. -/
def corner : Nat → Nat → Rat := fun n i => match n, i with | 1, 0 => 2 | 2, 1 => 3 | 3, 2 => 4 | _, _ => 0

/-- A trapezoid. -/
def trapezoid : Nat → Nat → Rat := fun n i => match n, i with | 1, 0 => 4 | 2, 0 => 3 | 2, 1 => 2 | 3, 0 => 1 | 3, 1 => 2 | _, _ => 0

/-- Inside, the degraded tetrahedron is regular and has the exact gradient of `1 + 2 x + 3 y + 5 z`. -/
example : ((setAt (K := Rat) .tetra4 8 [1 / 2, -1 / 3, 1 / 5]).bind fun tab =>
    (integrate 3 4 (slopeOf tab) corner).map fun g => (decide (0 < g.det), (List.range 3).map fun i =>
      ((List.range 4).map fun n => (1 + 2 * corner n 0 + 3 * corner n 1 + 5 * corner n 2) * g.dND n i).sum)) =
    some (true, [2, 3, 5]) := by decide +kernel

/-- The same for a quadrilateral that is not a parallelogram. -/
example : ((setAt (K := Rat) .square4 4 [1 / 2, -1 / 3]).bind fun tab =>
    (integrate 2 4 (slopeOf tab) trapezoid).map fun g => (g.det, (List.range 2).map fun i =>
      ((List.range 4).map fun n => (7 + 2 * trapezoid n 0 - 3 * trapezoid n 1) * g.dND n i).sum)) =
    some (5 / 3, [2, -3]) := by decide +kernel

/-- In the node 3 the same tetrahedron is singular, and in the nodes 0 and 1 it is not. -/
example : ((nodeTables (K := Rat) .tetra4 8).map fun rows => rows.map fun row =>
    (row.bind fun tab => integrate 3 4 (slopeOf tab) corner).isSome) = some [true, true, false, false] := by decide +kernel

/-- The explicit rules of the heat transfer are regular in all nodes. -/
example : ((nodeTables (K := Rat) .triangle3 6).map fun rows => rows.map fun row =>
    (row.bind fun tab => integrate 2 3 (slopeOf tab) trapezoid).isSome) = some [true, true, true] := by decide +kernel

end Verif.Fem
