import Verif.Proof.BasisFamily
import Mathlib.Algebra.Field.Rat
/-!
C75: the basis functions.
-/
namespace Verif.Fem

/-- The full specialisations of `BaseFunctions<code, gps>`. -/
def isExplicit : Code → Nat → Bool
  | .triangle3, 6 | .triangle6, 6 | .tetra4, 4 | .tetra10, 15 | .pyramid13, 14 | .prisma6, 9 | .prisma15, 9 => true
  | _, _ => false

/-- The coordinate of column `d` of the derivatives. -/
def axis : Code → Nat → Nat → Nat
  | .tetra4, 4 | .tetra10, 15 => swapped
  | _, _ => id

theorem setAt_degraded {K : Type} [Field K] {c : Code} {gps : Nat} (h : isExplicit c gps = false) :
    setAt (K := K) c gps = fun p => (degradedTerms c p).bind (degrade (nodes c) (edim c) (nOrder c)) := by
  funext p
  unfold setAt
  split <;> simp_all [isExplicit]

theorem axis_degraded {c : Code} {gps : Nat} (h : isExplicit c gps = false) : axis c gps = id := by
  unfold axis
  split <;> simp_all [isExplicit]

theorem nOrder_lt (c : Code) : ∀ k ∈ nOrder c, k < nodes c := by cases c <;> decide

theorem degradedTerms_basis (c : Code) : IsBasis (edim c) (nOrder c).length id (degradedTerms c) := by
  have h1 : ∀ r : ℝ, (terms2x1 r).length = 2 ∧ ∀ e ∈ terms2x1 r, e.2.length = 1 := fun r => ⟨rfl, by simp [terms2x1]⟩
  have h2 : ∀ r : ℝ, (terms3x1 r).length = 3 ∧ ∀ e ∈ terms3x1 r, e.2.length = 1 := fun r => ⟨rfl, by simp [terms3x1]⟩
  have h3 : ∀ r s : ℝ, (terms4x2 r s).length = 4 ∧ ∀ e ∈ terms4x2 r s, e.2.length = 2 := fun r s => ⟨rfl, by simp [terms4x2]⟩
  have h4 : ∀ r s : ℝ, (terms8x2 r s).length = 8 ∧ ∀ e ∈ terms8x2 r s, e.2.length = 2 := fun r s => ⟨rfl, by simp [terms8x2]⟩
  have h5 : ∀ r s t : ℝ, (terms8x3 r s t).length = 8 ∧ ∀ e ∈ terms8x3 r s t, e.2.length = 3 := fun r s t => ⟨rfl, by simp [terms8x3]⟩
  have h6 : ∀ r s t : ℝ, (terms20x3 r s t).length = 20 ∧ ∀ e ∈ terms20x3 r s t, e.2.length = 3 := fun r s t => ⟨rfl, by simp [terms20x3]⟩
  cases c
  · exact basis1 (fun _ => rfl) h1 terms2x1_unity terms2x1_balance0 terms2x1_deriv0
  · exact basis1 (fun _ => rfl) h2 terms3x1_unity terms3x1_balance0 terms3x1_deriv0
  all_goals first
    | exact basis2 (fun _ _ => rfl) h3 terms4x2_unity terms4x2_balance0 terms4x2_balance1 terms4x2_deriv0 terms4x2_deriv1
    | exact basis2 (fun _ _ => rfl) h4 terms8x2_unity terms8x2_balance0 terms8x2_balance1 terms8x2_deriv0 terms8x2_deriv1
    | exact basis3 (fun _ _ _ => rfl) h5 terms8x3_unity terms8x3_balance0 terms8x3_balance1 terms8x3_balance2 terms8x3_deriv0 terms8x3_deriv1 terms8x3_deriv2
    | exact basis3 (fun _ _ _ => rfl) h6 terms20x3_unity terms20x3_balance0 terms20x3_balance1 terms20x3_balance2 terms20x3_deriv0 terms20x3_deriv1
        terms20x3_deriv2

/-- Every element with every number of integration points: the functions are defined in all points, sum up to one, their stored derivatives
sum up to zero and are the partial derivatives. -/
theorem C75_basis (c : Code) (gps : Nat) : IsBasis (edim c) (nodes c) (axis c gps) (setAt c gps) := by
  cases h : isExplicit c gps
  · rw [setAt_degraded h, axis_degraded h]
    exact (degradedTerms_basis c).degrade rfl (nOrder_lt c)
  · unfold isExplicit at h
    split at h
    · exact basis2 (fun _ _ => rfl) (fun _ _ => ⟨rfl, by simp [setTriangle3, edim]⟩) setTriangle3_unity setTriangle3_balance0 setTriangle3_balance1
        setTriangle3_deriv0 setTriangle3_deriv1
    · exact basis2 (fun _ _ => rfl) (fun _ _ => ⟨rfl, by simp [setTriangle6, edim]⟩) setTriangle6_unity setTriangle6_balance0 setTriangle6_balance1
        setTriangle6_deriv0 setTriangle6_deriv1
    · exact basis3_swapped (fun _ _ _ => rfl) (fun _ _ _ => ⟨rfl, by simp [setTetra4, edim]⟩) setTetra4_unity setTetra4_balance0 setTetra4_balance1
        setTetra4_balance2 setTetra4_deriv0 setTetra4_deriv1 setTetra4_deriv2
    · exact basis3_swapped (fun _ _ _ => rfl) (fun _ _ _ => ⟨rfl, by simp [setTetra10, edim]⟩) setTetra10_unity setTetra10_balance0
        setTetra10_balance1 setTetra10_balance2 setTetra10_deriv0 setTetra10_deriv1 setTetra10_deriv2
    · exact basis3 (fun _ _ _ => rfl) (fun _ _ _ => ⟨rfl, by simp [setPyramid13, edim]⟩) setPyramid13_unity setPyramid13_balance0
        setPyramid13_balance1 setPyramid13_balance2 setPyramid13_deriv0 setPyramid13_deriv1 setPyramid13_deriv2
    · exact basis3 (fun _ _ _ => rfl) (fun _ _ _ => ⟨rfl, by simp [setPrisma6, edim]⟩) setPrisma6_unity setPrisma6_balance0
        setPrisma6_balance1 setPrisma6_balance2 setPrisma6_deriv0 setPrisma6_deriv1 setPrisma6_deriv2
    · exact basis3 (fun _ _ _ => rfl) (fun _ _ _ => ⟨rfl, by simp [setPrisma15, edim]⟩) setPrisma15_unity setPrisma15_balance0
        setPrisma15_balance1 setPrisma15_balance2 setPrisma15_deriv0 setPrisma15_deriv1 setPrisma15_deriv2
    · simp at h

/-! ### The nodes -/

/-- The node whose point is used for row `n` of `NN`. -/
def sigma : Code → Nat → Nat → Nat
  | .triangle3, 6 => swapped
  | _, _ => id

/-- The decidable form of `IsNodal`. -/
def checkRows (nodes : Nat) (sigma : Nat → Nat) (rows : List (Option (List (Rat × List Rat)))) : Bool :=
  decide (rows.length = nodes) && (List.range nodes).all fun n =>
    match rows[n]? with
    | some (some tab) => decide (tab.length = nodes) && (List.range nodes).all fun m => decide (valueOf tab m = if m = sigma n then 1 else 0)
    | _ => false

theorem isNodal_of_check {nodes : Nat} {sigma : Nat → Nat} {rows : List (Option (List (Rat × List Rat)))} (h : checkRows nodes sigma rows = true) :
    IsNodal nodes sigma rows := by
  simp only [checkRows, Bool.and_eq_true, decide_eq_true_eq, List.all_eq_true, List.mem_range] at h
  refine ⟨h.1, fun n hn => ?_⟩
  have h2 := h.2 n hn
  split at h2
  · rename_i tab he
    simp only [Bool.and_eq_true, decide_eq_true_eq, List.all_eq_true, List.mem_range] at h2
    exact ⟨tab, he, h2.1, h2.2⟩
  · simp at h2

theorem nodeTables_degraded {c : Code} {gps : Nat} (h : isExplicit c gps = false) : nodeTables (K := Rat) c gps = nodeTables c 0 := by
  have h0 : isExplicit c 0 = false := by cases c <;> rfl
  have hc : nodeCalls (K := Rat) c gps = nodeCalls c 0 := by
    unfold nodeCalls
    split <;> split <;> simp_all [isExplicit]
  unfold nodeTables
  rw [hc, setAt_degraded h, setAt_degraded h0]

theorem sigma_degraded {c : Code} {gps : Nat} (h : isExplicit c gps = false) : sigma c gps = id := by
  unfold sigma
  split <;> simp_all [isExplicit]

theorem nodes_check (c : Code) (gps : Nat) : ((nodeTables c gps).elim false (checkRows (nodes c) (sigma c gps))) = true := by
  cases h : isExplicit c gps
  · rw [nodeTables_degraded h, sigma_degraded h]
    cases c <;> decide +kernel
  · unfold isExplicit at h
    split at h
    all_goals first
      | decide +kernel
      | simp at h

/-- `simd` initialises all rows of `NN`, and in the point of a row exactly one function is one and the others vanish. -/
theorem C75_nodes (c : Code) (gps : Nat) : ∃ rows : List (Option (List (Rat × List Rat))), nodeTables c gps = some rows ∧
    IsNodal (nodes c) (sigma c gps) rows := by
  have h := nodes_check c gps
  cases he : nodeTables (K := Rat) c gps with
  | none => simp [he] at h
  | some rows => exact ⟨rows, rfl, isNodal_of_check (by simpa [he] using h)⟩

/-- The rows of the triangle with six integration points are not in the order of the nodes. -/
theorem C75_triangle_rows_wrong : ¬ ∃ rows : List (Option (List (Rat × List Rat))), nodeTables .triangle3 6 = some rows ∧
    IsNodal (nodes .triangle3) id rows := by
  rintro ⟨rows, h1, _, h2⟩
  obtain ⟨tab, g1, _, g3⟩ := h2 1 (by decide)
  obtain ⟨rows', h1', h2'⟩ := C75_nodes .triangle3 6
  cases h1.symm.trans h1'
  obtain ⟨tab', k1, _, k3⟩ := h2'.2 1 (by decide)
  cases g1.symm.trans k1
  have a := g3 1 (by decide)
  have b := k3 1 (by decide)
  rw [a] at b
  simp [sigma, swapped] at b

/-- `index += nn * element.NN[n][nn]` (op.stress.h:112-115, 247-250). -/
def nodeIndex (tab : List (Rat × List Rat)) (nodes : Nat) : Rat := (List.range nodes).foldl (fun index nn => index + nn * valueOf tab nn) 0

theorem nodeIndex_eq (tab : List (Rat × List Rat)) (nodes k : Nat) (hk : k < nodes) (h : ∀ m < nodes, valueOf tab m = if m = k then 1 else 0) :
    nodeIndex tab nodes = k := by
  have key : ∀ n ≤ nodes, (List.range n).foldl (fun index nn => index + nn * valueOf tab nn) (0 : Rat) = if k < n then (k : Rat) else 0 := by
    intro n
    induction n with
    | zero => intro _; simp
    | succ n ih =>
      intro hn
      rw [List.range_succ, List.foldl_append, List.foldl_cons, List.foldl_nil, ih (by omega), h n (by omega)]
      rcases lt_trichotomy n k with hlt | rfl | hgt
      · rw [if_neg (by omega), if_neg (by omega), if_neg (by omega)]; simp
      · simp
      · rw [if_pos hgt, if_neg (by omega), if_pos (by omega)]; simp
  rw [nodeIndex, key nodes le_rfl, if_pos hk]

/-- The stress evaluated in the point of a row is therefore stored to the node of that point, for every element, and every node is reached. -/
theorem C75_node_index (c : Code) (gps : Nat) : ∃ rows : List (Option (List (Rat × List Rat))), nodeTables c gps = some rows ∧
    (∀ n < nodes c, ∃ tab, rows[n]? = some (some tab) ∧ nodeIndex tab (nodes c) = sigma c gps n ∧ sigma c gps n < nodes c) ∧
    ∀ k < nodes c, ∃ n < nodes c, sigma c gps n = k := by
  obtain ⟨rows, h1, h2, h3⟩ := C75_nodes c gps
  have hs : ∀ n < nodes c, sigma c gps n < nodes c ∧ sigma c gps (sigma c gps n) = n := by
    intro n hn
    have : (c = .triangle3 ∧ sigma c gps = swapped) ∨ sigma c gps = id := by
      unfold sigma
      split
      · exact .inl ⟨rfl, rfl⟩
      · exact .inr rfl
    rcases this with ⟨rfl, h⟩ | h
    · rw [h]
      change n < 3 at hn
      change swapped n < 3 ∧ _
      interval_cases n <;> simp [swapped]
    · rw [h]
      exact ⟨hn, rfl⟩
  refine ⟨rows, h1, fun n hn => ?_, fun k hk => ⟨_, (hs k hk).1, (hs k hk).2⟩⟩
  obtain ⟨tab, g1, _, g3⟩ := h3 n hn
  exact ⟨tab, g1, nodeIndex_eq tab _ _ (hs n hn).1 g3, (hs n hn).1⟩

/-! ### Examples -/

/-- A degraded tetrahedron: the apex collects four terms. -/
example : setAt (K := Rat) .tetra4 8 [0, 0, 0] = some [(1 / 8, [-1 / 8, -1 / 8, -1 / 8]), (1 / 8, [1 / 8, -1 / 8, -1 / 8]), (1 / 4, [0, 1 / 4, -1 / 4]),
    (1 / 2, [0, 0, 1 / 2])] := by decide +kernel

/-- The explicit triangle in an inner point. -/
example : setAt (K := Rat) .triangle3 6 [1 / 4, 1 / 2] = some [(1 / 4, [-1, -1]), (1 / 4, [1, 0]), (1 / 2, [0, 1])] := by decide +kernel

/-! ### The degraded elements of first order -/

section Collapsed

variable {K : Type} [Field K] [CharZero K]

/-- The two functions of a line. -/
def hat (r : K) : List K := [(1 - r) / 2, (1 + r) / 2]

/-- The three functions of the triangle collapsed from a square. -/
def hat3 (r s : K) : List K := ((hat r).map (· * ((1 - s) / 2))) ++ [(1 + s) / 2]

/-- The four functions of a square. -/
def hat4 (r s : K) : List K := [(1 - r) / 2 * ((1 - s) / 2), (1 + r) / 2 * ((1 - s) / 2), (1 + r) / 2 * ((1 + s) / 2), (1 - r) / 2 * ((1 + s) / 2)]

/-- The values of the degraded elements are the products and collapsed products of their cross sections: the prism is a triangle times a line,
the tetrahedron and the pyramid are a triangle and a square collapsed to the last node. -/
theorem C75_collapsed (gps : Nat) (r s t : K) :
    (gps ≠ 6 → (setAt .triangle3 gps [r, s]).map (·.map (·.1)) = some (hat3 r s)) ∧
    (setAt .square4 gps [r, s]).map (·.map (·.1)) = some (hat4 r s) ∧
    (gps ≠ 4 → (setAt .tetra4 gps [r, s, t]).map (·.map (·.1)) = some ((hat3 r s).map (· * ((1 - t) / 2)) ++ [(1 + t) / 2])) ∧
    (setAt .pyramid5 gps [r, s, t]).map (·.map (·.1)) = some ((hat4 r s).map (· * ((1 - t) / 2)) ++ [(1 + t) / 2]) ∧
    (gps ≠ 9 → (setAt .prisma6 gps [r, s, t]).map (·.map (·.1)) =
      some ((hat3 r s).map (· * ((1 - t) / 2)) ++ (hat3 r s).map (· * ((1 + t) / 2)))) ∧
    (setAt .hexa8 gps [r, s, t]).map (·.map (·.1)) =
      some ((hat4 r s).map (· * ((1 - t) / 2)) ++ (hat4 r s).map (· * ((1 + t) / 2))) := by
  have explicit : ∀ c : Code, isExplicit c gps = false → ∀ p : List K, setAt (K := K) c gps p = (degradedTerms c p).bind (degrade (nodes c) (edim c) (nOrder c)) :=
    fun c h p => congrFun (setAt_degraded h) p
  refine ⟨fun h => ?_, ?_, fun h => ?_, ?_, fun h => ?_, ?_⟩
  · rw [explicit _ (by unfold isExplicit; split <;> simp_all)]
    simp [degradedTerms, degrade, nodes, edim, nOrder, terms4x2, addTerm, wr, hat3, hat]
    refine ⟨?_, ?_, ?_⟩ <;> ring
  · rw [explicit _ rfl]
    simp [degradedTerms, degrade, nodes, edim, nOrder, terms4x2, addTerm, wr, hat4]
    refine ⟨?_, ?_, ?_, ?_⟩ <;> ring
  · rw [explicit _ (by unfold isExplicit; split <;> simp_all)]
    simp [degradedTerms, degrade, nodes, edim, nOrder, terms8x3, addTerm, wr, hat3, hat]
    refine ⟨?_, ?_, ?_, ?_⟩ <;> ring
  · rw [explicit _ rfl]
    simp [degradedTerms, degrade, nodes, edim, nOrder, terms8x3, addTerm, wr, hat4]
    refine ⟨?_, ?_, ?_, ?_, ?_⟩ <;> ring
  · rw [explicit _ (by unfold isExplicit; split <;> simp_all)]
    simp [degradedTerms, degrade, nodes, edim, nOrder, terms8x3, addTerm, wr, hat3, hat]
    refine ⟨?_, ?_, ?_, ?_, ?_, ?_⟩ <;> ring
  · rw [explicit _ rfl]
    simp [degradedTerms, degrade, nodes, edim, nOrder, terms8x3, addTerm, wr, hat4]
    refine ⟨?_, ?_, ?_, ?_, ?_, ?_, ?_, ?_⟩ <;> ring

end Collapsed

end Verif.Fem
