import Verif.Proof.RegularizationMatrix
import Verif.Proof.CsxRow
import Verif.Prop.HeatMesh
import Verif.Spec.FetiSolution
import Mathlib.Tactic.NormNum
/-!
C90: the sum of sparse matrices. C91: the analytic regularization for heat transfer.
-/
namespace Verif.Regularization

open Finset Verif.Csx Verif.Pattern

/-! ### C90 -/

/-- The sum of two well-formed matrices is a well-formed matrix with the entries of the sum and the positions of both; its slices are sorted if the slices of both are. -/
theorem C90_sum {R : Type} [CommRing R] (z : R) {A B : Csx R} (hA : WellFormed A) (hB : WellFormed B) (hnp : A.np = B.np) (hns : A.ns = B.ns) :
    ∃ C, plus z A B = some C ∧ WellFormed C ∧ C.np = A.np ∧ C.ns = A.ns ∧ (A.Sorted → B.Sorted → C.Sorted) ∧ (∀ i j, i < A.np → C.at i j = A.at i j + B.at i j) ∧
      ∀ p < A.np, ∀ j, (∃ v, (j, v) ∈ C.row p) ↔ (∃ v, (j, v) ∈ A.row p) ∨ ∃ v, (j, v) ∈ B.row p := by
  obtain ⟨C, h1, h2, h3, h4, h5, h6, h7⟩ := plus_spec z hA hB hnp hns
  refine ⟨C, h1, h2, h3, h4, h5, h6, fun p hp j => ?_⟩
  have e : ∀ M : Csx R, j ∈ colsAt M p ↔ ∃ v, (j, v) ∈ M.row p := by
    intro M
    unfold colsAt
    rw [List.mem_map]
    constructor
    · rintro ⟨⟨c, v⟩, h, rfl⟩; exact ⟨v, h⟩
    · rintro ⟨v, h⟩; exact ⟨(j, v), h, rfl⟩
  rw [← e C, ← e A, ← e B]
  exact h7 p hp j

/-- Matrices of different sizes are rejected. -/
theorem C90_sizes {R : Type} [CommRing R] (z : R) (A B : Csx R) (h : A.np ≠ B.np ∨ A.ns ≠ B.ns) : plus z A B = none := by
  unfold plus combine
  rw [if_pos h]
  rfl

/-- The order of the columns is needed for the order of the sum: with an unsorted slice, a column is stored twice. -/
theorem C90_unsorted : ∃ A B C : Csx ℤ, WellFormed A ∧ WellFormed B ∧ B.Sorted ∧ A.np = B.np ∧ A.ns = B.ns ∧ plus 0 A B = some C ∧ C.row 0 = [(1, 1), (2, 5), (1, 7)] ∧ ¬ C.Sorted := by
  refine ⟨⟨1, 3, [0, 2], [2, 1], [5, 7]⟩, ⟨1, 3, [0, 1], [1], [1]⟩, ⟨1, 3, [0, 3], [1, 2, 1], [1, 5, 7]⟩, ⟨rfl, rfl, by decide, rfl, rfl, by decide⟩, ⟨rfl, rfl, by decide, rfl, rfl, by decide⟩,
    fun p hp => ?_, rfl, rfl, by simp [plus, combine, sumCombined, colsAt, Csx.row, mergeCols, countCols, ptrsFrom, sumRow, takeCol], rfl, fun h => ?_⟩
  · have : p = 0 := by change p < 1 at hp; omega
    subst this
    decide
  · exact absurd (h 0 Nat.one_pos) (by decide)

/-- A sum with sorted slices. -/
example : ∃ C : Csx ℤ, plus 0 ⟨2, 2, [0, 2, 3], [0, 1, 1], [2, -1, 2]⟩ ⟨2, 2, [0, 1, 1], [0], [3]⟩ = some C ∧ C = ⟨2, 2, [0, 2, 3], [0, 1, 1], [5, -1, 2]⟩ :=
  ⟨_, by simp [plus, combine, sumCombined, colsAt, Csx.row, mergeCols, countCols, ptrsFrom, sumRow, takeCol, List.range_succ], rfl⟩

section
variable {K : Type} [Field K] [LinearOrder K]

theorem Stores.plus {full : Bool} {n : Nat} {A B : Csx K} {Ka Kb : Nat → Nat → K} (hA : Stores full n A Ka) (hB : Stores full n B Kb) (hd : Diagonal n A) (z : K) :
    ∃ C, plus z A B = some C ∧ Stores full n C (fun i j => Ka i j + Kb i j) ∧ Diagonal n C := by
  obtain ⟨C, h1, h2, h3, h4, h5, h6, h7⟩ := C90_sum z hA.wf hB.wf (hA.np.trans hB.np.symm) (hA.ns.trans hB.ns.symm)
  refine ⟨C, h1, ⟨h2, h3.trans hA.np, h4.trans hA.ns, h5 hA.sorted hB.sorted, fun hf i hi e he => ?_, fun i hi j hj hij => ?_⟩, fun i hi => ?_⟩
  · rcases (h7 i (by rw [hA.np]; exact hi) e.1).1 ⟨e.2, he⟩ with ⟨v, hv⟩ | ⟨v, hv⟩
    · exact hA.upper hf i hi (e.1, v) hv
    · exact hB.upper hf i hi (e.1, v) hv
  · rw [h6 i j (by rw [hA.np]; exact hi), hA.value i hi j hj hij, hB.value i hi j hj hij]
  · exact (h7 i (by rw [hA.np]; exact hi) i).2 (Or.inl (hd i hi))

/-- The first entry of a slice that contains its smallest possible column. -/
theorem Stores.head {full : Bool} {n : Nat} {A : Csx K} {Ka : Nat → Nat → K} (h : Stores full n A Ka) (hd : Diagonal n A) {i : Nat} (hi : i < n) :
    ∃ c v rest, A.row i = (c, v) :: rest ∧ (full = false ∨ i = 0 → c = i ∧ v = Ka i i) := by
  obtain ⟨w, hw⟩ := hd i hi
  match hr : A.row i with
  | [] => rw [hr] at hw; simp at hw
  | (c, v) :: rest =>
    refine ⟨c, v, rest, rfl, fun hf => ?_⟩
    have hs := h.sorted i (by rw [h.np]; exact hi)
    rw [hr, List.pairwise_cons] at hs
    rw [hr] at hw
    have hc : c = i := by
      rcases List.mem_cons.1 hw with hw | hw
      · exact (congrArg Prod.fst hw).symm
      · have h1 := hs.1 _ hw
        simp only at h1
        rcases hf with hf | hf
        · have := h.upper hf i hi (c, v) (by rw [hr]; exact List.mem_cons_self)
          simp only at this
          omega
        · omega
    subst hc
    refine ⟨rfl, ?_⟩
    rw [← h.value c hi c hi (Or.inr (le_refl c))]
    change v = rowAt (A.row c) c
    rw [hr, rowAt_cons, if_pos rfl, rowAt_absent (fun e he => by have := hs.1 e he; simp only at this; omega), add_zero]

/-- The maximum over the first entries. -/
theorem maxFirst_spec {full : Bool} {n : Nat} {A : Csx K} {Ka : Nat → Nat → K} (h : Stores full n A Ka) (hd : Diagonal n A) :
    ∃ ρ, maxFirst A = some ρ ∧ 0 ≤ ρ ∧ ∀ i < n, full = false ∨ i = 0 → Ka i i ≤ ρ := by
  have hread : ∀ r < n, ∃ v, (do let p ← A.ptrs[r]?; let v ← A.vals[p]?; some v) = some v ∧ (full = false ∨ r = 0 → v = Ka r r) := by
    intro r hr
    obtain ⟨c, v, rest, hrow, hv⟩ := h.head hd hr
    have hr' : r < A.np := by rw [h.np]; exact hr
    have := (row_get h.wf hr' (k := 0) (c := c) (v := v) (by rw [hrow]; rfl)).2
    rw [Nat.add_zero] at this
    refine ⟨v, ?_, fun hf => (hv hf).2⟩
    rw [getD_some (show r < A.ptrs.length by rw [h.wf.plen]; omega)]
    change (do let v ← A.vals[A.ptrs.getD r 0]?; some v) = _
    rw [this]; rfl
  have key : ∀ k, k ≤ n → ∀ init, 0 ≤ init → ∃ ρ, (List.range k).foldlM (m := Option) (fun mx r => do
      let p ← A.ptrs[r]?
      let v ← A.vals[p]?
      some (max mx v)) init = some ρ ∧ init ≤ ρ ∧ ∀ i < k, full = false ∨ i = 0 → Ka i i ≤ ρ := by
    intro k
    induction k with
    | zero => intro _ init _; exact ⟨init, rfl, le_refl _, fun i hi => absurd hi (Nat.not_lt_zero i)⟩
    | succ k ih =>
      intro hk init hinit
      obtain ⟨ρ, h1, h2, h3⟩ := ih (by omega) init hinit
      obtain ⟨v, hv, hv2⟩ := hread k (by omega)
      refine ⟨max ρ v, ?_, h2.trans (le_max_left _ _), fun i hi hf => ?_⟩
      · rw [List.range_succ, List.foldlM_append, h1]
        change (do let p ← A.ptrs[k]?; let v ← A.vals[p]?; some (max ρ v)) >>= _ = _
        cases hp : A.ptrs[k]? with
        | none => rw [hp] at hv; cases hv
        | some p =>
          rw [hp] at hv
          change (do let v ← A.vals[p]?; some v) = some v at hv
          change (do let v ← A.vals[p]?; some (max ρ v)) >>= _ = _
          cases hq : A.vals[p]? with
          | none => rw [hq] at hv; cases hv
          | some w =>
            rw [hq] at hv
            have : w = v := by simpa using hv
            subst this
            rfl
      · rcases Nat.lt_succ_iff_lt_or_eq.1 hi with hi | rfl
        · exact (h3 i hi hf).trans (le_max_left _ _)
        · rw [← hv2 hf]; exact le_max_right _ _
  obtain ⟨ρ, h1, h2, h3⟩ := key n (le_refl n) 0 (le_refl 0)
  refine ⟨ρ, ?_, h2, h3⟩
  unfold maxFirst
  rw [h.np]
  exact h1

/-! ### C91: heat transfer -/

theorem heatRow {K : Type} (n : Nat) (v : K) (i : Nat) (hi : i < n) : (⟨n, n, 0 :: List.replicate n 1, [0], [v]⟩ : Csx K).row i = if i = 0 then [(0, v)] else [] := by
  unfold Csx.row
  match i with
  | 0 =>
    have : (0 :: List.replicate n 1).getD (0 + 1) 0 = 1 := by
      rw [List.getD_cons_succ, List.getD_eq_getElem?_getD, List.getElem?_replicate, if_pos hi]; rfl
    simp only [this, List.getD_cons_zero]
    rfl
  | i + 1 =>
    have e : ∀ k, k < n → (0 :: List.replicate n 1).getD (k + 1) 0 = 1 := by
      intro k hk
      rw [List.getD_cons_succ, List.getD_eq_getElem?_getD, List.getElem?_replicate, if_pos hk]; rfl
    simp only [e i (by omega), e (i + 1) hi, Nat.sub_self, List.take_zero]
    simp

theorem heat_stores (full : Bool) {n : Nat} (hn : 0 < n) (v : K) :
    Stores full n (⟨n, n, 0 :: List.replicate n 1, [0], [v]⟩ : Csx K) fun i j => if i ∈ ({0} : Finset Nat) ∧ j ∈ ({0} : Finset Nat) then v else 0 := by
  refine ⟨⟨by simp, rfl, ?_, ?_, rfl, by simp [hn]⟩, rfl, rfl, fun p hp => ?_, fun _ i hi e he => ?_, fun i hi j hj _ => ?_⟩
  · rw [List.pairwise_cons]
    exact ⟨fun _ _ => Nat.zero_le _, List.pairwise_replicate.2 (Or.inr (le_refl 1))⟩
  · obtain ⟨k, rfl⟩ : ∃ k, n = k + 1 := ⟨n - 1, by omega⟩
    change (0 :: List.replicate (k + 1) 1).getD (k + 1) 0 = 1
    rw [List.getD_cons_succ, List.getD_eq_getElem?_getD, List.getElem?_replicate, if_pos (by omega)]
    rfl
  · rw [heatRow n v p hp]
    split
    · exact List.pairwise_singleton _ _
    · exact List.Pairwise.nil
  · rw [heatRow n v i hi] at he
    split at he
    · omega
    · simp at he
  · change rowAt (Csx.row _ i) j = _
    rw [heatRow n v i hi]
    simp only [mem_singleton]
    by_cases h0 : i = 0
    · rw [if_pos h0, rowAt_cons, rowAt_nil, add_zero]
      by_cases hj0 : j = 0
      · rw [if_pos hj0.symm, if_pos ⟨h0, hj0⟩]
      · rw [if_neg (Ne.symm hj0), if_neg (fun h => hj0 h.2)]
    · rw [if_neg h0, if_neg (fun h => h0 h.1)]
      rfl

variable [IsStrictOrderedRing K]

omit [IsStrictOrderedRing K] in
theorem unit_form (n : Nat) (Km : Nat → Nat → K) {p : Nat} (hp : p < n) :
    ∑ i ∈ range n, ∑ j ∈ range n, (if i = p then (1 : K) else 0) * Km i j * (if j = p then (1 : K) else 0) = Km p p := by
  rw [sum_eq_single_of_mem p (mem_range.2 hp)]
  · rw [sum_eq_single_of_mem p (mem_range.2 hp)]
    · simp
    · intro j _ hj; simp [hj]
  · intro i _ hi; simp [hi]

/-- **C91, heat transfer.** If the kernel of the matrix of the domain are the constants and the domain has more than one node, then the regularization matrix is built, its sum with
the matrix is positive definite, its inverse is a generalised inverse of the matrix, and the rows of `R1` are the kernel. -/
theorem C91_heat {full : Bool} {n : Nat} {A : Csx K} {Km : Nat → Nat → K} (hA : Stores full n A Km) (hd : Diagonal n A) (hK : Kernel n 1 Km heatR1) (hn : 1 < n) (z : K) :
    ∃ M C Kreg Kp, heatRegMat A = some M ∧ plus z A M = some C ∧ Stores full n C Kreg ∧ Diagonal n C ∧ Regularizes n 1 Kreg Km heatR1 Kp := by
  obtain ⟨ρ, hρ1, hρ2, hρ3⟩ := maxFirst_spec hA hd
  have hpos : 0 < ρ := by
    refine lt_of_lt_of_le ?_ (hρ3 0 (by omega) (Or.inr rfl))
    have h0 := hK.pos fun i => if i = 0 then 1 else 0
    rw [unit_form n Km (show 0 < n by omega)] at h0
    refine lt_of_le_of_ne h0 fun hz => ?_
    obtain ⟨a, ha⟩ := hK.span (fun i => if i = 0 then 1 else 0) (by rw [unit_form n Km (show 0 < n by omega)]; exact hz.symm)
    have e0 := ha 0 (by omega)
    have e1 := ha 1 hn
    simp only [heatR1, sum_range_one, if_true, mul_one] at e0 e1
    rw [if_neg (by omega), ← e0] at e1
    exact one_ne_zero e1.symm
  have hM : heatRegMat A = some ⟨n, n, 0 :: List.replicate n 1, [0], [ρ]⟩ := by
    unfold heatRegMat
    rw [hρ1, hA.np, hA.ns]
    rfl
  obtain ⟨C, hC, hS, hD⟩ := hA.plus (heat_stores full (show 0 < n by omega) ρ) hd z
  obtain ⟨Kp, hKp⟩ := regularized (F := {0}) (X := fun _ _ => 1) (ρ := ρ) (Km := Km) (Rm := heatR1) (k := 1)
    (M := fun i j => if i ∈ ({0} : Finset Nat) ∧ j ∈ ({0} : Finset Nat) then ρ else 0)
    (fun c hc => by rw [mem_singleton.1 hc]; omega) (fun a ha l hl => by
      have := ha 0 (mem_singleton_self 0)
      simp only [heatR1, sum_range_one, mul_one] at this
      have : l = 0 := by omega
      subst this; assumption)
    (fun c hc l hl => by simp [heatR1]) (fun i hi j hj => by simp [heatR1]) hK hpos
  exact ⟨_, C, _, Kp, hM, hC, hS, hD, hKp⟩

end

/-- The kernel of the heat conduction of a connected domain. -/
theorem C91_heat_kernel {m : Nat → Nat} {size : Nat} {Is : List (Interval ℝ)} (h : Fem.HeatDomain m size Is)
    (hcon : ∀ i < size, ∀ j < size, Relation.ReflTransGen (Fem.Together m Is) i j) : Kernel size 1 (assembled m 1 Is) heatR1 := by
  refine ⟨Fem.C80_symmetric h, Fem.C80_dissipation h, fun l _ i hi => ?_, fun x hx => ?_⟩
  · have h1 := Fem.C80_conservation h fun j => if j = i then 1 else 0
    rw [sum_comm] at h1
    have h2 : ∑ j ∈ range size, ∑ k ∈ range size, assembled m 1 Is k j * (if j = i then (1 : ℝ) else 0) = ∑ k ∈ range size, assembled m 1 Is k i := by
      rw [sum_eq_single_of_mem i (mem_range.2 hi)]
      · simp
      · intro j _ hj
        simp [hj]
    rw [h2] at h1
    rw [← h1]
    exact sum_congr rfl fun j _ => by rw [Fem.C80_symmetric h i j]; simp [heatR1]
  · refine ⟨fun _ => x 0, fun i hi => ?_⟩
    have := (Fem.C80_kernel h x).1 hx i 0 (hcon i hi 0 (by omega))
    simp [heatR1, this]

/-- The kernel of the matrix of one bar. -/
theorem bar_kernel : Kernel 2 1 (fun i j => if i = j then (1 : ℚ) else -1) heatR1 := by
  refine ⟨fun i j => by simp only [eq_comm], fun x => ?_, fun l _ i hi => ?_, fun x hx => ⟨fun _ => x 0, fun i hi => ?_⟩⟩
  · have : ∑ i ∈ range 2, ∑ j ∈ range 2, x i * (if i = j then (1 : ℚ) else -1) * x j = (x 0 - x 1) * (x 0 - x 1) := by
      simp [sum_range_succ]; ring
    rw [this]; exact mul_self_nonneg _
  · have : i = 0 ∨ i = 1 := by omega
    rcases this with rfl | rfl <;> simp [sum_range_succ, heatR1]
  · have e : ∑ i ∈ range 2, ∑ j ∈ range 2, x i * (if i = j then (1 : ℚ) else -1) * x j = (x 0 - x 1) * (x 0 - x 1) := by
      simp [sum_range_succ]; ring
    rw [e] at hx
    have h0 : x 0 - x 1 = 0 := mul_self_eq_zero.1 hx
    have : i = 0 ∨ i = 1 := by omega
    rcases this with rfl | rfl
    · simp [heatR1]
    · simp [heatR1]; linarith

/-- The upper triangle of the matrix of one bar. -/
theorem bar_stores : Stores false 2 (⟨2, 2, [0, 2, 3], [0, 1, 1], [1, -1, 1]⟩ : Csx ℚ) (fun i j => if i = j then 1 else -1) ∧
    Diagonal 2 (⟨2, 2, [0, 2, 3], [0, 1, 1], [1, -1, 1]⟩ : Csx ℚ) := by
  refine ⟨⟨⟨rfl, rfl, by decide, rfl, rfl, by decide⟩, rfl, rfl, fun p hp => ?_, fun _ i hi e he => ?_, fun i hi j hj hij => ?_⟩, fun i hi => ?_⟩
  · have : p = 0 ∨ p = 1 := by change p < 2 at hp; omega
    rcases this with rfl | rfl
    · decide
    · decide
  · have : i = 0 ∨ i = 1 := by omega
    rcases this with rfl | rfl
    · omega
    · have : e = (1, 1) := by simpa [Csx.row] using he
      rw [this]
  · have : (i = 0 ∧ j = 0) ∨ (i = 0 ∧ j = 1) ∨ (i = 1 ∧ j = 1) := by
      rcases hij with h | h
      · cases h
      · omega
    rcases this with ⟨rfl, rfl⟩ | ⟨rfl, rfl⟩ | ⟨rfl, rfl⟩ <;> simp [Csx.at, Csx.row]
  · have : i = 0 ∨ i = 1 := by omega
    rcases this with rfl | rfl
    · exact ⟨1, by simp [Csx.row]⟩
    · exact ⟨1, by simp [Csx.row]⟩

/-- The hypotheses of `C91_heat` hold for one bar. -/
example : ∃ M C Kreg Kp, heatRegMat (⟨2, 2, [0, 2, 3], [0, 1, 1], [1, -1, 1]⟩ : Csx ℚ) = some M ∧
    plus 0 (⟨2, 2, [0, 2, 3], [0, 1, 1], [1, -1, 1]⟩ : Csx ℚ) M = some C ∧ Stores false 2 C Kreg ∧ Diagonal 2 C ∧
    Regularizes 2 1 Kreg (fun i j => if i = j then 1 else -1) heatR1 Kp :=
  C91_heat bar_stores.1 bar_stores.2 bar_kernel (by norm_num) 0

/-- A domain with a single node has a zero matrix, and it stays zero. -/
theorem C91_single_node : ∃ M C, heatRegMat (⟨1, 1, [0, 1], [0], [0]⟩ : Csx ℚ) = some M ∧ plus 0 (⟨1, 1, [0, 1], [0], [0]⟩ : Csx ℚ) M = some C ∧ C.at 0 0 = 0 := by
  refine ⟨⟨1, 1, [0, 1], [0], [0]⟩, ⟨1, 1, [0, 1], [0], [0]⟩, ?_, ?_, ?_⟩
  · simp [heatRegMat, maxFirst]
  · simp [plus, combine, sumCombined, colsAt, Csx.row, mergeCols, countCols, ptrsFrom, sumRow, takeCol]
  · simp [Csx.at, Csx.row]

/-! ### C91: the assumptions of the FETI solver -/

section
variable {K : Type} [Field K] [LinearOrder K]

/-- Regularized domains satisfy what the FETI solver (C68, C69) assumes about the kernels and the generalised inverses. -/
theorem C91_feti (nd : Nat) {dim kdim : Nat → Nat} {Kreg Km Rm Kp : Nat → Nat → Nat → K} (hK : ∀ d, Kernel (dim d) (kdim d) (Km d) (Rm d))
    (h : ∀ d, Regularizes (dim d) (kdim d) (Kreg d) (Km d) (Rm d) (Kp d)) : Dual.PseudoInverse nd dim kdim Km Kp Rm :=
  ⟨fun d _ k hk i hi => (hK d).zero k hk i hi, fun d _ b hb i hi => (h d).generalised b hb i hi⟩

/-- A direct solver of the regularized systems applies the inverse matrices. -/
theorem C91_solver {dim kdim : Nat → Nat} {Kreg Km Rm Kp : Nat → Nat → Nat → K} (h : ∀ d, Regularizes (dim d) (kdim d) (Kreg d) (Km d) (Rm d) (Kp d))
    {solve : Nat → List K → List K} (hs : ∀ d v, v.length = dim d → (solve d v).length = dim d ∧ ∀ i < dim d, ∑ j ∈ range (dim d), Kreg d i j * (solve d v).getD j 0 = v.getD i 0) :
    Dual.SolvesBy dim Kp solve := by
  intro d v hv
  obtain ⟨h1, h2⟩ := hs d v hv
  refine List.ext_getElem (by rw [h1, List.length_map, List.length_range]) fun i hi _ => ?_
  rw [h1] at hi
  have := (h d).unique (fun j => (solve d v).getD j 0) (fun j => ∑ m ∈ range (dim d), Kp d j m * v.getD m 0) (fun i hi => by
    rw [h2 i hi, (h d).inverse (fun m => v.getD m 0) i hi]) i hi
  rw [List.getElem_map, List.getElem_range, ← this, List.getD_eq_getElem?_getD, List.getElem?_eq_getElem (by omega), Option.getD_some]

end

end Verif.Regularization
