import Verif.Model.Regularization
import Verif.Proof.Csx
import Verif.Prop.CsxGemv
import Mathlib.Data.List.Pairwise
import Mathlib.Tactic.Ring
/-! The sum of sparse matrices. -/
namespace Verif.Regularization

open Verif.Csx Verif.Pattern

theorem mem_mergeCols : ∀ (a b : List Nat) (j : Nat), j ∈ mergeCols a b ↔ j ∈ a ∨ j ∈ b := by
  intro a b j
  induction a, b using mergeCols.induct with
  | case1 b => simp [mergeCols]
  | case2 x a => simp [mergeCols]
  | case3 a y b ih =>
    rw [mergeCols, if_pos rfl]
    simp only [List.mem_cons, ih]
    tauto
  | case4 x a y b h1 h2 ih =>
    rw [mergeCols, if_neg h1, if_pos h2]
    simp only [List.mem_cons] at ih ⊢
    rw [ih]
    tauto
  | case5 x a y b h1 h2 ih =>
    rw [mergeCols, if_neg h1, if_neg h2]
    simp only [List.mem_cons] at ih ⊢
    rw [ih]
    tauto

theorem mergeCols_sorted : ∀ (a b : List Nat), a.Pairwise (· < ·) → b.Pairwise (· < ·) → (mergeCols a b).Pairwise (· < ·) := by
  intro a b
  induction a, b using mergeCols.induct with
  | case1 b => intro _ hb; simpa [mergeCols] using hb
  | case2 x a => intro ha _; simpa [mergeCols] using ha
  | case3 a y b ih =>
    intro ha hb
    rw [mergeCols, if_pos rfl]
    rw [List.pairwise_cons] at ha hb ⊢
    refine ⟨fun j hj => ?_, ih ha.2 hb.2⟩
    rcases (mem_mergeCols _ _ _).1 hj with h | h
    · exact ha.1 j h
    · exact hb.1 j h
  | case4 x a y b h1 h2 ih =>
    intro ha hb
    rw [mergeCols, if_neg h1, if_pos h2]
    have hb' := hb
    rw [List.pairwise_cons] at ha hb' ⊢
    refine ⟨fun j hj => ?_, ih ha.2 hb⟩
    rcases (mem_mergeCols _ _ _).1 hj with h | h
    · exact ha.1 j h
    · rcases List.mem_cons.1 h with rfl | h
      · exact h2
      · exact h2.trans (hb'.1 j h)
  | case5 x a y b h1 h2 ih =>
    intro ha hb
    rw [mergeCols, if_neg h1, if_neg h2]
    have ha' := ha
    rw [List.pairwise_cons] at ha' hb ⊢
    refine ⟨fun j hj => ?_, ih ha hb.2⟩
    rcases (mem_mergeCols _ _ _).1 hj with h | h
    · rcases List.mem_cons.1 h with rfl | h
      · omega
      · have := ha'.1 j h; omega
    · exact hb.1 j h

theorem countCols_eq : ∀ a b : List Nat, countCols a b = (mergeCols a b).length := by
  intro a b
  induction a, b using mergeCols.induct with
  | case1 b => simp [countCols, mergeCols]
  | case2 x a => simp [countCols, mergeCols]
  | case3 a y b ih => rw [mergeCols, countCols, if_pos rfl, if_pos rfl, ih]; rfl
  | case4 x a y b h1 h2 ih => rw [mergeCols, countCols, if_neg h1, if_neg h1, if_pos h2, if_pos h2, ih]; rfl
  | case5 x a y b h1 h2 ih => rw [mergeCols, countCols, if_neg h1, if_neg h1, if_neg h2, if_neg h2, ih]; rfl

theorem ptrsFrom_eq : ∀ (rows : List (List Nat)) (base : Nat), ptrsFrom base rows = (List.range (rows.length + 1)).map fun k => base + (rows.take k).flatten.length := by
  intro rows
  induction rows with
  | nil => intro base; simp [ptrsFrom]
  | cons row rows ih =>
    intro base
    rw [ptrsFrom, ih, List.length_cons, List.range_succ_eq_map (n := rows.length + 1), List.map_cons, List.map_map]
    simp only [List.take_zero, List.flatten_nil, List.length_nil, Nat.add_zero, List.cons.injEq, true_and]
    refine List.map_congr_left fun k _ => ?_
    simp only [Function.comp, List.take_succ_cons, List.flatten_cons, List.length_append]
    omega

/-- The matrix with the given columns and values. -/
theorem ofRows_zip {T : Type} (ns : Nat) (cols : List (List Nat)) (vals : List (List T)) (h : cols.length = vals.length) (hl : ∀ i, (cols.getD i []).length = (vals.getD i []).length) :
    (⟨cols.length, ns, ptrsFrom 0 cols, cols.flatten, vals.flatten⟩ : Csx T) = ofRows ns ((cols.zip vals).map fun x => x.1.zip x.2) := by
  have key : ∀ (cols : List (List Nat)) (vals : List (List T)), cols.length = vals.length → (∀ i, (cols.getD i []).length = (vals.getD i []).length) →
      ((cols.zip vals).map fun x => x.1.zip x.2).flatten.map (·.1) = cols.flatten ∧ ((cols.zip vals).map fun x => x.1.zip x.2).flatten.map (·.2) = vals.flatten ∧
      ∀ k, (((cols.zip vals).map fun x => x.1.zip x.2).take k).flatten.length = (cols.take k).flatten.length := by
    intro cols
    induction cols with
    | nil => intro vals h _; have : vals = [] := List.length_eq_zero_iff.1 h.symm; subst this; simp
    | cons c cols ih =>
      intro vals h hl
      match vals, h with
      | [], h => simp at h
      | v :: vals, h =>
        have h0 : c.length = v.length := by simpa using hl 0
        obtain ⟨i1, i2, i3⟩ := ih vals (by simpa using h) (fun i => by simpa using hl (i + 1))
        refine ⟨?_, ?_, fun k => ?_⟩
        · simp only [List.zip_cons_cons, List.map_cons, List.flatten_cons, List.map_append, i1]
          rw [List.map_fst_zip h0.le]
        · simp only [List.zip_cons_cons, List.map_cons, List.flatten_cons, List.map_append, i2]
          rw [List.map_snd_zip h0.ge]
        · match k with
          | 0 => simp
          | k + 1 =>
            simp only [List.zip_cons_cons, List.map_cons, List.take_succ_cons, List.flatten_cons, List.length_append, i3 k, List.length_zip]
            omega
  obtain ⟨k1, k2, k3⟩ := key cols vals h hl
  unfold ofRows
  have hlen : ((cols.zip vals).map fun x => x.1.zip x.2).length = cols.length := by simp [h]
  rw [k1, k2, hlen, ptrsFrom_eq]
  congr 1
  refine List.map_congr_left fun k _ => ?_
  rw [k3, Nat.zero_add]

section
variable {R : Type} [CommRing R]

/-- The sum of the values of the column `j` in a slice. -/
def rowAt (row : List (Nat × R)) (j : Nat) : R := ((row.filter fun e => e.1 = j).map fun e => e.2).sum

theorem rowAt_cons (c : Nat) (v : R) (row : List (Nat × R)) (j : Nat) : rowAt ((c, v) :: row) j = (if c = j then v else 0) + rowAt row j := by
  unfold rowAt
  by_cases h : c = j
  · rw [List.filter_cons_of_pos (by simpa using h), if_pos h]; simp
  · rw [List.filter_cons_of_neg (by simpa using h), if_neg h]; simp

theorem rowAt_nil (j : Nat) : rowAt ([] : List (Nat × R)) j = 0 := rfl

theorem rowAt_absent {row : List (Nat × R)} {j : Nat} (h : ∀ e ∈ row, e.1 ≠ j) : rowAt row j = 0 := by
  unfold rowAt
  rw [List.filter_eq_nil_iff.2 (fun e he => by simpa using h e he)]
  rfl

theorem sumRow_length : ∀ (cs : List Nat) (a b : List (Nat × R)), (sumRow cs a b).length = cs.length := by
  intro cs
  induction cs with
  | nil => intros; rfl
  | cons c cs ih => intro a b; simp [sumRow, ih]

theorem sumRow_nil_left : ∀ b : List (Nat × R), sumRow (b.map (·.1)) [] b = b.map (·.2) := by
  intro b
  induction b with
  | nil => rfl
  | cons e b ih => simp [sumRow, takeCol, ih]

theorem sumRow_nil_right : ∀ a : List (Nat × R), sumRow (a.map (·.1)) a [] = a.map (·.2) := by
  intro a
  induction a with
  | nil => rfl
  | cons e a ih => simp [sumRow, takeCol, ih]

/-- The values computed for a slice of the sum. -/
theorem sumRow_spec : ∀ (n : Nat) (a b : List (Nat × R)), a.length + b.length ≤ n → ∀ j,
    rowAt ((mergeCols (a.map (·.1)) (b.map (·.1))).zip (sumRow (mergeCols (a.map (·.1)) (b.map (·.1))) a b)) j = rowAt a j + rowAt b j := by
  intro n
  induction n with
  | zero =>
    intro a b h j
    have h1 : a = [] := List.length_eq_zero_iff.1 (by omega)
    have h2 : b = [] := List.length_eq_zero_iff.1 (by omega)
    subst h1 h2
    simp [mergeCols, sumRow, rowAt_nil]
  | succ n ih =>
    intro a b h j
    match a, b with
    | [], b =>
      rw [List.map_nil, mergeCols, sumRow_nil_left, zip_map_fst_snd, rowAt_nil, zero_add]
    | x :: a, [] =>
      have := sumRow_nil_right (x :: a)
      rw [List.map_nil, List.map_cons, mergeCols]
      rw [List.map_cons] at this
      rw [this, ← List.map_cons (f := fun e : Nat × R => e.1), zip_map_fst_snd, rowAt_nil, add_zero]
    | (x, v) :: a, (y, w) :: b =>
      simp only [List.length_cons] at h
      rw [List.map_cons, List.map_cons, mergeCols]
      by_cases h1 : x = y
      · subst h1
        rw [if_pos rfl, sumRow]
        simp only [takeCol, if_pos]
        rw [List.zip_cons_cons, rowAt_cons, rowAt_cons, rowAt_cons, ih a b (by omega) j]
        split <;> ring
      · by_cases h2 : x < y
        · rw [if_neg h1, if_pos h2, sumRow]
          simp only [takeCol, if_pos, if_neg h1]
          have := ih a ((y, w) :: b) (by simp only [List.length_cons]; omega) j
          rw [List.map_cons] at this
          rw [List.zip_cons_cons, rowAt_cons, rowAt_cons, this]
          split <;> ring
        · rw [if_neg h1, if_neg h2, sumRow]
          simp only [takeCol, if_pos, if_neg (Ne.symm h1)]
          have := ih ((x, v) :: a) b (by simp only [List.length_cons]; omega) j
          rw [List.map_cons] at this
          rw [List.zip_cons_cons, rowAt_cons, this, rowAt_cons y]
          split <;> ring

end

section
variable {R : Type} [CommRing R]

/-- The sum of two matrices. -/
theorem plus_spec (z : R) {A B : Csx R} (hA : WellFormed A) (hB : WellFormed B) (hnp : A.np = B.np) (hns : A.ns = B.ns) :
    ∃ C, plus z A B = some C ∧ WellFormed C ∧ C.np = A.np ∧ C.ns = A.ns ∧ (A.Sorted → B.Sorted → C.Sorted) ∧ (∀ i j, i < A.np → C.at i j = A.at i j + B.at i j) ∧
      ∀ p < A.np, ∀ j, j ∈ colsAt C p ↔ j ∈ colsAt A p ∨ j ∈ colsAt B p := by
  have hne : ¬ (A.np ≠ B.np ∨ A.ns ≠ B.ns) := by simp [hnp, hns]
  let rows := (List.range A.np).map fun r => mergeCols (colsAt A r) (colsAt B r)
  have hcount : ((List.range A.np).map fun r => countCols (colsAt A r) (colsAt B r)).sum = rows.flatten.length := by
    rw [List.length_flatten]
    simp only [rows, List.map_map]
    congr 1
    exact List.map_congr_left fun r _ => countCols_eq _ _
  let C0 : Csx R := ⟨A.np, A.ns, ptrsFrom 0 rows, rows.flatten, List.replicate rows.flatten.length z⟩
  have hc : combine z A B = some C0 := by
    unfold combine
    rw [if_neg hne]
    simp only
    rw [hcount, if_pos (le_refl _)]
  have hrl : rows.length = A.np := by simp [rows]
  have hC0 : C0 = ofRows A.ns ((rows.zip (rows.map fun r => List.replicate r.length z)).map fun x => x.1.zip x.2) := by
    rw [← ofRows_zip A.ns rows _ (by simp)]
    · simp only [C0, hrl]
      congr 1
      clear_value rows
      clear hcount hc hrl C0
      induction rows with
      | nil => rfl
      | cons r rows ih => simp only [List.flatten_cons, List.length_append, List.map_cons, List.replicate_add, ih]
    · intro i
      simp only [List.getD_eq_getElem?_getD, List.getElem?_map]
      cases rows[i]? <;> simp
  have hcols : ∀ r < A.np, colsAt C0 r = mergeCols (colsAt A r) (colsAt B r) := by
    intro r hr
    have hrow : rows[r]? = some (mergeCols (colsAt A r) (colsAt B r)) := by
      simp only [rows, List.getElem?_map, List.getElem?_range hr, Option.map_some]
    unfold colsAt
    rw [hC0, ofRows_row (row := (mergeCols (colsAt A r) (colsAt B r)).zip (List.replicate (mergeCols (colsAt A r) (colsAt B r)).length z))]
    · rw [List.map_fst_zip (by simp)]; rfl
    · simp only [List.getElem?_map, List.getElem?_zip_eq_some, List.zip, List.getElem?_zipWith, hrow, Option.map_some]
  let vals := (List.range A.np).map fun r => sumRow (colsAt C0 r) (A.row r) (B.row r)
  have hvl : vals.length = A.np := by simp [vals]
  let C : Csx R := { C0 with vals := vals.flatten }
  have hp : plus z A B = some C := by
    unfold plus
    rw [hc]
    change sumCombined C0 A B = _
    unfold sumCombined
    rw [if_neg hne]
    simp only [C, vals, List.flatMap_def]
  have hrowv : ∀ r < A.np, vals[r]? = some (sumRow (mergeCols (colsAt A r) (colsAt B r)) (A.row r) (B.row r)) := by
    intro r hr
    simp only [vals, List.getElem?_map, List.getElem?_range hr, Option.map_some, hcols r hr]
  have hrowc : ∀ r < A.np, rows[r]? = some (mergeCols (colsAt A r) (colsAt B r)) := by
    intro r hr
    simp only [rows, List.getElem?_map, List.getElem?_range hr, Option.map_some]
  have hC : C = ofRows A.ns ((rows.zip vals).map fun x => x.1.zip x.2) := by
    rw [← ofRows_zip A.ns rows vals (by rw [hrl, hvl])]
    · simp only [C, C0, hrl]
    · intro i
      by_cases hi : i < A.np
      · rw [List.getD_eq_getElem?_getD, List.getD_eq_getElem?_getD, hrowv i hi, hrowc i hi]
        simp [sumRow_length]
      · rw [List.getD_eq_getElem?_getD, List.getD_eq_getElem?_getD, List.getElem?_eq_none (by omega), List.getElem?_eq_none (by omega)]; rfl
  have hrow : ∀ r < A.np, C.row r = (mergeCols (colsAt A r) (colsAt B r)).zip (sumRow (mergeCols (colsAt A r) (colsAt B r)) (A.row r) (B.row r)) := by
    intro r hr
    rw [hC]
    refine ofRows_row _ _ ?_
    simp only [List.getElem?_map, List.zip, List.getElem?_zipWith, hrowv r hr, hrowc r hr, Option.map_some]
  have hcolsC : ∀ r < A.np, colsAt C r = mergeCols (colsAt A r) (colsAt B r) := by
    intro r hr
    unfold colsAt
    rw [hrow r hr, List.map_fst_zip (by rw [sumRow_length])]
    rfl
  have hrange : ∀ r < A.np, ∀ j ∈ mergeCols (colsAt A r) (colsAt B r), j < A.ns := by
    intro r hr j hj
    rcases (mem_mergeCols _ _ _).1 hj with h | h
    · obtain ⟨e, he, rfl⟩ := List.mem_map.1 h
      exact wf_cols hA _ (List.mem_map.2 ⟨r, List.mem_range.2 hr, rfl⟩) e he
    · obtain ⟨e, he, rfl⟩ := List.mem_map.1 h
      rw [hns]
      exact wf_cols hB _ (List.mem_map.2 ⟨r, List.mem_range.2 (by omega), rfl⟩) e he
  refine ⟨C, hp, ?_, rfl, rfl, ?_, ?_, ?_⟩
  · rw [hC]
    refine ofRows_wf _ _ fun row hrow' e he => ?_
    obtain ⟨⟨c, v⟩, hx, rfl⟩ := List.mem_map.1 hrow'
    obtain ⟨k, hk⟩ := List.mem_iff_getElem?.1 hx
    simp only [List.zip, List.getElem?_zipWith] at hk
    by_cases hkA : k < A.np
    · rw [hrowc k hkA, hrowv k hkA] at hk
      simp only [Option.some.injEq, Prod.mk.injEq] at hk
      obtain ⟨rfl, rfl⟩ := hk
      exact hrange k hkA e.1 (List.of_mem_zip (show (e.1, e.2) ∈ _ from he)).1
    · rw [List.getElem?_eq_none (by omega)] at hk
      simp at hk
  · intro sA sB p hpA
    rw [← List.pairwise_map (f := fun e : Nat × R => e.1) (R := (· < ·))]
    change (colsAt C p).Pairwise _
    rw [hcolsC p hpA]
    exact mergeCols_sorted _ _ (List.pairwise_map.2 (sA p hpA)) (List.pairwise_map.2 (sB p (by rw [← hnp]; exact hpA)))
  · intro i j hi
    change rowAt (C.row i) j = rowAt (A.row i) j + rowAt (B.row i) j
    rw [hrow i hi]
    exact sumRow_spec _ _ _ (le_refl _) j
  · intro p hpA j
    rw [hcolsC p hpA, mem_mergeCols]

end

end Verif.Regularization
