import Verif.Model.CsxOps
import Verif.Proof.CsxRow
import Verif.Proof.CsxConvert
import Mathlib.Algebra.BigOperators.Group.Finset.Basic
import Mathlib.Algebra.BigOperators.Ring.Finset
import Mathlib.Tactic.Ring
/-! C42: sparse matrix-vector product. -/
namespace Verif.Csx

open Finset

variable {R : Type} [CommRing R]

set_option linter.dupNamespace false in
/-- The dense matrix represented by `A` (entries stored several times are added). -/
def Csx.at (A : Csx R) (p s : Nat) : R := (((A.row p).filter fun e => e.1 = s).map fun e => e.2).sum

theorem sum_row (row : List (Nat × R)) (x : Nat → R) (n : Nat) (h : ∀ e ∈ row, e.1 < n) :
    (row.map fun e => e.2 * x e.1).sum = ∑ j ∈ range n, ((row.filter fun e => e.1 = j).map fun e => e.2).sum * x j := by
  induction row with
  | nil => simp
  | cons e row ih =>
      rw [List.map_cons, List.sum_cons, ih fun e' he' => h e' (List.mem_cons_of_mem _ he')]
      have he := h e List.mem_cons_self
      have : ∀ j, (((e :: row).filter fun e => e.1 = j).map fun e => e.2).sum * x j =
          (if j = e.1 then e.2 * x e.1 else 0) + ((row.filter fun e => e.1 = j).map fun e => e.2).sum * x j := by
        intro j
        by_cases hj : j = e.1
        · rw [List.filter_cons_of_pos (by simpa using hj.symm), List.map_cons, List.sum_cons, if_pos hj, hj]; ring
        · rw [List.filter_cons_of_neg (by simpa using fun h => hj h.symm), if_neg hj]; ring
      simp only [this]
      rw [sum_add_distrib, sum_ite_eq' (range n) e.1 (fun _ => e.2 * x e.1), if_pos (mem_range.2 he)]

theorem fold_sum (row : List (Nat × R)) (x : List R) (n : Nat) (hx : x.length = n) (h : ∀ e ∈ row, e.1 < n) : ∀ s : R,
    row.foldlM (fun s e => x[e.1]?.bind fun xv => some (s + e.2 * xv)) s = some (s + (row.map fun e => e.2 * x.getD e.1 0).sum) := by
  induction row with
  | nil => intro s; simp
  | cons e row ih =>
      intro s
      have he := h e List.mem_cons_self
      rw [List.foldlM_cons, List.getElem?_eq_getElem (by omega)]
      show List.foldlM _ (s + e.2 * x[e.1]) row = _
      rw [ih (fun e' he' => h e' (List.mem_cons_of_mem _ he')), List.map_cons, List.sum_cons]
      congr 1
      rw [List.getD_eq_getElem?_getD, List.getElem?_eq_getElem (show e.1 < x.length by omega)]
      simp only [Option.getD_some]; ring

variable [DecidableEq R]

/-- **C42** (row order): for every well-formed matrix, `y = α A x + β y` is computed exactly; with `β = 0` the vector `y` may be uninitialised. -/
theorem C42_gemv_rows (A : Csx R) (hA : WellFormed A) (x : List R) (hx : x.length = A.ns) (y : List (Option R)) (hy : y.length = A.np) (α β : R) (old : Nat → R)
    (hold : β ≠ 0 → ∀ i, i < A.np → y[i]? = some (some (old i))) :
    ∃ y', gemvR A x y α β = some y' ∧ y'.length = A.np ∧
      ∀ i, i < A.np → y'[i]? = some (some (α * (∑ j ∈ range A.ns, A.at i j * x.getD j 0) + β * old i)) := by
  unfold gemvR
  have hy0 : ∃ y0, (if β = 0 then fillZero y else y) = y0 ∧ y0.length = A.np ∧ ∀ i, i < A.np → ∃ v, y0[i]? = some (some v) ∧ β * v = β * old i := by
    by_cases hb : β = 0
    · refine ⟨fillZero y, if_pos hb, by unfold fillZero; rw [List.length_map]; exact hy, ?_⟩
      intro i hi
      refine ⟨0, ?_, by rw [hb]; ring⟩
      unfold fillZero
      rw [List.getElem?_map, List.getElem?_eq_getElem (by omega)]; rfl
    · exact ⟨y, if_neg hb, hy, fun i hi => ⟨old i, hold hb i hi, rfl⟩⟩
  obtain ⟨y0, e0, l0, h0⟩ := hy0
  simp only [e0]
  obtain ⟨s, e, h1, h2, _⟩ := forLoop_inv (Nat.zero_le A.np) y0 (fun row y => do
    let start ← A.ptrs[row]?
    let stop ← A.ptrs[row + 1]?
    let s ← forLoop start stop 0 fun i s => do
      let col ← A.idxs[i]?
      let val ← A.vals[i]?
      let xv ← x[col]?
      some (s + val * xv)
    let cell ← y[row]?
    let old ← cell
    wr y row (some (α * s + β * old)))
    (fun k y => y.length = A.np ∧ (∀ i, i < k → y[i]? = some (some (α * (∑ j ∈ range A.ns, A.at i j * x.getD j 0) + β * old i))) ∧
      ∀ i, k ≤ i → i < A.np → y[i]? = y0[i]?) ⟨l0, by intro i hi; omega, fun _ _ _ => rfl⟩ (by
      intro p _ hp y ⟨h1, h2, h3⟩
      simp only [Option.bind_eq_bind]
      rw [wf_ptr hA (by omega), wf_ptr hA (by omega)]
      simp only [Option.bind_some]
      have hcols : ∀ e ∈ A.row p, e.1 < A.ns := fun e he => wf_cols hA (A.row p) (List.mem_map.2 ⟨p, List.mem_range.2 hp, rfl⟩) e he
      rw [row_loop' hA hp (fun c v s => x[c]?.bind fun xv => some (s + v * xv)), fold_sum (A.row p) x A.ns hx hcols, Option.bind_some,
        h3 p (Nat.le_refl _) hp]
      obtain ⟨v, hv, hbv⟩ := h0 p hp
      rw [hv, Option.bind_some, Option.bind_some, wr_eq_some (by omega)]
      refine ⟨_, rfl, by rw [List.length_set]; exact h1, ?_, ?_⟩
      · intro i hi
        rw [getElem?_set' _ _ _ _ (by omega)]
        by_cases hip : p = i
        · rw [if_pos hip, ← hip, hbv, sum_row _ (fun j => x.getD j 0) A.ns hcols, zero_add]
          rfl
        · rw [if_neg hip]; exact h2 i (by omega)
      · intro i hi1 hi2
        rw [getElem?_set' _ _ _ _ (by omega), if_neg (by omega)]
        exact h3 i (by omega) hi2)
  exact ⟨s, e, h1, h2⟩

omit [DecidableEq R] in
theorem fold_cols (row : List (Nat × R)) (xv α : R) (n : Nat) (h : ∀ e ∈ row, e.1 < n) : ∀ (y : List (Option R)) (g : Nat → R), y.length = n →
    (∀ i, i < n → y[i]? = some (some (g i))) →
    ∃ y', row.foldlM (fun y e => y[e.1]?.bind fun cell => cell.bind fun old => wr y e.1 (some (old + α * e.2 * xv))) y = some y' ∧ y'.length = n ∧
      ∀ i, i < n → y'[i]? = some (some (g i + α * ((((row.filter fun e => e.1 = i).map fun e => e.2).sum) * xv))) := by
  induction row with
  | nil => intro y g hl hg; exact ⟨y, rfl, hl, by intro i hi; rw [hg i hi]; simp⟩
  | cons e row ih =>
      intro y g hl hg
      have he := h e List.mem_cons_self
      obtain ⟨y', e1, e2, e3⟩ := ih (fun e' he' => h e' (List.mem_cons_of_mem _ he')) (y.set e.1 (some (g e.1 + α * e.2 * xv)))
        (fun i => if e.1 = i then g i + α * e.2 * xv else g i) (by rw [List.length_set]; exact hl) (by
          intro i hi
          rw [getElem?_set' _ _ _ _ (by omega)]
          by_cases hei : e.1 = i
          · rw [if_pos hei, if_pos hei, hei]
          · rw [if_neg hei, if_neg hei]; exact hg i hi)
      refine ⟨y', ?_, e2, ?_⟩
      · rw [List.foldlM_cons, hg e.1 he]
        show Option.bind (wr y e.1 _) _ = _
        rw [wr_eq_some (by omega)]; exact e1
      · intro i hi
        rw [e3 i hi]
        congr 2
        by_cases hei : e.1 = i
        · rw [if_pos hei, List.filter_cons_of_pos (by simpa using hei), List.map_cons, List.sum_cons]; ring
        · rw [if_neg hei, List.filter_cons_of_neg (by simpa using hei)]

/-- **C42** (column order): the same result when the matrix is stored by columns; here the primary index is the column. -/
theorem C42_gemv_columns (A : Csx R) (hA : WellFormed A) (x : List R) (hx : x.length = A.np) (y : List (Option R)) (hy : y.length = A.ns) (α β : R) (old : Nat → R)
    (hold : β ≠ 0 → ∀ i, i < A.ns → y[i]? = some (some (old i))) :
    ∃ y', gemvC A x y α β = some y' ∧ y'.length = A.ns ∧
      ∀ i, i < A.ns → y'[i]? = some (some (α * (∑ j ∈ range A.np, A.at j i * x.getD j 0) + β * old i)) := by
  unfold gemvC
  have hy0 : ∃ y0, scaleY y β = some y0 ∧ y0.length = A.ns ∧ ∀ i, i < A.ns → y0[i]? = some (some (β * old i)) := by
    unfold scaleY
    by_cases hb : β = 0
    · refine ⟨fillZero y, if_pos hb, by unfold fillZero; rw [List.length_map]; exact hy, ?_⟩
      intro i hi
      unfold fillZero
      rw [List.getElem?_map, List.getElem?_eq_getElem (by omega), hb]; simp
    · rw [if_neg hb]
      obtain ⟨s, e, h1, h2, _⟩ := forLoop_inv (Nat.zero_le y.length) y (fun i y => do
        let cell ← y[i]?
        let old ← cell
        wr y i (some (old * β))) (fun k s => s.length = A.ns ∧ (∀ i, i < k → s[i]? = some (some (β * old i))) ∧ ∀ i, k ≤ i → i < A.ns → s[i]? = some (some (old i)))
        ⟨hy, by intro i hi; omega, fun i _ hi => hold hb i hi⟩ (by
          intro i _ hi s ⟨h1, h2, h3⟩
          refine ⟨s.set i (some (old i * β)), ?_, by rw [List.length_set]; exact h1, ?_, ?_⟩
          · rw [h3 i (Nat.le_refl _) (by omega)]
            exact wr_eq_some (by omega)
          · intro k hk
            rw [getElem?_set' _ _ _ _ (by omega)]
            by_cases hik : i = k
            · rw [if_pos hik, ← hik, mul_comm]
            · rw [if_neg hik]; exact h2 k (by omega)
          · intro k hk1 hk2
            rw [getElem?_set' _ _ _ _ (by omega), if_neg (by omega)]
            exact h3 k (by omega) hk2)
      exact ⟨s, e, h1, fun i hi => h2 i (by omega)⟩
  obtain ⟨y0, e0, l0, h0⟩ := hy0
  rw [e0]
  simp only [Option.bind_eq_bind, Option.bind_some]
  obtain ⟨s, e, h1, h2⟩ := forLoop_inv (Nat.zero_le A.np) y0 (fun col y => A.ptrs[col]?.bind fun start => A.ptrs[col + 1]?.bind fun stop => x[col]?.bind fun xv =>
      forLoop start stop y fun i y => A.idxs[i]?.bind fun row => A.vals[i]?.bind fun val => y[row]?.bind fun cell => cell.bind fun old =>
        wr y row (some (old + α * val * xv)))
    (fun k y => y.length = A.ns ∧ ∀ i, i < A.ns → y[i]? = some (some (β * old i + α * ∑ j ∈ range k, A.at j i * x.getD j 0)))
    ⟨l0, by intro i hi; rw [h0 i hi]; simp⟩ (by
      intro p _ hp y ⟨h1, h2⟩
      rw [wf_ptr hA (by omega), wf_ptr hA (by omega), List.getElem?_eq_getElem (show p < x.length by omega)]
      simp only [Option.bind_some]
      have hcols : ∀ e ∈ A.row p, e.1 < A.ns := fun e he => wf_cols hA (A.row p) (List.mem_map.2 ⟨p, List.mem_range.2 hp, rfl⟩) e he
      rw [row_loop' hA hp (fun (row : Nat) (val : R) (y : List (Option R)) => y[row]?.bind fun cell => cell.bind fun old => wr y row (some (old + α * val * x[p])))]
      obtain ⟨y', e1, e2, e3⟩ := fold_cols (A.row p) x[p] α A.ns hcols y _ h1 h2
      refine ⟨y', e1, e2, ?_⟩
      intro i hi
      rw [e3 i hi, sum_range_succ]
      congr 2
      have : x.getD p 0 = x[p] := by rw [List.getD_eq_getElem?_getD, List.getElem?_eq_getElem (show p < x.length by omega)]; rfl
      rw [this]
      unfold Csx.at
      ring)
  refine ⟨s, e, h1, ?_⟩
  intro i hi
  rw [h2 i hi]
  congr 2
  ring

/-! A concrete case: a 2 x 3 matrix with a repeated entry, `β = 0` and an uninitialised vector. -/

def gemvEx : Csx Int := ⟨2, 3, [0, 2, 4], [0, 2, 1, 1], [1, 2, 3, 4]⟩

theorem gemvEx_wf : WellFormed gemvEx := ⟨rfl, rfl, by decide, rfl, rfl, by decide⟩

example : gemvR gemvEx [1, 10, 100] [none, none] 2 0 = some [some 402, some 140] := by decide

example : gemvR gemvEx [1, 10, 100] [none, some 3] 2 5 = none := by decide

example : gemvC gemvEx [1, 10] [some 1, some 2, some 3] 2 5 = some [some 7, some 150, some 19] := by decide

example : ∃ y', gemvR gemvEx [1, 10, 100] [some 7, some 3] 2 5 = some y' ∧ y'.length = 2 ∧
      ∀ i, i < 2 → y'[i]? = some (some (2 * (∑ j ∈ range 3, gemvEx.at i j * [1, 10, 100].getD j 0) + 5 * [7, 3].getD i 0)) :=
  C42_gemv_rows gemvEx gemvEx_wf _ rfl _ rfl 2 5 (fun i => [7, 3].getD i 0) fun _ i hi => by
    have : i = 0 ∨ i = 1 := by have : i < 2 := hi; omega
    rcases this with rfl | rfl <;> rfl

end Verif.Csx
