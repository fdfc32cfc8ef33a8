import Verif.Model.DirectPattern
import Verif.Proof.PatternFill
import Mathlib.Data.List.Nodup
/-! The pattern of the direct solvers. -/
namespace Verif.Pattern.Direct

open Verif.Csx Verif.Pattern Verif.Feti

def countOps (elems : List (List Nat)) : List (Nat × Nat) := elems.flatMap fun e => e.map fun n => (n, e.length - 1)

theorem countNodes_eq (elems : List (List Nat)) (begin : List Nat) : countNodes elems begin = runOps (countOps elems) begin := by
  unfold countNodes runOps countOps
  rw [foldlM_flatMap']
  apply Verif.Csx.foldlM_congr
  intro e _ s
  rw [List.foldlM_map]
  rfl

theorem total_countOps (elems : List (List Nat)) (k : Nat) : total (countOps elems) k = (elems.map fun e => e.count k * (e.length - 1)).sum := by
  unfold countOps
  rw [total_flatMap]
  congr 1
  apply List.map_congr_left
  intro e _
  exact total_map_const _ _ _

def diagOps (size : Nat) (P : Nat → Nat) : List (Nat × Nat) := (List.range size).map fun n => (n, P n)

def nodeOps (P : Nat → Nat) (elems : List (List Nat)) : List (Nat × Nat) :=
  elems.flatMap fun e => e.flatMap fun src => (e.filter fun dst => decide (src ≠ dst)).map fun dst => (src, P dst)

theorem fillDiagonal_eq (size : Nat) (position : List Nat) (P : Nat → Nat) (h : ∀ n, n < size → position[n]? = some (P n)) (st : List Nat × List Nat) :
    fillDiagonal size position st = (diagOps size P).foldlM (fun st p => pushIndex p.1 p.2 st) st := by
  unfold fillDiagonal diagOps
  rw [List.foldlM_map, forLoop_range]
  apply Verif.Csx.foldlM_congr
  intro n hn s
  rw [h n (List.mem_range.1 hn)]
  rfl

theorem fillNodes_eq (size : Nat) (position : List Nat) (P : Nat → Nat) (h : ∀ n, n < size → position[n]? = some (P n)) (elems : List (List Nat)) (hel : ∀ e ∈ elems, ∀ n ∈ e, n < size)
    (st : List Nat × List Nat) : fillNodes position elems st = (nodeOps P elems).foldlM (fun st p => pushIndex p.1 p.2 st) st := by
  unfold fillNodes nodeOps
  rw [foldlM_flatMap']
  apply Verif.Csx.foldlM_congr
  intro e he s
  rw [foldlM_flatMap']
  apply Verif.Csx.foldlM_congr
  intro src _ s
  rw [List.foldlM_map, foldlM_filter']
  apply Verif.Csx.foldlM_congr
  intro dst hdst s
  rw [h dst (hel e he dst hdst)]
  by_cases hs : src ≠ dst
  · simp [hs]
  · simp [hs]

theorem mem_ops (size : Nat) (P : Nat → Nat) (elems : List (List Nat)) (k c : Nat) (hk : k < size) :
    (k, c) ∈ diagOps size P ++ nodeOps P elems ↔ c = P k ∨ ∃ e ∈ elems, k ∈ e ∧ ∃ m ∈ e, c = P m := by
  rw [List.mem_append]
  unfold diagOps nodeOps
  simp only [List.mem_map, List.mem_range, Prod.mk.injEq, List.mem_flatMap, List.mem_filter, decide_eq_true_eq]
  constructor
  · rintro (⟨n, _, rfl, rfl⟩ | ⟨e, he, src, hsrc, dst, ⟨hdst, _⟩, rfl, rfl⟩)
    · exact Or.inl rfl
    · exact Or.inr ⟨e, he, hsrc, dst, hdst, rfl⟩
  · rintro (rfl | ⟨e, he, hke, m, hm, rfl⟩)
    · exact Or.inl ⟨k, hk, rfl, rfl⟩
    · by_cases hkm : k = m
      · subst hkm
        exact Or.inl ⟨k, hk, rfl, rfl⟩
      · exact Or.inr ⟨e, he, k, hke, m, ⟨hm, hkm⟩, rfl, rfl⟩

theorem rowOf_diag (size : Nat) (P : Nat → Nat) (k : Nat) : (rowOf (diagOps size P) k).length ≤ 1 := by
  have : (rowOf (diagOps size P) k).length = (List.range size).count k := by
    unfold rowOf diagOps
    rw [List.length_map, List.filter_map, List.length_map, List.count_eq_length_filter]
    congr 1
  rw [this]
  exact List.nodup_iff_count_le_one.1 List.nodup_range k

theorem rowOf_element (P : Nat → Nat) (e : List Nat) (k : Nat) : ∀ l : List Nat,
    (rowOf (l.flatMap fun src => (e.filter fun dst => decide (src ≠ dst)).map fun dst => (src, P dst)) k).length = l.count k * (e.filter fun dst => decide (k ≠ dst)).length := by
  intro l
  induction l with
  | nil => simp [rowOf]
  | cons a l ih =>
    rw [List.flatMap_cons, rowOf_append, List.length_append, ih, List.count_cons]
    unfold rowOf
    rw [List.filter_map]
    by_cases hak : a = k
    · subst hak
      rw [if_pos (by simp), List.filter_eq_self.2 (by intro x _; simp)]
      simp only [List.length_map]
      rw [Nat.succ_mul, Nat.add_comm]
    · rw [if_neg (by simpa using hak), List.filter_eq_nil_iff.2 (by intro x _; simp [hak])]
      simp

theorem filter_ne_length (e : List Nat) (k : Nat) (h : k ∈ e) : (e.filter fun dst => decide (k ≠ dst)).length ≤ e.length - 1 := by
  have h1 : (e.filter fun dst => decide (k ≠ dst)).length < e.length := by
    rw [List.length_filter_lt_length_iff_exists]
    exact ⟨k, h, by simp⟩
  omega

theorem rowOf_le (size : Nat) (P : Nat → Nat) (elems : List (List Nat)) (k : Nat) : (rowOf (diagOps size P ++ nodeOps P elems) k).length ≤ 1 + total (countOps elems) k := by
  rw [rowOf_append, List.length_append, total_countOps]
  refine Nat.add_le_add (rowOf_diag size P k) ?_
  unfold nodeOps
  induction elems with
  | nil => simp [rowOf]
  | cons e elems ih =>
    rw [List.flatMap_cons, rowOf_append, List.length_append, List.map_cons, List.sum_cons, rowOf_element]
    refine Nat.add_le_add ?_ ih
    by_cases hk : k ∈ e
    · exact Nat.mul_le_mul_left _ (filter_ne_length e k hk)
    · rw [List.count_eq_zero.2 hk]
      simp

/-- Columns of one row. -/
def rowCols (dofs : Nat) (L : List Nat) : List Nat := L.flatMap fun x => (List.range dofs).map fun c => x * dofs + c

theorem rowCols_length (dofs : Nat) (L : List Nat) : (rowCols dofs L).length = L.length * dofs := by
  unfold rowCols
  rw [flatMap_length_const _ _ dofs (by intro a _; simp)]

/-- Columns of the rows of one node. -/
def nodeCols (dofs : Nat) (L : List Nat) : List Nat := (List.range dofs).flatMap fun _ => rowCols dofs L

theorem nodeCols_length (dofs : Nat) (L : List Nat) : (nodeCols dofs L).length = dofs * (L.length * dofs) := by
  unfold nodeCols
  rw [flatMap_length_const _ _ (L.length * dofs) (by intro a _; exact rowCols_length dofs L), List.length_range]

theorem push_loop (d x : Nat) (R : Blocks) : forLoop 0 d R (fun c R => some { R with column := R.column ++ [x * d + c] }) = some { R with column := R.column ++ (List.range d).map fun c => x * d + c } := by
  obtain ⟨st, e, q⟩ := forLoop_inv (Nat.zero_le d) R (fun c (R : Blocks) => some { R with column := R.column ++ [x * d + c] })
    (fun i st => st = { R with column := R.column ++ (List.range i).map fun c => x * d + c }) (by simp) (by
      intro i _ _ s hs
      subst hs
      refine ⟨_, rfl, ?_⟩
      rw [List.range_succ, List.map_append]
      simp)
  rw [e, q]

theorem listBlockRow_eq (dofs b : Nat) (indices L : List Nat) (hst : ∀ i, i < L.length → indices[b + i]? = L[i]?) (R : Blocks) :
    listBlockRow dofs b (b + L.length) indices R = some { R with row := R.row ++ [R.column.length + L.length * dofs], column := R.column ++ rowCols dofs L } := by
  unfold listBlockRow
  simp only [Option.bind_eq_bind, push_loop]
  obtain ⟨st, e, q⟩ := forLoop_inv (show b ≤ b + L.length by omega) R (fun i (R : Blocks) => indices[i]?.bind fun x =>
      some { R with column := R.column ++ (List.range dofs).map fun c => x * dofs + c })
    (fun i st => st = { R with column := R.column ++ rowCols dofs (L.take (i - b)) }) (by simp [rowCols]) (by
      intro i h1 h2 s hs
      subst hs
      have hlt : i - b < L.length := by omega
      have := hst (i - b) hlt
      rw [show b + (i - b) = i by omega, List.getElem?_eq_getElem hlt] at this
      refine ⟨_, by rw [this, Option.bind_some], ?_⟩
      rw [show i + 1 - b = i - b + 1 by omega, List.take_add_one, List.getElem?_eq_getElem hlt]
      unfold rowCols
      rw [List.flatMap_append]
      simp)
  rw [e, Option.bind_some, q, Nat.add_sub_cancel_left, List.take_length, List.length_append, rowCols_length]

/-- The start of the rows of a node. -/
def nodeStart (dofs : Nat) (L : Nat → List Nat) (n : Nat) : Nat := startOf (fun k => dofs * dofs * (L k).length) n

def rowList (dofs : Nat) (L : Nat → List Nat) (size : Nat) : List Nat :=
  0 :: (List.range size).flatMap fun n => (List.range dofs).map fun r => nodeStart dofs L n + (r + 1) * ((L n).length * dofs)

def colList (dofs : Nat) (L : Nat → List Nat) (size : Nat) : List Nat := (List.range size).flatMap fun n => nodeCols dofs (L n)

theorem colList_length (dofs : Nat) (L : Nat → List Nat) (size : Nat) : (colList dofs L size).length = nodeStart dofs L size := by
  unfold colList nodeStart
  rw [flatMap_range_length]
  congr 1
  funext k
  rw [nodeCols_length, Nat.mul_assoc, Nat.mul_comm dofs (L k).length]

theorem listBlocks_spec (dofs size : Nat) (begin fin indices : List Nat) (b : Nat → Nat) (L : Nat → List Nat) (hbegin : ∀ k, k ≤ size → begin[k]? = some (b k))
    (hfin : ∀ k, k < size → fin[k]? = some (b k + (L k).length)) (hst : Stored b size L indices) :
    listBlocks dofs size begin fin indices = some ⟨rowList dofs L size, colList dofs L size, (List.range size).map fun n => nodeStart dofs L n⟩ := by
  unfold listBlocks
  simp only [Option.bind_eq_bind]
  obtain ⟨st, est, q1⟩ := forLoop_inv (Nat.zero_le size) ((⟨[0], [], []⟩ : Blocks), 0) (fun n (st : Blocks × Nat) => begin[n]?.bind fun b => fin[n]?.bind fun e =>
      (forLoop 0 dofs { st.1 with offset := st.1.offset ++ [st.2] } fun _ R => listBlockRow dofs b e indices R).bind fun R => some (R, st.2 + dofs * dofs * (e - b)))
    (fun n st => st = (⟨rowList dofs L n, colList dofs L n, (List.range n).map fun k => nodeStart dofs L k⟩, nodeStart dofs L n)) rfl (by
      intro n _ hn st hst'
      subst hst'
      rw [hbegin n (by omega), Option.bind_some, hfin n hn, Option.bind_some]
      obtain ⟨R, eR, r1⟩ := forLoop_inv (Nat.zero_le dofs)
        (⟨rowList dofs L n, colList dofs L n, ((List.range n).map fun k => nodeStart dofs L k) ++ [nodeStart dofs L n]⟩ : Blocks)
        (fun _ (R : Blocks) => listBlockRow dofs (b n) (b n + (L n).length) indices R)
        (fun i R => R = ⟨rowList dofs L n ++ (List.range i).map fun r => nodeStart dofs L n + (r + 1) * ((L n).length * dofs),
          colList dofs L n ++ (List.range i).flatMap fun _ => rowCols dofs (L n), ((List.range n).map fun k => nodeStart dofs L k) ++ [nodeStart dofs L n]⟩) (by simp) (by
          intro i _ _ R hR
          subst hR
          refine ⟨_, listBlockRow_eq dofs (b n) indices (L n) (hst n hn) _, ?_⟩
          rw [List.range_succ, List.map_append, List.flatMap_append, List.length_append, colList_length,
            flatMap_length_const _ _ ((L n).length * dofs) (by intro a _; exact rowCols_length dofs (L n)), List.length_range]
          simp only [List.flatMap_cons, List.flatMap_nil, List.append_nil, List.map_cons, List.map_nil, List.append_assoc, Nat.succ_mul, Nat.add_assoc])
      refine ⟨_, by rw [eR, Option.bind_some], ?_⟩
      subst r1
      unfold rowList colList nodeStart
      rw [List.range_succ, List.flatMap_append, List.flatMap_append, List.map_append, startOf_succ, Nat.add_sub_cancel_left]
      simp [nodeCols])
  rw [est]
  subst q1
  rfl

/-- Reading in a concatenation of lists of the same length. -/
theorem flatMap_const_get {A B : Type} (f : A → List B) (k : Nat) : ∀ (l : List A), (∀ a ∈ l, (f a).length = k) → ∀ (i j : Nat) (a : A), l[i]? = some a → j < k → (l.flatMap f)[i * k + j]? = (f a)[j]? := by
  intro l
  induction l with
  | nil => intro _ i j a h; simp at h
  | cons x l ih =>
    intro hl i j a h hj
    rw [List.flatMap_cons]
    cases i with
    | zero =>
      rw [List.getElem?_cons_zero] at h
      have h := Option.some.inj h
      subst h
      rw [Nat.zero_mul, Nat.zero_add, List.getElem?_append_left (by rw [hl x List.mem_cons_self]; exact hj)]
    | succ i =>
      rw [List.getElem?_cons_succ] at h
      have hx := hl x List.mem_cons_self
      rw [List.getElem?_append_right (by rw [hx, Nat.succ_mul]; omega), hx, show (i + 1) * k + j - k = i * k + j by rw [Nat.succ_mul]; omega]
      exact ih (fun b hb => hl b (List.mem_cons_of_mem _ hb)) i j a h hj

theorem rowCols_get (dofs : Nat) (L : List Nat) (i c x : Nat) (hi : L[i]? = some x) (hc : c < dofs) : (rowCols dofs L)[i * dofs + c]? = some (x * dofs + c) := by
  unfold rowCols
  rw [flatMap_const_get _ dofs L (by intro a _; simp) i c x hi hc, List.getElem?_map, List.getElem?_range hc]
  rfl

theorem colList_get (dofs : Nat) (L : Nat → List Nat) (size n r j : Nat) (hn : n < size) (hr : r < dofs) (hj : j < (L n).length * dofs) :
    (colList dofs L size)[nodeStart dofs L n + (r * ((L n).length * dofs) + j)]? = (rowCols dofs (L n))[j]? := by
  have hlt : r * ((L n).length * dofs) + j < (nodeCols dofs (L n)).length := by
    rw [nodeCols_length]
    have : (r + 1) * ((L n).length * dofs) ≤ dofs * ((L n).length * dofs) := Nat.mul_le_mul_right _ hr
    rw [Nat.succ_mul] at this
    omega
  have h := flatMap_get (fun n => nodeCols dofs (L n)) size n _ hn hlt
  have hs : startOf (fun k => (nodeCols dofs (L k)).length) n = nodeStart dofs L n := by
    unfold nodeStart
    congr 1
    funext k
    rw [nodeCols_length, Nat.mul_assoc, Nat.mul_comm dofs (L k).length]
  rw [hs] at h
  unfold colList
  rw [h]
  unfold nodeCols
  exact flatMap_const_get (fun _ => rowCols dofs (L n)) ((L n).length * dofs) (List.range dofs) (by intro a _; exact rowCols_length dofs (L n)) r j r (List.getElem?_range hr) hj

theorem rowList_get (dofs : Nat) (L : Nat → List Nat) (size n r : Nat) (hn : n < size) (hr : r < dofs) :
    (rowList dofs L size)[n * dofs + r]? = some (nodeStart dofs L n + r * ((L n).length * dofs))
      ∧ (rowList dofs L size)[n * dofs + r + 1]? = some (nodeStart dofs L n + (r + 1) * ((L n).length * dofs)) := by
  have next : ∀ n r, n < size → r < dofs → (rowList dofs L size)[n * dofs + r + 1]? = some (nodeStart dofs L n + (r + 1) * ((L n).length * dofs)) := by
    intro n r hn hr
    unfold rowList
    rw [List.getElem?_cons_succ, flatMap_const_get _ dofs (List.range size) (by intro a _; simp) n r n (List.getElem?_range hn) hr, List.getElem?_map, List.getElem?_range hr]
    rfl
  refine ⟨?_, next n r hn hr⟩
  cases r with
  | succ r =>
    have := next n r hn (by omega)
    rw [Nat.add_assoc] at this
    exact this
  | zero =>
    rw [Nat.zero_mul, Nat.add_zero, Nat.add_zero]
    cases n with
    | zero => rw [Nat.zero_mul]; rfl
    | succ n =>
      have := next n (dofs - 1) (by omega) (by omega)
      rw [show n * dofs + (dofs - 1) + 1 = (n + 1) * dofs by rw [Nat.succ_mul]; omega, show dofs - 1 + 1 = dofs by omega] at this
      rw [this]
      unfold nodeStart
      rw [startOf_succ, Nat.mul_assoc dofs dofs, Nat.mul_comm dofs (L n).length]

theorem slice_stored (indices : List Nat) (b : Nat) (L : List Nat) (h : ∀ i, i < L.length → indices[b + i]? = L[i]?) : (indices.take (b + L.length)).drop b = L := by
  apply List.ext_getElem?
  intro i
  rw [List.getElem?_drop, List.getElem?_take]
  by_cases hi : i < L.length
  · rw [if_pos (by omega), h i hi]
  · rw [if_neg (by omega), List.getElem?_eq_none (by omega)]

theorem takeWhile_sorted (L : List Nat) (hs : L.Pairwise (· < ·)) (c : Nat) (hc : c ∈ L) : L[(L.takeWhile (· < c)).length]? = some c := by
  induction L with
  | nil => cases hc
  | cons x L ih =>
    rw [List.pairwise_cons] at hs
    by_cases hx : x < c
    · rw [List.takeWhile_cons_of_pos (by simpa using hx), List.length_cons, List.getElem?_cons_succ]
      refine ih hs.2 ?_
      rcases List.mem_cons.1 hc with rfl | h
      · omega
      · exact h
    · rw [List.takeWhile_cons_of_neg (by simpa using hx)]
      rcases List.mem_cons.1 hc with rfl | h
      · rfl
      · have := hs.1 c h
        omega

end Verif.Pattern.Direct
