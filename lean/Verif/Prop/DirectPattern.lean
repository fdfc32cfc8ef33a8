import Verif.Proof.DirectPattern
import Verif.Prop.Pattern
import Verif.Prop.Direct
/-! C98: the pattern of the direct solvers and the positions of the entries of the element matrices. -/
namespace Verif.Pattern.Direct

open Verif.Csx Verif.Pattern Verif.Feti

/-- The row `r` of a matrix in CSR (without the shift by the base). -/
def csrRow (B : DirectBuilt) (r : Nat) : List Nat := (B.column.take (B.row.getD (r + 1) 0)).drop (B.row.getD r 0)

/-- The position `p` of the values belongs to the row `r` and the column `c`. -/
def At (B : DirectBuilt) (p r c : Nat) : Prop := ∃ lo hi, B.row[r]? = some lo ∧ B.row[r + 1]? = some hi ∧ lo ≤ p ∧ p < hi ∧ B.column[p]? = some c

/-- The rows and columns of the entries of an element matrix with `dofs` degrees of freedom per node: the rows are numbered by the nodes, the columns by their positions `P`;
the degrees of freedom of an element are ordered by direction first. -/
def entriesOf (P : Nat → Nat) (dofs : Nat) (e : List Nat) : List (Nat × Nat) :=
  (List.range dofs).flatMap fun rd => e.flatMap fun src => (List.range dofs).flatMap fun cd => e.map fun dst => (src * dofs + rd, P dst * dofs + cd)

/-- The neighbours of a node: itself and the nodes of its elements. -/
def Neighbour (elems : List (List Nat)) (n m : Nat) : Prop := n = m ∨ ∃ e ∈ elems, n ∈ e ∧ m ∈ e

theorem positions_fold (B : DirectBuilt) {A : Type} (f : A → Option Nat) (tgt : A → Nat × Nat) : ∀ (l : List A) (perm : List Nat), (∀ a ∈ l, ∃ p, f a = some p ∧ At B p (tgt a).1 (tgt a).2) →
    ∃ Q, l.foldlM (fun perm a => (f a).bind fun p => some (perm ++ [p])) perm = some (perm ++ Q) ∧ List.Forall₂ (fun p q => At B p q.1 q.2) Q (l.map tgt) := by
  intro l
  induction l with
  | nil => intro perm _; exact ⟨[], by simp, List.Forall₂.nil⟩
  | cons a l ih =>
    intro perm h
    obtain ⟨p, h1, h2⟩ := h a List.mem_cons_self
    obtain ⟨Q, e1, e2⟩ := ih (perm ++ [p]) fun b hb => h b (List.mem_cons_of_mem _ hb)
    refine ⟨p :: Q, ?_, List.Forall₂.cons h2 e2⟩
    rw [List.foldlM_cons, h1]
    show List.foldlM _ (perm ++ [p]) l = _
    rw [e1]
    simp

theorem forall₂_append {A B : Type} {R : A → B → Prop} {a c : List A} {b d : List B} (h : List.Forall₂ R a b) (h' : List.Forall₂ R c d) : List.Forall₂ R (a ++ c) (b ++ d) := by
  induction h with
  | nil => exact h'
  | cons x _ ih => exact List.Forall₂.cons x ih

/-- The positions of elements whose pairs of nodes are neighbours. -/
theorem permutation_spec (B : DirectBuilt) (dofs : Nat) (position begin fin indices offset : List Nat) (P : Nat → Nat) (ok : List Nat → Prop)
    (h : ∀ e, ok e → ∀ rd src cd dst, rd < dofs → src ∈ e → cd < dofs → dst ∈ e →
      ∃ p, blockPosition dofs position begin fin indices offset (rd, src, cd, dst) = some p ∧ At B p (src * dofs + rd) (P dst * dofs + cd)) :
    ∀ (intervals : List (List (List Nat))) (perm offs : List Nat), (∀ i ∈ intervals, ∀ e ∈ i, ok e) →
    ∃ Q, intervals.foldlM (fun (st : List Nat × List Nat) elems => (elems.foldlM (fun perm e => blockPositions dofs position begin fin indices offset e perm) st.1).bind fun perm => some (perm, st.2 ++ [st.1.length])) (perm, offs)
      = some (perm ++ Q, offs ++ (List.range intervals.length).map fun i => perm.length + ((intervals.take i).flatten.flatMap (entriesOf P dofs)).length)
      ∧ List.Forall₂ (fun p q => At B p q.1 q.2) Q (intervals.flatten.flatMap (entriesOf P dofs)) := by
  have element : ∀ e, ok e → ∀ perm, ∃ Q, blockPositions dofs position begin fin indices offset e perm = some (perm ++ Q) ∧ List.Forall₂ (fun p q => At B p q.1 q.2) Q (entriesOf P dofs e) := by
    intro e he perm
    obtain ⟨Q, e1, e2⟩ := positions_fold B (blockPosition dofs position begin fin indices offset) (fun t => (t.2.1 * dofs + t.1, P t.2.2.2 * dofs + t.2.2.1)) (loops dofs e) perm (by
      rintro ⟨rd, src, cd, dst⟩ ht
      unfold loops at ht
      simp only [List.mem_flatMap, List.mem_range, List.mem_map, Prod.mk.injEq] at ht
      obtain ⟨_, h1, _, h2, _, h3, _, h4, rfl, rfl, rfl, rfl⟩ := ht
      exact h e he _ _ _ _ h1 h2 h3 h4)
    refine ⟨Q, e1, ?_⟩
    have : (loops dofs e).map (fun t => (t.2.1 * dofs + t.1, P t.2.2.2 * dofs + t.2.2.1)) = entriesOf P dofs e := by
      unfold loops entriesOf
      simp only [List.map_flatMap, List.map_map, Function.comp_def]
    rw [this] at e2
    exact e2
  have interval : ∀ (elems : List (List Nat)), (∀ e ∈ elems, ok e) → ∀ perm, ∃ Q, elems.foldlM (fun perm e => blockPositions dofs position begin fin indices offset e perm) perm = some (perm ++ Q)
      ∧ List.Forall₂ (fun p q => At B p q.1 q.2) Q (elems.flatMap (entriesOf P dofs)) := by
    intro elems
    induction elems with
    | nil => intro _ perm; exact ⟨[], by simp, List.Forall₂.nil⟩
    | cons e elems ih =>
      intro hel perm
      obtain ⟨Q, e1, e2⟩ := element e (hel e List.mem_cons_self) perm
      obtain ⟨Q', e3, e4⟩ := ih (fun e he => hel e (List.mem_cons_of_mem _ he)) (perm ++ Q)
      refine ⟨Q ++ Q', ?_, ?_⟩
      · rw [List.foldlM_cons, e1]
        show List.foldlM _ (perm ++ Q) elems = _
        rw [e3, List.append_assoc]
      · rw [List.flatMap_cons]
        exact forall₂_append e2 e4
  intro intervals
  induction intervals with
  | nil => intro perm offs _; exact ⟨[], by simp, List.Forall₂.nil⟩
  | cons i intervals ih =>
    intro perm offs hel
    obtain ⟨Q, e1, e2⟩ := interval i (hel i List.mem_cons_self) perm
    obtain ⟨Q', e3, e4⟩ := ih (perm ++ Q) (offs ++ [perm.length]) (fun i hi => hel i (List.mem_cons_of_mem _ hi))
    refine ⟨Q ++ Q', ?_, ?_⟩
    · rw [List.foldlM_cons, e1]
      show List.foldlM _ (perm ++ Q, offs ++ [perm.length]) intervals = _
      rw [e3, List.append_assoc, List.length_cons, List.range_succ_eq_map, List.map_cons, List.map_map]
      have hlen := e2.length_eq
      congr 2
      rw [List.append_assoc]
      congr 1
      rw [List.singleton_append]
      congr 1
      · apply List.map_congr_left
        intro k _
        simp only [Function.comp_apply, Nat.succ_eq_add_one, List.take_succ_cons, List.flatten_cons, List.flatMap_append, List.length_append]
        omega
    · rw [List.flatten_cons, List.flatMap_append]
      exact forall₂_append e2 e4

theorem build_direct (dofs size : Nat) (position : List Nat) (P : Nat → Nat) (hpos : ∀ n, n < size → position[n]? = some (P n)) (intervals boundary : List (List (List Nat)))
    (hel : ∀ e ∈ intervals.flatten, ∀ n ∈ e, n < size) (hb : ∀ i ∈ boundary, ∀ e ∈ i, ∀ n ∈ e, n < size ∧ ∀ m ∈ e, Neighbour intervals.flatten n m) (junk : Nat → Nat) :
    ∃ B L, buildDirect dofs size position intervals boundary junk = some B
      ∧ B.row = rowList dofs L size ∧ B.column = colList dofs L size ∧ (∀ n, n < size → (L n).Pairwise (· < ·) ∧ ∀ x, x ∈ L n ↔ ∃ m, Neighbour intervals.flatten n m ∧ P m = x)
      ∧ List.Forall₂ (fun p q => At B p q.1 q.2) B.perm (intervals.flatten.flatMap (entriesOf P dofs))
      ∧ B.offs = ((List.range intervals.length).map fun i => ((intervals.take i).flatten.flatMap (entriesOf P dofs)).length)
      ∧ List.Forall₂ (fun p q => At B p q.1 q.2) B.bperm (boundary.flatten.flatMap (entriesOf P dofs))
      ∧ B.boffs = ((List.range boundary.length).map fun i => ((boundary.take i).flatten.flatMap (entriesOf P dofs)).length) := by
  have hops : ∀ op ∈ countOps intervals.flatten, op.1 < size := by
    intro op hop
    unfold countOps at hop
    obtain ⟨e, he, hop⟩ := List.mem_flatMap.1 hop
    obtain ⟨k, hk, rfl⟩ := List.mem_map.1 hop
    exact hel e he k hk
  obtain ⟨begin0, b1, b2, b3⟩ := runOps_spec (countOps intervals.flatten) (List.replicate (size + 1) 1) (by
    intro op hop
    rw [List.length_replicate]
    have := hops op hop
    omega)
  rw [List.length_replicate] at b2 b3
  obtain ⟨begin, c1, c2, c3⟩ := sumPtrs_spec size begin0 (fun k => 1 + total (countOps intervals.flatten) k) b2 (by
    intro c hc
    rw [b3 c (by omega)]
    congr 1
    rw [List.getD_eq_getElem?_getD, List.getElem?_replicate, if_pos (by omega)]
    simp)
  have hbs := startOf_succ (fun k => 1 + total (countOps intervals.flatten) k)
  have hne : ∀ k, k < size → rowOf (diagOps size P ++ nodeOps P intervals.flatten) k ≠ [] := by
    intro k hk h0
    have : P k ∈ rowOf (diagOps size P ++ nodeOps P intervals.flatten) k := mem_rowOf.2 ((mem_ops size P _ k _ hk).2 (Or.inl rfl))
    rw [h0] at this
    cases this
  obtain ⟨indices, fin, f1, f2, f3, f4, f5⟩ := fill_spec size (startOf (fun k => 1 + total (countOps intervals.flatten) k)) (fun k => 1 + total (countOps intervals.flatten) k) hbs
    (diagOps size P ++ nodeOps P intervals.flatten) [] ((List.range (startOf (fun k => 1 + total (countOps intervals.flatten) k) size)).map junk) begin
    (by
      rintro ⟨r, c⟩ hp
      rcases List.mem_append.1 hp with h | h
      · obtain ⟨n, hn, e⟩ := List.mem_map.1 h
        rw [← e]
        exact List.mem_range.1 hn
      · unfold nodeOps at h
        simp only [List.mem_flatMap, List.mem_map, Prod.mk.injEq] at h
        obtain ⟨e, he, src, hsrc, _, _, rfl, _⟩ := h
        exact hel e he _ hsrc)
    (by intro k _; exact rowOf_le size P intervals.flatten k)
    (by rw [List.length_map, List.length_range]) c2 (by intro k hk; exact c3 k (by omega)) (by intro k _ i hi; exact absurd hi (Nat.not_lt_zero _))
  rw [List.nil_append] at f4 f5
  obtain ⟨L, g1, indices', fin', g2, g3, g4, g5, g6⟩ := uniqueRows_spec size begin (startOf (fun k => 1 + total (countOps intervals.flatten) k))
    (fun k => 1 + total (countOps intervals.flatten) k) hbs c3 (rowOf (diagOps size P ++ nodeOps P intervals.flatten)) hne
    (by intro k _; exact rowOf_le size P intervals.flatten k) indices fin f2 f3 f4 f5
  have hlist := listBlocks_spec dofs size begin fin' indices' (startOf (fun k => 1 + total (countOps intervals.flatten) k)) L c3 g5 g6
  have hmem : ∀ n, n < size → ∀ x, x ∈ L n ↔ ∃ m, Neighbour intervals.flatten n m ∧ P m = x := by
    intro n hn x
    rw [(g1 n hn).2.2 x, mem_rowOf, mem_ops size P _ n x hn]
    constructor
    · rintro (rfl | ⟨e, he, hne, m, hm, rfl⟩)
      · exact ⟨n, Or.inl rfl, rfl⟩
      · exact ⟨m, Or.inr ⟨e, he, hne, hm⟩, rfl⟩
    · rintro ⟨m, rfl | ⟨e, he, hne, hm⟩, rfl⟩
      · exact Or.inl rfl
      · exact Or.inr ⟨e, he, hne, m, hm, rfl⟩
  -- positions of pairs of neighbours
  have block : ∀ B : DirectBuilt, B.row = rowList dofs L size → B.column = colList dofs L size → ∀ rd src cd dst, rd < dofs → src < size → cd < dofs → dst < size →
      Neighbour intervals.flatten src dst → ∃ p, blockPosition dofs position begin fin' indices' ((List.range size).map fun n => nodeStart dofs L n) (rd, src, cd, dst) = some p
        ∧ At B p (src * dofs + rd) (P dst * dofs + cd) := by
    intro B hrow hcol rd src cd dst hrd hsrc hcd hdst hnb
    have hx : P dst ∈ L src := (hmem src hsrc _).2 ⟨dst, hnb, rfl⟩
    have hlb : lowerBound indices' (startOf (fun k => 1 + total (countOps intervals.flatten) k) src) (startOf (fun k => 1 + total (countOps intervals.flatten) k) src + (L src).length) (P dst)
        = ((L src).takeWhile (· < P dst)).length := by
      unfold lowerBound
      rw [slice_stored indices' _ (L src) (g6 src hsrc)]
    have hget := takeWhile_sorted (L src) (g1 src hsrc).2.1 (P dst) hx
    generalize ((L src).takeWhile (· < P dst)).length = i at hlb hget
    have hi : i < (L src).length := (List.getElem?_eq_some_iff.1 hget).1
    have hj : i * dofs + cd < (L src).length * dofs := by
      have : (i + 1) * dofs ≤ (L src).length * dofs := Nat.mul_le_mul_right _ hi
      rw [Nat.succ_mul] at this
      omega
    refine ⟨nodeStart dofs L src + (rd * ((L src).length * dofs) + (i * dofs + cd)), ?_, ?_⟩
    · unfold blockPosition
      simp only [Option.bind_eq_bind]
      rw [c3 src (by omega), Option.bind_some, g5 src hsrc, Option.bind_some, List.getElem?_map, List.getElem?_range hsrc, Option.map_some, Option.bind_some, hpos dst hdst, Option.bind_some, hlb,
        Nat.add_sub_cancel_left]
      congr 1
      rw [Nat.mul_assoc rd, Nat.mul_comm dofs (L src).length, Nat.mul_comm dofs i]
      omega
    · obtain ⟨r1, r2⟩ := rowList_get dofs L size src rd hsrc hrd
      refine ⟨_, _, by rw [hrow]; exact r1, by rw [hrow]; exact r2, by omega, ?_, ?_⟩
      · rw [Nat.succ_mul]
        omega
      · rw [hcol, colList_get dofs L size src rd _ hsrc hrd hj, rowCols_get dofs (L src) i cd (P dst) hget hcd]
  let B0 : DirectBuilt := ⟨rowList dofs L size, colList dofs L size, [], [], [], []⟩
  obtain ⟨Q, p1, p2⟩ := permutation_spec B0 dofs position begin fin' indices' ((List.range size).map fun n => nodeStart dofs L n) P (fun e => e ∈ intervals.flatten) (by
    intro e he rd src cd dst hrd hsrc hcd hdst
    exact block B0 rfl rfl rd src cd dst hrd (hel e he src hsrc) hcd (hel e he dst hdst) (Or.inr ⟨e, he, hsrc, hdst⟩)) intervals [] [] (fun i hi e he => List.mem_flatten.2 ⟨i, hi, he⟩)
  obtain ⟨Q', p3, p4⟩ := permutation_spec B0 dofs position begin fin' indices' ((List.range size).map fun n => nodeStart dofs L n) P
    (fun e => ∀ n ∈ e, n < size ∧ ∀ m ∈ e, Neighbour intervals.flatten n m) (by
    intro e he rd src cd dst hrd hsrc hcd hdst
    exact block B0 rfl rfl rd src cd dst hrd (he src hsrc).1 hcd (he dst hdst).1 ((he src hsrc).2 dst hdst)) boundary [] [] hb
  simp only [List.nil_append, List.length_nil, Nat.zero_add] at p1 p3
  refine ⟨⟨rowList dofs L size, colList dofs L size, Q, _, Q', _⟩, L, ?_, rfl, rfl, fun n hn => ⟨(g1 n hn).2.1, hmem n hn⟩, p2, rfl, p4, rfl⟩
  unfold buildDirect
  simp only [Option.bind_eq_bind]
  rw [countNodes_eq, b1, Option.bind_some, c1, Option.bind_some, c3 size (Nat.le_refl _), Option.bind_some, fillDiagonal_eq size position P hpos]
  rw [List.foldlM_append] at f1
  obtain ⟨st, s1, s2⟩ := Option.bind_eq_some_iff.1 f1
  rw [s1, Option.bind_some, fillNodes_eq size position P hpos _ hel, s2, Option.bind_some, g2, Option.bind_some, hlist, Option.bind_some]
  unfold blockPermutation
  simp only [Option.bind_eq_bind]
  rw [p1, Option.bind_some, p3]
  rfl

theorem csrRow_list (B : DirectBuilt) (dofs size : Nat) (L : Nat → List Nat) (h1 : B.row = rowList dofs L size) (h2 : B.column = colList dofs L size) (n rd : Nat) (hn : n < size) (hrd : rd < dofs) :
    csrRow B (n * dofs + rd) = rowCols dofs (L n) := by
  obtain ⟨r1, r2⟩ := rowList_get dofs L size n rd hn hrd
  unfold csrRow
  rw [h1, h2]
  show (List.take ((rowList dofs L size).getD (n * dofs + rd + 1) 0) (colList dofs L size)).drop ((rowList dofs L size).getD (n * dofs + rd) 0) = rowCols dofs (L n)
  rw [List.getD_eq_getElem?_getD, List.getD_eq_getElem?_getD, r1, r2, Option.getD_some, Option.getD_some]
  apply List.ext_getElem?
  intro j
  rw [List.getElem?_drop, List.getElem?_take]
  by_cases hj : j < (L n).length * dofs
  · rw [if_pos (by rw [Nat.succ_mul]; omega), Nat.add_assoc, colList_get dofs L size n rd j hn hrd hj]
  · rw [if_neg (by rw [Nat.succ_mul]; omega), List.getElem?_eq_none (by rw [rowCols_length]; omega)]

/-- The pattern of the direct solvers for one process: whatever the uninitialised memory contains, `buildPattern` succeeds; the columns of the rows of a node are, in strictly
increasing order, the degrees of freedom of its neighbours; the positions of each element and of each boundary element point, in the order in which the filler visits the entries, to the
entries of its degrees of freedom, and those of each interval start at its offset. -/
theorem C98_pattern (dofs size : Nat) (position : List Nat) (P : Nat → Nat) (hpos : ∀ n, n < size → position[n]? = some (P n)) (intervals boundary : List (List (List Nat)))
    (hel : ∀ e ∈ intervals.flatten, ∀ n ∈ e, n < size) (hb : ∀ i ∈ boundary, ∀ e ∈ i, ∀ n ∈ e, n < size ∧ ∀ m ∈ e, Neighbour intervals.flatten n m) (junk : Nat → Nat) :
    ∃ B, buildDirect dofs size position intervals boundary junk = some B
      ∧ (∃ L : Nat → List Nat, ∀ n, n < size → (L n).Pairwise (· < ·) ∧ (∀ x, x ∈ L n ↔ ∃ m, Neighbour intervals.flatten n m ∧ P m = x)
        ∧ ∀ rd, rd < dofs → csrRow B (n * dofs + rd) = (L n).flatMap fun x => (List.range dofs).map fun c => x * dofs + c)
      ∧ List.Forall₂ (fun p q => At B p q.1 q.2) B.perm (intervals.flatten.flatMap (entriesOf P dofs))
      ∧ B.offs = ((List.range intervals.length).map fun i => ((intervals.take i).flatten.flatMap (entriesOf P dofs)).length)
      ∧ List.Forall₂ (fun p q => At B p q.1 q.2) B.bperm (boundary.flatten.flatMap (entriesOf P dofs))
      ∧ B.boffs = ((List.range boundary.length).map fun i => ((boundary.take i).flatten.flatMap (entriesOf P dofs)).length) := by
  obtain ⟨B, L, h1, h2, h3, h4, h5⟩ := build_direct dofs size position P hpos intervals boundary hel hb junk
  exact ⟨B, h1, ⟨L, fun n hn => ⟨(h4 n hn).1, (h4 n hn).2, fun rd hrd => csrRow_list B dofs size L h2 h3 n rd hn hrd⟩⟩, h5⟩

/-- Different neighbours have different columns, so every entry is stored at one position only. -/
theorem C98_unique (dofs size : Nat) (position : List Nat) (P : Nat → Nat) (hpos : ∀ n, n < size → position[n]? = some (P n)) (intervals boundary : List (List (List Nat)))
    (hel : ∀ e ∈ intervals.flatten, ∀ n ∈ e, n < size) (hb : ∀ i ∈ boundary, ∀ e ∈ i, ∀ n ∈ e, n < size ∧ ∀ m ∈ e, Neighbour intervals.flatten n m) (junk : Nat → Nat)
    (B : DirectBuilt) (h : buildDirect dofs size position intervals boundary junk = some B) (n rd : Nat) (hn : n < size) (hrd : rd < dofs) : (csrRow B (n * dofs + rd)).Pairwise (· < ·) := by
  obtain ⟨B', e, ⟨L, hL⟩, _⟩ := C98_pattern dofs size position P hpos intervals boundary hel hb junk
  obtain rfl : B' = B := Option.some.inj (e.symm.trans h)
  obtain ⟨h1, _, h3⟩ := hL n hn
  rw [h3 rd hrd]
  generalize L n = l at h1
  clear hL h3 e h
  induction l with
  | nil => exact List.Pairwise.nil
  | cons x l ih =>
    rw [List.pairwise_cons] at h1
    rw [List.flatMap_cons, List.pairwise_append]
    refine ⟨?_, ih h1.2, ?_⟩
    · rw [List.pairwise_map]
      exact List.pairwise_lt_range.imp fun h => Nat.add_lt_add_left h _
    · intro a ha b hb
      simp only [List.mem_map, List.mem_range, List.mem_flatMap] at ha hb
      obtain ⟨c, hc, rfl⟩ := ha
      obtain ⟨y, hy, c', _, rfl⟩ := hb
      have : (x + 1) * dofs ≤ y * dofs := Nat.mul_le_mul_right _ (h1.1 y hy)
      rw [Nat.succ_mul] at this
      omega

theorem pointers_mono (l : List Nat) (h : ∀ k a b : Nat, l[k]? = some a → l[k + 1]? = some b → a ≤ b) : ∀ d k a b : Nat, l[k]? = some a → l[k + d]? = some b → a ≤ b := by
  intro d
  induction d with
  | zero =>
    intro k a b h1 h2
    rw [Nat.add_zero, h1] at h2
    exact le_of_eq (Option.some.inj h2)
  | succ d ih =>
    intro k a b h1 h2
    rw [← Nat.add_assoc] at h2
    have hlt : k + d < l.length := by
      have := (List.getElem?_eq_some_iff.1 h2).1
      omega
    exact Nat.le_trans (ih k a _ h1 (List.getElem?_eq_getElem hlt)) (h (k + d) _ b (List.getElem?_eq_getElem hlt) h2)

theorem rowList_length (dofs : Nat) (L : Nat → List Nat) (size : Nat) : (rowList dofs L size).length = size * dofs + 1 := by
  unfold rowList
  rw [List.length_cons, flatMap_length_const _ _ dofs (by intro a _; simp), List.length_range]

theorem split_row {dofs size r : Nat} (h : r < size * dofs) : ∃ n rd, n < size ∧ rd < dofs ∧ r = n * dofs + rd := by
  have hd : 0 < dofs := by
    rcases Nat.eq_zero_or_pos dofs with h0 | h0
    · rw [h0, Nat.mul_zero] at h
      omega
    · exact h0
  refine ⟨r / dofs, r % dofs, (Nat.div_lt_iff_lt_mul hd).2 h, Nat.mod_lt _ hd, ?_⟩
  rw [Nat.mul_comm]
  exact (Nat.div_add_mod r dofs).symm

theorem At.row_eq {B : DirectBuilt} {dofs size : Nat} {L : Nat → List Nat} (h1 : B.row = rowList dofs L size) {p r c r' c' : Nat} (h : At B p r c) (h' : At B p r' c') : r = r' := by
  have mono := pointers_mono B.row (by
    intro k a b ha hb
    rw [h1] at ha hb
    have hk : k < size * dofs := by
      have := (List.getElem?_eq_some_iff.1 hb).1
      rw [rowList_length] at this
      omega
    obtain ⟨n, rd, hn, hrd, rfl⟩ := split_row hk
    obtain ⟨r1, r2⟩ := rowList_get dofs L size n rd hn hrd
    rw [r1] at ha
    rw [r2] at hb
    rw [← Option.some.inj ha, ← Option.some.inj hb, Nat.succ_mul]
    omega)
  obtain ⟨lo, hi, a1, a2, a3, a4, _⟩ := h
  obtain ⟨lo', hi', b1, b2, b3, b4, _⟩ := h'
  rcases Nat.lt_trichotomy r r' with hlt | heq | hgt
  · have := mono (r' - (r + 1)) (r + 1) hi lo' a2 (by rw [show r + 1 + (r' - (r + 1)) = r' by omega]; exact b1)
    omega
  · exact heq
  · have := mono (r - (r' + 1)) (r' + 1) hi' lo b2 (by rw [show r' + 1 + (r - (r' + 1)) = r by omega]; exact a1)
    omega

theorem At.mem {B : DirectBuilt} {p r c : Nat} (h : At B p r c) : ∃ lo, B.row[r]? = some lo ∧ lo ≤ p ∧ (csrRow B r)[p - lo]? = some c := by
  obtain ⟨lo, hi, a1, a2, a3, a4, a5⟩ := h
  refine ⟨lo, a1, a3, ?_⟩
  unfold csrRow
  rw [List.getD_eq_getElem?_getD, List.getD_eq_getElem?_getD, a1, a2, Option.getD_some, Option.getD_some, List.getElem?_drop, List.getElem?_take, if_pos (by omega),
    show lo + (p - lo) = p by omega, a5]

theorem At.pos_eq {B : DirectBuilt} {p q r c : Nat} (sorted : (csrRow B r).Pairwise (· < ·)) (h : At B p r c) (h' : At B q r c) : p = q := by
  obtain ⟨lo, a1, a2, a3⟩ := h.mem
  obtain ⟨lo', b1, b2, b3⟩ := h'.mem
  obtain rfl : lo = lo' := Option.some.inj (a1.symm.trans b1)
  obtain ⟨g1, g2⟩ := List.getElem?_eq_some_iff.1 a3
  obtain ⟨g3, g4⟩ := List.getElem?_eq_some_iff.1 b3
  have nd : (csrRow B r).Nodup := sorted.imp fun h => Nat.ne_of_lt h
  have := (List.Nodup.getElem_inj_iff nd).1 (g2.trans g4.symm)
  omega

/-- The pattern is symmetric and contains the diagonal if the rows and the columns are numbered alike. -/
theorem C98_symmetric (dofs size : Nat) (position : List Nat) (hpos : ∀ n, n < size → position[n]? = some n) (intervals boundary : List (List (List Nat)))
    (hel : ∀ e ∈ intervals.flatten, ∀ n ∈ e, n < size) (hb : ∀ i ∈ boundary, ∀ e ∈ i, ∀ n ∈ e, n < size ∧ ∀ m ∈ e, Neighbour intervals.flatten n m) (junk : Nat → Nat)
    (B : DirectBuilt) (h : buildDirect dofs size position intervals boundary junk = some B) (r c : Nat) (hr : r < size * dofs) :
    r ∈ csrRow B r ∧ (c ∈ csrRow B r → c < size * dofs ∧ r ∈ csrRow B c) := by
  obtain ⟨B', e, ⟨L, hL⟩, _⟩ := C98_pattern dofs size position id hpos intervals boundary hel hb junk
  obtain rfl : B' = B := Option.some.inj (e.symm.trans h)
  obtain ⟨n, rd, hn, hrd, rfl⟩ := split_row hr
  have mem : ∀ n m rd cd, n < size → rd < dofs → cd < dofs → Neighbour intervals.flatten n m → m * dofs + cd ∈ csrRow B' (n * dofs + rd) := by
    intro n m rd cd hn hrd hcd hnb
    rw [(hL n hn).2.2 rd hrd, List.mem_flatMap]
    exact ⟨m, ((hL n hn).2.1 m).2 ⟨m, hnb, rfl⟩, List.mem_map.2 ⟨cd, List.mem_range.2 hcd, rfl⟩⟩
  refine ⟨mem n n rd rd hn hrd hrd (Or.inl rfl), fun hc => ?_⟩
  rw [(hL n hn).2.2 rd hrd, List.mem_flatMap] at hc
  obtain ⟨x, hx, hc⟩ := hc
  obtain ⟨cd, hcd, rfl⟩ := List.mem_map.1 hc
  rw [List.mem_range] at hcd
  obtain ⟨m, hm, rfl⟩ := ((hL n hn).2.1 x).1 hx
  have hms : m < size := by
    rcases hm with rfl | ⟨e, he, _, hme⟩
    · exact hn
    · exact hel e he m hme
  refine ⟨?_, mem m n cd rd hms hcd hrd ?_⟩
  · have : (m + 1) * dofs ≤ size * dofs := Nat.mul_le_mul_right _ hms
    rw [Nat.succ_mul] at this
    show m * dofs + cd < _
    omega
  · rcases hm with rfl | ⟨e, he, h1, h2⟩
    · exact Or.inl rfl
    · exact Or.inr ⟨e, he, h2, h1⟩

/-- The pattern is as `C97` expects it. -/
theorem C98_dirichlet (dofs size : Nat) (position : List Nat) (hpos : ∀ n, n < size → position[n]? = some n) (intervals boundary : List (List (List Nat)))
    (hel : ∀ e ∈ intervals.flatten, ∀ n ∈ e, n < size) (hb : ∀ i ∈ boundary, ∀ e ∈ i, ∀ n ∈ e, n < size ∧ ∀ m ∈ e, Neighbour intervals.flatten n m) (junk : Nat → Nat)
    (B : DirectBuilt) (h : buildDirect dofs size position intervals boundary junk = some B) : Verif.Direct.PatternOk (csrRow B) ∧ ∀ d, d < size * dofs → d ∈ csrRow B d := by
  have out : ∀ r, size * dofs ≤ r → csrRow B r = [] := by
    intro r hr
    obtain ⟨B', L, e1, e2, _⟩ := build_direct dofs size position id hpos intervals boundary hel hb junk
    obtain rfl : B' = B := Option.some.inj (e1.symm.trans h)
    unfold csrRow
    have hnone : B'.row[r + 1]? = none := List.getElem?_eq_none (by rw [e2, rowList_length]; omega)
    rw [List.getD_eq_getElem?_getD (l := B'.row) (i := r + 1), hnone]
    simp
  have sym := C98_symmetric dofs size position hpos intervals boundary hel hb junk B h
  have inside : ∀ {r c}, c ∈ csrRow B r → r < size * dofs := by
    intro r c hc
    by_contra hr
    rw [out r (by omega)] at hc
    cases hc
  refine ⟨⟨?_, ?_, ?_⟩, fun d hd => (sym d d hd).1⟩
  · intro r
    by_cases hr : r < size * dofs
    · obtain ⟨n, rd, hn, hrd, rfl⟩ := split_row hr
      exact (C98_unique dofs size position id hpos intervals boundary hel hb junk B h n rd hn hrd).imp fun h => Nat.ne_of_lt h
    · rw [out r (by omega)]
      exact List.nodup_nil
  · intro r c hc
    exact (sym c c ((sym r c (inside hc)).2 hc).1).1
  · intro r c hc
    exact ((sym r c (inside hc)).2 hc).2

theorem total_at {R : Type} [AddCommMonoid R] {B : DirectBuilt} (rows : ∀ {p r c r' c' : Nat}, At B p r c → At B p r' c' → r = r')
    (inj : ∀ {p q r c : Nat}, At B p r c → At B q r c → p = q) {p i j : Nat} (hp : At B p i j) : ∀ (P : List Nat) (E : List (Nat × Nat)) (V : List R),
    List.Forall₂ (fun p q => At B p q.1 q.2) P E → total (P.zip V) p = pairTotal (E.zip V) (i, j) := by
  intro P E V h
  induction h generalizing V with
  | nil => rfl
  | @cons x y P E hxy _ ih =>
    cases V with
    | nil => rw [List.zip_nil_right, List.zip_nil_right]; rfl
    | cons v V =>
      rw [List.zip_cons_cons, List.zip_cons_cons, total_cons, ih V]
      unfold pairTotal
      rw [List.map_cons, List.sum_cons]
      congr 1
      by_cases hx : x = p
      · subst hx
        have h1 := rows hxy hp
        obtain ⟨_, _, _, _, _, _, c1⟩ := hxy
        obtain ⟨_, _, _, _, _, _, c2⟩ := hp
        have h2 : y.2 = j := Option.some.inj (c1.symm.trans c2)
        rw [if_pos rfl, if_pos (Prod.ext h1 h2)]
      · rw [if_neg hx, if_neg]
        intro hy
        apply hx
        simp only at hy
        subst hy
        exact inj hxy hp

/-- Assembling the element matrices through the positions adds to every stored entry exactly the entry of the sum of the element matrices, for every number of elements in a SIMD
group and every number and type of intervals. -/
theorem C98_assemble {R : Type} [AddCommMonoid R] (dofs size : Nat) (position : List Nat) (hpos : ∀ n, n < size → position[n]? = some n) (Is : List (Interval R)) (boundary : List (List (List Nat)))
    (hel : ∀ I ∈ Is, ∀ e ∈ I.2.1, e.length = I.1 ∧ ∀ n ∈ e, n < size)
    (hb : ∀ i ∈ boundary, ∀ e ∈ i, ∀ n ∈ e, n < size ∧ ∀ m ∈ e, Neighbour (Is.map (·.2.1)).flatten n m) (junk : Nat → Nat) {simd : Nat} (hsimd : 0 < simd) :
    ∃ B, buildDirect dofs size position (Is.map (·.2.1)) boundary junk = some B ∧ ∀ out : List R, out.length = B.column.length →
      ∃ w, fillDomain true simd B.perm B.offs (Is.map fun I => (dofs * I.1, I.2.1.length, I.2.2)) out = some w ∧ w.length = out.length
        ∧ ∀ p i j, At B p i j → w[p]? = some (out.getD p 0 + assembled id dofs Is i j) := by
  have hel' : ∀ e ∈ (Is.map (·.2.1)).flatten, ∀ n ∈ e, n < size := by
    intro e he
    obtain ⟨l, hl, he⟩ := List.mem_flatten.1 he
    obtain ⟨I, hI, rfl⟩ := List.mem_map.1 hl
    exact (hel I hI e he).2
  obtain ⟨B, L, e1, e2, e3, e4, e5, e6, _⟩ := build_direct dofs size position id hpos (Is.map (·.2.1)) boundary hel' hb junk
  refine ⟨B, e1, ?_⟩
  intro out hout
  have hent : entriesOf id dofs = elementTargets id dofs true := by
    funext e
    have hD : (List.range (dofs * e.length)).map (fun r => (elementDofs id dofs e).getD r 0) = elementDofs id dofs e := by
      apply List.ext_getElem?
      intro k
      rw [List.getElem?_map]
      by_cases hk : k < dofs * e.length
      · rw [List.getElem?_range hk, Option.map_some, List.getD_eq_getElem?_getD, List.getElem?_eq_getElem (by rw [elementDofs_length]; exact hk), Option.getD_some]
      · rw [List.getElem?_eq_none (by rw [List.length_range]; omega), List.getElem?_eq_none (by rw [elementDofs_length]; omega)]
        rfl
    have hl : elementTargets id dofs true e = (elementDofs id dofs e).flatMap fun x => (elementDofs id dofs e).map fun y => (x, y) := by
      unfold elementTargets
      rw [visited_eq, List.filter_eq_self.2 (by intro a _; rfl), List.map_flatMap]
      conv_rhs => rw [← hD]
      rw [List.flatMap_map]
      apply List.flatMap_congr
      intro r _
      rw [List.map_map, List.map_map]
      rfl
    rw [hl]
    unfold entriesOf elementDofs
    rw [List.flatMap_assoc]
    apply List.flatMap_congr
    intro rd _
    rw [List.flatMap_map]
    apply List.flatMap_congr
    intro src _
    rw [List.map_flatMap]
    apply List.flatMap_congr
    intro cd _
    rw [List.map_map]
    rfl
  rw [hent] at e5 e6
  have hnodes : ∀ I ∈ Is, ∀ e ∈ I.2.1, e.length = I.1 := fun I hI e he => (hel I hI e he).1
  have hPl := e5.length_eq
  rw [targets_length id dofs true Is hnodes] at hPl
  rw [fillDomain_eq true hsimd B.perm B.offs _ out (by
    intro i hi
    rw [List.length_map] at hi
    rw [e6, List.getElem?_map, List.getElem?_range (by rw [List.length_map]; exact hi)]
    rw [Option.map_some, ← List.map_take, ← List.map_take, targets_length id dofs true _ fun I hI => hnodes I (List.mem_of_mem_take hI)]) (by omega)]
  have hlt : ∀ p i j, At B p i j → p < out.length := by
    rintro p i j ⟨_, _, _, _, _, _, hc⟩
    rw [hout]
    exact (List.getElem?_eq_some_iff.1 hc).1
  obtain ⟨w, w1, w2, w3⟩ := runOps_spec (B.perm.zip (domainValues true (Is.map fun I => (dofs * I.1, I.2.1.length, I.2.2)))) out (by
    rintro ⟨p, v⟩ hop
    have hp := (List.of_mem_zip hop).1
    obtain ⟨k, hk, rfl⟩ := List.mem_iff_getElem.1 hp
    exact hlt _ _ _ (List.Forall₂.get e5 hk (by rw [← e5.length_eq]; exact hk)))
  refine ⟨w, w1, w2, ?_⟩
  intro p i j hp
  rw [w3 p (hlt p i j hp), total_at (fun h h' => h.row_eq e2 h') (fun {p q r c} h h' => At.pos_eq (by
      obtain ⟨_, _, _, a2, _⟩ := h
      have hr := (List.getElem?_eq_some_iff.1 a2).1
      rw [e2, rowList_length] at hr
      obtain ⟨n, rd, hn, hrd, rfl⟩ := split_row (show r < size * dofs by omega)
      exact C98_unique dofs size position id hpos _ boundary hel' hb junk B e1 n rd hn hrd) h h') hp _ _ _ e5, assembled_total id dofs true Is hnodes (fun h => absurd h (by simp)) (Or.inl rfl)]

/-- Two triangles and an edge of their boundary, two degrees of freedom per node: the steps without the sorting. -/
example : (countNodes [[0, 1, 2], [2, 1, 3]] (List.replicate 5 1)).bind (sumPtrs 4) = some [0, 3, 8, 13, 16] := by decide
example : ((fillDiagonal 4 [0, 1, 2, 3] (List.replicate 16 77, [0, 3, 8, 13, 16])).bind (fillNodes [0, 1, 2, 3] [[0, 1, 2], [2, 1, 3]])) =
    some ([0, 1, 2, 1, 0, 2, 2, 3, 2, 0, 1, 1, 3, 3, 2, 1], [3, 8, 13, 16, 16]) := by decide
example : (listBlocks 2 2 [0, 2, 4] [2, 3, 4] [0, 1, 1, 77]).map (fun R => (R.row, R.column, R.offset)) =
    some ([0, 4, 8, 10, 12], [0, 1, 2, 3, 0, 1, 2, 3, 2, 3, 2, 3], [0, 8]) := by decide
example : blockPermutation 2 [0, 1] [0, 2, 4] [2, 4, 4] [0, 1, 0, 1] [0, 8] [[[0]], [[1]]] = some ([0, 1, 4, 5, 10, 11, 14, 15], [0, 4]) := by decide

example : ∃ B, buildDirect 2 4 [0, 1, 2, 3] [[[0, 1, 2], [2, 1, 3]]] [[[0, 1]]] (fun _ => 77) = some B :=
  let ⟨B, h, _⟩ := C98_pattern 2 4 [0, 1, 2, 3] id (by intro n hn; rcases n with _ | _ | _ | _ | n <;> first | rfl | omega) [[[0, 1, 2], [2, 1, 3]]] [[[0, 1]]]
    (by decide) (by
      intro i hi e he n hn
      simp only [List.mem_singleton] at hi
      subst hi
      simp only [List.mem_singleton] at he
      subst he
      have : ∀ k ∈ [0, 1], k ∈ [0, 1, 2] := by decide
      refine ⟨?_, fun m hm => Or.inr ⟨[0, 1, 2], by decide, this n hn, this m hm⟩⟩
      revert n
      decide) _
  ⟨B, h⟩

/-- The assembly for two triangles with the element matrices `A`. -/
example (A : Nat → Nat → Nat → Int) (junk : Nat → Nat) : ∃ B, buildDirect 2 4 [0, 1, 2, 3] [[[0, 1, 2], [2, 1, 3]]] [] junk = some B :=
  let ⟨B, h, _⟩ := C98_assemble 2 4 [0, 1, 2, 3] (by intro n hn; rcases n with _ | _ | _ | _ | n <;> first | rfl | omega) [(3, [[0, 1, 2], [2, 1, 3]], A)] [] (by
      intro I hI
      rw [List.mem_singleton] at hI
      subst hI
      show ∀ e ∈ [[0, 1, 2], [2, 1, 3]], e.length = 3 ∧ ∀ n ∈ e, n < 4
      decide) (by intro i hi; cases hi) junk (simd := 4) (by decide)
  ⟨B, h⟩

end Verif.Pattern.Direct
