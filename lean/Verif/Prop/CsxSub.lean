import Verif.Proof.CsxSub
import Verif.Prop.CsxConvert
/-! C40, C41: submatrices, quadrisection and concatenation. -/
namespace Verif.Csx

variable {T P : Type}

/-- The slices are ordered (equal indices are allowed). -/
def Ordered (A : Csx T) : Prop := ∀ p, p < A.np → (A.row p).Pairwise fun a b => a.1 ≤ b.1

set_option linter.dupNamespace false in
theorem Csx.Sorted.ordered {A : Csx T} (h : A.Sorted) : Ordered A := fun p hp => (h p hp).imp fun hab => Nat.le_of_lt hab

/-- Arrays of the right sizes. -/
structure Dest.Fits (d : Dest T) (np nnz : Nat) : Prop where
  ptrs : d.ptrs.length = np + 1
  idxs : d.idxs.length = nnz
  vals : d.vals.length = nnz

theorem win_map (A : Csx T) (ls hs p : Nat) : (win A ls hs p).map (·.1) = (A.row p).filter fun e => ls ≤ e.1 ∧ e.1 < hs := by
  unfold win
  generalize A.ptrs.getD p 0 = k
  generalize A.row p = l
  induction l generalizing k with
  | nil => rfl
  | cons a l ih =>
      rw [List.zipIdx_cons, List.filter_cons, List.filter_cons]
      split
      · next h => rw [List.map_cons, ih]
      · next h => rw [ih]

theorem range_split {lp hp n : Nat} (h1 : lp ≤ hp) (h2 : hp ≤ n) : List.range n = List.range lp ++ (List.range' lp (hp - lp) ++ List.range' hp (n - hp)) := by
  rw [List.range_eq_range', List.range_eq_range']
  have e1 := List.range'_append (s := lp) (m := hp - lp) (n := n - hp) (step := 1)
  have e2 := List.range'_append (s := 0) (m := lp) (n := hp - lp + (n - hp)) (step := 1)
  rw [show lp + 1 * (hp - lp) = hp by omega] at e1
  rw [show 0 + 1 * lp = lp by omega, ← e1] at e2
  rw [e2]; congr 1; omega

theorem winAll_entries (A : Csx T) (lp hp ls hs : Nat) (h1 : lp ≤ hp) (h2 : hp ≤ A.np) :
    (winAll A lp hp ls hs).map (fun e => (e.1, e.2.2.1, e.2.2.2)) = A.entries.filter fun e => (lp ≤ e.1 ∧ e.1 < hp) ∧ ls ≤ e.2.1 ∧ e.2.1 < hs := by
  unfold winAll Csx.entries
  rw [List.map_flatMap, filter_flatMap', range_split h1 h2, List.flatMap_append, List.flatMap_append]
  have hout : ∀ l : List Nat, (∀ p ∈ l, ¬ (lp ≤ p ∧ p < hp)) →
      (l.flatMap fun p => ((A.row p).map fun e => (p, e.1, e.2)).filter fun e => (lp ≤ e.1 ∧ e.1 < hp) ∧ ls ≤ e.2.1 ∧ e.2.1 < hs) = [] := by
    intro l hl
    rw [List.flatMap_eq_nil_iff]
    intro p hp'
    rw [List.filter_eq_nil_iff]
    intro e he
    obtain ⟨x, _, rfl⟩ := List.mem_map.1 he
    have := hl p hp'
    simp only [decide_eq_true_eq]
    exact fun h => this h.1
  rw [hout (List.range lp) (by intro p hp'; have := List.mem_range.1 hp'; omega), hout (List.range' hp (A.np - hp)) (by intro p hp'; have := List.mem_range'_1.1 hp'; omega), List.nil_append, List.append_nil]
  apply flatMap_congr'
  intro p hp'
  have hp' := List.mem_range'_1.1 hp'
  have e := congrArg (List.map fun e : Nat × T => (p, e.1, e.2)) (win_map A ls hs p)
  rw [List.map_map] at e
  rw [List.map_map, List.filter_map]
  refine e.trans ?_
  congr 1
  apply List.filter_congr
  intro x _
  simp only [Function.comp]
  rw [decide_eq_decide]
  constructor
  · intro h; exact ⟨by omega, h⟩
  · intro h; exact h.2

/-- **C40**: `setup` announces exactly the number of stored entries in the window. -/
theorem C40_count_partial (A : Csx T) (hA : WellFormed A) (ho : Ordered A) (lp hp ls hs : Nat) (h1 : lp ≤ hp) (h2 : hp ≤ A.np) :
    subCount A lp hp ls hs = some (A.entries.filter fun e => (lp ≤ e.1 ∧ e.1 < hp) ∧ ls ≤ e.2.1 ∧ e.2.1 < hs).length := by
  rw [subCount_eq hA ho lp hp ls hs h2, ← winAll_entries A lp hp ls hs h1 h2, List.length_map]

theorem subRows_row (A : Csx T) (lp hp ls hs : Nat) (pf : (Nat × T) × Nat → P) {p : Nat} (hp' : p < hp - lp) :
    (subRows A lp hp ls hs pf)[p]? = some ((win A ls hs (lp + p)).map fun x => (x.1.1 - ls, pf x)) := by
  unfold subRows
  rw [List.getElem?_map, List.getElem?_range hp']; rfl

theorem subRows_length (A : Csx T) (lp hp ls hs : Nat) (pf : (Nat × T) × Nat → P) : (subRows A lp hp ls hs pf).length = hp - lp := by unfold subRows; simp

theorem subRows_wf (A : Csx T) (lp hp ls hs : Nat) (pf : (Nat × T) × Nat → P) : WellFormed (ofRows (hs - ls) (subRows A lp hp ls hs pf)) := by
  apply ofRows_wf
  intro row hr e he
  unfold subRows at hr
  obtain ⟨q, _, rfl⟩ := List.mem_map.1 hr
  obtain ⟨x, hx, rfl⟩ := List.mem_map.1 he
  have := win_mem hx
  simp only; omega

theorem subRows_sub (A : Csx T) (lp hp ls hs : Nat) : Sub A lp hp ls hs (ofRows (hs - ls) (subRows A lp hp ls hs fun x => x.1.2)) where
  wf := subRows_wf _ _ _ _ _ _
  np := subRows_length _ _ _ _ _ _
  ns := rfl
  row := by
    intro p hp'
    rw [ofRows_row _ _ (subRows_row A lp hp ls hs _ hp'), ← win_map, List.map_map]
    rfl

theorem subRows_entries (A : Csx T) (lp hp ls hs : Nat) (pf : (Nat × T) × Nat → P) :
    (ofRows (hs - ls) (subRows A lp hp ls hs pf)).entries = (winAll A lp hp ls hs).map fun e => (e.1 - lp, e.2.2.1 - ls, pf ((e.2.2.1, e.2.2.2), e.2.1)) := by
  unfold Csx.entries winAll
  rw [List.map_flatMap, List.range'_eq_map_range, List.flatMap_map]
  have : (ofRows (hs - ls) (subRows A lp hp ls hs pf)).np = hp - lp := subRows_length _ _ _ _ _ _
  rw [this]
  apply flatMap_congr'
  intro p hp'
  rw [ofRows_row _ _ (subRows_row A lp hp ls hs _ (List.mem_range.1 hp')), List.map_map, List.map_map]
  apply List.map_congr_left
  intro x _
  show (p, _, _) = (lp + p - lp, _, _)
  rw [Nat.add_sub_cancel_left]

theorem subCols_converted (A : Csx T) (lp hp ls hs : Nat) (pf : (Nat × T) × Nat → P) :
    Converted (ofRows (hs - ls) (subRows A lp hp ls hs pf)) (ofRows (hp - lp) (subCols A lp hp ls hs pf)) where
  wf := by
    apply ofRows_wf
    intro row hr e he
    unfold subCols at hr
    obtain ⟨q, _, rfl⟩ := List.mem_map.1 hr
    unfold bucket at he
    obtain ⟨x, hx, rfl⟩ := List.mem_map.1 he
    have := winAll_mem (List.mem_filter.1 hx).1
    simp only; omega
  np := by show (subCols A lp hp ls hs pf).length = hs - ls; unfold subCols; simp
  ns := (subRows_length _ _ _ _ _ _).symm
  row := by
    intro p hp'
    have hp' : p < hs - ls := hp'
    rw [ofRows_row (row := bucket (fun e : Nat × Nat × Nat × T => e.2.2.1 - ls) (fun e => (e.1 - lp, pf ((e.2.2.1, e.2.2.2), e.2.1))) (winAll A lp hp ls hs) p) _ _ (by
      unfold subCols; rw [List.getElem?_map, List.getElem?_range hp']; rfl)]
    unfold column bucket
    rw [subRows_entries, List.filter_map, List.map_map]
    rfl

theorem win_val {A : Csx T} (hA : WellFormed A) {ls hs p : Nat} (hp : p < A.np) {x : (Nat × T) × Nat} (hx : x ∈ win A ls hs p) : A.vals[x.2]? = some x.1.2 := by
  have hx := (List.mem_filter.1 hx).1
  have h1 := List.mem_zipIdx hx
  have h2 := List.getElem?_eq_getElem (l := A.row p) (i := x.2 - A.ptrs.getD p 0) (by omega)
  rw [← h1.2.2] at h2
  have := (row_get hA hp (c := x.1.1) (v := x.1.2) h2).2
  rw [show A.ptrs.getD p 0 + (x.2 - A.ptrs.getD p 0) = x.2 by omega] at this
  exact this

/-- The submatrix in the same or in the other order. -/
theorem submatrix_eq (A : Csx T) (hA : WellFormed A) (ho : Ordered A) (lp hp ls hs : Nat) (h2 : hp ≤ A.np) (same : Bool) (d : Dest T) (n : Nat)
    (hn : subCount A lp hp ls hs = some n) (hd : d.Fits (if same then hp - lp else hs - ls) n) :
    submatrix A lp hp ls hs same d = some (if same then ofRows (hs - ls) (subRows A lp hp ls hs fun x => x.1.2) else ofRows (hp - lp) (subCols A lp hp ls hs fun x => x.1.2)) := by
  rw [subCount_eq hA ho lp hp ls hs h2] at hn
  obtain rfl : _ = n := Option.some.inj hn
  unfold submatrix
  rw [subCount_eq hA ho lp hp ls hs h2]
  simp only [Option.bind_eq_bind, Option.bind_some]
  rw [if_neg (by rw [hd.idxs]; simp)]
  cases same with
  | true => exact subSame_eq hA ho lp hp ls hs h2 _ _ (fun p hp x hx => win_val hA hp hx) _ _ _ hd.ptrs hd.idxs hd.vals
  | false => exact subDiff_eq hA ho lp hp ls hs h2 _ _ (fun p hp x hx => win_val hA hp hx) _ _ _ hd.ptrs hd.idxs hd.vals

/-- **C40**: with a destination of the announced size the submatrix is computed without an access out of range: it is the window of the source shifted to the origin. -/
theorem C40_same_partial (A : Csx T) (hA : WellFormed A) (ho : Ordered A) (lp hp ls hs : Nat) (h2 : hp ≤ A.np) (d : Dest T) (n : Nat)
    (hn : subCount A lp hp ls hs = some n) (hd : d.Fits (hp - lp) n) : ∃ B, submatrix A lp hp ls hs true d = some B ∧ Sub A lp hp ls hs B :=
  ⟨_, submatrix_eq A hA ho lp hp ls hs h2 true d n hn hd, subRows_sub A lp hp ls hs⟩

/-- In the other order the result is the converted window. -/
theorem C40_other_partial (A : Csx T) (hA : WellFormed A) (ho : Ordered A) (lp hp ls hs : Nat) (h2 : hp ≤ A.np) (d : Dest T) (n : Nat)
    (hn : subCount A lp hp ls hs = some n) (hd : d.Fits (hs - ls) n) : ∃ B C, submatrix A lp hp ls hs false d = some C ∧ Sub A lp hp ls hs B ∧ Converted B C :=
  ⟨_, _, submatrix_eq A hA ho lp hp ls hs h2 false d n hn hd, subRows_sub A lp hp ls hs, subCols_converted _ _ _ _ _ _⟩

/-! ### The map -/

theorem ofRows_mapVals {Q : Type} (ns : Nat) (rows : List (List (Nat × P))) (f : P → Q) :
    ofRows ns (rows.map fun row => row.map fun e => (e.1, f e.2)) = ⟨rows.length, ns, (ofRows ns rows).ptrs, (ofRows ns rows).idxs, (ofRows ns rows).vals.map f⟩ := by
  unfold ofRows
  simp only [List.length_map, Csx.mk.injEq, true_and]
  refine ⟨?_, ?_, ?_⟩
  · apply List.map_congr_left
    intro k _
    rw [← List.map_take, List.length_flatten, List.length_flatten, List.map_map]
    congr 1
    apply List.map_congr_left
    intro row _
    exact List.length_map _
  · rw [List.map_flatten, List.map_flatten, List.map_map]
    congr 1
    apply List.map_congr_left
    intro row _
    simp [List.map_map]
  · rw [List.map_flatten, List.map_flatten, List.map_flatten, List.map_map, List.map_map]
    congr 1
    apply List.map_congr_left
    intro row _
    simp [List.map_map]

theorem mapValues_gather {Q : Type} [Inhabited Q] (map : List Nat) (vals dst : List Q) (h : ∀ i ∈ map, i < vals.length) (hd : dst.length = map.length) :
    mapValues map vals dst = some (map.map fun i => vals.getD i default) := by
  apply mapValues_eq _ _ _ _ hd (List.length_map _)
  intro i hi
  refine ⟨map[i], List.getElem?_eq_getElem hi, ?_⟩
  rw [List.getElem?_map, List.getElem?_eq_getElem hi]
  have := h map[i] (List.getElem_mem hi)
  rw [Option.map_some, List.getD_eq_getElem?_getD, List.getElem?_eq_getElem this]; rfl

theorem win_pos {A : Csx T} (hA : WellFormed A) {ls hs p : Nat} (hp : p < A.np) {x : (Nat × T) × Nat} (hx : x ∈ win A ls hs p) : x.2 < A.idxs.length := by
  have := win_val hA hp hx
  have := (List.getElem?_eq_some_iff.1 this).1
  rw [hA.vlen] at this; exact this

theorem subRows_map {Q : Type} (A : Csx T) (lp hp ls hs : Nat) (pf : (Nat × T) × Nat → P) (f : P → Q) :
    subRows A lp hp ls hs (fun x => f (pf x)) = (subRows A lp hp ls hs pf).map fun row => row.map fun e => (e.1, f e.2) := by
  unfold subRows
  rw [List.map_map]
  apply List.map_congr_left
  intro q _
  simp [List.map_map]

theorem subCols_map {Q : Type} (A : Csx T) (lp hp ls hs : Nat) (pf : (Nat × T) × Nat → P) (f : P → Q) :
    subCols A lp hp ls hs (fun x => f (pf x)) = (subCols A lp hp ls hs pf).map fun row => row.map fun e => (e.1, f e.2) := by
  unfold subCols
  rw [List.map_map]
  apply List.map_congr_left
  intro q _
  show _ = List.map _ (bucket _ _ _ _)
  rw [bucket_map]

/-- **C40**: the pattern computed once together with the map gives, for every later value array, the same submatrix as the direct computation. -/
theorem C40_map_partial (A : Csx T) (hA : WellFormed A) (ho : Ordered A) (lp hp ls hs : Nat) (h2 : hp ≤ A.np) (same : Bool) (d : Dest Nat) (n : Nat)
    (hn : subCount A lp hp ls hs = some n) (hd : d.Fits (if same then hp - lp else hs - ls) n) : ∃ M, submatrixMap A lp hp ls hs same d = some M ∧
      ∀ (Q : Type) [Inhabited Q] (vals : List Q) (dst : Dest Q), vals.length = A.idxs.length → dst.Fits (if same then hp - lp else hs - ls) n →
        ∃ out, mapValues M.vals vals dst.vals = some out ∧ submatrix ⟨A.np, A.ns, A.ptrs, A.idxs, vals⟩ lp hp ls hs same dst = some ⟨M.np, M.ns, M.ptrs, M.idxs, out⟩ := by
  have hn' := hn
  rw [subCount_eq hA ho lp hp ls hs h2] at hn
  have hn : (winAll A lp hp ls hs).length = n := Option.some.inj hn
  have hpos : ∀ e ∈ winAll A lp hp ls hs, e.2.1 < A.idxs.length := by
    intro e he
    obtain ⟨_, m2, _, _, m5⟩ := winAll_mem he
    exact win_pos hA (by omega) m5
  cases same with
  | true =>
      refine ⟨ofRows (hs - ls) (subRows A lp hp ls hs fun x => x.2), ?_, ?_⟩
      · unfold submatrixMap
        rw [hn']
        simp only [Option.bind_eq_bind, Option.bind_some]
        rw [if_neg (by rw [hd.idxs]; simp), ← hn]
        rw [← hn] at hd
        exact subSame_eq hA ho lp hp ls hs h2 some _ (fun p hp x hx => rfl) _ _ _ hd.ptrs hd.idxs hd.vals
      · intro Q _ vals dst hv hdst
        have hvals : (ofRows (hs - ls) (subRows A lp hp ls hs fun x => x.2)).vals = (winAll A lp hp ls hs).map fun e => e.2.1 := by
          show (subRows A lp hp ls hs _).flatten.map (·.2) = _
          rw [subRows_flatten, List.map_map]; rfl
        refine ⟨_, mapValues_gather _ vals dst.vals (by
          rw [hvals]
          intro i hi
          obtain ⟨e, he, rfl⟩ := List.mem_map.1 hi
          rw [hv]; exact hpos e he) (by rw [hvals, List.length_map, hn]; exact hdst.vals), ?_⟩
        unfold submatrix
        have hc : subCount (⟨A.np, A.ns, A.ptrs, A.idxs, vals⟩ : Csx Q) lp hp ls hs = subCount A lp hp ls hs := rfl
        rw [hc, hn']
        simp only [Option.bind_eq_bind, Option.bind_some]
        rw [if_neg (by rw [hdst.idxs]; simp), ← hn]
        rw [← hn] at hdst
        have hs' := subSame_eq hA ho lp hp ls hs h2 (fun i => vals[i]?) (fun x => vals.getD x.2 default) (fun p hp x hx => by
          have := win_pos hA hp hx
          rw [List.getD_eq_getElem?_getD, List.getElem?_eq_getElem (by omega)]; rfl) _ _ _ hdst.ptrs hdst.idxs hdst.vals
        refine Eq.trans (b := subSame A lp hp ls hs (fun i => vals[i]?) (winAll A lp hp ls hs).length dst.ptrs dst.idxs dst.vals) rfl (hs'.trans ?_)
        rw [subRows_map A lp hp ls hs (fun x => x.2) (fun i => vals.getD i default), ofRows_mapVals (hs - ls) (subRows A lp hp ls hs fun x => x.2) (fun i => vals.getD i default)]
        rfl
  | false =>
      refine ⟨ofRows (hp - lp) (subCols A lp hp ls hs fun x => x.2), ?_, ?_⟩
      · unfold submatrixMap
        rw [hn']
        simp only [Option.bind_eq_bind, Option.bind_some]
        rw [if_neg (by rw [hd.idxs]; simp)]
        rw [← hn] at hd
        exact subDiff_eq hA ho lp hp ls hs h2 some _ (fun p hp x hx => rfl) _ _ _ hd.ptrs hd.idxs hd.vals
      · intro Q _ vals dst hv hdst
        have hvals : (ofRows (hp - lp) (subCols A lp hp ls hs fun x => x.2)).vals =
            ((List.range (hs - ls)).flatMap fun c => (winAll A lp hp ls hs).filter fun e => e.2.2.1 - ls = c).map fun e => e.2.1 := by
          show (subCols A lp hp ls hs _).flatten.map (·.2) = _
          unfold subCols
          rw [← List.flatMap_def, List.map_flatMap, List.map_flatMap]
          apply flatMap_congr'
          intro c _
          rw [bucket_map]; rfl
        have hperm := flatMap_filter_perm (fun e : Nat × Nat × Nat × T => e.2.2.1 - ls) (winAll A lp hp ls hs) (hs - ls) (by
          intro e he
          have := winAll_mem he
          omega)
        refine ⟨_, mapValues_gather _ vals dst.vals (by
          rw [hvals]
          intro i hi
          obtain ⟨e, he, rfl⟩ := List.mem_map.1 hi
          rw [hv]; exact hpos e (hperm.mem_iff.1 he)) (by rw [hvals, List.length_map, hperm.length_eq, hn]; exact hdst.vals), ?_⟩
        unfold submatrix
        have hc : subCount (⟨A.np, A.ns, A.ptrs, A.idxs, vals⟩ : Csx Q) lp hp ls hs = subCount A lp hp ls hs := rfl
        rw [hc, hn']
        simp only [Option.bind_eq_bind, Option.bind_some]
        rw [if_neg (by rw [hdst.idxs]; simp)]
        rw [← hn] at hdst
        have hs' := subDiff_eq hA ho lp hp ls hs h2 (fun i => vals[i]?) (fun x => vals.getD x.2 default) (fun p hp x hx => by
          have := win_pos hA hp hx
          rw [List.getD_eq_getElem?_getD, List.getElem?_eq_getElem (by omega)]; rfl) _ _ _ hdst.ptrs hdst.idxs hdst.vals
        refine Eq.trans (b := subDiff A lp hp ls hs (fun i => vals[i]?) dst.ptrs dst.idxs dst.vals) rfl (hs'.trans ?_)
        rw [subCols_map A lp hp ls hs (fun x => x.2) (fun i => vals.getD i default), ofRows_mapVals (hp - lp) (subCols A lp hp ls hs fun x => x.2) (fun i => vals.getD i default)]
        rfl

/-! ### Blocks -/

/-- The part of a slice coming from one block. -/
def part (M : Option (Csx T)) (p off : Nat) : List (Nat × T) :=
  match M with
  | none => []
  | some M => (M.row p).map fun e => (e.1 + off, e.2)

/-- A block that is given is well-formed and has the right sizes. -/
def BlockOk (M : Option (Csx T)) (np ns : Nat) : Prop := ∀ B, M = some B → WellFormed B ∧ B.np = np ∧ B.ns = ns

/-- The number of stored entries of a block. -/
def blockNnz (M : Option (Csx T)) : Nat := match M with
  | none => 0
  | some M => M.idxs.length

theorem putPart_eq {M : Option (Csx T)} {np ns : Nat} (hM : BlockOk M np ns) {ipd offp offs : Nat} (h : ipd - offp < np) (st : List Nat × List T × Nat) :
    putPart M ipd offp offs st = (part M (ipd - offp) offs).foldlM (fun st e => putEntry e.1 e.2 st) st := by
  cases M with
  | none => rfl
  | some B =>
      obtain ⟨hB, h1, h2⟩ := hM B rfl
      unfold putPart part
      simp only [Option.bind_eq_bind]
      rw [wf_ptr hB (by omega), wf_ptr hB (by omega)]
      simp only [Option.bind_some]
      rw [foldlM_map']
      exact row_loop' hB (by omega) (fun (c : Nat) (v : T) (st : List Nat × List T × Nat) => putEntry (c + offs) v st) st

theorem rows_total {M : Csx T} (hM : WellFormed M) : ((List.range M.np).flatMap fun p => M.row p).length = M.idxs.length := by
  have e := congrArg (fun B => B.idxs.length) (wf_eq hM)
  have e : M.idxs.length = M.rows.flatten.length := e.trans (List.length_map _)
  rw [e]; rfl

theorem part_total {M : Option (Csx T)} {np ns : Nat} (hM : BlockOk M np ns) (off : Nat) : ((List.range np).flatMap fun p => part M p off).length = blockNnz M := by
  cases M with
  | none => 
      have : ((List.range np).flatMap fun p => part (none : Option (Csx T)) p off) = [] := by rw [List.flatMap_eq_nil_iff]; intro p _; rfl
      rw [this]; rfl
  | some B =>
      obtain ⟨hB, h1, h2⟩ := hM B rfl
      have := rows_total hB
      show _ = B.idxs.length
      rw [← this, ← h1, List.length_flatMap, List.length_flatMap]
      congr 1
      apply List.map_congr_left
      intro p _
      exact List.length_map _

/-- The slices of the concatenated matrix. -/
def concatRow (mp ms : Nat) (M11 M12 M21 M22 : Option (Csx T)) (p : Nat) : List (Nat × T) :=
  if p < mp then part M11 p 0 ++ part M12 p ms else part M21 (p - mp) 0 ++ part M22 (p - mp) ms

theorem flatMap_append_length {A B : Type} (F G : A → List B) (l : List A) : (l.flatMap fun a => F a ++ G a).length = (l.flatMap F).length + (l.flatMap G).length := by
  induction l with
  | nil => rfl
  | cons a l ih => simp only [List.flatMap_cons, List.length_append, ih]; omega

theorem concatRows_total {np ns mp ms : Nat} (hmp : mp ≤ np) {M11 M12 M21 M22 : Option (Csx T)} (h11 : BlockOk M11 mp ms) (h12 : BlockOk M12 mp (ns - ms))
    (h21 : BlockOk M21 (np - mp) ms) (h22 : BlockOk M22 (np - mp) (ns - ms)) :
    ((List.range np).map (concatRow mp ms M11 M12 M21 M22)).flatten.length = blockNnz M11 + blockNnz M12 + blockNnz M21 + blockNnz M22 := by
  rw [← List.flatMap_def, range_split (lp := mp) (hp := mp) (n := np) (Nat.le_refl _) hmp, Nat.sub_self, List.range'_zero, List.nil_append, List.flatMap_append, List.length_append]
  have e1 : (List.range mp).flatMap (concatRow mp ms M11 M12 M21 M22) = (List.range mp).flatMap fun p => part M11 p 0 ++ part M12 p ms := by
    apply flatMap_congr'
    intro p hp
    unfold concatRow
    rw [if_pos (List.mem_range.1 hp)]
  have e2 : (List.range' mp (np - mp)).flatMap (concatRow mp ms M11 M12 M21 M22) = (List.range (np - mp)).flatMap fun p => part M21 p 0 ++ part M22 p ms := by
    rw [List.range'_eq_map_range, List.flatMap_map]
    apply flatMap_congr'
    intro p hp
    unfold concatRow
    rw [if_neg (by omega), Nat.add_sub_cancel_left]
  rw [e1, e2, flatMap_append_length, flatMap_append_length, part_total h11, part_total h12, part_total h21, part_total h22]
  omega

theorem part_range {M : Option (Csx T)} {np ns : Nat} (hM : BlockOk M np ns) {p off : Nat} (hp : p < np) : ∀ e ∈ part M p off, e.1 < ns + off := by
  cases M with
  | none => intro e he; cases he
  | some B =>
      obtain ⟨hB, h1, h2⟩ := hM B rfl
      intro e he
      obtain ⟨x, hx, rfl⟩ := List.mem_map.1 he
      have := wf_cols hB (B.row p) (by unfold Csx.rows; exact List.mem_map.2 ⟨p, List.mem_range.2 (by omega), rfl⟩) x hx
      simp only; omega

/-- **C41**: concatenating blocks of the right sizes into a destination with room for all entries gives, without an access out of range, the well-formed matrix with the
entries of the blocks at their places; blocks that are not given count as zero. -/
theorem C41_concat (np ns mp ms : Nat) (hmp : mp ≤ np) (hms : ms ≤ ns) (M11 M12 M21 M22 : Option (Csx T)) (h11 : BlockOk M11 mp ms) (h12 : BlockOk M12 mp (ns - ms))
    (h21 : BlockOk M21 (np - mp) ms) (h22 : BlockOk M22 (np - mp) (ns - ms)) (d : Dest T)
    (hd : d.Fits np (blockNnz M11 + blockNnz M12 + blockNnz M21 + blockNnz M22)) :
    ∃ A, concat np ns mp ms M11 M12 M21 M22 d.ptrs d.idxs d.vals = some A ∧ WellFormed A ∧ A.np = np ∧ A.ns = ns ∧
      ∀ p, p < np → A.row p = concatRow mp ms M11 M12 M21 M22 p := by
  have htot := concatRows_total hmp h11 h12 h21 h22
  have hlen : ((List.range np).map (concatRow mp ms M11 M12 M21 M22)).length = np := by simp
  obtain ⟨ptrs', e, hl', hp'⟩ := emit_rows ns ((List.range np).map (concatRow mp ms M11 M12 M21 M22)) d.ptrs d.idxs d.vals (by rw [hlen]; exact hd.ptrs)
    (by rw [htot]; exact hd.idxs) (by rw [htot]; exact hd.vals)
    (fun ipd (x : List Nat × List Nat × List T × Nat) => match x with
      | (ptrs, st) => do
        let ptrs ← wr ptrs ipd st.2.2
        let st ← concatSlice mp ms M11 M12 M21 M22 ipd st
        some (ptrs, st)) (by
      intro p hp s
      obtain ⟨p0, st⟩ := s
      rw [hlen] at hp
      simp only [Option.bind_eq_bind]
      congr 1
      funext p1
      have hrow : ((List.range np).map (concatRow mp ms M11 M12 M21 M22))[p] = concatRow mp ms M11 M12 M21 M22 p := by simp
      rw [hrow]
      have : concatSlice mp ms M11 M12 M21 M22 p st = (concatRow mp ms M11 M12 M21 M22 p).foldlM (fun st e => putEntry e.1 e.2 st) st := by
        unfold concatSlice concatRow
        by_cases hpm : p < mp
        · rw [if_pos hpm, if_pos hpm, List.foldlM_append, putPart_eq h11 (by omega), Nat.sub_zero]
          congr 1
          funext st
          rw [putPart_eq h12 (by omega), Nat.sub_zero]
        · rw [if_neg hpm, if_neg hpm, List.foldlM_append, putPart_eq h21 (by omega)]
          congr 1
          funext st
          rw [putPart_eq h22 (by omega)]
      rw [this]
      cases List.foldlM (m := Option) (fun (st : List Nat × List T × Nat) (e : Nat × T) => putEntry e.1 e.2 st) st (concatRow mp ms M11 M12 M21 M22 p) <;> rfl)
  rw [hlen] at e hp' hl'
  refine ⟨ofRows ns ((List.range np).map (concatRow mp ms M11 M12 M21 M22)), ?_, ?_, hlen, rfl, ?_⟩
  · unfold concat
    rw [e]
    simp only [Option.bind_eq_bind, Option.bind_some]
    rw [wr_eq_some (by omega), Option.bind_some, hp']
    congr 1
    unfold ofRows
    simp only [Csx.mk.injEq, and_true]
    exact hlen.symm
  · apply ofRows_wf
    intro row hr e he
    obtain ⟨p, hp, rfl⟩ := List.mem_map.1 hr
    have hp := List.mem_range.1 hp
    unfold concatRow at he
    by_cases hpm : p < mp
    · rw [if_pos hpm] at he
      rcases List.mem_append.1 he with he | he
      · have := part_range h11 hpm e he; omega
      · have := part_range h12 hpm e he; omega
    · rw [if_neg hpm] at he
      rcases List.mem_append.1 he with he | he
      · have := part_range h21 (by omega) e he; omega
      · have := part_range h22 (by omega) e he; omega
  · intro p hp
    apply ofRows_row
    rw [List.getElem?_map, List.getElem?_range hp]; rfl

/-- The window of a matrix as a block, in the order of the source or in the other one. -/
def IsBlock (A : Csx T) (lp hp ls hs : Nat) (same : Bool) (B : Csx T) : Prop :=
  match same with
  | true => Sub A lp hp ls hs B
  | false => ∃ B', Sub A lp hp ls hs B' ∧ Converted B' B

/-- The destination, if it is given, has the announced size. -/
def DestOk (A : Csx T) (lp hp ls hs : Nat) (d : Option (Bool × Dest T)) : Prop :=
  ∀ same d', d = some (same, d') → ∃ n, subCount A lp hp ls hs = some n ∧ d'.Fits (if same then hp - lp else hs - ls) n

/-- The block is given exactly if its destination is, and is the window. -/
def BlockSpec (A : Csx T) (lp hp ls hs : Nat) (d : Option (Bool × Dest T)) (b : Option (Csx T)) : Prop :=
  match d, b with
  | none, none => True
  | some (same, _), some B => IsBlock A lp hp ls hs same B
  | _, _ => False

theorem block_spec {A : Csx T} (hA : WellFormed A) (ho : Ordered A) {lp hp ls hs : Nat} (h2 : hp ≤ A.np) {d : Option (Bool × Dest T)} (hd : DestOk A lp hp ls hs d) :
    ∃ b, block A lp hp ls hs d = some b ∧ BlockSpec A lp hp ls hs d b := by
  cases d with
  | none => exact ⟨none, rfl, trivial⟩
  | some sd =>
      obtain ⟨same, d⟩ := sd
      obtain ⟨n, hn, hf⟩ := hd same d rfl
      refine ⟨some _, congrArg (Option.map some) (submatrix_eq A hA ho lp hp ls hs h2 same d n hn hf), ?_⟩
      cases same with
      | true => exact subRows_sub A lp hp ls hs
      | false => exact ⟨_, subRows_sub A lp hp ls hs, subCols_converted _ _ _ _ _ _⟩

/-- **C41**: `quadrisect` produces every requested block, in the requested order. -/
theorem C41_quadrisect (A : Csx T) (hA : WellFormed A) (ho : Ordered A) (mp ms : Nat) (hmp : mp ≤ A.np) (hms : ms ≤ A.ns) (d11 d12 d21 d22 : Option (Bool × Dest T))
    (h11 : DestOk A 0 mp 0 ms d11) (h12 : DestOk A 0 mp ms A.ns d12) (h21 : DestOk A mp A.np 0 ms d21) (h22 : DestOk A mp A.np ms A.ns d22) :
    ∃ b11 b12 b21 b22, quadrisect A mp ms d11 d12 d21 d22 = some (b11, b12, b21, b22) ∧ BlockSpec A 0 mp 0 ms d11 b11 ∧ BlockSpec A 0 mp ms A.ns d12 b12 ∧
      BlockSpec A mp A.np 0 ms d21 b21 ∧ BlockSpec A mp A.np ms A.ns d22 b22 := by
  obtain ⟨b11, e11, s11⟩ := block_spec hA ho hmp h11
  obtain ⟨b12, e12, s12⟩ := block_spec hA ho hmp h12
  obtain ⟨b21, e21, s21⟩ := block_spec hA ho (Nat.le_refl _) h21
  obtain ⟨b22, e22, s22⟩ := block_spec hA ho (Nat.le_refl _) h22
  refine ⟨b11, b12, b21, b22, ?_, s11, s12, s21, s22⟩
  unfold quadrisect
  rw [if_neg (by simp [hmp, hms]), e11, e12, e21, e22]
  rfl

theorem Sub.sorted {A B : Csx T} {lp hp ls hs : Nat} (h : Sub A lp hp ls hs B) (hs' : A.Sorted) (h2 : hp ≤ A.np) : B.Sorted := by
  intro p hp'
  rw [h.np] at hp'
  rw [h.row p hp', List.pairwise_map]
  refine ((hs' (lp + p) (by omega)).filter _).imp_of_mem ?_
  intro a b ha hb hab
  have ha := (List.mem_filter.1 ha).2
  have hb := (List.mem_filter.1 hb).2
  simp only [decide_eq_true_eq] at ha hb
  simp only
  omega

theorem toOrder_block {A B : Csx T} {lp hp ls hs : Nat} {same : Bool} (hs' : A.Sorted) (h2 : hp ≤ A.np) (h : IsBlock A lp hp ls hs same B) (t : Dest T)
    (ht : t.Fits (hp - lp) B.idxs.length) : ∃ C, toOrder same (some B) t = some (some C) ∧ Sub A lp hp ls hs C := by
  cases same with
  | true => exact ⟨B, rfl, h⟩
  | false =>
      obtain ⟨B', hs1, hc⟩ := h
      obtain ⟨C, e, hC⟩ := C37_convert B hc.wf t.ptrs t.idxs t.vals (by rw [hc.ns, hs1.np]; exact ht.ptrs) ht.idxs ht.vals
      refine ⟨C, congrArg (Option.map some) e, ?_⟩
      rw [hc.back hs1.wf (hs1.sorted hs' h2) hC]
      exact hs1

theorem split_sorted (ms : Nat) : ∀ (l : List (Nat × T)), l.Pairwise (fun a b => a.1 ≤ b.1) → (l.filter fun e => e.1 < ms) ++ (l.filter fun e => ¬ e.1 < ms) = l := by
  intro l
  induction l with
  | nil => intro _; rfl
  | cons a l ih =>
      intro h
      have ih := ih (List.pairwise_cons.1 h).2
      have ha := (List.pairwise_cons.1 h).1
      by_cases hc : a.1 < ms
      · rw [List.filter_cons_of_pos (by simpa using hc), List.filter_cons_of_neg (by simpa using hc), List.cons_append, ih]
      · rw [List.filter_cons_of_neg (by simpa using hc), List.filter_cons_of_pos (by simpa using hc)]
        have : (l.filter fun e => e.1 < ms) = [] := by
          rw [List.filter_eq_nil_iff]
          intro b hb
          have := ha b hb
          simp only [decide_eq_true_eq]; omega
        rw [this] at ih ⊢
        rw [List.nil_append] at ih ⊢
        rw [ih]

theorem two_parts {A B C : Csx T} (hA : WellFormed A) {lp hp ms : Nat} (ho : Ordered A) (h2 : hp ≤ A.np) (hB : Sub A lp hp 0 ms B) (hC : Sub A lp hp ms A.ns C) {p : Nat} (hp' : p < hp - lp) :
    part (some B) p 0 ++ part (some C) p ms = A.row (lp + p) := by
  unfold part
  simp only
  rw [hB.row p hp', hC.row p hp', List.map_map, List.map_map]
  have hcol := wf_cols hA (A.row (lp + p)) (by unfold Csx.rows; exact List.mem_map.2 ⟨lp + p, List.mem_range.2 (by omega), rfl⟩)
  conv => rhs; rw [← split_sorted ms (A.row (lp + p)) (ho (lp + p) (by omega))]
  congr 1
  · have : (fun e : Nat × T => decide (0 ≤ e.1 ∧ e.1 < ms)) = fun e => decide (e.1 < ms) := by funext e; rw [decide_eq_decide]; omega
    rw [this]
    conv => rhs; rw [← List.map_id (List.filter _ _)]
    rfl
  · have : ((A.row (lp + p)).filter fun e => decide (ms ≤ e.1 ∧ e.1 < A.ns)) = (A.row (lp + p)).filter fun e => decide (¬ e.1 < ms) := by
      apply List.filter_congr
      intro e he
      have := hcol e he
      rw [decide_eq_decide]; omega
    rw [this]
    conv => rhs; rw [← List.map_id (List.filter _ _)]
    apply List.map_congr_left
    intro e he
    have := (List.mem_filter.1 he).2
    simp only [decide_eq_true_eq] at this
    show (e.1 - ms + ms, e.2) = e
    rw [show e.1 - ms + ms = e.1 by omega]

/-- **C41**: cutting a sorted matrix into four blocks, each in any of the two orders, and concatenating the blocks gives back the matrix. -/
theorem C41_roundtrip (A : Csx T) (hA : WellFormed A) (hs : A.Sorted) (mp ms : Nat) (hmp : mp ≤ A.np) (hms : ms ≤ A.ns) (s11 s12 s21 s22 : Bool) (d11 d12 d21 d22 : Dest T)
    (h11 : DestOk A 0 mp 0 ms (some (s11, d11))) (h12 : DestOk A 0 mp ms A.ns (some (s12, d12))) (h21 : DestOk A mp A.np 0 ms (some (s21, d21)))
    (h22 : DestOk A mp A.np ms A.ns (some (s22, d22))) :
    ∃ B11 B12 B21 B22, quadrisect A mp ms (some (s11, d11)) (some (s12, d12)) (some (s21, d21)) (some (s22, d22)) = some (some B11, some B12, some B21, some B22) ∧
      ∀ t11 t12 t21 t22 d : Dest T, t11.Fits mp B11.idxs.length → t12.Fits mp B12.idxs.length → t21.Fits (A.np - mp) B21.idxs.length → t22.Fits (A.np - mp) B22.idxs.length →
        ∃ C11 C12 C21 C22, toOrder s11 (some B11) t11 = some C11 ∧ toOrder s12 (some B12) t12 = some C12 ∧ toOrder s21 (some B21) t21 = some C21 ∧
          toOrder s22 (some B22) t22 = some C22 ∧
          (d.Fits A.np (blockNnz C11 + blockNnz C12 + blockNnz C21 + blockNnz C22) → concat A.np A.ns mp ms C11 C12 C21 C22 d.ptrs d.idxs d.vals = some A) := by
  obtain ⟨b11, b12, b21, b22, e, p11, p12, p21, p22⟩ := C41_quadrisect A hA hs.ordered mp ms hmp hms _ _ _ _ h11 h12 h21 h22
  have cases_b : ∀ {lp hp ls hs same d} {b : Option (Csx T)}, BlockSpec A lp hp ls hs (some (same, d)) b → ∃ B, b = some B ∧ IsBlock A lp hp ls hs same B := by
    intro lp hp ls hs same d b h
    cases b with
    | none => exact h.elim
    | some B => exact ⟨B, rfl, h⟩
  obtain ⟨B11, rfl, p11⟩ := cases_b p11
  obtain ⟨B12, rfl, p12⟩ := cases_b p12
  obtain ⟨B21, rfl, p21⟩ := cases_b p21
  obtain ⟨B22, rfl, p22⟩ := cases_b p22
  refine ⟨B11, B12, B21, B22, e, ?_⟩
  intro t11 t12 t21 t22 d f11 f12 f21 f22
  obtain ⟨C11, e11, q11⟩ := toOrder_block hs hmp p11 t11 f11
  obtain ⟨C12, e12, q12⟩ := toOrder_block hs hmp p12 t12 f12
  obtain ⟨C21, e21, q21⟩ := toOrder_block hs (Nat.le_refl _) p21 t21 f21
  obtain ⟨C22, e22, q22⟩ := toOrder_block hs (Nat.le_refl _) p22 t22 f22
  refine ⟨_, _, _, _, e11, e12, e21, e22, ?_⟩
  intro hd
  have ok : ∀ {lp hp ls hs : Nat} {C : Csx T}, Sub A lp hp ls hs C → BlockOk (some C) (hp - lp) (hs - ls) := by
    intro lp hp ls hs C h B hB
    obtain rfl : C = B := Option.some.inj hB
    exact ⟨h.wf, h.np, h.ns⟩
  obtain ⟨A', eA, wA, nA, sA, rA⟩ := C41_concat A.np A.ns mp ms hmp hms (some C11) (some C12) (some C21) (some C22) (ok q11) (ok q12) (ok q21) (ok q22) d hd
  rw [eA]
  congr 1
  refine csx_ext wA hA nA sA ?_
  intro p hp
  rw [rA p (by omega)]
  unfold concatRow
  by_cases hpm : p < mp
  · rw [if_pos hpm, two_parts hA hs.ordered hmp q11 q12 (by omega), Nat.zero_add]
  · rw [if_neg hpm, two_parts hA hs.ordered (Nat.le_refl _) q21 q22 (by omega)]
    congr 1; omega

/-! ### Concrete cases -/

/-- A sorted 3 x 4 matrix with an empty row. -/
def exSorted : Csx Int := ⟨3, 4, [0, 3, 3, 5], [0, 2, 3, 1, 2], [10, 20, 30, 40, 50]⟩

theorem exSorted_wf : WellFormed exSorted := ⟨rfl, rfl, by decide, rfl, rfl, by decide⟩

theorem exSorted_sorted : exSorted.Sorted := by unfold Csx.Sorted; decide

example : subCount exSorted 0 3 1 3 = some 3 := by decide

example : submatrix exSorted 0 3 1 3 true ⟨[7, 7, 7, 7], [9, 9, 9], [0, 0, 0]⟩ = some ⟨3, 2, [0, 1, 1, 3], [1, 0, 1], [20, 40, 50]⟩ := by decide

example : submatrix exSorted 0 3 1 3 false ⟨[7, 7, 7], [9, 9, 9], [0, 0, 0]⟩ = some ⟨2, 3, [0, 1, 3], [2, 0, 2], [40, 20, 50]⟩ := by decide

example : submatrixMap exSorted 0 3 1 3 false ⟨[7, 7, 7], [9, 9, 9], [0, 0, 0]⟩ = some ⟨2, 3, [0, 1, 3], [2, 0, 2], [3, 1, 4]⟩ := by decide

example : ∃ B, submatrix exSorted 0 3 1 3 true ⟨[7, 7, 7, 7], [9, 9, 9], [0, 0, 0]⟩ = some B ∧ Sub exSorted 0 3 1 3 B :=
  C40_same_partial exSorted exSorted_wf exSorted_sorted.ordered 0 3 1 3 (by decide) _ 3 (by decide) ⟨rfl, rfl, rfl⟩

example : quadrisect exSorted 1 2 (some (true, ⟨[0, 0], [0], [0]⟩)) (some (false, ⟨[0, 0, 0], [0, 0], [0, 0]⟩)) none (some (true, ⟨[5, 5, 5], [5], [5]⟩)) =
    some (some ⟨1, 2, [0, 1], [0], [10]⟩, some ⟨2, 1, [0, 1, 2], [0, 0], [20, 30]⟩, none, some ⟨2, 2, [0, 0, 1], [0], [50]⟩) := by decide

example : concat 3 4 1 2 (some ⟨1, 2, [0, 1], [0], [10]⟩) (some ⟨1, 2, [0, 2], [0, 1], [20, 30]⟩) none (some ⟨2, 2, [0, 0, 1], [0], [50]⟩) [9, 9, 9, 9] [8, 8, 8, 8] [7, 7, 7, (7 : Int)] =
    some ⟨3, 4, [0, 3, 3, 4], [0, 2, 3, 2], [10, 20, 30, 50]⟩ := by decide

/-- C40, the full claim is false: the loop over the window stops at the first index beyond it, so for a well-formed matrix with an unordered slice the entries behind it are
lost.  Here two entries lie in the window and none is counted. -/
theorem C40_unordered_lost : WellFormed (⟨1, 3, [0, 3], [2, 0, 1], [1, 2, 3]⟩ : Csx Int) ∧
    subCount (⟨1, 3, [0, 3], [2, 0, 1], [1, 2, 3]⟩ : Csx Int) 0 1 0 2 = some 0 ∧
    ((⟨1, 3, [0, 3], [2, 0, 1], [1, 2, 3]⟩ : Csx Int).entries.filter fun e => e.2.1 < 2).length = 2 := by
  refine ⟨⟨by decide, by decide, by decide, by decide, by decide, by decide⟩, by decide, by decide⟩

end Verif.Csx
