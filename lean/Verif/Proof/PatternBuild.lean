import Verif.Proof.Pattern
/-! The positions of the entries of the element matrices. -/
namespace Verif.Pattern

open Verif.Csx Verif.Feti

/-- The degrees of freedom of an element in the order of the rows of its matrix: component by component. -/
def elementDofs (m : Nat → Nat) (dofs : Nat) (e : List Nat) : List Nat := (List.range dofs).flatMap fun rd => e.map fun n => m (n * dofs + rd)

theorem mem_elementDofs {m : Nat → Nat} {dofs : Nat} {e : List Nat} {k : Nat} : k ∈ elementDofs m dofs e ↔ ∃ n ∈ e, ∃ rd, rd < dofs ∧ m (n * dofs + rd) = k := by
  unfold elementDofs
  simp only [List.mem_flatMap, List.mem_map, List.mem_range]
  constructor
  · rintro ⟨rd, h, n, hn, e⟩; exact ⟨n, hn, rd, h, e⟩
  · rintro ⟨n, hn, rd, h, e⟩; exact ⟨rd, h, n, hn, e⟩

theorem range_mul (a b : Nat) : List.range (a * b) = (List.range a).flatMap fun i => (List.range b).map fun j => i * b + j := by
  induction a with
  | zero => simp
  | succ a ih => rw [List.range_succ, List.flatMap_append, ← ih, Nat.succ_mul, List.range_add]; simp

theorem elementDofs_length (m : Nat → Nat) (dofs : Nat) (e : List Nat) : (elementDofs m dofs e).length = dofs * e.length := by
  unfold elementDofs
  rw [flatMap_range_length]
  simp only [List.length_map]
  induction dofs with
  | zero => simp [startOf]
  | succ d ih => rw [startOf_succ, ih, Nat.succ_mul]

theorem elementDofs_get (m : Nat → Nat) {dofs : Nat} {e : List Nat} {rd f n : Nat} (hrd : rd < dofs) (hf : e[f]? = some n) :
    (elementDofs m dofs e)[rd * e.length + f]? = some (m (n * dofs + rd)) := by
  have hfl := (List.getElem?_eq_some_iff.1 hf).1
  have hs : ∀ k, startOf (fun k => (e.map fun n => m (n * dofs + k)).length) k = k * e.length := by
    intro k
    induction k with
    | zero => simp [startOf]
    | succ k ih => rw [startOf_succ, ih, List.length_map, Nat.succ_mul]
  have := flatMap_get (fun rd => e.map fun n => m (n * dofs + rd)) dofs rd f hrd (by rw [List.length_map]; exact hfl)
  rw [hs] at this
  unfold elementDofs
  rw [this, List.getElem?_map, hf]; rfl

theorem filter_range_ge (r n : Nat) : (List.range n).filter (fun c => decide (r ≤ c)) = List.range' r (n - r) := by
  induction n with
  | zero => simp
  | succ n ih =>
      rw [List.range_succ, List.filter_append, ih]
      by_cases h : r ≤ n
      · rw [List.filter_cons_of_pos (by simpa using h), List.filter_nil, Nat.succ_sub h, List.range'_concat]
        simp; omega
      · rw [List.filter_cons_of_neg (by simpa using h), List.filter_nil, show n + 1 - r = n - r by omega, List.append_nil]

theorem visited_eq (full : Bool) (sz : Nat) :
    visited full sz = ((List.range sz).flatMap fun r => (List.range sz).map fun c => (r, c)).filter fun p => full || decide (p.1 ≤ p.2) := by
  unfold visited
  rw [List.filter_flatMap]
  congr 1
  funext r
  rw [List.filter_map]
  congr 1
  cases full with
  | true => simp [List.range_eq_range']
  | false =>
      simp only [cond_false]
      rw [← filter_range_ge]
      rfl

/-- The entry of the pattern for the entry `(r, c)` of the matrix of an element with the degrees of freedom `D`. -/
def target (full : Bool) (D : List Nat) (rc : Nat × Nat) : Nat × Nat :=
  bif full then (D.getD rc.1 0, D.getD rc.2 0) else (min (D.getD rc.1 0) (D.getD rc.2 0), max (D.getD rc.1 0) (D.getD rc.2 0))

theorem elementPositions_eq {imap : List (Option Nat)} {dofs size : Nat} {elems : List (List Nat)} {m : Nat → Nat} (h : MapOk imap dofs size elems m) (full : Bool)
    (begin indices offset : List Nat) {e : List Nat} (he : e ∈ elems) (perm : List Nat) :
    elementPositions dofs full imap begin indices offset e perm = (visited full (dofs * e.length)).foldlM (fun perm rc =>
      (position begin indices offset (target full (elementDofs m dofs e) rc).1 (target full (elementDofs m dofs e) rc).2).bind fun p => some (perm ++ [p])) perm := by
  rw [visited_eq, foldlM_filter', foldlM_flatMap', range_mul, foldlM_flatMap']
  unfold elementPositions
  rw [forLoop_range]
  apply Verif.Csx.foldlM_congr
  intro rd hrd s
  rw [forLoop_range, List.foldlM_map]
  apply Verif.Csx.foldlM_congr
  intro f hf s
  have hf' := List.mem_range.1 hf
  simp only [Option.bind_eq_bind]
  rw [List.getElem?_eq_getElem hf', Option.bind_some, List.foldlM_map, foldlM_flatMap', forLoop_range]
  apply Verif.Csx.foldlM_congr
  intro cd hcd s
  rw [forLoop_range, List.foldlM_map]
  apply Verif.Csx.foldlM_congr
  intro t ht s
  have ht' := List.mem_range.1 ht
  rw [List.getElem?_eq_getElem ht', Option.bind_some, (h e he _ (List.getElem_mem hf') rd (List.mem_range.1 hrd)).1,
    (h e he _ (List.getElem_mem ht') cd (List.mem_range.1 hcd)).1, Option.bind_some, Option.bind_some]
  have d1 : (elementDofs m dofs e).getD (rd * e.length + f) 0 = m (e[f] * dofs + rd) := by
    rw [List.getD_eq_getElem?_getD, elementDofs_get m (List.mem_range.1 hrd) (List.getElem?_eq_getElem hf')]; rfl
  have d2 : (elementDofs m dofs e).getD (cd * e.length + t) 0 = m (e[t] * dofs + cd) := by
    rw [List.getD_eq_getElem?_getD, elementDofs_get m (List.mem_range.1 hcd) (List.getElem?_eq_getElem ht')]; rfl
  unfold target
  dsimp only
  rw [d1, d2]
  cases full <;> simp

/-- The positions `P` of the pattern `(row, column)` hold the entries `E`. -/
def PointsTo (row column : List Nat) (P : List Nat) (E : List (Nat × Nat)) : Prop :=
  P.map (fun p => (row[p]?, column[p]?)) = E.map fun q => (some q.1, some q.2)

theorem PointsTo.append {row column P Q : List Nat} {E F : List (Nat × Nat)} (h1 : PointsTo row column P E) (h2 : PointsTo row column Q F) :
    PointsTo row column (P ++ Q) (E ++ F) := by
  unfold PointsTo at *
  rw [List.map_append, List.map_append, h1, h2]

theorem positions_fold {A : Type} (row column begin indices offset : List Nat) (tgt : A → Nat × Nat) : ∀ (l : List A) (perm : List Nat),
    (∀ a ∈ l, ∃ p, position begin indices offset (tgt a).1 (tgt a).2 = some p ∧ row[p]? = some (tgt a).1 ∧ column[p]? = some (tgt a).2) →
    ∃ P, l.foldlM (fun perm a => (position begin indices offset (tgt a).1 (tgt a).2).bind fun p => some (perm ++ [p])) perm = some (perm ++ P) ∧
      PointsTo row column P (l.map tgt) := by
  intro l
  induction l with
  | nil => intro perm _; exact ⟨[], by simp, rfl⟩
  | cons a l ih =>
      intro perm h
      obtain ⟨p, h1, h2, h3⟩ := h a List.mem_cons_self
      obtain ⟨P, e1, e2⟩ := ih (perm ++ [p]) fun b hb => h b (List.mem_cons_of_mem _ hb)
      refine ⟨p :: P, ?_, ?_⟩
      · rw [List.foldlM_cons, h1]
        show List.foldlM _ (perm ++ [p]) l = _
        rw [e1]; simp
      · unfold PointsTo at *
        rw [List.map_cons, List.map_cons, List.map_cons, e2, h2, h3]

/-- All entries of the matrix of an element, in the order in which the filler visits them. -/
def elementTargets (m : Nat → Nat) (dofs : Nat) (full : Bool) (e : List Nat) : List (Nat × Nat) :=
  (visited full (dofs * e.length)).map (target full (elementDofs m dofs e))

theorem elements_fold {imap : List (Option Nat)} {dofs size : Nat} {all : List (List Nat)} {m : Nat → Nat} (h : MapOk imap dofs size all m) (full : Bool)
    (row column begin indices offset : List Nat)
    (hpos : ∀ e ∈ all, ∀ q ∈ elementTargets m dofs full e, ∃ p, position begin indices offset q.1 q.2 = some p ∧ row[p]? = some q.1 ∧ column[p]? = some q.2) :
    ∀ (elems : List (List Nat)) (perm : List Nat), (∀ e ∈ elems, e ∈ all) →
    ∃ P, elems.foldlM (fun perm e => elementPositions dofs full imap begin indices offset e perm) perm = some (perm ++ P) ∧
      PointsTo row column P (elems.flatMap (elementTargets m dofs full)) := by
  intro elems
  induction elems with
  | nil => intro perm _; exact ⟨[], by simp, rfl⟩
  | cons e elems ih =>
      intro perm hsub
      have he := hsub e List.mem_cons_self
      obtain ⟨P, e1, e2⟩ := positions_fold row column begin indices offset (target full (elementDofs m dofs e)) (visited full (dofs * e.length)) perm (by
        intro a ha
        exact hpos e he _ (List.mem_map.2 ⟨a, ha, rfl⟩))
      obtain ⟨Q, e3, e4⟩ := ih (perm ++ P) fun b hb => hsub b (List.mem_cons_of_mem _ hb)
      refine ⟨P ++ Q, ?_, ?_⟩
      · rw [List.foldlM_cons, elementPositions_eq h full begin indices offset he, e1]
        show List.foldlM _ (perm ++ P) elems = _
        rw [e3, List.append_assoc]
      · rw [List.flatMap_cons]; exact e2.append e4

theorem PointsTo.length {row column P : List Nat} {E : List (Nat × Nat)} (h : PointsTo row column P E) : P.length = E.length := by
  have := congrArg List.length h
  simpa using this

theorem permutation_spec {imap : List (Option Nat)} {dofs size : Nat} {all : List (List Nat)} {m : Nat → Nat} (h : MapOk imap dofs size all m) (full : Bool)
    (row column begin indices offset : List Nat)
    (hpos : ∀ e ∈ all, ∀ q ∈ elementTargets m dofs full e, ∃ p, position begin indices offset q.1 q.2 = some p ∧ row[p]? = some q.1 ∧ column[p]? = some q.2) :
    ∀ (intervals : List (List (List Nat))) (perm offs : List Nat), (∀ e ∈ intervals.flatten, e ∈ all) →
    ∃ P, intervals.foldlM (m := Option) (fun (st : List Nat × List Nat) elems => do
        let offs := st.2 ++ [st.1.length]
        let perm ← elems.foldlM (fun perm e => elementPositions dofs full imap begin indices offset e perm) st.1
        some (perm, offs)) (perm, offs) = some (perm ++ P,
          offs ++ (List.range intervals.length).map fun i => perm.length + ((intervals.take i).flatten.flatMap (elementTargets m dofs full)).length) ∧
      PointsTo row column P (intervals.flatten.flatMap (elementTargets m dofs full)) := by
  intro intervals
  induction intervals with
  | nil => intro perm offs _; exact ⟨[], by simp, rfl⟩
  | cons I intervals ih =>
      intro perm offs hsub
      rw [List.flatten_cons] at hsub
      obtain ⟨P, e1, e2⟩ := elements_fold h full row column begin indices offset hpos I perm fun e he => hsub e (List.mem_append_left _ he)
      obtain ⟨Q, e3, e4⟩ := ih (perm ++ P) (offs ++ [perm.length]) fun e he => hsub e (List.mem_append_right _ he)
      refine ⟨P ++ Q, ?_, ?_⟩
      · rw [List.foldlM_cons]
        simp only [Option.bind_eq_bind] at e3 ⊢
        rw [e1, Option.bind_some, Option.bind_some, e3]
        congr 2
        · rw [List.append_assoc]
        · rw [List.length_cons, List.range_succ_eq_map, List.map_cons, List.map_map, List.append_assoc]
          congr 1
          rw [List.singleton_append, List.take_zero, List.flatten_nil, List.flatMap_nil, List.length_nil, Nat.add_zero]
          congr 1
          apply List.map_congr_left
          intro i _
          show _ = perm.length + _
          rw [List.take_succ_cons, List.flatten_cons, List.flatMap_append, List.length_append, List.length_append, e2.length, Nat.add_assoc]
      · rw [List.flatten_cons, List.flatMap_append]; exact e2.append e4

theorem mem_rowOf {ops : List (Nat × Nat)} {r c : Nat} : c ∈ rowOf ops r ↔ (r, c) ∈ ops := by
  unfold rowOf
  rw [List.mem_map]
  constructor
  · rintro ⟨p, hp, rfl⟩
    have := List.mem_filter.1 hp
    have h2 : p.1 = r := by simpa using this.2
    rw [← h2]; exact this.1
  · intro h; exact ⟨(r, c), List.mem_filter.2 ⟨h, by simp⟩, rfl⟩

theorem mem_fillOps {m : Nat → Nat} {dofs : Nat} {full : Bool} {elems : List (List Nat)} {r c : Nat} :
    (r, c) ∈ fillOps m dofs full elems ↔ ∃ e ∈ elems, r ∈ elementDofs m dofs e ∧ c ∈ elementDofs m dofs e ∧ (full = true ∨ r ≤ c) := by
  unfold fillOps
  rw [List.mem_flatMap]
  have key : ∀ e, (r, c) ∈ fillPairs m dofs e ↔ r ∈ elementDofs m dofs e ∧ c ∈ elementDofs m dofs e := by
    intro e
    rw [(fillPairs_perm m dofs e).mem_iff]
    unfold pairs
    rw [List.mem_flatMap]
    simp only [List.mem_map, Prod.mk.injEq]
    constructor
    · rintro ⟨a, ha, b, hb, rfl, rfl⟩
      exact ⟨mem_elementDofs.2 (nodeDofs_mem.1 ha), mem_elementDofs.2 (nodeDofs_mem.1 hb)⟩
    · rintro ⟨ha, hb⟩
      exact ⟨r, nodeDofs_mem.2 (mem_elementDofs.1 ha), c, nodeDofs_mem.2 (mem_elementDofs.1 hb), rfl, rfl⟩
  simp only [List.mem_filter, key, Bool.or_eq_true, decide_eq_true_eq, and_assoc]

theorem visited_lt {full : Bool} {sz r c : Nat} (h : (r, c) ∈ visited full sz) : r < sz ∧ c < sz := by
  rw [visited_eq] at h
  have := (List.mem_filter.1 h).1
  simp only [List.mem_flatMap, List.mem_map, List.mem_range, Prod.mk.injEq] at this
  obtain ⟨a, ha, b, hb, rfl, rfl⟩ := this
  exact ⟨ha, hb⟩

theorem target_mem {m : Nat → Nat} {dofs : Nat} {full : Bool} {elems : List (List Nat)} {e : List Nat} (he : e ∈ elems) {q : Nat × Nat}
    (hq : q ∈ elementTargets m dofs full e) : q ∈ fillOps m dofs full elems := by
  obtain ⟨⟨r, c⟩, hrc, rfl⟩ := List.mem_map.1 hq
  obtain ⟨h1, h2⟩ := visited_lt hrc
  have hl := elementDofs_length m dofs e
  have m1 : (elementDofs m dofs e).getD r 0 ∈ elementDofs m dofs e := List.mem_of_getElem? (getD_some (by omega))
  have m2 : (elementDofs m dofs e).getD c 0 ∈ elementDofs m dofs e := List.mem_of_getElem? (getD_some (by omega))
  unfold target
  cases full with
  | true => exact mem_fillOps.2 ⟨e, he, m1, m2, Or.inl rfl⟩
  | false =>
      refine mem_fillOps.2 ⟨e, he, ?_, ?_, Or.inr (Nat.le_trans (Nat.min_le_left _ _) (Nat.le_max_left _ _))⟩
      · rcases Nat.le_total ((elementDofs m dofs e).getD r 0) ((elementDofs m dofs e).getD c 0) with hh | hh
        · rw [Nat.min_eq_left hh]; exact m1
        · rw [Nat.min_eq_right hh]; exact m2
      · rcases Nat.le_total ((elementDofs m dofs e).getD r 0) ((elementDofs m dofs e).getD c 0) with hh | hh
        · rw [Nat.max_eq_right hh]; exact m2
        · rw [Nat.max_eq_left hh]; exact m1

/-- What `buildPattern` computes: the rows `L`, the positions, the offsets of the intervals. -/
theorem build_spec {imap : List (Option Nat)} {dofs size : Nat} {intervals : List (List (List Nat))} {m : Nat → Nat} (h : MapOk imap dofs size intervals.flatten m) (full : Bool)
    (hused : ∀ k, k < size → ∃ e ∈ intervals.flatten, k ∈ elementDofs m dofs e) (junk : Nat → Nat) :
    ∃ (L : Nat → List Nat) (P : List Nat),
      buildPattern dofs full size imap intervals junk = some ⟨rowIdx L size, colIdx L size, P,
        (List.range intervals.length).map fun i => ((intervals.take i).flatten.flatMap (elementTargets m dofs full)).length⟩ ∧
      (∀ k, k < size → L k ≠ [] ∧ (L k).Pairwise (· < ·) ∧ ∀ c, c ∈ L k ↔ (k, c) ∈ fillOps m dofs full intervals.flatten) ∧
      PointsTo (rowIdx L size) (colIdx L size) P (intervals.flatten.flatMap (elementTargets m dofs full)) := by
  have hops : ∀ op ∈ countOps m dofs intervals.flatten, op.1 < size := by
    intro op hop
    unfold countOps at hop
    obtain ⟨e, he, hop⟩ := List.mem_flatMap.1 hop
    obtain ⟨k, hk, rfl⟩ := List.mem_map.1 hop
    exact h.lt he k hk
  obtain ⟨begin0, b1, b2, b3⟩ := runOps_spec (countOps m dofs intervals.flatten) (List.replicate (size + 1) 0) (by
    intro op hop; rw [List.length_replicate]; have := hops op hop; omega)
  rw [List.length_replicate] at b2 b3
  obtain ⟨begin, c1, c2, c3⟩ := sumPtrs_spec size begin0 (total (countOps m dofs intervals.flatten)) b2 (by
    intro c hc
    rw [b3 c (by omega)]
    congr 1
    rw [List.getD_eq_getElem?_getD, List.getElem?_replicate, if_pos (by omega)]
    simp)
  have hb := startOf_succ (total (countOps m dofs intervals.flatten))
  have hne : ∀ k, k < size → rowOf (fillOps m dofs full intervals.flatten) k ≠ [] := by
    intro k hk h0
    obtain ⟨e, he, hke⟩ := hused k hk
    have : k ∈ rowOf (fillOps m dofs full intervals.flatten) k := mem_rowOf.2 (mem_fillOps.2 ⟨e, he, hke, hke, Or.inr (Nat.le_refl _)⟩)
    rw [h0] at this; cases this
  obtain ⟨indices, fin, f1, f2, f3, f4, f5⟩ := fill_spec size (startOf (total (countOps m dofs intervals.flatten))) (total (countOps m dofs intervals.flatten)) hb
    (fillOps m dofs full intervals.flatten) [] ((List.range (startOf (total (countOps m dofs intervals.flatten)) size)).map junk) begin
    (by
      rintro ⟨r, c⟩ hp
      obtain ⟨e, he, hr, _⟩ := mem_fillOps.1 hp
      exact h.lt he r (nodeDofs_mem.2 (mem_elementDofs.1 hr)))
    (by intro k _; exact rowOf_fillOps_le m dofs full intervals.flatten k)
    (by rw [List.length_map, List.length_range]) c2 (by intro k hk; exact c3 k (by omega)) (by intro k _ i hi; exact absurd hi (Nat.not_lt_zero _))
  rw [List.nil_append] at f4 f5
  obtain ⟨L, g1, indices', fin', g2, g3, g4, g5, g6⟩ := uniqueRows_spec size begin (startOf (total (countOps m dofs intervals.flatten)))
    (total (countOps m dofs intervals.flatten)) hb c3 (rowOf (fillOps m dofs full intervals.flatten)) hne
    (by intro k _; exact rowOf_fillOps_le m dofs full intervals.flatten k) indices fin f2 f3 f4 f5
  have hlist := listRows_spec size begin fin' indices' (startOf (total (countOps m dofs intervals.flatten))) L c3 g5 g6
  have hmem : ∀ k, k < size → ∀ c, c ∈ L k ↔ (k, c) ∈ fillOps m dofs full intervals.flatten := fun k hk c => ((g1 k hk).2.2 c).trans mem_rowOf
  obtain ⟨P, p1, p2⟩ := permutation_spec h full (rowIdx L size) (colIdx L size) begin indices' ((List.range size).map fun n => startOf (fun k => (L k).length) n) (by
    intro e he q hq
    have hq' := target_mem he hq
    have hr : q.1 < size := by
      obtain ⟨e', he', hr, _⟩ := mem_fillOps.1 hq'
      exact h.lt he' _ (nodeDofs_mem.2 (mem_elementDofs.1 hr))
    exact position_spec size begin indices' (startOf (total (countOps m dofs intervals.flatten))) L c3 (fun k hk => (g1 k hk).2.1) g6 hr ((hmem q.1 hr q.2).2 hq'))
    intervals [] [] fun e he => he
  refine ⟨L, P, ?_, fun k hk => ⟨(g1 k hk).1, (g1 k hk).2.1, hmem k hk⟩, p2⟩
  unfold buildPattern
  simp only [Option.bind_eq_bind]
  rw [countRows_eq h, b1, Option.bind_some, c1, Option.bind_some, c3 size (Nat.le_refl _), Option.bind_some, fillRows_eq h, f1, Option.bind_some, g2, Option.bind_some, hlist,
    Option.bind_some]
  unfold permutation
  simp only [Option.bind_eq_bind] at p1 ⊢
  rw [p1]
  simp

end Verif.Pattern
