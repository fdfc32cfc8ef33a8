import Verif.Model.Statistics
import Verif.Prop.NodeSync
import Mathlib.Order.Bounds.Basic
/-! C103: the statistics of the monitors. -/
namespace Verif.Statistics

open Verif.Csx

/-- The statistics of a list, without the last step. -/
structure Is (M : ℝ) (L : List ℝ) (s : Stat) : Prop where
  min : s.min = L.foldr Min.min M
  max : s.max = L.foldr Max.max (-M)
  avg : s.avg = L.sum
  norm : s.norm = (L.map fun x => x ^ 2).sum
  absmin : s.absmin = (L.map fun x => |x|).foldr Min.min M
  absmax : s.absmax = (L.map fun x => |x|).foldr Max.max 0

theorem is_reset (M : ℝ) : Is M [] (reset M) := ⟨rfl, rfl, rfl, rfl, rfl, rfl⟩

theorem Is.add {M : ℝ} {L : List ℝ} {s : Stat} (h : Is M L s) (x : ℝ) : Is M (x :: L) (addNode s x) where
  min := by rw [List.foldr_cons, ← h.min, min_comm]; rfl
  max := by rw [List.foldr_cons, ← h.max, max_comm]; rfl
  avg := by rw [List.sum_cons, ← h.avg, add_comm]; rfl
  norm := by rw [List.map_cons, List.sum_cons, ← h.norm, add_comm, pow_two]; rfl
  absmin := by rw [List.map_cons, List.foldr_cons, ← h.absmin, min_comm]; rfl
  absmax := by rw [List.map_cons, List.foldr_cons, ← h.absmax, max_comm]; rfl

theorem Is.adds {M : ℝ} : ∀ (V : List ℝ) {L : List ℝ} {s : Stat}, Is M L s → Is M (V.reverse ++ L) (V.foldl addNode s) := by
  intro V
  induction V with
  | nil => exact fun h => h
  | cons x V ih =>
    intro L s h
    rw [List.reverse_cons, List.append_assoc, List.foldl_cons]
    exact ih (h.add x)

theorem foldr_min_le (M : ℝ) (L : List ℝ) : L.foldr Min.min M ≤ M := by
  induction L with
  | nil => exact le_rfl
  | cons x L ih => exact (min_le_right _ _).trans ih

theorem le_foldr_max (M : ℝ) (L : List ℝ) : M ≤ L.foldr Max.max M := by
  induction L with
  | nil => exact le_rfl
  | cons x L ih => exact ih.trans (le_max_right _ _)

theorem foldr_min_append (M : ℝ) (A B : List ℝ) : (A ++ B).foldr Min.min M = Min.min (A.foldr Min.min M) (B.foldr Min.min M) := by
  induction A with
  | nil => exact (min_eq_right (foldr_min_le M B)).symm
  | cons x A ih => rw [List.cons_append, List.foldr_cons, ih, List.foldr_cons, min_assoc]

theorem foldr_max_append (M : ℝ) (A B : List ℝ) : (A ++ B).foldr Max.max M = Max.max (A.foldr Max.max M) (B.foldr Max.max M) := by
  induction A with
  | nil => exact (max_eq_right (le_foldr_max M B)).symm
  | cons x A ih => rw [List.cons_append, List.foldr_cons, ih, List.foldr_cons, max_assoc]

theorem Is.absmin_nonneg {M : ℝ} (hM : 0 ≤ M) {L : List ℝ} {s : Stat} (h : Is M L s) : |s.absmin| = s.absmin := by
  rw [abs_of_nonneg]
  rw [h.absmin]
  clear h
  induction L with
  | nil => exact hM
  | cons x L ih => exact le_min (abs_nonneg x) ih

theorem Is.absmax_nonneg {M : ℝ} {L : List ℝ} {s : Stat} (h : Is M L s) : |s.absmax| = s.absmax := by
  rw [abs_of_nonneg]
  rw [h.absmax]
  exact le_foldr_max 0 _

theorem Is.merge {M : ℝ} (hM : 0 ≤ M) {A B : List ℝ} {s t : Stat} (h : Is M A s) (g : Is M B t) : Is M (A ++ B) (merge s t) where
  min := by rw [foldr_min_append, ← h.min, ← g.min]; rfl
  max := by rw [foldr_max_append, ← h.max, ← g.max]; rfl
  avg := by rw [List.sum_append, ← h.avg, ← g.avg]; rfl
  norm := by rw [List.map_append, List.sum_append, ← h.norm, ← g.norm]; rfl
  absmin := by
    rw [List.map_append, foldr_min_append, ← h.absmin, ← g.absmin, ← h.absmin_nonneg hM, ← g.absmin_nonneg hM]
    show Min.min |s.absmin| |t.absmin| = _
    rfl
  absmax := by
    rw [List.map_append, foldr_max_append, ← h.absmax, ← g.absmax, ← h.absmax_nonneg, ← g.absmax_nonneg]
    show Max.max |s.absmax| |t.absmax| = _
    rfl

theorem merges {M : ℝ} (hM : 0 ≤ M) {A : Type} (f : A → Stat) (L : A → List ℝ) : ∀ (l : List A) (s : Stat) (B : List ℝ), Is M B s → (∀ a ∈ l, Is M (L a) (f a)) → Is M (B ++ l.flatMap L) ((l.map f).foldl Verif.Statistics.merge s) := by
  intro l
  induction l with
  | nil => intro s B h _; simpa using h
  | cons a l ih =>
    intro s B h hl
    rw [List.flatMap_cons, ← List.append_assoc, List.map_cons, List.foldl_cons]
    exact ih _ _ (h.merge hM (hl a List.mem_cons_self)) fun b hb => hl b (List.mem_cons_of_mem _ hb)

theorem foldr_isLeast {M : ℝ} : ∀ {L : List ℝ}, L ≠ [] → (∀ x ∈ L, x ≤ M) → IsLeast {x | x ∈ L} (L.foldr Min.min M) := by
  intro L hne h
  constructor
  · show L.foldr Min.min M ∈ L
    induction L with
    | nil => exact absurd rfl hne
    | cons x L ih =>
      rw [List.foldr_cons]
      by_cases hL : L = []
      · subst hL
        rw [List.foldr_nil, min_eq_left (h x List.mem_cons_self)]
        exact List.mem_cons_self
      · rcases min_choice x (L.foldr Min.min M) with e | e
        · rw [e]
          exact List.mem_cons_self
        · rw [e]
          exact List.mem_cons_of_mem _ (ih hL fun y hy => h y (List.mem_cons_of_mem _ hy))
  · intro y hy
    clear hne h
    induction L with
    | nil => exact absurd hy (by simp)
    | cons x L ih =>
      rcases List.mem_cons.1 hy with e | hy
      · rw [e]; exact min_le_left _ _
      · exact (min_le_right _ _).trans (ih hy)

theorem foldr_isGreatest {M : ℝ} : ∀ {L : List ℝ}, L ≠ [] → (∀ x ∈ L, M ≤ x) → IsGreatest {x | x ∈ L} (L.foldr Max.max M) := by
  intro L hne h
  constructor
  · show L.foldr Max.max M ∈ L
    induction L with
    | nil => exact absurd rfl hne
    | cons x L ih =>
      rw [List.foldr_cons]
      by_cases hL : L = []
      · subst hL
        rw [List.foldr_nil, max_eq_left (h x List.mem_cons_self)]
        exact List.mem_cons_self
      · rcases max_choice x (L.foldr Max.max M) with e | e
        · rw [e]
          exact List.mem_cons_self
        · rw [e]
          exact List.mem_cons_of_mem _ (ih hL fun y hy => h y (List.mem_cons_of_mem _ hy))
  · intro y hy
    clear hne h
    induction L with
    | nil => exact absurd hy (by simp)
    | cons x L ih =>
      rcases List.mem_cons.1 hy with e | hy
      · rw [e]; exact le_max_left _ _
      · exact (ih hy).trans (le_max_right _ _)

/-- The values of the nodes owned by a process. -/
noncomputable def owned (rank : Nat) (ranks : List (List Nat)) (store : List ℝ) (dim d : Nat) (nodes : List Nat) : List ℝ :=
  (nodes.filter fun n => (ranks.getD n []).head? = some rank).map fun n => store.getD (n * dim + d) 0

theorem nodeLoop_spec {rank : Nat} {ranks : List (List Nat)} {store : List ℝ} {dim d : Nat} (hd : d < dim) (hs : store.length = ranks.length * dim) (hr : ∀ rs ∈ ranks, rs ≠ []) : ∀ (nodes : List Nat) (prev : Nat) (s : Stat),
    (∀ n ∈ nodes, n < ranks.length) → nodeLoop rank ranks store dim d nodes prev prev s = some ((owned rank ranks store dim d nodes).foldl addNode s) := by
  intro nodes
  induction nodes with
  | nil => intros; rfl
  | cons n nodes ih =>
    intro prev s h
    have hn := h n List.mem_cons_self
    have hpos : (prev : Int) + ((n : Int) - prev) = n := by omega
    obtain ⟨r, rs, hrs⟩ := List.exists_cons_of_ne_nil (hr ranks[n] (List.getElem_mem hn))
    have hget : ranks[n]? = some (r :: rs) := by rw [List.getElem?_eq_getElem hn, hrs]
    have hx : n * dim + d < store.length := by
      have : (n + 1) * dim ≤ ranks.length * dim := Nat.mul_le_mul_right _ hn
      rw [Nat.succ_mul] at this
      omega
    have hgD : (ranks.getD n []).head? = some r := by rw [List.getD_eq_getElem?_getD, hget]; rfl
    unfold nodeLoop
    dsimp only
    rw [hpos, Int.toNat_natCast, hget]
    show (if r = rank then _ else _ : Option Stat) = _
    unfold owned
    by_cases e : r = rank
    · rw [if_pos e, List.filter_cons_of_pos (by rw [hgD, e]; simp), List.map_cons, List.foldl_cons, Verif.Feti.getD_get hx]
      exact ih n _ fun m hm => h m (List.mem_cons_of_mem _ hm)
    · rw [if_neg e, List.filter_cons_of_neg (by rw [hgD]; simpa using e)]
      exact ih n _ fun m hm => h m (List.mem_cons_of_mem _ hm)

/-- The statistics of a component of the nodes are those of the values at the owned nodes of all processes. -/
theorem C103_nodes {M : ℝ} (P : Nat) {ranks : Nat → List (List Nat)} {store : Nat → List ℝ} {dim d : Nat} (hd : d < dim) (hs : ∀ p < P, (store p).length = (ranks p).length * dim) (hr : ∀ p < P, ∀ rs ∈ ranks p, rs ≠ [])
    (nodes : Nat → List Nat) (hn : ∀ p < P, ∀ n ∈ nodes p, n < (ranks p).length) (total : Nat) (L : List ℝ) (hL : L = (List.range P).flatMap fun p => owned p (ranks p) (store p) dim d (nodes p)) (hne : L ≠ [])
    (hM : ∀ x ∈ L, |x| ≤ M) :
    ∃ s, nodeStatistics M P ranks store dim d nodes total = some s ∧ IsLeast {x | x ∈ L} s.min ∧ IsGreatest {x | x ∈ L} s.max ∧ s.avg = L.sum / total ∧ s.norm = Real.sqrt (L.map fun x => x ^ 2).sum ∧
      IsLeast {y | ∃ x ∈ L, y = |x|} s.absmin ∧ IsGreatest {y | ∃ x ∈ L, y = |x|} s.absmax := by
  have hM0 : 0 ≤ M := by
    obtain ⟨x, l, e⟩ := List.exists_cons_of_ne_nil hne
    exact (abs_nonneg x).trans (hM x (by rw [e]; exact List.mem_cons_self))
  let O : Nat → List ℝ := fun p => owned p (ranks p) (store p) dim d (nodes p)
  have hmap : ((List.range P).mapM fun p => nodeLoop p (ranks p) (store p) dim d (nodes p) 0 0 (reset M)) = some ((List.range P).map fun p => (O p).foldl addNode (reset M)) := by
    apply Verif.Sync.mapM_eq
    intro p hp
    have hp := List.mem_range.1 hp
    exact nodeLoop_spec hd (hs p hp) (hr p hp) (nodes p) 0 (reset M) (hn p hp)
  have hP : ∃ k, P = k + 1 := by
    cases P with
    | zero => exact absurd hL hne
    | succ k => exact ⟨k, rfl⟩
  obtain ⟨k, rfl⟩ := hP
  let s := ((List.range' 1 k).map fun p => (O p).foldl addNode (reset M)).foldl merge ((O 0).foldl addNode (reset M))
  have hO : ∀ p, Is M (O p).reverse ((O p).foldl addNode (reset M)) := fun p => by simpa using Is.adds (O p) (is_reset M)
  have hs' : Is M ((O 0).reverse ++ (List.range' 1 k).flatMap fun p => (O p).reverse) s := merges hM0 _ _ _ _ _ (hO 0) fun p _ => hO p
  have hrange : List.range (k + 1) = 0 :: List.range' 1 k := by rw [List.range_eq_range', List.range'_succ]
  have hperm : ((O 0).reverse ++ (List.range' 1 k).flatMap fun p => (O p).reverse).Perm L := by
    rw [hL, hrange, List.flatMap_cons]
    exact (List.reverse_perm _).append (List.Perm.flatMap_left _ fun p _ => List.reverse_perm _)
  generalize (O 0).reverse ++ (List.range' 1 k).flatMap (fun p => (O p).reverse) = R at hs' hperm
  have hmem : ∀ x, x ∈ R ↔ x ∈ L := fun x => hperm.mem_iff
  have hRne : R ≠ [] := fun e => hne (by rw [e] at hperm; exact hperm.symm.eq_nil)
  have habs : {y | ∃ x ∈ L, y = |x|} = {y | y ∈ R.map fun x => |x|} := by
    ext y
    simp only [Set.mem_setOf_eq, List.mem_map, hmem]
    exact ⟨fun ⟨x, hx, e⟩ => ⟨x, hx, e.symm⟩, fun ⟨x, hx, e⟩ => ⟨x, hx, e.symm⟩⟩
  have hset : {x | x ∈ L} = {x | x ∈ R} := by
    ext x
    exact (hmem x).symm
  refine ⟨finish total s, ?_, ?_, ?_, ?_, ?_, ?_, ?_⟩
  · unfold nodeStatistics
    rw [hmap, hrange, List.map_cons]
    rfl
  · rw [hset]
    show IsLeast _ s.min
    rw [hs'.min]
    exact foldr_isLeast hRne fun x hx => (le_abs_self x).trans (hM x ((hmem x).1 hx))
  · rw [hset]
    show IsGreatest _ s.max
    rw [hs'.max]
    exact foldr_isGreatest hRne fun x hx => neg_le_of_abs_le (hM x ((hmem x).1 hx))
  · show s.avg / total = _
    rw [hs'.avg, hperm.sum_eq]
  · show Real.sqrt s.norm = _
    rw [hs'.norm, (hperm.map _).sum_eq]
  · rw [habs]
    show IsLeast _ s.absmin
    rw [hs'.absmin]
    refine foldr_isLeast (by simpa using hRne) fun y hy => ?_
    obtain ⟨x, hx, rfl⟩ := List.mem_map.1 hy
    exact hM x ((hmem x).1 hx)
  · rw [habs]
    show IsGreatest _ s.absmax
    rw [hs'.absmax]
    refine foldr_isGreatest (by simpa using hRne) fun y hy => ?_
    obtain ⟨x, hx, rfl⟩ := List.mem_map.1 hy
    exact abs_nonneg x

/-- Every node of a region is counted once: the nodes owned by the processes are without repetition all nodes of the region. -/
theorem C103_once (P : Nat) (G : Nat → List Nat) (hG : ∀ p < P, (G p).Nodup) (region : Nat → Prop) [DecidablePred region] :
    let l := (List.range P).flatMap fun p => ((G p).filter fun g => region g).filter fun g => (Verif.Sync.hosts P G g).head? = some p
    l.Nodup ∧ ∀ g, g ∈ l ↔ region g ∧ ∃ p < P, g ∈ G p := by
  intro l
  constructor
  · refine List.nodup_flatMap.2 ⟨fun p hp => List.Nodup.filter _ (List.Nodup.filter _ (hG p (List.mem_range.1 hp))), ?_⟩
    refine List.Pairwise.imp ?_ (List.nodup_range (n := P))
    intro p q hpq
    refine List.disjoint_left.2 fun g h1 h2 => hpq ?_
    have e1 := of_decide_eq_true (List.mem_filter.1 h1).2
    have e2 := of_decide_eq_true (List.mem_filter.1 h2).2
    exact Option.some.inj (e1.symm.trans e2)
  · intro g
    constructor
    · intro h
      obtain ⟨p, hp, h⟩ := List.mem_flatMap.1 h
      have h1 := (List.mem_filter.1 h).1
      exact ⟨of_decide_eq_true (List.mem_filter.1 h1).2, p, List.mem_range.1 hp, (List.mem_filter.1 h1).1⟩
    · rintro ⟨hr, p, hp, hg⟩
      have hne : Verif.Sync.hosts P G g ≠ [] := fun e => by
        have := Verif.Sync.mem_hosts.2 ⟨hp, hg⟩
        rw [e] at this
        exact absurd this (by simp)
      obtain ⟨q, rs, e⟩ := List.exists_cons_of_ne_nil hne
      have hq : q ∈ Verif.Sync.hosts P G g := by rw [e]; exact List.mem_cons_self
      obtain ⟨q1, q2⟩ := Verif.Sync.mem_hosts.1 hq
      refine List.mem_flatMap.2 ⟨q, List.mem_range.2 q1, List.mem_filter.2 ⟨List.mem_filter.2 ⟨q2, decide_eq_true hr⟩, decide_eq_true ?_⟩⟩
      rw [e]
      rfl

/-! ### The elements -/

theorem elements_fields : ∀ (V : List ℝ) (s t : Stat), s.min = t.min → s.max = t.max → s.avg = t.avg → s.norm = t.norm →
    (V.foldl addElement s).min = (V.foldl addNode t).min ∧ (V.foldl addElement s).max = (V.foldl addNode t).max ∧ (V.foldl addElement s).avg = (V.foldl addNode t).avg ∧ (V.foldl addElement s).norm = (V.foldl addNode t).norm := by
  intro V
  induction V with
  | nil => exact fun s t h1 h2 h3 h4 => ⟨h1, h2, h3, h4⟩
  | cons x V ih =>
    intro s t h1 h2 h3 h4
    rw [List.foldl_cons, List.foldl_cons]
    apply ih <;> simp only [addElement, addNode, h1, h2, h3, h4]

/-- For the elements of a process the minimum, the maximum, the sum and the norm are right. -/
theorem C103_elements_partial {M : ℝ} (V : List ℝ) (hne : V ≠ []) (hM : ∀ x ∈ V, |x| ≤ M) (total : Nat) :
    let s := elementStatistics M V total
    IsLeast {x | x ∈ V} s.min ∧ IsGreatest {x | x ∈ V} s.max ∧ s.avg = V.sum / total ∧ s.norm = Real.sqrt (V.map fun x => x ^ 2).sum := by
  obtain ⟨e1, e2, e3, e4⟩ := elements_fields V (reset M) (reset M) rfl rfl rfl rfl
  have h : Is M V.reverse (V.foldl addNode (reset M)) := by simpa using Is.adds V (is_reset M)
  have hset : {x | x ∈ V} = {x | x ∈ V.reverse} := by
    ext x
    exact List.mem_reverse.symm
  refine ⟨?_, ?_, ?_, ?_⟩
  · rw [hset]
    show IsLeast _ (V.foldl addElement (reset M)).min
    rw [e1, h.min]
    exact foldr_isLeast (by simpa using hne) fun x hx => (le_abs_self x).trans (hM x (List.mem_reverse.1 hx))
  · rw [hset]
    show IsGreatest _ (V.foldl addElement (reset M)).max
    rw [e2, h.max]
    exact foldr_isGreatest (by simpa using hne) fun x hx => neg_le_of_abs_le (hM x (List.mem_reverse.1 hx))
  · show (V.foldl addElement (reset M)).avg / total = _
    rw [e3, h.avg, (List.reverse_perm V).sum_eq]
  · show Real.sqrt (V.foldl addElement (reset M)).norm = _
    rw [e4, h.norm, ((List.reverse_perm V).map _).sum_eq]

/-- The smallest absolute value of the elements is the minimum, hence wrong whenever there is a negative value; the largest one forgets all negative values except the last. -/
theorem C103_elements_wrong (M : ℝ) (V : List ℝ) (x : ℝ) (total : Nat) :
    let s := elementStatistics M (V ++ [x]) total
    s.absmin = s.min ∧ s.absmax = max s.max |x| ∧ (s.min < 0 → ¬ IsLeast {y | ∃ x' ∈ V ++ [x], y = |x'|} s.absmin) := by
  intro s
  have e : s = finish total (addElement (V.foldl addElement (reset M)) x) := by
    show finish total ((V ++ [x]).foldl addElement (reset M)) = _
    rw [List.foldl_append]
    rfl
  have h1 : s.absmin = s.min := by
    rw [e]
    show min (min _ x) |x| = min _ x
    exact min_eq_left ((min_le_right _ _).trans (le_abs_self x))
  refine ⟨h1, by rw [e]; rfl, fun hneg hl => ?_⟩
  obtain ⟨y, _, hy⟩ := hl.1
  rw [h1] at hy
  have := abs_nonneg y
  linarith

/-- The values -5 and 1: the largest absolute value is said to be 1. -/
theorem C103_absmax_wrong : (elementStatistics 1000 [-5, 1] 2).absmax = 1 := by
  have := (C103_elements_wrong 1000 [-5] 1 2).2.1
  refine this.trans ?_
  have h : (elementStatistics 1000 ([-5] ++ [1]) 2).max = 1 := by
    show max (max (-1000 : ℝ) (-5)) 1 = 1
    norm_num
  rw [h]
  norm_num

/-- The monitors divide the sum over the elements by the number of the nodes: a constant is shown as another value unless there are as many elements as nodes. -/
theorem C103_average_wrong {M c : ℝ} (hc : c ≠ 0) (hM : |c| ≤ M) {elements nodes : Nat} (he : 0 < elements) (hn : 0 < nodes) : (monitor M nodes (List.replicate elements c)).avg = c ↔ elements = nodes := by
  have h := (C103_elements_partial (M := M) (List.replicate elements c) (by simpa using he.ne') (fun x hx => by rw [(List.mem_replicate.1 hx).2]; exact hM) nodes).2.2.1
  show (elementStatistics M (List.replicate elements c) nodes).avg = c ↔ _
  have hn' : (nodes : ℝ) ≠ 0 := by exact_mod_cast hn.ne'
  rw [h, List.sum_replicate, nsmul_eq_mul, div_eq_iff hn', mul_comm c, mul_left_inj' hc]
  exact Nat.cast_inj

/-- With the statistics of elements at the end of the array, one is reset behind it. -/
theorem C103_overrun (M : ℝ) (offset n : Nat) (l : List Stat) (hl : l.length = offset + n) : resetAll M offset n l = none := by
  unfold resetAll
  obtain ⟨w, e1, e2⟩ := forLoop_inv (Nat.zero_le n) l (fun d l => wr l (offset + d) (reset M)) (fun _ w => w.length = l.length) rfl (by
    intro i _ hi w hw
    refine ⟨w.set (offset + i) (reset M), ?_, by rw [List.length_set, hw]⟩
    unfold wr
    rw [if_pos (by omega)])
  refine Verif.Results.forLoop_fails (n + 1) n l w _ (Nat.lt_succ_self n) e1 ?_
  unfold wr
  rw [if_neg (by omega)]

/-! ### Cases -/

/-- Two processes with a common node, which is owned by the first one: the average of 2, -3 and 4 is 1, the smallest absolute value 2. -/
example : ∃ s, nodeStatistics 1000 2 (fun p => if p = 0 then [[0], [0, 1]] else [[0, 1], [1]]) (fun p => if p = 0 then [2, -3] else [-3, 4]) 1 0 (fun _ => [0, 1]) 3 = some s ∧ s.avg = 1 ∧ IsLeast {y : ℝ | ∃ x ∈ [(2 : ℝ), -3, 4], y = |x|} s.absmin := by
  obtain ⟨s, e, -, -, h3, -, h5, -⟩ := C103_nodes (M := 1000) 2 (ranks := fun p => if p = 0 then [[0], [0, 1]] else [[0, 1], [1]]) (store := fun p => if p = 0 then [2, -3] else [-3, 4]) (dim := 1) (d := 0) (by decide)
    (by intro p _; by_cases h : p = 0 <;> simp [h]) (by intro p _; by_cases h : p = 0 <;> simp [h]) (fun _ => [0, 1]) (by intro p _; by_cases h : p = 0 <;> simp [h]) 3 [2, -3, 4]
    (by simp [owned, List.range_succ, List.filter]) (by simp) (by intro x hx; simp at hx; rcases hx with rfl | rfl | rfl <;> norm_num [abs_of_neg])
  refine ⟨s, e, ?_, h5⟩
  rw [h3]
  norm_num

/-- Three nodes of a triangle and one element with the value 6: the average is said to be 2. -/
example : (monitor 1000 3 [6]).avg ≠ 6 := fun h => absurd ((C103_average_wrong (M := 1000) (c := 6) (by norm_num) (by norm_num) (elements := 1) (nodes := 3) (by decide) (by decide)).1 h) (by decide)

/-- The nodes of three processes. -/
example : ((List.range 3).flatMap fun p => ((Verif.Sync.exG p).filter fun g => decide (g < 8)).filter fun g => (Verif.Sync.hosts 3 Verif.Sync.exG g).head? = some p) = [1, 3, 5, 4, 7] := by decide

end Verif.Statistics
