import Verif.Proof.CoarseProduct
import Verif.Prop.CoarseGraph
import Verif.Prop.Comm
import Verif.Prop.Projector
/-! C67, part 2: the assembly of the coarse problem. -/
namespace Verif.Feti

open Verif.Csx Verif.Dual Verif.Comm Verif.Mpi Finset OMap

variable {L R : Type} [DecidableEq L] [CommRing R]
variable {np : Nat} {first : Nat → Nat} {nb : Nat → List Nat} {lam : Nat → List L} {doms : L → List Nat} {kdim koff : Nat → Nat}

/-! ### The vertices from the first own domain -/

theorem dropWhile_sorted {V : Type} (a : Nat) : ∀ (m : OMap V), (m.map Prod.fst).Pairwise (· < ·) → (∀ x ∈ m, a ≤ x.1 → a ∈ m.map Prod.fst) → m.dropWhile (fun v => v.1 ≠ a) = m.filter fun v => decide (a ≤ v.1) := by
  intro m
  induction m with
  | nil => intro _ _; rfl
  | cons x m ih =>
      intro hs h
      rw [List.map_cons, List.pairwise_cons] at hs
      by_cases e : x.1 = a
      · rw [List.dropWhile_cons_of_neg (by simp [e]), List.filter_cons_of_pos (by simp [e])]
        congr 1
        symm
        rw [List.filter_eq_self]
        intro y hy
        have := hs.1 y.1 (List.mem_map_of_mem hy)
        exact decide_eq_true (by omega)
      · have hlt : ¬ a ≤ x.1 := by
          intro hle
          rcases List.mem_cons.1 (h x (List.mem_cons_self ..) hle) with h' | h'
          · exact e h'.symm
          · have := hs.1 a h'; omega
        rw [List.dropWhile_cons_of_pos (by simp [e]), List.filter_cons_of_neg (by simpa using hlt)]
        apply ih hs.2
        intro y hy hle
        rcases List.mem_cons.1 (h y (List.mem_cons_of_mem _ hy) hle) with h' | h'
        · exact absurd h'.symm e
        · exact h'

theorem takeWhile_sorted {V : Type} (b : Nat) : ∀ (m : OMap V), (m.map Prod.fst).Pairwise (· < ·) → m.takeWhile (fun v => decide (v.1 < b)) = m.filter fun v => decide (v.1 < b) := by
  intro m
  induction m with
  | nil => intro _; rfl
  | cons x m ih =>
      intro hs
      rw [List.map_cons, List.pairwise_cons] at hs
      by_cases e : x.1 < b
      · rw [List.takeWhile_cons_of_pos (by simpa using e), List.filter_cons_of_pos (by simpa using e), ih hs.2]
      · rw [List.takeWhile_cons_of_neg (by simpa using e), List.filter_cons_of_neg (by simpa using e)]
        symm
        rw [List.filter_eq_nil_iff]
        intro y hy
        have := hs.1 y.1 (List.mem_map_of_mem hy)
        simp only [decide_eq_true_eq]; omega

theorem find_mem {V : Type} : ∀ {m : OMap V}, (m.map Prod.fst).Pairwise (· < ·) → ∀ {x : Nat × V}, x ∈ m → m.find x.1 = some x.2 := by
  intro m
  induction m with
  | nil => intro _ x hx; cases hx
  | cons y m ih =>
      intro hs x hx
      rw [List.map_cons, List.pairwise_cons] at hs
      show (if y.1 = x.1 then some y.2 else OMap.find m x.1) = _
      rcases List.mem_cons.1 hx with rfl | hx
      · rw [if_pos rfl]
      · have := hs.1 x.1 (List.mem_map_of_mem hx)
        rw [if_neg (by omega), ih hs.2 hx]

theorem known_sorted (p : Nat) (l : List L) (N : Nat) : (known first p l doms N).Pairwise (· < ·) := List.Pairwise.filter _ List.pairwise_lt_range

theorem GraphOk.sorted {p : Nat} {m : OMap Vertex} {edges : OMap (List Nat)} (h : GraphOk np first nb lam doms kdim koff p m edges) : (m.map Prod.fst).Pairwise (· < ·) := by
  rw [h.keys]; exact known_sorted ..

/-- The domains of the rows of `Gt`: the own domains and the domains of the higher processes. -/
def kept (np : Nat) (first : Nat → Nat) (lam : Nat → List L) (doms : L → List Nat) (p : Nat) : List Nat := (known first p (lam p) doms (first np)).filter fun d => decide (first p ≤ d)

theorem mem_kept (H : Shared np first nb lam doms) {p : Nat} (hp : p < np) {d : Nat} : d ∈ kept np first lam doms p ↔ (Owns first p d ∨ ∃ l ∈ lam p, d ∈ doms l) ∧ first p ≤ d := by
  unfold kept
  rw [List.mem_filter, mem_known H hp, decide_eq_true_iff]

theorem kept_sorted (p : Nat) : (kept np first lam doms p).Pairwise (· < ·) := List.Pairwise.filter _ (known_sorted ..)

theorem fromKey_eq (H : Shared np first nb lam doms) {p : Nat} (hp : p < np) {m : OMap Vertex} {edges : OMap (List Nat)} (h : GraphOk np first nb lam doms kdim koff p m edges) :
    fromKey (first p) m = m.filter fun v => decide (first p ≤ v.1) := by
  unfold fromKey
  apply dropWhile_sorted _ _ h.sorted
  intro x hx hle
  rw [h.keys, mem_known H hp]
  have hx' : x.1 ∈ known first p (lam p) doms (first np) := by rw [← h.keys]; exact List.mem_map_of_mem hx
  have hown : first p < first (p + 1) := by
    rcases (mem_known H hp).1 hx' with ho | ⟨l, hl, _⟩
    · have := ho.1; have := ho.2; omega
    · obtain ⟨d, _, ho⟩ := touches_iff.1 (H.mine p hp l hl)
      have := ho.1; have := ho.2; omega
  exact Or.inl ⟨Nat.le_refl _, hown⟩

theorem fromKey_keys (H : Shared np first nb lam doms) {p : Nat} (hp : p < np) {m : OMap Vertex} {edges : OMap (List Nat)} (h : GraphOk np first nb lam doms kdim koff p m edges) :
    (fromKey (first p) m).map Prod.fst = kept np first lam doms p := by
  rw [fromKey_eq H hp h]
  unfold kept
  rw [← h.keys, List.filter_map]
  rfl

theorem own_eq (H : Shared np first nb lam doms) {p : Nat} (hp : p < np) {m : OMap Vertex} {edges : OMap (List Nat)} (h : GraphOk np first nb lam doms kdim koff p m edges) :
    ownVertices (decOf first nb p) m = (fromKey (first p) m).filter fun v => decide (v.1 < first (p + 1)) := by
  unfold ownVertices
  apply takeWhile_sorted
  rw [show (decOf first nb p).dbegin = first p from rfl, fromKey_keys H hp h]
  exact kept_sorted p

theorem sorted_ext' : ∀ {a b : List Nat}, a.Pairwise (· < ·) → b.Pairwise (· < ·) → (∀ x, x ∈ a ↔ x ∈ b) → a = b := by
  intro a b ha hb h
  exact List.Perm.eq_of_pairwise (le := (· < ·)) (fun x y _ _ h1 h2 => absurd h1 (Nat.lt_asymm h2)) ha hb
    ((List.perm_ext_iff_of_nodup (ha.imp Nat.ne_of_lt) (hb.imp Nat.ne_of_lt)).2 h)

theorem own_keys (H : Shared np first nb lam doms) {p : Nat} (hp : p < np) {m : OMap Vertex} {edges : OMap (List Nat)} (h : GraphOk np first nb lam doms kdim koff p m edges) :
    (ownVertices (decOf first nb p) m).map Prod.fst = ownDomains first p := by
  have e : (ownVertices (decOf first nb p) m).map Prod.fst = (kept np first lam doms p).filter fun d => decide (d < first (p + 1)) := by
    rw [own_eq H hp h, ← fromKey_keys H hp h, List.filter_map]; rfl
  rw [e]
  apply sorted_ext'
  · exact List.Pairwise.filter _ (kept_sorted p)
  · exact List.pairwise_lt_range' ..
  · intro d
    rw [List.mem_filter, mem_kept H hp, mem_ownDomains H.mono, decide_eq_true_iff]
    constructor
    · rintro ⟨⟨_, h1⟩, h2⟩; exact ⟨h1, h2⟩
    · intro ho; exact ⟨⟨Or.inl ho, ho.1⟩, ho.2⟩

theorem mem_own {p : Nat} (H : Shared np first nb lam doms) (hp : p < np) {m : OMap Vertex} {edges : OMap (List Nat)} (h : GraphOk np first nb lam doms kdim koff p m edges) {x : Nat × Vertex}
    (hx : x ∈ ownVertices (decOf first nb p) m) : x ∈ m ∧ Owns first p x.1 := by
  constructor
  · rw [own_eq H hp h, fromKey_eq H hp h] at hx
    exact (List.mem_filter.1 (List.mem_filter.1 hx).1).1
  · rw [← mem_ownDomains H.mono, ← own_keys H hp h]
    exact List.mem_map_of_mem hx

theorem mem_fromKey {d : Nat} {m : OMap Vertex} {x : Nat × Vertex} (hx : x ∈ fromKey d m) : x ∈ m := List.dropWhile_subset _ hx

/-! ### The rows -/

/-- The rows of the domains `ds`: the domain and the number of the kernel vector. -/
def pairsOf (kdim : Nat → Nat) (ds : List Nat) : List (Nat × Nat) := ds.flatMap fun d => (List.range (kdim d)).map fun kr => (d, kr)

theorem pairsOf_append (a b : List Nat) : pairsOf kdim (a ++ b) = pairsOf kdim a ++ pairsOf kdim b := List.flatMap_append

theorem mem_pairsOf {ds : List Nat} {x : Nat × Nat} : x ∈ pairsOf kdim ds ↔ x.1 ∈ ds ∧ x.2 < kdim x.1 := by
  unfold pairsOf
  rw [List.mem_flatMap]
  constructor
  · rintro ⟨d, hd, hx⟩
    obtain ⟨kr, hkr, rfl⟩ := List.mem_map.1 hx
    exact ⟨hd, List.mem_range.1 hkr⟩
  · rintro ⟨h1, h2⟩
    exact ⟨x.1, h1, List.mem_map.2 ⟨x.2, List.mem_range.2 h2, rfl⟩⟩

theorem pairsOf_length (ds : List Nat) : (pairsOf kdim ds).length = (ds.map kdim).sum := by
  unfold pairsOf
  rw [List.length_flatMap]
  congr 1
  apply List.map_congr_left
  intro d _
  rw [List.length_map, List.length_range]

theorem rowsIdx_pairs {vs : List (Nat × Vertex)} (h : ∀ v ∈ vs, v.2.size = kdim v.1) : (rowsIdx vs).map (fun x => (x.1.1, x.2)) = pairsOf kdim (vs.map Prod.fst) := by
  unfold rowsIdx pairsOf
  rw [List.map_flatMap, List.flatMap_map]
  induction vs with
  | nil => rfl
  | cons v vs ih =>
      rw [List.flatMap_cons, List.flatMap_cons, ih fun w hw => h w (List.mem_cons_of_mem _ hw), List.map_map, h v (List.mem_cons_self ..)]
      rfl

theorem pairs_koff (hN : Numbered first kdim koff) (a n : Nat) : (pairsOf kdim (List.range' a n)).map (fun x => koff x.1 + x.2) = List.range' (koff a) (koff (a + n) - koff a) := by
  induction n with
  | zero => rw [Nat.add_zero, Nat.sub_self]; rfl
  | succ n ih =>
      rw [List.range'_1_concat, pairsOf_append, List.map_append, ih]
      have h1 := numbered_mono hN (show a ≤ a + n by omega)
      have h2 := hN.step (a + n)
      rw [show a + (n + 1) = a + n + 1 by omega, show koff (a + n + 1) - koff a = (koff (a + n) - koff a) + kdim (a + n) by omega, ← List.range'_append_1]
      congr 1
      unfold pairsOf
      rw [List.flatMap_singleton, List.map_map, show koff a + (koff (a + n) - koff a) = koff (a + n) by omega, List.range'_eq_map_range]
      apply List.map_congr_left
      intro kr _
      rfl

/-- The number of a row of an own domain. -/
theorem row_number (hN : Numbered first kdim koff) {a n : Nat} {pre : List (Nat × Nat)} {x : Nat × Nat} {post : List (Nat × Nat)} (h : pairsOf kdim (List.range' a n) = pre ++ x :: post) :
    koff x.1 + x.2 = koff a + pre.length := by
  have e := pairs_koff hN a n
  rw [h, List.map_append, List.map_cons] at e
  have h1 : (List.range' (koff a) (koff (a + n) - koff a))[pre.length]? = some (koff x.1 + x.2) := by
    rw [← e, List.getElem?_append_right (by rw [List.length_map]), List.length_map, Nat.sub_self]; rfl
  obtain ⟨h2, h3⟩ := List.getElem?_eq_some_iff.1 h1
  rw [List.getElem_range'] at h3
  omega

/-- The row of the domain `d` with the number `k` on a process with the multipliers `lam`. -/
def gtRow (lam : List L) (doms : L → List Nat) (g : Nat → L → R) (d k : Nat) : List (Nat × R) := (acting lam doms d).map fun c => (c, ((lam[c]?).map (g k)).getD 0)

/-- The rows of the domains `ds`. -/
def gtRows (lam : List L) (doms : L → List Nat) (kdim koff : Nat → Nat) (g : Nat → L → R) (ds : List Nat) : List (List (Nat × R)) :=
  (pairsOf kdim ds).map fun x => gtRow lam doms g x.1 (koff x.1 + x.2)

/-- The matrix `Gt` of the process `p`. -/
def gtOf (np : Nat) (first : Nat → Nat) (lam : Nat → List L) (doms : L → List Nat) (kdim koff : Nat → Nat) (g : Nat → L → R) (p : Nat) : Csx R :=
  ofRows (lam p).length (gtRows (lam p) doms kdim koff g (kept np first lam doms p))

/-- The matrix `G` of the process `p`. -/
def gOf (first : Nat → Nat) (lam : Nat → List L) (doms : L → List Nat) (kdim koff : Nat → Nat) (g : Nat → L → R) (p : Nat) : Csx R :=
  ofRows (lam p).length (gtRows (lam p) doms kdim koff g (ownDomains first p))

theorem ptrsOf_map {A B : Type} (f : A → B) (rs : List (List A)) : ptrsOf (rs.map fun r => r.map f) = ptrsOf rs := by
  unfold ptrsOf
  rw [List.length_map]
  apply List.map_congr_left
  intro k _
  rw [← List.map_take, ← List.map_flatten, List.length_map]

theorem patternOf_rows {p : Nat} {vs : List (Nat × Vertex)} (g : Nat → L → R) (h : ∀ v ∈ vs, VertexOk first nb lam doms kdim koff p v.1 v.2) :
    patternOf vs = (gtRows (lam p) doms kdim koff g (vs.map Prod.fst)).map fun r => r.map Prod.fst := by
  unfold gtRows patternOf
  rw [List.map_map, ← rowsIdx_pairs (fun v hv => (h v hv).size), List.map_map]
  apply List.map_congr_left
  intro x hx
  show colsOf x.1.2 = (gtRow (lam p) doms g x.1.1 (koff x.1.1 + x.2)).map Prod.fst
  unfold gtRow colsOf
  rw [(h x.1 (mem_rowsIdx.1 hx).1).indices, List.map_map]
  exact (List.map_id'' (fun _ => rfl) _).symm

/-- The rows of `Gt` before `d`. -/
def rowBefore (kdim : Nat → Nat) (ds : List Nat) (d : Nat) : Nat := ((ds.filter fun e => decide (e < d)).map kdim).sum

theorem setLoffset_keys : ∀ (n : Nat) (vs : OMap Vertex), (setLoffset n vs).map Prod.fst = vs.map Prod.fst := by
  intro n vs
  induction vs generalizing n with
  | nil => rfl
  | cons x vs ih =>
      obtain ⟨d, v⟩ := x
      show d :: (setLoffset _ vs).map Prod.fst = d :: _
      rw [ih]

theorem setLoffset_mem : ∀ (n : Nat) (vs : OMap Vertex) (x : Nat × Vertex), x ∈ setLoffset n vs →
    ∃ pre v post, vs = pre ++ (x.1, v) :: post ∧ x.2 = { v with loffset := n + (pre.map fun y => y.2.size).sum } := by
  intro n vs
  induction vs generalizing n with
  | nil => intro x hx; cases hx
  | cons y vs ih =>
      intro x hx
      obtain ⟨d, v⟩ := y
      rcases List.mem_cons.1 hx with rfl | hx
      · exact ⟨[], v, vs, rfl, rfl⟩
      · obtain ⟨pre, w, post, h1, h2⟩ := ih _ x hx
        refine ⟨(d, v) :: pre, w, post, by rw [h1]; rfl, ?_⟩
        rw [h2, List.map_cons, List.sum_cons, Nat.add_assoc]

theorem withLoffset_ok (H : Shared np first nb lam doms) {p : Nat} (hp : p < np) {m : OMap Vertex} {edges : OMap (List Nat)} (h : GraphOk np first nb lam doms kdim koff p m edges) :
    GraphOk np first nb lam doms kdim koff p (withLoffset (decOf first nb p) m) edges ∧
      ∀ x ∈ withLoffset (decOf first nb p) m, first p ≤ x.1 → x.2.loffset = rowBefore kdim (kept np first lam doms p) x.1 := by
  have hsplit : m = m.takeWhile (fun v => v.1 ≠ first p) ++ fromKey (first p) m := (List.takeWhile_append_dropWhile ..).symm
  have hmem : ∀ x ∈ withLoffset (decOf first nb p) m, (x ∈ m ∧ x ∉ fromKey (first p) m ∧ x.1 < first p) ∨
      ∃ pre v post, fromKey (first p) m = pre ++ (x.1, v) :: post ∧ x.2 = { v with loffset := (pre.map fun y => y.2.size).sum } := by
    intro x hx
    unfold withLoffset at hx
    rcases List.mem_append.1 hx with hx | hx
    · left
      have hxm : x ∈ m := List.takeWhile_subset _ hx
      have hlt : x.1 < first p := by
        apply Nat.lt_of_not_le
        intro hle
        have hin : x ∈ fromKey (first p) m := by rw [fromKey_eq H hp h]; exact List.mem_filter.2 ⟨hxm, decide_eq_true hle⟩
        have hs := h.sorted
        rw [hsplit, List.map_append, List.pairwise_append] at hs
        have := hs.2.2 x.1 (List.mem_map_of_mem hx) x.1 (List.mem_map_of_mem hin)
        omega
      refine ⟨hxm, ?_, hlt⟩
      rw [fromKey_eq H hp h, List.mem_filter, decide_eq_true_iff]
      omega
    · right
      obtain ⟨pre, v, post, h1, h2⟩ := setLoffset_mem 0 _ x hx
      exact ⟨pre, v, post, h1, by rw [h2, Nat.zero_add]⟩
  have hback : ∀ x ∈ withLoffset (decOf first nb p) m, VertexOk first nb lam doms kdim koff p x.1 x.2 := by
    intro x hx
    rcases hmem x hx with ⟨h1, _⟩ | ⟨pre, v, post, h1, h2⟩
    · exact h.vertices x h1
    · have := h.vertices (x.1, v) (mem_fromKey (d := first p) (by rw [h1]; exact List.mem_append_right _ (List.mem_cons_self ..)))
      rw [h2]
      exact ⟨this.goffset, this.size, this.offset, this.total, this.indices, this.lower, this.nodup⟩
  refine ⟨⟨?_, hback, h.edges⟩, ?_⟩
  · rw [← h.keys]
    conv_rhs => rw [hsplit]
    unfold withLoffset
    rw [List.map_append, List.map_append, setLoffset_keys]
    rfl
  · intro x hx hle
    rcases hmem x hx with ⟨_, _, h1⟩ | ⟨pre, v, post, h1, h2⟩
    · omega
    · rw [h2]
      show (pre.map fun y => y.2.size).sum = _
      unfold rowBefore
      have hk := fromKey_keys H hp h
      have hs := kept_sorted (np := np) (first := first) (lam := lam) (doms := doms) p
      rw [h1, List.map_append, List.map_cons] at hk
      rw [← hk] at hs ⊢
      rw [List.pairwise_append, List.pairwise_cons] at hs
      rw [List.filter_append, List.filter_eq_self.2 (fun a ha => decide_eq_true (hs.2.2 a ha x.1 (List.mem_cons_self ..))), List.filter_eq_nil_iff.2]
      · rw [List.append_nil, List.map_map]
        congr 1
        apply List.map_congr_left
        intro y hy
        exact (h.vertices y (mem_fromKey (d := first p) (by rw [h1]; exact List.mem_append_left _ hy))).size
      · intro a ha
        rw [decide_eq_true_iff]
        rcases List.mem_cons.1 ha with rfl | ha
        · omega
        · have := hs.2.1.1 a ha; omega

/-! ### The pattern and the values of G -/

theorem ofRows_ptrs {A : Type} (ns : Nat) (rows : List (List (Nat × A))) : (ofRows ns rows).ptrs = ptrsOf rows := rfl

/-- `_setG` (C67): the pattern of `Gt` and the numbers of rows and entries of `G`. -/
theorem C67_setG (H : Shared np first nb lam doms) {p : Nat} (hp : p < np) (g : Nat → L → R) {m : OMap Vertex} {edges : OMap (List Nat)} (h : GraphOk np first nb lam doms kdim koff p m edges) :
    setG (decOf first nb p) m = some (withLoffset (decOf first nb p) m, (gtOf np first lam doms kdim koff g p).ptrs, (gtOf np first lam doms kdim koff g p).idxs,
      (gOf first lam doms kdim koff g p).np, (gOf first lam doms kdim koff g p).idxs.length) := by
  have hv : ∀ v ∈ fromKey (first p) m, VertexOk first nb lam doms kdim koff p v.1 v.2 := fun v hv => h.vertices v (mem_fromKey hv)
  have hfil : ((fromKey (first p) m).filter fun v => decide (v.1 < first (p + 1))).map Prod.fst = ownDomains first p := by rw [← own_eq H hp h]; exact own_keys H hp h
  have e1 := patternOf_rows g hv
  have e2 := patternOf_rows g (vs := (fromKey (first p) m).filter fun v => decide (v.1 < first (p + 1))) fun v hv' => hv v (List.mem_filter.1 hv').1
  rw [fromKey_keys H hp h] at e1
  rw [hfil] at e2
  rw [setG_spec _ _ fun v hv' => by
    show v.2.total = (v.2.indices.flatMap fun x => List.range' x.offset x.size).length
    rw [(hv v hv').total, (hv v hv').indices]]
  show some (_, ptrsOf (patternOf (fromKey (first p) m)), (patternOf (fromKey (first p) m)).flatten, (patternOf ((fromKey (first p) m).filter fun v => decide (v.1 < first (p + 1)))).length,
    (patternOf ((fromKey (first p) m).filter fun v => decide (v.1 < first (p + 1)))).flatten.length) = _
  rw [e1, e2, ptrsOf_map, ← List.map_flatten, ← List.map_flatten]
  unfold gtOf gOf
  rw [ofRows_ptrs]
  simp only [List.length_map]
  rw [show (ofRows (lam p).length (gtRows (lam p) doms kdim koff g (ownDomains first p))).idxs = (gtRows (lam p) doms kdim koff g (ownDomains first p)).flatten.map (·.1) from rfl, List.length_map]
  rfl

/-- The values of the kernel vectors: `Rm d kr i` is the component `i` of the vector `kr` of the domain `d`. -/
structure HasKernels (np : Nat) (first dim kdim : Nat → Nat) (Rm : Nat → Nat → Nat → R) (Rs : Nat → List (Dense R)) : Prop where
  len : ∀ p, p < np → (Rs p).length = first (p + 1) - first p
  cols : ∀ p, p < np → ∀ (j : Nat) (a : Dense R), (Rs p)[j]? = some a → a.ncols = dim (first p + j)
  vals : ∀ p, p < np → ∀ (j : Nat) (a : Dense R), (Rs p)[j]? = some a → ∀ kr, kr < kdim (first p + j) → ∀ i, i < a.ncols → a.vals[a.ncols * kr + i]? = some (Rm (first p + j) kr i)

/-- The rows of `G = - R Bᵀ`. -/
def IsCoarse (dim kdim koff : Nat → Nat) (entry : L → Nat → Nat → R) (Rm : Nat → Nat → Nat → R) (g : Nat → L → R) : Prop :=
  ∀ d kr, kr < kdim d → ∀ l, g (koff d + kr) l = -∑ i ∈ range (dim d), Rm d kr i * entry l d i

/-- The maps of the multipliers of the domains are increasing and complete (C60, C61). -/
def OrderedMaps (np : Nat) (first : Nat → Nat) (lam : Nat → List L) (doms : L → List Nat) (G : Nat → Glue R) : Prop :=
  ∀ p, p < np → ∀ (j : Nat) (b : Csx R × List Nat), (G p)[j]? = some b → b.2 = acting (lam p) doms (first p + j)

variable {dim : Nat → Nat} {entry : L → Nat → Nat → R} {G : Nat → Glue R} {Rm : Nat → Nat → Nat → R} {Rs : Nat → List (Dense R)} {g : Nat → L → R}

theorem IsCoarse.zero (hg : IsCoarse dim kdim koff entry Rm g) (hz : ∀ l d i, d ∉ doms l → entry l d i = 0) {d kr : Nat} (hk : kr < kdim d) {l : L} (h : d ∉ doms l) : g (koff d + kr) l = 0 := by
  rw [hg d kr hk l, sum_eq_zero, neg_zero]
  intro i _
  rw [hz l d i h, mul_zero]

theorem positions_get (l : List L) (f : L → Bool) (h : Nat → R) (h' : L → R) (hh : ∀ (c : Nat) (x : L), l[c]? = some x → h c = h' x) : (positions l f).map h = (l.filter f).map h' := by
  induction l using List.reverseRecOn with
  | nil => rfl
  | append_singleton l a ih =>
      have hl := ih fun c x hc => hh c x (by rw [List.getElem?_append_left (List.getElem?_eq_some_iff.1 hc).1]; exact hc)
      rw [positions_append, List.map_append, hl, List.filter_append, List.map_append]
      congr 1
      have ha := hh l.length a (by rw [List.getElem?_append_right (Nat.le_refl _), Nat.sub_self]; rfl)
      by_cases hf : f a = true
      · rw [positions_const (c := true) (by intro x hx; rw [List.mem_singleton.1 hx]; exact hf), List.filter_cons_of_pos hf]
        simp [ha]
      · rw [positions_const (c := false) (by intro x hx; rw [List.mem_singleton.1 hx]; simpa using hf), List.filter_cons_of_neg hf]
        simp

/-- The values of a row. -/
theorem gtRow_vals (l : List L) (d k : Nat) : (gtRow l doms g d k).map Prod.snd = (l.filter fun x => decide (d ∈ doms x)).map (g k) := by
  unfold gtRow acting
  rw [List.map_map]
  apply positions_get
  intro c x hc
  show ((l[c]?).map (g k)).getD 0 = _
  rw [hc]; rfl

theorem gtRow_length (l : List L) (g : Nat → L → R) (d k : Nat) : (gtRow l doms g d k).length = (acting l doms d).length := List.length_map _

/-- The values of the own rows computed by the process. -/
theorem row_values (hG : Glued np first lam doms dim entry G) (hO : OrderedMaps np first lam doms G) (hg : IsCoarse dim kdim koff entry Rm g) {p : Nat} (hp : p < np) {j kr : Nat} (hk : kr < kdim (first p + j))
    {b : Csx R × List Nat} (hb : (G p)[j]? = some b) :
    (mk b.1.np fun c => -∑ i ∈ range b.1.ns, Rm (first p + j) kr i * b.1.at c i) = (gtRow (lam p) doms g (first p + j) (koff (first p + j) + kr)).map Prod.snd := by
  have hmap := hO p hp j b hb
  have hlen : (acting (lam p) doms (first p + j)).length = b.1.np := by rw [← hmap]; exact hG.mlen p hp j b hb
  apply List.ext_getElem?
  intro c
  by_cases hc : c < b.1.np
  · rw [mk_get _ hc]
    unfold gtRow
    rw [List.map_map, List.getElem?_map, List.getElem?_eq_getElem (by omega : c < (acting (lam p) doms (first p + j)).length)]
    show some _ = some (((lam p)[_]?.map (g _)).getD 0)
    congr 1
    have hin := List.getElem_mem (by omega : c < (acting (lam p) doms (first p + j)).length)
    obtain ⟨l, hl, _⟩ := mem_positions.1 hin
    rw [hl]
    show _ = g (koff (first p + j) + kr) l
    rw [hg _ kr hk l, hG.cols p hp j b hb]
    congr 1
    apply sum_congr rfl
    intro i _
    rw [← hG.entries p hp j b hb _ l hl i, sum_eq_single c]
    · rw [if_pos]
      rw [hmap, List.getD_eq_getElem?_getD, List.getElem?_eq_getElem]
      rfl
    · intro r hr hne
      have hr := mem_range.1 hr
      rw [if_neg]
      intro e
      rw [hmap, List.getD_eq_getElem?_getD, List.getElem?_eq_getElem (by omega : r < (acting (lam p) doms (first p + j)).length), Option.getD_some] at e
      have hs := positions_sorted (lam p) fun l => decide (first p + j ∈ doms l)
      rcases Nat.lt_or_gt_of_ne hne with h | h
      · have := List.pairwise_iff_getElem.1 hs r c (by unfold acting at hlen; omega) (by unfold acting at hlen; omega) h
        have e' : (positions (lam p) fun l => decide (first p + j ∈ doms l))[r]'(by unfold acting at hlen; omega) = (positions (lam p) fun l => decide (first p + j ∈ doms l))[c]'(by unfold acting at hlen; omega) := e
        omega
      · have := List.pairwise_iff_getElem.1 hs c r (by unfold acting at hlen; omega) (by unfold acting at hlen; omega) h
        have e' : (positions (lam p) fun l => decide (first p + j ∈ doms l))[r]'(by unfold acting at hlen; omega) = (positions (lam p) fun l => decide (first p + j ∈ doms l))[c]'(by unfold acting at hlen; omega) := e
        omega
    · intro h; exact absurd (mem_range.2 hc) h
  · rw [List.getElem?_eq_none (by rw [mk_length]; omega), List.getElem?_eq_none (by rw [List.length_map, gtRow_length]; omega)]

/-- The domains of the higher processes. -/
def higher (np : Nat) (first : Nat → Nat) (lam : Nat → List L) (doms : L → List Nat) (p : Nat) : List Nat := (kept np first lam doms p).filter fun d => decide (first (p + 1) ≤ d)

theorem kept_split (H : Shared np first nb lam doms) {p : Nat} (hp : p < np) : kept np first lam doms p = ownDomains first p ++ higher np first lam doms p := by
  apply sorted_ext' (kept_sorted p)
  · rw [List.pairwise_append]
    refine ⟨List.pairwise_lt_range' .., List.Pairwise.filter _ (kept_sorted p), ?_⟩
    intro a ha b hb
    have h1 := ((mem_ownDomains H.mono).1 ha).2
    have h2 : first (p + 1) ≤ b := of_decide_eq_true (List.mem_filter.1 hb).2
    omega
  · intro d
    rw [List.mem_append, mem_ownDomains H.mono]
    unfold higher
    rw [List.mem_filter, mem_kept H hp, decide_eq_true_iff]
    constructor
    · rintro ⟨h1, h2⟩
      by_cases h : d < first (p + 1)
      · exact Or.inl ⟨h2, h⟩
      · exact Or.inr ⟨⟨h1, h2⟩, by omega⟩
    · rintro (h | ⟨h, _⟩)
      · exact ⟨Or.inl h, h.1⟩
      · exact h

theorem gtRows_append (l : List L) (a b : List Nat) : gtRows l doms kdim koff g (a ++ b) = gtRows l doms kdim koff g a ++ gtRows l doms kdim koff g b := by
  unfold gtRows
  rw [pairsOf_append, List.map_append]

/-- The values of a row of the domain `x.1`. -/
def rowVals (l : List L) (doms : L → List Nat) (koff : Nat → Nat) (g : Nat → L → R) (x : Nat × Nat) : List R := (l.filter fun y => decide (x.1 ∈ doms y)).map (g (koff x.1 + x.2))

theorem gtRows_vals (l : List L) (ds : List Nat) : (gtRows l doms kdim koff g ds).flatten.map Prod.snd = (pairsOf kdim ds).flatMap (rowVals l doms koff g) := by
  unfold gtRows
  rw [List.map_flatten, List.map_map, ← List.flatMap_def]
  apply List.flatMap_congr
  intro x _
  exact gtRow_vals l x.1 _

theorem flatMap_support {A : Type} (F : Nat → List A) {a b : List Nat} (ha : a.Pairwise (· < ·)) (hb : b.Pairwise (· < ·)) (h1 : ∀ x ∈ a, x ∉ b → F x = []) (h2 : ∀ x ∈ b, x ∉ a → F x = []) :
    a.flatMap F = b.flatMap F := by
  have key : ∀ (l : List Nat) (P : Nat → Bool), (∀ x ∈ l, P x = false → F x = []) → l.flatMap F = (l.filter P).flatMap F := by
    intro l P
    induction l with
    | nil => intro _; rfl
    | cons x l ih =>
        intro h
        rw [List.flatMap_cons, ih fun y hy => h y (List.mem_cons_of_mem _ hy)]
        cases hP : P x with
        | true => rw [List.filter_cons_of_pos hP, List.flatMap_cons]
        | false => rw [List.filter_cons_of_neg (by rw [hP]; simp), h x (List.mem_cons_self ..) hP]; rfl
  rw [key a (fun x => decide (x ∈ b)) (fun x hx hP => h1 x hx (of_decide_eq_false hP)), key b (fun x => decide (x ∈ a)) (fun x hx hP => h2 x hx (of_decide_eq_false hP))]
  congr 1
  apply sorted_ext' (ha.filter _) (hb.filter _)
  intro x
  rw [List.mem_filter, List.mem_filter, decide_eq_true_iff, decide_eq_true_iff]
  exact And.comm

theorem ownDomains_range (hm : ∀ p, first p ≤ first (p + 1)) (q n : Nat) : (List.range' q n).flatMap (ownDomains first) = List.range' (first q) (first (q + n) - first q) := by
  induction n with
  | zero => rw [Nat.add_zero, Nat.sub_self]; rfl
  | succ n ih =>
      rw [List.range'_1_concat, List.flatMap_append, ih, List.flatMap_singleton]
      unfold ownDomains
      have h1 := first_mono hm (show q ≤ q + n by omega)
      have h2 := hm (q + n)
      rw [show q + (n + 1) = q + n + 1 by omega, show first (q + n + 1) - first q = (first (q + n) - first q) + (first (q + n + 1) - first (q + n)) by omega, ← List.range'_append_1,
        show first q + (first (q + n) - first q) = first (q + n) by omega]

/-- The values sent to the process `q` by the process `p`. -/
def sentVals (first : Nat → Nat) (lam : Nat → List L) (doms : L → List Nat) (kdim koff : Nat → Nat) (g : Nat → L → R) (p q : Nat) : List R :=
  (pairsOf kdim (ownDomains first p)).flatMap fun x => if q < p then ((lam p).filter fun l => decide (x.1 ∈ doms l) && touches first q (doms l)).map (g (koff x.1 + x.2)) else []

/-- The values received from all neighbours are the values of the domains of the higher processes. -/
theorem received_vals (H : Shared np first nb lam doms) {p : Nat} (hp : p < np) : (nb p).flatMap (fun q => sentVals first lam doms kdim koff g q p) = (pairsOf kdim (higher np first lam doms p)).flatMap (rowVals (lam p) doms koff g) := by
  have h1 : ∀ q, q < np → p < q → sentVals first lam doms kdim koff g q p = (pairsOf kdim (ownDomains first q)).flatMap (rowVals (lam p) doms koff g) := by
    intro q hq hlt
    unfold sentVals
    apply List.flatMap_congr
    intro x hx
    have ho := (mem_ownDomains H.mono).1 (mem_pairsOf.1 hx).1
    rw [if_pos hlt]
    unfold rowVals
    congr 1
    rw [← List.filter_filter, ← H.agree p q hp hq (by omega), List.filter_filter]
    apply List.filter_congr
    intro l hl
    by_cases hd : x.1 ∈ doms l
    · rw [decide_eq_true hd, Bool.true_and]
      exact touches_iff.2 ⟨x.1, hd, ho⟩
    · rw [decide_eq_false hd, Bool.false_and]
  have h2 : (nb p).flatMap (fun q => sentVals first lam doms kdim koff g q p) = (List.range' (p + 1) (np - (p + 1))).flatMap fun q => (pairsOf kdim (ownDomains first q)).flatMap (rowVals (lam p) doms koff g) := by
    have e : (nb p).flatMap (fun q => sentVals first lam doms kdim koff g q p) = (nb p).flatMap fun q => if p < q then (pairsOf kdim (ownDomains first q)).flatMap (rowVals (lam p) doms koff g) else [] := by
      apply List.flatMap_congr
      intro q hq
      by_cases hlt : p < q
      · rw [if_pos hlt, h1 q (H.nrange p hp q hq).1 hlt]
      · rw [if_neg hlt]
        unfold sentVals
        rw [List.flatMap_eq_nil_iff]
        intro x _
        rw [if_neg hlt]
    have e' : (List.range' (p + 1) (np - (p + 1))).flatMap (fun q => (pairsOf kdim (ownDomains first q)).flatMap (rowVals (lam p) doms koff g)) =
        (List.range' (p + 1) (np - (p + 1))).flatMap fun q => if p < q then (pairsOf kdim (ownDomains first q)).flatMap (rowVals (lam p) doms koff g) else [] := by
      apply List.flatMap_congr
      intro q hq
      have := List.mem_range'_1.1 hq
      rw [if_pos (by omega)]
    rw [e, e']
    apply flatMap_support _ (H.nsorted p hp) (List.pairwise_lt_range' ..)
    · intro q hq hn
      have := (H.nrange p hp q hq).1
      rw [if_neg]
      intro hlt
      exact hn (List.mem_range'_1.2 ⟨by omega, by omega⟩)
    · intro q hq hn
      have hq' := List.mem_range'_1.1 hq
      rw [if_pos (by omega), List.flatMap_eq_nil_iff]
      intro x hx
      have ho := (mem_ownDomains H.mono).1 (mem_pairsOf.1 hx).1
      unfold rowVals
      rw [List.map_eq_nil_iff, List.filter_eq_nil_iff]
      intro l hl hd
      obtain ⟨q', _, ho', hq''⟩ := H.range p hp l hl x.1 (of_decide_eq_true hd)
      have := owner_unique H.mono ho ho'
      subst this
      rcases hq'' with rfl | hq''
      · omega
      · exact hn hq''
  rw [h2]
  have h3 : (List.range' (p + 1) (np - (p + 1))).flatMap (fun q => (pairsOf kdim (ownDomains first q)).flatMap (rowVals (lam p) doms koff g)) =
      (List.range' (first (p + 1)) (first np - first (p + 1))).flatMap fun d => ((List.range (kdim d)).map fun kr => (d, kr)).flatMap (rowVals (lam p) doms koff g) := by
    have := ownDomains_range H.mono (p + 1) (np - (p + 1))
    rw [show p + 1 + (np - (p + 1)) = np by omega] at this
    rw [← this, List.flatMap_assoc]
    apply List.flatMap_congr
    intro q _
    unfold pairsOf
    rw [List.flatMap_assoc]
  rw [h3]
  unfold pairsOf
  rw [List.flatMap_assoc]
  apply flatMap_support _ (List.pairwise_lt_range' ..) ((kept_sorted p).filter _)
  · intro d hd hn
    have hd' := List.mem_range'_1.1 hd
    rw [List.flatMap_eq_nil_iff]
    intro x hx
    obtain ⟨kr, _, rfl⟩ := List.mem_map.1 hx
    unfold rowVals
    rw [List.map_eq_nil_iff, List.filter_eq_nil_iff]
    intro l hl hdl
    apply hn
    rw [List.mem_filter, mem_kept H hp, decide_eq_true_iff]
    have := H.mono p
    exact ⟨⟨Or.inr ⟨l, hl, of_decide_eq_true hdl⟩, by omega⟩, by omega⟩
  · intro d hd hn
    exfalso
    apply hn
    have hd : d ∈ (kept np first lam doms p).filter fun d => decide (first (p + 1) ≤ d) := hd
    rw [List.mem_filter, mem_kept H hp, decide_eq_true_iff] at hd
    rw [List.mem_range'_1]
    have h4 : d < first np := by
      rcases hd.1.1 with ho | ⟨l, hl, hdl⟩
      · exact owned_lt H hp ho
      · exact doms_lt H hp hl hdl
    omega

/-- `_setG` and `_updateG` (C67): after the exchange of the values, every process has `Gt`: the rows of `G = - R Bᵀ` of its own domains and of the domains of the higher processes with a common multiplier. -/
theorem C67_G (H : Shared np first nb lam doms) (hN : Numbered first kdim koff) (hG : Glued np first lam doms dim entry G) (hO : OrderedMaps np first lam doms G) (hR : HasKernels np first dim kdim Rm Rs)
    (hg : IsCoarse dim kdim koff entry Rm g) (m : Nat → OMap Vertex) (edges : Nat → OMap (List Nat)) (hm : ∀ p, p < np → GraphOk np first nb lam doms kdim koff p (m p) (edges p)) (vals0 : Nat → List R)
    (h0 : ∀ p, p < np → (vals0 p).length = (gtOf np first lam doms kdim koff g p).vals.length) :
    ∃ (v : Nat → List R) (s : Nat → List (List R)), (∀ p, p < np → localValues (decOf first nb p) (withLoffset (decOf first nb p) (m p)) (gOf first lam doms kdim koff g p).idxs.length
          (gtOf np first lam doms kdim koff g p).ptrs ((G p).map Prod.fst) (Rs p) (vals0 p) = some (v p)) ∧
      (∀ p, p < np → packRows (decOf first nb p) (withLoffset (decOf first nb p) (m p)) (koff (first p)) (gtOf np first lam doms kdim koff g p).ptrs (v p) = some (s p)) ∧
      (∀ p, p < np → (s p).length = (nb p).length) ∧
      ∀ r, Exchanged np nb s r → ∀ p, p < np → unpackRows (r p) ((gtOf np first lam doms kdim koff g p).ptrs.getD (gOf first lam doms kdim koff g p).np 0) (v p) = some (gtOf np first lam doms kdim koff g p).vals := by
  refine ⟨fun p => (pairsOf kdim (ownDomains first p)).flatMap (rowVals (lam p) doms koff g) ++ (vals0 p).drop (gOf first lam doms kdim koff g p).idxs.length,
    fun p => mk (nb p).length fun n => sentVals first lam doms kdim koff g p ((nb p).getD n 0), ?_, ?_, fun p _ => mk_length _ _, ?_⟩
  · intro p hp
    obtain ⟨hm', _⟩ := withLoffset_ok H hp (hm p hp)
    generalize hmm : withLoffset (decOf first nb p) (m p) = m' at hm'
    have hown := own_keys H hp hm'
    have hsz : ∀ v ∈ ownVertices (decOf first nb p) m', v.2.size = kdim v.1 := fun v hv => (hm'.vertices v (mem_own H hp hm' hv).1).size
    have hpairs := rowsIdx_pairs hsz
    rw [hown] at hpairs
    have hfl : ((rowsIdx (ownVertices (decOf first nb p) m')).map fun x => (gtRow (lam p) doms g x.1.1 (koff x.1.1 + x.2)).map Prod.snd).flatten =
        (pairsOf kdim (ownDomains first p)).flatMap (rowVals (lam p) doms koff g) := by
      rw [← hpairs, List.flatMap_map, ← List.flatMap_def]
      apply List.flatMap_congr
      intro x _
      exact gtRow_vals (lam p) x.1.1 _
    have hlen : (gOf first lam doms kdim koff g p).idxs.length = ((pairsOf kdim (ownDomains first p)).flatMap (rowVals (lam p) doms koff g)).length := by
      rw [← gtRows_vals, List.length_map]
      exact List.length_map _
    have hle : (gOf first lam doms kdim koff g p).idxs.length ≤ (vals0 p).length := by
      rw [h0 p hp]
      show (List.map _ _).length ≤ (List.map _ _).length
      rw [List.length_map, List.length_map, kept_split H hp, gtRows_append, List.flatten_append, List.length_append]
      omega
    have := localValues_spec (decOf first nb p) m' (gtOf np first lam doms kdim koff g p).ptrs ((G p).map Prod.fst) (Rs p) (vals0 p)
      (fun x => (gtRow (lam p) doms g x.1.1 (koff x.1.1 + x.2)).map Prod.snd) (by
        intro pre x post e
        have e' : gtRows (lam p) doms kdim koff g (kept np first lam doms p) = (pre.map fun x => gtRow (lam p) doms g x.1.1 (koff x.1.1 + x.2)) ++
            (((x :: post).map fun x => gtRow (lam p) doms g x.1.1 (koff x.1.1 + x.2)) ++ gtRows (lam p) doms kdim koff g (higher np first lam doms p)) := by
          rw [kept_split H hp, gtRows_append, ← List.append_assoc, ← List.map_append, ← e]
          congr 1
          unfold gtRows
          rw [← hpairs, List.map_map]
          rfl
        show (ofRows _ _).ptrs[_]? = _
        rw [ofRows_ptr _ _ (by rw [e', List.length_append, List.length_map]; omega), e', List.take_left' (List.length_map _), List.length_flatten, List.length_flatten, List.map_map, List.map_map]
        congr 3
        funext y
        exact (List.length_map _).symm) (by
        intro x hx
        obtain ⟨hx1, hx2⟩ := mem_rowsIdx.1 hx
        obtain ⟨hxm, ho⟩ := mem_own H hp hm' hx1
        have hv := hm'.vertices x.1 hxm
        have ho1 := ho.1
        have ho2 := ho.2
        have hj : x.1.2.offset < (G p).length := by rw [hv.offset ho, hG.len p hp]; omega
        have hj' : x.1.2.offset < (Rs p).length := by rw [hv.offset ho, hR.len p hp]; omega
        have hb : (G p)[x.1.2.offset]? = some (G p)[x.1.2.offset] := List.getElem?_eq_getElem hj
        have ha : (Rs p)[x.1.2.offset]? = some (Rs p)[x.1.2.offset] := List.getElem?_eq_getElem hj'
        have hd : first p + x.1.2.offset = x.1.1 := by rw [hv.offset ho]; omega
        have hk : x.2 < kdim (first p + x.1.2.offset) := by rw [hd, ← hv.size]; exact hx2
        refine ⟨(G p)[x.1.2.offset].1, (Rs p)[x.1.2.offset], Rm (first p + x.1.2.offset) x.2, by rw [List.getElem?_map, hb]; rfl, ha, hG.wf p hp _ _ hb, ?_, ?_⟩
        · intro i hi
          rw [hG.cols p hp _ _ hb, ← hR.cols p hp _ _ ha] at hi
          exact hR.vals p hp _ _ ha x.2 hk i hi
        · rw [row_values hG hO hg hp hk hb, hd]) (by rw [hfl, ← hlen]; exact hle)
    rw [hfl, ← hlen] at this
    exact this
  · intro p hp
    obtain ⟨hm', _⟩ := withLoffset_ok H hp (hm p hp)
    generalize hmm : withLoffset (decOf first nb p) (m p) = m' at hm'
    have hown := own_keys H hp hm'
    have hsz : ∀ v ∈ ownVertices (decOf first nb p) m', v.2.size = kdim v.1 := fun v hv => (hm'.vertices v (mem_own H hp hm' hv).1).size
    have hpairs := rowsIdx_pairs hsz
    rw [hown] at hpairs
    rw [packRows_spec (D := decOf first nb p) (fun x c => (((lam p)[c]?).map (g (koff x.1.1 + x.2))).getD 0)]
    · congr 1
      apply mk_congr
      intro n hn
      unfold sentVals
      rw [← hpairs, List.flatMap_map]
      apply List.flatMap_congr
      intro x hx
      obtain ⟨hx1, hx2⟩ := mem_rowsIdx.1 hx
      obtain ⟨hxm, ho⟩ := mem_own H hp hm' hx1
      have hv := hm'.vertices x.1 hxm
      have hn' : (nb p)[n]? = some ((nb p).getD n 0) := getD_some hn
      rw [hv.lower ho n _ hn']
      by_cases hq : (nb p).getD n 0 < p
      · rw [if_pos hq, if_pos hq]
        apply positions_get
        intro c l hc
        rw [hc]; rfl
      · rw [if_neg hq, if_neg hq]; rfl
    · intro x hx i hi
      exact (hm'.vertices x.1 (mem_own H hp hm' (mem_rowsIdx.1 hx).1).1).nodup i hi
    · intro x hx
      obtain ⟨pre, post, e⟩ := List.append_of_mem hx
      obtain ⟨hx1, hx2⟩ := mem_rowsIdx.1 hx
      obtain ⟨hxm, ho⟩ := mem_own H hp hm' hx1
      have hv := hm'.vertices x.1 hxm
      have hrow : koff x.1.1 + x.2 = koff (first p) + pre.length := by
        have := row_number hN (a := first p) (n := first (p + 1) - first p) (pre := pre.map fun x => (x.1.1, x.2)) (x := (x.1.1, x.2)) (post := post.map fun x => (x.1.1, x.2))
          (by rw [show pairsOf kdim (List.range' (first p) (first (p + 1) - first p)) = pairsOf kdim (ownDomains first p) from rfl, ← hpairs, e, List.map_append, List.map_cons])
        rw [List.length_map] at this
        exact this
      have e' : gtRows (lam p) doms kdim koff g (ownDomains first p) = (pre.map fun x => gtRow (lam p) doms g x.1.1 (koff x.1.1 + x.2)) ++
            ((x :: post).map fun x => gtRow (lam p) doms g x.1.1 (koff x.1.1 + x.2)) := by
        rw [← List.map_append, ← e]
        unfold gtRows
        rw [← hpairs, List.map_map]
        rfl
      have e'' : gtRows (lam p) doms kdim koff g (kept np first lam doms p) = (pre.map fun x => gtRow (lam p) doms g x.1.1 (koff x.1.1 + x.2)) ++
            (((x :: post).map fun x => gtRow (lam p) doms g x.1.1 (koff x.1.1 + x.2)) ++ gtRows (lam p) doms kdim koff g (higher np first lam doms p)) := by
        rw [kept_split H hp, gtRows_append, e', List.append_assoc]
      refine ⟨(pre.map fun x => gtRow (lam p) doms g x.1.1 (koff x.1.1 + x.2)).flatten.length, ?_, ?_⟩
      · rw [hv.goffset, hrow, Nat.add_sub_cancel_left]
        show (ofRows _ _).ptrs[_]? = _
        rw [ofRows_ptr _ _ (by rw [e'', List.length_append, List.length_map]; omega), e'', List.take_left' (List.length_map _)]
      · intro j hj
        have hcols : colsOf x.1.2 = acting (lam p) doms x.1.1 := hv.indices
        rw [hcols] at hj ⊢
        have hgl : (gtRow (lam p) doms g x.1.1 (koff x.1.1 + x.2)).length = (acting (lam p) doms x.1.1).length := gtRow_length ..
        dsimp only
        rw [← gtRows_vals, e', List.map_cons, List.flatten_append, List.flatten_cons, List.map_append, List.map_append, List.append_assoc, List.getElem?_append_right (by rw [List.length_map]; omega),
          List.length_map, Nat.add_sub_cancel_left, List.append_assoc, List.getElem?_append_left (by rw [List.length_map, hgl]; exact hj)]
        unfold gtRow
        rw [List.map_map]
        rfl
  · intro r hr p hp
    obtain ⟨hlen, hr⟩ := hr p hp
    have hbuf : r p = (nb p).map fun q => sentVals first lam doms kdim koff g q p := by
      apply List.ext_getElem?
      intro n
      by_cases hn : n < (nb p).length
      · have hq := H.nrange p hp _ (List.getElem_mem hn)
        obtain ⟨i, hi, ei⟩ := List.getElem_of_mem (H.nsym p _ hp (List.getElem_mem hn))
        rw [hr n (nb p)[n] i (List.getElem?_eq_getElem hn) (by rw [List.getElem?_eq_getElem hi, ei]), List.getElem?_map, List.getElem?_eq_getElem hn, mk_get _ hi]
        show some _ = some _
        rw [List.getD_eq_getElem?_getD, List.getElem?_eq_getElem hi, ei]
        rfl
      · rw [List.getElem?_eq_none (by omega), List.getElem?_eq_none (by rw [List.length_map]; omega)]
    have hvals : (gtOf np first lam doms kdim koff g p).vals = (pairsOf kdim (ownDomains first p)).flatMap (rowVals (lam p) doms koff g) ++ (r p).flatten := by
      rw [hbuf, ← List.flatMap_def, received_vals H hp, ← gtRows_vals, ← gtRows_vals, ← List.map_append, ← List.flatten_append, ← gtRows_append, ← kept_split H hp]
      rfl
    have hG' : (gtOf np first lam doms kdim koff g p).ptrs.getD (gOf first lam doms kdim koff g p).np 0 = ((pairsOf kdim (ownDomains first p)).flatMap (rowVals (lam p) doms koff g)).length := by
      show (ofRows _ _).ptrs.getD (gtRows (lam p) doms kdim koff g (ownDomains first p)).length 0 = _
      rw [ofRows_ptr' _ _ (by rw [kept_split H hp, gtRows_append, List.length_append]; omega), kept_split H hp, gtRows_append, List.take_left, ← gtRows_vals, List.length_map]
    have hidx : (gOf first lam doms kdim koff g p).idxs.length = ((pairsOf kdim (ownDomains first p)).flatMap (rowVals (lam p) doms koff g)).length := by
      rw [← gtRows_vals, List.length_map]
      exact List.length_map _
    rw [hG', unpackRows_spec _ _ _ (by
      rw [List.length_drop, h0 p hp, hvals, hidx, List.length_append]; omega), hvals]

/-- The matrix `G` (C67): the first rows of `Gt` are the rows of the own domains, its entries are those of `- R Bᵀ`. -/
theorem C67_G_rows (H : Shared np first nb lam doms) (hN : Numbered first kdim koff) (hz : ∀ d kr, kr < kdim d → ∀ l, d ∉ doms l → g (koff d + kr) l = 0) {p : Nat} (hp : p < np) :
    gOf first lam doms kdim koff g p = ⟨(gOf first lam doms kdim koff g p).np, (lam p).length, (gtOf np first lam doms kdim koff g p).ptrs.take ((gOf first lam doms kdim koff g p).np + 1),
        (gtOf np first lam doms kdim koff g p).idxs.take (gOf first lam doms kdim koff g p).idxs.length, (gtOf np first lam doms kdim koff g p).vals.take (gOf first lam doms kdim koff g p).idxs.length⟩ ∧
      WellFormed (gOf first lam doms kdim koff g p) ∧ (gOf first lam doms kdim koff g p).np = koff (first (p + 1)) - koff (first p) ∧
      ∀ r, r < koff (first (p + 1)) - koff (first p) → ∀ (k : Nat) (l : L), (lam p)[k]? = some l → (gOf first lam doms kdim koff g p).at r k = g (koff (first p) + r) l := by
  have hnp : (gOf first lam doms kdim koff g p).np = koff (first (p + 1)) - koff (first p) := by
    have := congrArg List.length (pairs_koff hN (first p) (first (p + 1) - first p))
    rw [List.length_map, List.length_range', show first p + (first (p + 1) - first p) = first (p + 1) by have := H.mono p; omega] at this
    rw [← this]
    exact List.length_map _
  have hsplit : gtRows (lam p) doms kdim koff g (kept np first lam doms p) = gtRows (lam p) doms kdim koff g (ownDomains first p) ++ gtRows (lam p) doms kdim koff g (higher np first lam doms p) := by
    rw [kept_split H hp, gtRows_append]
  refine ⟨?_, ?_, hnp, ?_⟩
  · unfold gOf gtOf
    rw [hsplit]
    generalize gtRows (lam p) doms kdim koff g (ownDomains first p) = a
    generalize gtRows (lam p) doms kdim koff g (higher np first lam doms p) = b
    unfold ofRows
    dsimp only
    rw [List.flatten_append, List.map_append, List.map_append, List.length_map, List.take_left' (List.length_map _), List.take_left' (List.length_map _), ← List.map_take, List.take_range,
      Nat.min_eq_left (by rw [List.length_append]; omega)]
    congr 1
    apply List.map_congr_left
    intro k hk
    rw [List.take_append_of_le_length (by have := List.mem_range.1 hk; omega)]
  · apply ofRows_wf
    intro row hrow e he
    obtain ⟨x, _, rfl⟩ := List.mem_map.1 hrow
    obtain ⟨c, hc, rfl⟩ := List.mem_map.1 he
    exact List.mem_range.1 (List.mem_filter.1 hc).1
  · intro r hr k l hk
    have hlen : r < (pairsOf kdim (ownDomains first p)).length := by
      rw [← hnp] at hr
      have : (gOf first lam doms kdim koff g p).np = (pairsOf kdim (ownDomains first p)).length := List.length_map _
      omega
    generalize hx : (pairsOf kdim (ownDomains first p))[r] = x
    have hget : (gtRows (lam p) doms kdim koff g (ownDomains first p))[r]? = some (gtRow (lam p) doms g x.1 (koff x.1 + x.2)) := by
      unfold gtRows
      rw [List.getElem?_map, List.getElem?_eq_getElem hlen, hx]; rfl
    have hrow : koff x.1 + x.2 = koff (first p) + r := by
      have := row_number hN (a := first p) (n := first (p + 1) - first p) (pre := (pairsOf kdim (ownDomains first p)).take r) (x := x) (post := (pairsOf kdim (ownDomains first p)).drop (r + 1))
        (by rw [← hx]; simp [ownDomains])
      rw [List.length_take, Nat.min_eq_left (by omega)] at this
      exact this
    have hxk : x.2 < kdim x.1 := by
      have : x ∈ pairsOf kdim (ownDomains first p) := by rw [← hx]; exact List.getElem_mem _
      exact (mem_pairsOf.1 this).2
    unfold Csx.at gOf
    rw [ofRows_row _ _ hget, ← hrow]
    unfold gtRow
    rw [List.filter_map, List.map_map]
    have hf : (acting (lam p) doms x.1).filter ((fun e : Nat × R => decide (e.1 = k)) ∘ fun c => (c, (((lam p)[c]?).map (g (koff x.1 + x.2))).getD 0)) = if x.1 ∈ doms l then [k] else [] := by
      show (acting (lam p) doms x.1).filter (fun c => decide (c = k)) = _
      have hs : (acting (lam p) doms x.1).Pairwise (· < ·) := positions_sorted ..
      by_cases hd : x.1 ∈ doms l
      · rw [if_pos hd]
        apply sorted_ext' (hs.filter _) (List.pairwise_singleton ..)
        intro c
        rw [List.mem_filter, List.mem_singleton, decide_eq_true_iff]
        constructor
        · exact fun h => h.2
        · rintro rfl
          exact ⟨mem_positions.2 ⟨l, hk, decide_eq_true hd⟩, rfl⟩
      · rw [if_neg hd, List.filter_eq_nil_iff]
        intro c hc he
        have he := of_decide_eq_true he
        subst he
        obtain ⟨l', h1, h2⟩ := mem_positions.1 hc
        rw [hk] at h1
        cases h1
        exact hd (of_decide_eq_true h2)
    rw [hf]
    by_cases hd : x.1 ∈ doms l
    · rw [if_pos hd]
      simp [hk]
    · rw [if_neg hd, hz x.1 x.2 hxk l hd]; rfl

end Verif.Feti
