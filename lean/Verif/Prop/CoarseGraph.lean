import Verif.Proof.DualGraph
import Verif.Prop.DualOperator
import Verif.Prop.Balance
/-! C67, part 1: the dual graph. -/
namespace Verif.Feti

open Verif.Csx Verif.Dual Verif.Comm Verif.Mpi Finset OMap

variable {L R : Type} [DecidableEq L] [CommRing R]

/-- A vertex of the graph of the process `p` has the data of the domain `d`. -/
structure VertexOk (first : Nat → Nat) (nb : Nat → List Nat) (lam : Nat → List L) (doms : L → List Nat) (kdim koff : Nat → Nat) (p d : Nat) (v : Vertex) : Prop where
  goffset : v.goffset = koff d
  size : v.size = kdim d
  offset : Owns first p d → v.offset = d - first p
  total : v.total = (acting (lam p) doms d).length
  indices : v.indices.flatMap (fun x => List.range' x.offset x.size) = acting (lam p) doms d
  lower : Owns first p d → ∀ (n q : Nat), (nb p)[n]? = some q → (v.indices.filter fun x => decide (n ∈ x.lower)).flatMap (fun x => List.range' x.offset x.size) =
    if q < p then positions (lam p) fun l => decide (d ∈ doms l) && touches first q (doms l) else []
  nodup : ∀ x ∈ v.indices, x.lower.Nodup ∧ ∀ n ∈ x.lower, n < (nb p).length

/-- The graph of the process `p`. -/
structure GraphOk (np : Nat) (first : Nat → Nat) (nb : Nat → List Nat) (lam : Nat → List L) (doms : L → List Nat) (kdim koff : Nat → Nat) (p : Nat) (m : OMap Vertex) (edges : OMap (List Nat)) : Prop where
  keys : m.map Prod.fst = known first p (lam p) doms (first np)
  vertices : ∀ x ∈ m, VertexOk first nb lam doms kdim koff p x.1 x.2
  edges : ∀ d, (edges.find d).getD [] = adjacent (lam p) doms (first np) d

/-- The domains have kernels of the dimensions `kdim`, numbered from `koff`. -/
structure Numbered (first kdim koff : Nat → Nat) : Prop where
  first : first 0 = 0
  zero : koff 0 = 0
  step : ∀ d, koff (d + 1) = koff d + kdim d

/-- What is delivered by `exchangeUnknownSize` (C27): the buffer from the neighbour `q` is the one `q` has for this process. -/
def Exchanged {A : Type} (np : Nat) (nb : Nat → List Nat) (s r : Nat → List A) : Prop :=
  ∀ p, p < np → (r p).length = (nb p).length ∧ ∀ n q m : Nat, (nb p)[n]? = some q → (nb q)[m]? = some p → (r p)[n]? = (s q)[m]?

variable {np : Nat} {first : Nat → Nat} {nb : Nat → List Nat} {lam : Nat → List L} {doms : L → List Nat} {kdim koff : Nat → Nat}

/-! ### Positions -/

theorem positions_append (a b : List L) (f : L → Bool) : positions (a ++ b) f = positions a f ++ (positions b f).map (a.length + ·) := by
  unfold positions
  rw [List.length_append, List.range_add, List.filter_append]
  congr 1
  · apply List.filter_congr
    intro k hk
    rw [List.getElem?_append_left (List.mem_range.1 hk)]
  · rw [List.filter_map]
    congr 1
    apply List.filter_congr
    intro k _
    show ((a ++ b)[a.length + k]?).any f = _
    rw [List.getElem?_append_right (by omega), Nat.add_sub_cancel_left]

theorem positions_congr {l : List L} {f g : L → Bool} (h : ∀ x ∈ l, f x = g x) : positions l f = positions l g := by
  unfold positions
  apply List.filter_congr
  intro k hk
  have := List.mem_range.1 hk
  rw [List.getElem?_eq_getElem this]
  exact h _ (List.getElem_mem _)

theorem positions_const {l : List L} {f : L → Bool} {c : Bool} (h : ∀ x ∈ l, f x = c) : positions l f = if c then List.range l.length else [] := by
  unfold positions
  cases c with
  | true =>
      rw [if_pos rfl, List.filter_eq_self]
      intro k hk
      rw [List.getElem?_eq_getElem (List.mem_range.1 hk)]
      exact h _ (List.getElem_mem _)
  | false =>
      rw [if_neg (by simp), List.filter_eq_nil_iff]
      intro k hk
      rw [List.getElem?_eq_getElem (List.mem_range.1 hk)]
      show ¬ f _ = true
      rw [h _ (List.getElem_mem _)]; simp

theorem mem_positions {l : List L} {f : L → Bool} {k : Nat} : k ∈ positions l f ↔ ∃ x, l[k]? = some x ∧ f x = true := by
  unfold positions
  rw [List.mem_filter, List.mem_range]
  constructor
  · rintro ⟨h, e⟩
    rw [List.getElem?_eq_getElem h] at e ⊢
    exact ⟨_, rfl, e⟩
  · rintro ⟨x, hx, e⟩
    exact ⟨(List.getElem?_eq_some_iff.1 hx).1, by rw [hx]; exact e⟩

theorem positions_sorted (l : List L) (f : L → Bool) : (positions l f).Pairwise (· < ·) := List.Pairwise.filter _ List.pairwise_lt_range

/-- The positions of the groups with a property. -/
theorem groups_positions (P : List Nat → Bool) (doms : L → List Nat) : ∀ (gs : List (Nat × List Nat)) (lam : List L) (o : Nat), gs.flatMap (fun g => List.replicate g.1 g.2) = lam.map doms →
    ((groupsAt gs o).filter fun g => P g.2.2).flatMap (fun g => List.range' g.1 g.2.1) = (positions lam fun l => P (doms l)).map (o + ·) := by
  intro gs
  induction gs with
  | nil =>
      intro lam o h
      have : lam = [] := by simpa using h.symm
      subst this; rfl
  | cons g gs ih =>
      intro lam o h
      rw [List.flatMap_cons] at h
      obtain ⟨l1, l2, rfl, e1, e2⟩ := List.map_eq_append_iff.1 h.symm
      have hl1 : l1.length = g.1 := by rw [← List.length_map (f := doms), e1, List.length_replicate]
      have hd : ∀ l ∈ l1, P (doms l) = P g.2 := fun l hl => congrArg P (List.mem_replicate.1 (by rw [← e1]; exact List.mem_map_of_mem hl)).2
      rw [positions_append, positions_const hd, show groupsAt (g :: gs) o = (o, g.1, g.2) :: groupsAt gs (o + g.1) from rfl]
      have hrec := ih l2 (o + g.1) e2.symm
      have e3 : ((positions l2 fun l => P (doms l)).map (l1.length + ·)).map (o + ·) = (positions l2 fun l => P (doms l)).map (o + g.1 + ·) := by
        rw [List.map_map]
        apply List.map_congr_left
        intro k _
        show o + (l1.length + k) = _
        omega
      rw [List.map_append, e3, ← hrec]
      by_cases hP : P g.2 = true
      · rw [List.filter_cons_of_pos (by exact hP), List.flatMap_cons, if_pos hP]
        congr 1
        rw [hl1, List.range'_eq_map_range]
      · rw [List.filter_cons_of_neg (by exact hP), if_neg hP]
        rfl

theorem groups_any (P : List Nat → Bool) (doms : L → List Nat) {gs : List (Nat × List Nat)} {lam : List L} (hpos : ∀ g ∈ gs, 0 < g.1) (h : gs.flatMap (fun g => List.replicate g.1 g.2) = lam.map doms) :
    (gs.any fun g => P g.2) = lam.any fun l => P (doms l) := by
  have : (lam.map doms).any P = lam.any fun l => P (doms l) := by rw [List.any_map]; rfl
  rw [← this, ← h, List.any_flatMap]
  rw [Bool.eq_iff_iff, List.any_eq_true, List.any_eq_true]
  constructor
  · rintro ⟨g, hg, hP⟩
    exact ⟨g, hg, List.any_eq_true.2 ⟨g.2, List.mem_replicate.2 ⟨Nat.pos_iff_ne_zero.1 (hpos g hg), rfl⟩, hP⟩⟩
  · rintro ⟨g, hg, hP⟩
    obtain ⟨x, hx, hP⟩ := List.any_eq_true.1 hP
    rw [(List.mem_replicate.1 hx).2] at hP
    exact ⟨g, hg, hP⟩

theorem groups_mem (doms : L → List Nat) {gs : List (Nat × List Nat)} {lam : List L} (hpos : ∀ g ∈ gs, 0 < g.1) (h : gs.flatMap (fun g => List.replicate g.1 g.2) = lam.map doms) :
    ∀ g ∈ gs, ∃ l ∈ lam, doms l = g.2 := by
  intro g hg
  have : g.2 ∈ lam.map doms := by
    rw [← h]
    exact List.mem_flatMap.2 ⟨g, hg, List.mem_replicate.2 ⟨Nat.pos_iff_ne_zero.1 (hpos g hg), rfl⟩⟩
  exact List.mem_map.1 this

/-! ### The graph -/

theorem owned_lt (H : Shared np first nb lam doms) {q d : Nat} (hq : q < np) (ho : Owns first q d) : d < first np :=
  Nat.lt_of_lt_of_le ho.2 (first_mono H.mono (show q + 1 ≤ np from hq))

theorem doms_lt (H : Shared np first nb lam doms) {p : Nat} (hp : p < np) {l : L} (hl : l ∈ lam p) {d : Nat} (hd : d ∈ doms l) : d < first np := by
  obtain ⟨q, hq, ho, _⟩ := H.range p hp l hl d hd
  exact owned_lt H hq ho

theorem mem_adjacent (H : Shared np first nb lam doms) {p : Nat} (hp : p < np) {d e : Nat} : e ∈ adjacent (lam p) doms (first np) d ↔ ∃ l ∈ lam p, d ∈ doms l ∧ e ∈ doms l := by
  unfold adjacent
  rw [List.mem_filter, List.mem_range, List.any_eq_true]
  constructor
  · rintro ⟨_, l, hl, h⟩; exact ⟨l, hl, of_decide_eq_true h⟩
  · rintro ⟨l, hl, h1, h2⟩; exact ⟨doms_lt H hp hl h2, l, hl, decide_eq_true ⟨h1, h2⟩⟩

theorem mem_known (H : Shared np first nb lam doms) {p : Nat} (hp : p < np) {d : Nat} : d ∈ known first p (lam p) doms (first np) ↔ Owns first p d ∨ ∃ l ∈ lam p, d ∈ doms l := by
  unfold known
  rw [List.mem_filter, List.mem_range, Bool.or_eq_true, List.any_eq_true]
  constructor
  · rintro ⟨_, h | ⟨l, hl, h⟩⟩
    · exact Or.inl (of_decide_eq_true h)
    · exact Or.inr ⟨l, hl, of_decide_eq_true h⟩
  · rintro (h | ⟨l, hl, h⟩)
    · exact ⟨owned_lt H hp h, Or.inl (decide_eq_true h)⟩
    · exact ⟨doms_lt H hp hl h, Or.inr ⟨l, hl, decide_eq_true h⟩⟩

theorem adjacent_sorted (l : List L) (N d : Nat) : (adjacent l doms N d).Pairwise (· < ·) := List.Pairwise.filter _ List.pairwise_lt_range

theorem offOf_spec (H : Shared np first nb lam doms) {p : Nat} (hp : p < np) {l : L} (hl : l ∈ lam p) {d : Nat} (hd : d ∈ doms l) (hmy : (decOf first nb p).ismy d = false) :
    (decOf first nb p).noffset d = some (offOf first (nb p) d) ∧ offOf first (nb p) d < (nb p).length := by
  obtain ⟨q, _, ho, hq⟩ := H.range p hp l hl d hd
  rcases hq with rfl | hq
  · rw [ismy_iff, decide_eq_true ho] at hmy; cases hmy
  · exact noffset_spec H.mono (H.nsorted p hp) hq ho

theorem offOf_le (H : Shared np first nb lam doms) {p : Nat} (hp : p < np) {l l' : L} (hl : l ∈ lam p) (hl' : l' ∈ lam p) {d d' : Nat} (hd : d ∈ doms l) (hd' : d' ∈ doms l') (hle : d ≤ d') (hlt : d' < first p) :
    offOf first (nb p) d ≤ offOf first (nb p) d' := by
  have get : ∀ l ∈ lam p, ∀ d ∈ doms l, d < first p → ∃ n q : Nat, (nb p)[n]? = some q ∧ Owns first q d := by
    intro l hl d hd hlt
    obtain ⟨q, _, ho, hq⟩ := H.range p hp l hl d hd
    rcases hq with rfl | hq
    · unfold Owns at ho; omega
    · obtain ⟨n, hn, e⟩ := List.getElem_of_mem hq
      exact ⟨n, q, by rw [List.getElem?_eq_getElem hn, e], ho⟩
  obtain ⟨n, q, hn, ho⟩ := get l hl d hd (by omega)
  obtain ⟨n', q', hn', ho'⟩ := get l' hl' d' hd' hlt
  rw [offOf_eq H.mono (H.nsorted p hp) hn ho, offOf_eq H.mono (H.nsorted p hp) hn' ho']
  apply Nat.le_of_not_lt
  intro hc
  obtain ⟨h1, e1⟩ := List.getElem?_eq_some_iff.1 hn
  obtain ⟨h2, e2⟩ := List.getElem?_eq_some_iff.1 hn'
  have := List.pairwise_iff_getElem.1 (H.nsorted p hp) n' n h2 h1 hc
  rw [e1, e2] at this
  have := first_mono H.mono (show q' + 1 ≤ q from this)
  unfold Owns at ho ho'
  omega

/-- The domains of the process `q`. -/
def ownDomains (first : Nat → Nat) (q : Nat) : List Nat := List.range' (first q) (first (q + 1) - first q)

theorem mem_ownDomains (hm : ∀ p, first p ≤ first (p + 1)) {q d : Nat} : d ∈ ownDomains first q ↔ Owns first q d := by
  unfold ownDomains Owns
  rw [List.mem_range'_1]
  have := hm q
  constructor <;> (rintro ⟨h1, h2⟩; exact ⟨by omega, by omega⟩)

/-- The own vertices before the exchange. -/
def vertexOf (first koff kdim : Nat → Nat) (p k : Nat) : Vertex := { offset := k - first p, rank := p, goffset := koff k, size := kdim k }

/-- The sum of the sizes of the kernels of a process. -/
theorem kernelSum_own (hN : Numbered first kdim koff) (H : Shared np first nb lam doms) {p : Nat} (hp : p < np) :
    ∃ m, pushVertices (first p) ((List.range (first (p + 1) - first p)).map fun j => kdim (first p + j)) = some m ∧ kernelSum m = koff (first (p + 1)) - koff (first p) := by
  have h1 := H.mono p
  have h2 := first_mono H.mono (show p + 1 ≤ np from hp)
  refine ⟨_, pushVertices_spec (N := first np) (by omega), ?_⟩
  rw [kernelSum_spec hN.step (fun k => { offset := k - first p, size := kdim k }) (fun _ => rfl)]
  congr 2
  omega

theorem numbered_mono (hN : Numbered first kdim koff) {a b : Nat} (h : a ≤ b) : koff a ≤ koff b := first_mono (fun d => by rw [hN.step]; omega) h

/-- The sums over the lower processes. -/
theorem contributions_koff (hN : Numbered first kdim koff) (hm : ∀ p, first p ≤ first (p + 1)) (n : Nat) : (contributions 0 n fun p => koff (first (p + 1)) - koff (first p)).sum = koff (first n) := by
  unfold contributions
  rw [Nat.sub_zero, ← List.range_eq_range']
  induction n with
  | zero => rw [hN.first, hN.zero]; rfl
  | succ n ih =>
      rw [List.range_succ, List.map_append, List.sum_append, ih]
      have := numbered_mono hN (hm n)
      simp
      omega

theorem any_neighbours {A : Type} (l : List A) (F : A → List Nat) (P : A → Bool) : (l.flatMap fun a => if P a then F a else []) = (l.filter P).flatMap F := by
  induction l with
  | nil => rfl
  | cons a l ih =>
      rw [List.flatMap_cons, ih]
      by_cases h : P a = true
      · rw [if_pos h, List.filter_cons_of_pos h, List.flatMap_cons]
      · rw [if_neg h, List.filter_cons_of_neg h, List.nil_append]

/-- The vertices the process `q` sends to the process `p`. -/
def sentTo (np : Nat) (first : Nat → Nat) (lam : Nat → List L) (doms : L → List Nat) (q p : Nat) : List Nat :=
  (ownDomains first q).filter fun d => touches first p (adjacent (lam q) doms (first np) d)

theorem mem_sentTo (H : Shared np first nb lam doms) {p q : Nat} (hp : p < np) (hq : q < np) {d : Nat} : d ∈ sentTo np first lam doms q p ↔ Owns first q d ∧ ∃ l ∈ lam p, d ∈ doms l := by
  unfold sentTo
  rw [List.mem_filter, mem_ownDomains H.mono, touches_iff]
  constructor
  · rintro ⟨ho, e, he, hoe⟩
    obtain ⟨l, hl, h1, h2⟩ := (mem_adjacent H hq).1 he
    exact ⟨ho, l, mem_of_acts H hp hq hl h2 hoe, h1⟩
  · rintro ⟨ho, l, hl, hd⟩
    obtain ⟨e, he, hoe⟩ := touches_iff.1 (H.mine p hp l hl)
    exact ⟨ho, e, (mem_adjacent H hq).2 ⟨l, mem_of_acts H hq hp hl hd ho, hd, he⟩, hoe⟩

/-- The graph before the exchange. -/
theorem graphBegin_spec (H : Shared np first nb lam doms) (hN : Numbered first kdim koff) {p : Nat} (hp : p < np) {cmap : List Nat} (hc : Describes cmap (lam p) doms) :
    ∃ edges s, graphBegin (decOf first nb p) p ((List.range (first (p + 1) - first p)).map fun j => kdim (first p + j)) cmap (koff (first p)) =
        some ((ownDomains first p).map (fun k => (k, vertexOf first koff kdim p k)), edges, s) ∧
      (∀ d, (edges.find d).getD [] = adjacent (lam p) doms (first np) d) ∧ s.length = (nb p).length ∧
      ∀ n q : Nat, (nb p)[n]? = some q → s[n]? = some ((sentTo np first lam doms p q).flatMap fun k => [k, koff k, kdim k]) := by
  obtain ⟨gs, hpos, rfl, hgs⟩ := hc
  have hmem := groups_mem doms hpos hgs
  have hsort : ∀ g ∈ gs, g.2.Pairwise (· < ·) := by
    intro g hg
    obtain ⟨l, hl, e⟩ := hmem g hg
    rw [← e]; exact H.sorted p hp l hl
  have hlt : ∀ g ∈ gs, ∀ x ∈ g.2, x < first np := by
    intro g hg x hx
    obtain ⟨l, hl, e⟩ := hmem g hg
    rw [← e] at hx; exact doms_lt H hp hl hx
  have h1 := H.mono p
  have h2 := first_mono H.mono (show p + 1 ≤ np from hp)
  have hE := buildEdges_spec gs (fun g hg => (hsort g hg).imp (fun h => Nat.ne_of_lt h)) hlt
  have hadj : ∀ d, ((OMap.find (ofFn (first np) fun k => if (gs.any fun g => decide (k ∈ g.2)) then
      some ((List.range (first np)).filter fun e => gs.any fun g => decide (k ∈ g.2 ∧ e ∈ g.2)) else none) d).getD []) = adjacent (lam p) doms (first np) d := by
    intro d
    have e2 : ((List.range (first np)).filter fun e => gs.any fun g => decide (d ∈ g.2 ∧ e ∈ g.2)) = adjacent (lam p) doms (first np) d := by
      unfold adjacent
      apply List.filter_congr
      intro e _
      exact groups_any (fun ds => decide (d ∈ ds ∧ e ∈ ds)) doms hpos hgs
    rw [find_ofFn]
    have hnil : (¬ ∃ l ∈ lam p, d ∈ doms l) → [] = adjacent (lam p) doms (first np) d := by
      intro hno
      symm
      rw [List.eq_nil_iff_forall_not_mem]
      intro e he
      obtain ⟨l, hl, h, _⟩ := (mem_adjacent H hp).1 he
      exact hno ⟨l, hl, h⟩
    by_cases hd : d < first np
    · rw [if_pos hd]
      by_cases ha : (gs.any fun g => decide (d ∈ g.2)) = true
      · rw [if_pos ha, e2]; rfl
      · rw [if_neg ha]
        rw [groups_any (fun ds => decide (d ∈ ds)) doms hpos hgs, List.any_eq_true] at ha
        exact hnil fun ⟨l, hl, h⟩ => ha ⟨l, hl, decide_eq_true h⟩
    · rw [if_neg hd]
      exact hnil fun ⟨l, hl, h⟩ => hd (doms_lt H hp hl h)
  obtain ⟨edges, hE, hadj⟩ : ∃ edges, buildEdges (encode gs) = some edges ∧ ∀ d, (edges.find d).getD [] = adjacent (lam p) doms (first np) d := ⟨_, hE, hadj⟩
  have hpack := packVertices_spec (D := decOf first nb p) (off := offOf first (nb p)) (noffset_some first nb p) ((ownDomains first p).map fun k => (k, vertexOf first koff kdim p k)) edges (by
    intro v hv e he hmy
    rw [hadj] at he
    obtain ⟨l, hl, _, h⟩ := (mem_adjacent H hp).1 he
    exact offOf_spec H hp hl h hmy)
  obtain ⟨s, hs, hpack⟩ : ∃ s, s = mk (decOf first nb p).neighbors.length _ ∧ packVertices (decOf first nb p) _ edges = some s := ⟨_, rfl, hpack⟩
  have hbegin : graphBegin (decOf first nb p) p ((List.range (first (p + 1) - first p)).map fun j => kdim (first p + j)) (encode gs) (koff (first p)) =
      some ((ownDomains first p).map (fun k => (k, vertexOf first koff kdim p k)), edges, s) := by
    unfold graphBegin
    rw [show (decOf first nb p).dbegin = first p from rfl, pushVertices_spec (N := first np) (by omega)]
    simp only [Option.bind_eq_bind, Option.bind_some]
    rw [initVertices_spec hN.step p (fun k => { offset := k - first p, size := kdim k }) (fun _ => rfl), hE]
    simp only [Option.bind_some]
    have e' : ((List.range' (first p) (first (p + 1) - first p)).map fun k => (k, ({ offset := k - first p, rank := p, goffset := koff k, size := kdim k } : Vertex))) =
      (ownDomains first p).map fun k => (k, vertexOf first koff kdim p k) := rfl
    rw [e', hpack]
    rfl
  refine ⟨_, _, hbegin, hadj, ?_, ?_⟩
  · rw [hs, mk_length]; rfl
  · intro n q hn
    have hnl : n < (decOf first nb p).neighbors.length := (List.getElem?_eq_some_iff.1 hn).1
    rw [hs, mk_get _ hnl, List.flatMap_map]
    congr 1
    unfold sentTo
    rw [← any_neighbours]
    congr 1
    funext k
    rw [hadj]
    have := mem_neighsOf H.mono (H.nsorted p hp) (ds := adjacent (lam p) doms (first np) k) (adjacent_sorted _ _ _)
      (by
        intro d hd
        obtain ⟨l, hl, _, h⟩ := (mem_adjacent H hp).1 hd
        obtain ⟨q, _, h1, h2⟩ := H.range p hp l hl d h
        exact ⟨q, h1, h2⟩) (fun h => (H.nrange p hp p h).2 rfl) hn
    by_cases ht : touches first q (adjacent (lam p) doms (first np) k) = true
    · rw [if_pos ht, if_pos (this.2 ht)]; rfl
    · rw [if_neg ht, if_neg fun h => ht (this.1 h)]

/-- The fold of the received vertices at one key. -/
theorem foldl_pointwise {V A : Type} (step : Nat → A → Option V → Option V) : ∀ (l : List A) (F : Nat → Option V) (k : Nat),
    (l.foldl (fun (F : Nat → Option V) n k => step k n (F k)) F) k = l.foldl (fun x n => step k n x) (F k) := by
  intro l
  induction l with
  | nil => intro F k; rfl
  | cons a l ih => intro F k; rw [List.foldl_cons, List.foldl_cons, ih]

theorem foldl_id {A σ : Type} (step : σ → A → σ) : ∀ (l : List A) (s : σ), (∀ a ∈ l, step s a = s) → l.foldl step s = s := by
  intro l
  induction l with
  | nil => intro s _; rfl
  | cons a l ih =>
      intro s h
      rw [List.foldl_cons, h a (List.mem_cons_self ..)]
      exact ih s fun b hb => h b (List.mem_cons_of_mem _ hb)

/-- The graph after the exchange, as a function. -/
theorem graphEnd_spec (H : Shared np first nb lam doms) {p : Nat} (hp : p < np) {cmap : List Nat} (hc : Describes cmap (lam p) doms) (r : List (List Nat))
    (hlen : r.length = (nb p).length) (hr : ∀ n q : Nat, (nb p)[n]? = some q → r[n]? = some ((sentTo np first lam doms q p).flatMap fun k => [k, koff k, kdim k])) :
    ∃ m, graphEnd (decOf first nb p) cmap r ((ownDomains first p).map fun k => (k, vertexOf first koff kdim p k)) = some m ∧
      m.map Prod.fst = known first p (lam p) doms (first np) ∧ ∀ x ∈ m, VertexOk first nb lam doms kdim koff p x.1 x.2 := by
  obtain ⟨gs, hpos, rfl, hgs⟩ := hc
  have hmem := groups_mem doms hpos hgs
  have h1 := H.mono p
  have h2 := first_mono H.mono (show p + 1 ≤ np from hp)
  have hown : (ownDomains first p).map (fun k => (k, vertexOf first koff kdim p k)) = ofFn (first np) fun k => if Owns first p k then some (vertexOf first koff kdim p k) else none := by
    symm
    apply ofFn_interval (by omega)
    · intro k ha hb; rw [if_pos ⟨ha, by omega⟩]
    · intro k hk; rw [if_neg fun ho => hk ⟨ho.1, by have := ho.2; omega⟩]
  -- the received vertices
  have hnp : ∀ n, n < (nb p).length → (nb p)[n]? = some ((nb p).getD n 0) := by
    intro n hn
    rw [List.getD_eq_getElem?_getD, List.getElem?_eq_getElem hn]; rfl
  have hq : ∀ n, n < (nb p).length → (nb p).getD n 0 < np ∧ (nb p).getD n 0 ≠ p := fun n hn => H.nrange p hp _ (List.mem_of_getElem? (hnp n hn))
  have hun := unpackVertices_spec (N := first np) (D := decOf first nb p) koff kdim (fun n => sentTo np first lam doms ((nb p).getD n 0) p) r hlen
    (fun n hn => hr n _ (hnp n (by omega)))
    (fun n hn => ⟨List.Nodup.filter _ (List.nodup_range' ..), fun k hk => owned_lt H (hq n (by omega)).1 ((mem_sentTo H hp (hq n (by omega)).1).1 hk).1⟩)
    (fun k => if Owns first p k then some (vertexOf first koff kdim p k) else none)
  obtain ⟨F, hF, hun⟩ : ∃ F, F = _ ∧ unpackVertices (decOf first nb p) r (ofFn (first np) fun k => if Owns first p k then some (vertexOf first koff kdim p k) else none) = some (ofFn (first np) F) :=
    ⟨_, rfl, hun⟩
  have hF' : ∀ k, k < first np → (Owns first p k → F k = some (vertexOf first koff kdim p k)) ∧
      (¬ Owns first p k → (∃ l ∈ lam p, k ∈ doms l) → ∃ q, F k = some { rank := q, goffset := koff k, size := kdim k }) ∧
      (¬ Owns first p k → (¬ ∃ l ∈ lam p, k ∈ doms l) → F k = none) := by
    intro k hk
    have hFk : F k = (List.range r.length).foldl (fun x n => if k ∈ sentTo np first lam doms ((nb p).getD n 0) p then
        some { x.getD {} with rank := (decOf first nb p).neighbors.getD n 0, goffset := koff k, size := kdim k } else x) (if Owns first p k then some (vertexOf first koff kdim p k) else none) := by
      rw [hF]
      exact foldl_pointwise (fun (k n : Nat) (x : Option Vertex) => if k ∈ sentTo np first lam doms ((nb p).getD n 0) p then
        some { x.getD {} with rank := (decOf first nb p).neighbors.getD n 0, goffset := koff k, size := kdim k } else x) _ _ k
    refine ⟨?_, ?_, ?_⟩
    · intro ho
      rw [hFk, if_pos ho]
      apply foldl_id
      intro n hn
      have hn := List.mem_range.1 hn
      rw [if_neg]
      intro hin
      have := (mem_sentTo H hp (hq n (by omega)).1).1 hin
      exact (hq n (by omega)).2 (owner_unique H.mono this.1 ho)
    · rintro hno ⟨l, hl, hd⟩
      obtain ⟨q, hqn, ho, hq'⟩ := H.range p hp l hl k hd
      rcases hq' with rfl | hq'
      · exact absurd ho hno
      · obtain ⟨n, hn, en⟩ := List.getElem_of_mem hq'
        have hg : (nb p).getD n 0 = q := by rw [List.getD_eq_getElem?_getD, List.getElem?_eq_getElem hn, en]; rfl
        refine ⟨q, ?_⟩
        rw [hFk, if_neg hno, hlen, show (nb p).length = n + (1 + ((nb p).length - n - 1)) by omega, List.range_add, List.foldl_append, List.range_add, List.map_append, List.foldl_append]
        have other : ∀ m, m < (nb p).length → m ≠ n → k ∉ sentTo np first lam doms ((nb p).getD m 0) p := by
          intro m hm hne hin
          have h' := (mem_sentTo H hp (hq m hm).1).1 hin
          have e := owner_unique H.mono h'.1 ho
          have em := hnp m hm
          rw [e] at em
          have enn : (nb p)[n]? = some q := by rw [List.getElem?_eq_getElem hn, en]
          obtain ⟨hm', em'⟩ := List.getElem?_eq_some_iff.1 em
          rcases Nat.lt_or_gt_of_ne hne with hlt | hlt
          · have := List.pairwise_iff_getElem.1 (H.nsorted p hp) m n hm' hn hlt
            rw [em', en] at this; omega
          · have := List.pairwise_iff_getElem.1 (H.nsorted p hp) n m hn hm' hlt
            rw [em', en] at this; omega
        have hin : k ∈ sentTo np first lam doms ((nb p).getD n 0) p := by rw [hg]; exact (mem_sentTo H hp hqn).2 ⟨ho, l, hl, hd⟩
        rw [foldl_id _ (List.range n) none (fun m hm => by
          have hm := List.mem_range.1 hm
          rw [if_neg (other m (by omega) (by omega))])]
        have e1 : (List.range 1).map (n + ·) = [n] := rfl
        rw [e1, List.foldl_cons, List.foldl_nil, if_pos hin]
        have e2 : (decOf first nb p).neighbors.getD n 0 = q := hg
        rw [e2]
        apply foldl_id
        intro m hm
        rw [List.mem_map] at hm
        obtain ⟨j, hj, rfl⟩ := hm
        rw [List.mem_map] at hj
        obtain ⟨i, hi, rfl⟩ := hj
        have := List.mem_range.1 hi
        rw [if_neg (other _ (by omega) (by omega))]
    · intro hno hnl
      rw [hFk, if_neg hno]
      apply foldl_id
      intro n hn
      have hn := List.mem_range.1 hn
      rw [if_neg]
      intro hin
      exact hnl ((mem_sentTo H hp (hq n (by omega)).1).1 hin).2
  have hset := setLambdas_spec (D := decOf first nb p) (off := offOf first (nb p)) (N := first np) gs
    (fun g hg => by obtain ⟨l, hl, e⟩ := hmem g hg; rw [← e]; exact H.sorted p hp l hl)
    (fun g hg x hx => by obtain ⟨l, hl, e⟩ := hmem g hg; rw [← e] at hx; exact doms_lt H hp hl hx)
    (fun g hg x hx hlt => by
      obtain ⟨l, hl, e⟩ := hmem g hg
      rw [← e] at hx
      exact (offOf_spec H hp hl hx (by rw [ismy_iff]; exact decide_eq_false (fun ho => by have := ho.1; have : x < first p := hlt; omega))).1)
    (fun g hg x hx y hy hle hlt => by
      obtain ⟨l, hl, e⟩ := hmem g hg
      rw [← e] at hx hy
      exact offOf_le H hp hl hl hx hy hle hlt) F
  have hany : ∀ k, (gs.any fun g => decide (k ∈ g.2)) = (lam p).any fun l => decide (k ∈ doms l) := fun k => groups_any (fun ds => decide (k ∈ ds)) doms hpos hgs
  have hind : ∀ k, (indicesOf (decOf first nb p) (offOf first (nb p)) gs 0 k).flatMap (fun x => List.range' x.offset x.size) = acting (lam p) doms k := by
    intro k
    unfold indicesOf
    rw [List.flatMap_map]
    have := groups_positions (fun ds => decide (k ∈ ds)) doms gs (lam p) 0 hgs
    simp only [Nat.zero_add, List.map_id'] at this
    exact this
  have hsum : ∀ k, ((indicesOf (decOf first nb p) (offOf first (nb p)) gs 0 k).map Indices.size).sum = (acting (lam p) doms k).length := by
    intro k
    rw [← hind k, List.length_flatMap]
    congr 1
    apply List.map_congr_left
    intro x _
    rw [List.length_range']
  have hnone : ∀ k, (¬ ∃ l ∈ lam p, k ∈ doms l) → indicesOf (decOf first nb p) (offOf first (nb p)) gs 0 k = [] := by
    intro k hk
    unfold indicesOf
    rw [List.map_eq_nil_iff, List.filter_eq_nil_iff]
    intro x hx hin
    have key : ∀ (gs : List (Nat × List Nat)) (o : Nat), ∀ x ∈ groupsAt gs o, ∃ g ∈ gs, x.2.2 = g.2 := by
      intro gs
      induction gs with
      | nil => intro o x hx; cases hx
      | cons g gs ih =>
          intro o x hx
          rcases List.mem_cons.1 hx with rfl | hx
          · exact ⟨g, List.mem_cons_self .., rfl⟩
          · obtain ⟨g', h', e⟩ := ih _ x hx
            exact ⟨g', List.mem_cons_of_mem _ h', e⟩
    obtain ⟨g, hg, e⟩ := key gs 0 x hx
    obtain ⟨l, hl, e'⟩ := hmem g hg
    exact hk ⟨l, hl, by rw [e', ← e]; exact of_decide_eq_true hin⟩
  obtain ⟨m, hm, hset⟩ : ∃ m, m = _ ∧ setLambdas (decOf first nb p) (encode gs) (ofFn (first np) F) = some m := ⟨_, rfl, hset⟩
  refine ⟨m, ?_, ?_, ?_⟩
  · unfold graphEnd
    rw [hown, hun]
    exact hset
  · -- keys
    rw [hm, ofFn_filter (G := fun k => ((if (gs.any fun g => decide (k ∈ g.2)) then
      some { (F k).getD {} with indices := ((F k).getD {}).indices ++ indicesOf (decOf first nb p) (offOf first (nb p)) gs 0 k, total := ((F k).getD {}).total + ((indicesOf (decOf first nb p) (offOf first (nb p)) gs 0 k).map Indices.size).sum } else F k).getD {}))
      (P := fun d => decide (Owns first p d) || (lam p).any fun l => decide (d ∈ doms l))]
    · rw [List.map_map]
      unfold known
      exact List.map_id'' (fun _ => rfl) _
    · intro k hk
      obtain ⟨f1, f2, f3⟩ := hF' k hk
      by_cases ha : ((lam p).any fun l => decide (k ∈ doms l)) = true
      · rw [hany, if_pos ha, if_pos (by rw [ha]; simp)]
        rfl
      · rw [hany, if_neg ha]
        have ha' : ¬ ∃ l ∈ lam p, k ∈ doms l := fun ⟨l, hl, h⟩ => ha (List.any_eq_true.2 ⟨l, hl, decide_eq_true h⟩)
        by_cases ho : Owns first p k
        · rw [if_pos (by rw [decide_eq_true ho]; rfl), f1 ho]; rfl
        · rw [if_neg (by rw [decide_eq_false ho]; simpa using ha), f3 ho ha']
  · intro x hx
    obtain ⟨k, v⟩ := x
    rw [hm] at hx
    obtain ⟨hk, hv⟩ := mem_ofFn.1 hx
    obtain ⟨f1, f2, f3⟩ := hF' k hk
    have hv' : v.goffset = koff k ∧ v.size = kdim k ∧ (Owns first p k → v.offset = k - first p) ∧ v.indices = indicesOf (decOf first nb p) (offOf first (nb p)) gs 0 k ∧
        v.total = ((indicesOf (decOf first nb p) (offOf first (nb p)) gs 0 k).map Indices.size).sum := by
      by_cases ha : ((lam p).any fun l => decide (k ∈ doms l)) = true
      · rw [hany, if_pos ha] at hv
        cases hv
        obtain ⟨l, hl, h⟩ := List.any_eq_true.1 ha
        by_cases ho : Owns first p k
        · rw [f1 ho]
          refine ⟨rfl, rfl, fun _ => rfl, List.nil_append _, Nat.zero_add _⟩
        · obtain ⟨q, e⟩ := f2 ho ⟨l, hl, of_decide_eq_true h⟩
          rw [e]
          refine ⟨rfl, rfl, fun h => absurd h ho, List.nil_append _, Nat.zero_add _⟩
      · rw [hany, if_neg ha] at hv
        have ha' : ¬ ∃ l ∈ lam p, k ∈ doms l := fun ⟨l, hl, h⟩ => ha (List.any_eq_true.2 ⟨l, hl, decide_eq_true h⟩)
        by_cases ho : Owns first p k
        · rw [f1 ho] at hv
          cases hv
          rw [hnone k ha']
          exact ⟨rfl, rfl, fun _ => rfl, rfl, rfl⟩
        · rw [f3 ho ha'] at hv; cases hv
    obtain ⟨v1, v2, v3, v4, v5⟩ := hv'
    have hlow : ∀ l ∈ lam p, ∀ n q : Nat, (nb p)[n]? = some q → (n ∈ lowerOf (decOf first nb p) (offOf first (nb p)) (doms l) ↔ q < p ∧ touches first q (doms l) = true) := by
      intro l hl n q hn
      unfold lowerOf
      rw [mem_neighsOf H.mono (H.nsorted p hp) ((H.sorted p hp l hl).filter _)
        (by
          intro d hd
          obtain ⟨q, _, h1, h2⟩ := H.range p hp l hl d (List.mem_filter.1 hd).1
          exact ⟨q, h1, h2⟩) (fun h => (H.nrange p hp p h).2 rfl) hn]
      rw [touches_iff, touches_iff]
      constructor
      · rintro ⟨d, hd, ho⟩
        obtain ⟨h1, h2⟩ := List.mem_filter.1 hd
        have h2 : d < first p := of_decide_eq_true h2
        refine ⟨?_, d, h1, ho⟩
        apply Nat.lt_of_not_le
        intro hc
        have := first_mono H.mono hc
        have := ho.1
        omega
      · rintro ⟨hlt, d, hd, ho⟩
        refine ⟨d, List.mem_filter.2 ⟨hd, decide_eq_true ?_⟩, ho⟩
        exact Nat.lt_of_lt_of_le ho.2 (first_mono H.mono (show q + 1 ≤ p from hlt))
    refine ⟨v1, v2, v3, ?_, ?_, ?_, ?_⟩
    · rw [v5, hsum]
    · rw [v4, hind]
    · intro ho n q hn
      rw [v4]
      unfold indicesOf
      rw [List.filter_map, List.flatMap_map, List.filter_filter]
      have hmy : (decOf first nb p).ismy k = true := by rw [ismy_iff]; exact decide_eq_true ho
      have := groups_positions (fun ds => decide (n ∈ lowerOf (decOf first nb p) (offOf first (nb p)) ds) && decide (k ∈ ds)) doms gs (lam p) 0 hgs
      simp only [Nat.zero_add, List.map_id'] at this
      have e : ((groupsAt gs 0).filter fun a => ((fun x : Indices => decide (n ∈ x.lower)) ∘ fun g : Nat × Nat × List Nat =>
          (⟨g.1, g.2.1, bif (decOf first nb p).ismy k then lowerOf (decOf first nb p) (offOf first (nb p)) g.2.2 else []⟩ : Indices)) a && decide (k ∈ a.2.2)) =
          (groupsAt gs 0).filter fun g => decide (n ∈ lowerOf (decOf first nb p) (offOf first (nb p)) g.2.2) && decide (k ∈ g.2.2) := by
        apply List.filter_congr
        intro g _
        show (decide (n ∈ (bif (decOf first nb p).ismy k then lowerOf (decOf first nb p) (offOf first (nb p)) g.2.2 else [])) && _) = _
        rw [hmy]; rfl
      refine Eq.trans ?_ (this.trans ?_)
      · exact congrArg (fun l : List (Nat × Nat × List Nat) => l.flatMap fun g => List.range' g.1 g.2.1) e
      · by_cases hlt : q < p
        · rw [if_pos hlt]
          apply positions_congr
          intro l hl
          rw [Bool.and_comm]
          congr 1
          rw [Bool.eq_iff_iff, decide_eq_true_iff, hlow l hl n q hn]
          exact ⟨fun h => h.2, fun h => ⟨hlt, h⟩⟩
        · rw [if_neg hlt, positions_const (c := false)]
          · rfl
          · intro l hl
            rw [decide_eq_false (fun h => hlt ((hlow l hl n q hn).1 h).1)]; rfl
    · intro x hx
      rw [v4] at hx
      unfold indicesOf at hx
      obtain ⟨g, hg, rfl⟩ := List.mem_map.1 hx
      cases hmy : (decOf first nb p).ismy k with
      | false => exact ⟨List.nodup_nil, fun n hn => by cases hn⟩
      | true =>
          have key : ∀ (gs : List (Nat × List Nat)) (o : Nat), ∀ x ∈ groupsAt gs o, ∃ g ∈ gs, x.2.2 = g.2 := by
            intro gs
            induction gs with
            | nil => intro o x hx; cases hx
            | cons g gs ih =>
                intro o x hx
                rcases List.mem_cons.1 hx with rfl | hx
                · exact ⟨g, List.mem_cons_self .., rfl⟩
                · obtain ⟨g', h', e⟩ := ih _ x hx
                  exact ⟨g', List.mem_cons_of_mem _ h', e⟩
          obtain ⟨g', hg', e⟩ := key gs 0 g (List.mem_filter.1 hg).1
          obtain ⟨l, hl, e'⟩ := hmem g' hg'
          constructor
          · show (lowerOf _ _ g.2.2).Nodup
            exact (foldl_push_sorted _ List.Pairwise.nil).imp (fun h => Nat.ne_of_lt h)
          · show ∀ n ∈ lowerOf _ _ g.2.2, n < _
            rw [e, ← e']
            unfold lowerOf neighsOf
            apply mem_foldl_push_bound
            · intro d hd hmy
              exact (offOf_spec H hp hl (List.mem_filter.1 hd).1 hmy).2
            · intro n hn; cases hn

/-- C67, dual graph: after the exchange of the buffers, every process has a graph with its own domains and the domains of its multipliers, with the numbers of their kernels, the positions of their multipliers
and, for the own domains, the multipliers of the lower neighbours. -/
theorem C67_graph (H : Shared np first nb lam doms) (hN : Numbered first kdim koff) (cmap : Nat → List Nat) (hc : ∀ p, p < np → Describes (cmap p) (lam p) doms) (undef : Nat) :
    ∃ (sum : Nat → Nat) (m0 : Nat → OMap Vertex) (edges : Nat → OMap (List Nat)) (s : Nat → List (List Nat)),
      (∀ p, p < np → (pushVertices (first p) ((List.range (first (p + 1) - first p)).map fun j => kdim (first p + j))).map kernelSum = some (sum p)) ∧
      (∀ p, p < np → graphBegin (decOf first nb p) p ((List.range (first (p + 1) - first p)).map fun j => kdim (first p + j)) (cmap p) (exscan np undef sum p).2 = some (m0 p, edges p, s p)) ∧
      (∀ p, p < np → (s p).length = (nb p).length) ∧
      ∀ r, Exchanged np nb s r → ∀ p, p < np → ∃ m, graphEnd (decOf first nb p) (cmap p) (r p) (m0 p) = some m ∧ GraphOk np first nb lam doms kdim koff p m (edges p) := by
  have hb : ∀ p, p < np → ∃ x : OMap (List Nat) × List (List Nat), graphBegin (decOf first nb p) p ((List.range (first (p + 1) - first p)).map fun j => kdim (first p + j)) (cmap p) (koff (first p)) =
        some ((ownDomains first p).map (fun k => (k, vertexOf first koff kdim p k)), x.1, x.2) ∧
      (∀ d, (x.1.find d).getD [] = adjacent (lam p) doms (first np) d) ∧ x.2.length = (nb p).length ∧
      ∀ n q : Nat, (nb p)[n]? = some q → x.2[n]? = some ((sentTo np first lam doms p q).flatMap fun k => [k, koff k, kdim k]) := by
    intro p hp
    obtain ⟨e, s, h⟩ := graphBegin_spec H hN hp (hc p hp)
    exact ⟨(e, s), h⟩
  have hb' : ∀ p, ∃ x : OMap (List Nat) × List (List Nat), p < np → graphBegin (decOf first nb p) p ((List.range (first (p + 1) - first p)).map fun j => kdim (first p + j)) (cmap p) (koff (first p)) =
        some ((ownDomains first p).map (fun k => (k, vertexOf first koff kdim p k)), x.1, x.2) ∧
      (∀ d, (x.1.find d).getD [] = adjacent (lam p) doms (first np) d) ∧ x.2.length = (nb p).length ∧
      ∀ n q : Nat, (nb p)[n]? = some q → x.2[n]? = some ((sentTo np first lam doms p q).flatMap fun k => [k, koff k, kdim k]) := by
    intro p
    by_cases hp : p < np
    · obtain ⟨x, h⟩ := hb p hp; exact ⟨x, fun _ => h⟩
    · exact ⟨([], []), fun h => absurd h hp⟩
  choose x hx using hb'
  refine ⟨fun p => koff (first (p + 1)) - koff (first p), fun p => (ownDomains first p).map (fun k => (k, vertexOf first koff kdim p k)), fun p => (x p).1, fun p => (x p).2, ?_, ?_, fun p hp => (hx p hp).2.2.1, ?_⟩
  · intro p hp
    obtain ⟨m, h1, h2⟩ := kernelSum_own hN H hp
    rw [h1, Option.map_some, h2]
  · intro p hp
    rw [C25_exscan np undef _ p hp]
    show graphBegin _ _ _ _ (contributions 0 p _).sum = _
    rw [contributions_koff hN H.mono]
    exact (hx p hp).1
  · intro r hr p hp
    obtain ⟨hlen, hr⟩ := hr p hp
    obtain ⟨m, h1, h2, h3⟩ := graphEnd_spec (koff := koff) (kdim := kdim) H hp (hc p hp) (r p) hlen (by
      intro n q hn
      have hq := H.nrange p hp q (List.mem_of_getElem? hn)
      obtain ⟨m, hm, em⟩ := List.getElem_of_mem (H.nsym p q hp (List.mem_of_getElem? hn))
      have hm' : (nb q)[m]? = some p := by rw [List.getElem?_eq_getElem hm, em]
      rw [hr n q m hn hm']
      exact (hx q hq.1).2.2.2 m p hm')
    exact ⟨m, h1, h2, h3, (hx p hp).2.1⟩

/-- An exchange of the buffers exists (its run is described by C27), i.e., the hypothesis of the second part of `C67_graph` can be met. -/
theorem exchange_exists {A : Type} (H : Shared np first nb lam doms) (s : Nat → List A) (hs : ∀ p, p < np → (s p).length = (nb p).length) : ∃ r, Exchanged np nb s r := by
  have h : ∀ p, ∃ r : List A, p < np → r.length = (nb p).length ∧ ∀ n q m : Nat, (nb p)[n]? = some q → (nb q)[m]? = some p → r[n]? = (s q)[m]? := by
    intro p
    by_cases hp : p < np
    · have hget : ∀ n : Fin (nb p).length, ∃ a : A, ∀ m : Nat, (nb (nb p)[n])[m]? = some p → (s (nb p)[n])[m]? = some a := by
        intro n
        have hq := H.nrange p hp _ (List.getElem_mem n.2)
        obtain ⟨i, hi, ei⟩ := List.getElem_of_mem (H.nsym p _ hp (List.getElem_mem n.2))
        have hi' : i < (s (nb p)[n.1]).length := by rw [hs _ hq.1]; exact hi
        refine ⟨(s (nb p)[n.1])[i], fun m hm => ?_⟩
        obtain ⟨hm', em⟩ := List.getElem?_eq_some_iff.1 hm
        have hnd : (nb (nb p)[n.1]).Nodup := (H.nsorted _ hq.1).imp fun h => Nat.ne_of_lt h
        have : m = i := (List.Nodup.getElem_inj_iff hnd).1 (by rw [ei]; exact em)
        subst this
        exact List.getElem?_eq_getElem hi'
      choose a ha using hget
      refine ⟨List.ofFn a, fun _ => ⟨List.length_ofFn, ?_⟩⟩
      intro n q m hn hm
      obtain ⟨hn', rfl⟩ := List.getElem?_eq_some_iff.1 hn
      rw [List.getElem?_eq_getElem (by rw [List.length_ofFn]; exact hn'), List.getElem_ofFn]
      exact (ha ⟨n, hn'⟩ m hm).symm
    · exact ⟨[], fun h => absurd h hp⟩
  choose r hr using h
  exact ⟨r, hr⟩

end Verif.Feti
