import Verif.Proof.DualMap
/-! Lemmas for the synchronization of dual vectors (C61): packing and adding. -/
namespace Verif.Feti

open Verif.Dual Finset

variable {R : Type} [CommRing R]

/-- A block of `len` values from `s` for the neighbour `n`: `(s, len, n)`. -/
abbrev Block := Nat × Nat × Nat

/-- The positions sent to the neighbour `n`. -/
def posn (ops : List Block) (n : Nat) : List Nat := (ops.filter fun x => x.2.2 = n).flatMap fun x => List.range' x.1 x.2.1

/-- The blocks of the groups for a row with the begin `base`. -/
def blocks (base : Nat) (es : List (Nat × Nat × List Nat)) : List Block := es.flatMap fun x => x.2.2.map fun n => (base + x.1, x.2.1 - x.1, n)

theorem posn_nil (n : Nat) : posn [] n = [] := rfl

theorem posn_cons (x : Block) (ops : List Block) (n : Nat) : posn (x :: ops) n = if x.2.2 = n then List.range' x.1 x.2.1 ++ posn ops n else posn ops n := by
  unfold posn
  by_cases h : x.2.2 = n
  · rw [List.filter_cons_of_pos (by simpa using h), List.flatMap_cons, if_pos h]
  · rw [List.filter_cons_of_neg (by simpa using h), if_neg h]

theorem posn_append (a b : List Block) (n : Nat) : posn (a ++ b) n = posn a n ++ posn b n := by
  unfold posn; rw [List.filter_append, List.flatMap_append]

theorem posn_flatMap {A : Type} (F : A → List Block) (l : List A) (n : Nat) : posn (l.flatMap F) n = l.flatMap fun a => posn (F a) n := by
  induction l with
  | nil => rfl
  | cons a l ih => rw [List.flatMap_cons, posn_append, ih, List.flatMap_cons]

theorem posn_neighs (s len : Nat) {ns : List Nat} (h : ns.Nodup) (n : Nat) : posn (ns.map fun m => (s, len, m)) n = if n ∈ ns then List.range' s len else [] := by
  induction ns with
  | nil => rfl
  | cons m ns ih =>
      rw [List.nodup_cons] at h
      rw [List.map_cons, posn_cons, ih h.2]
      by_cases hm : m = n
      · subst hm; simp [h.1]
      · rw [if_neg hm]
        by_cases hn : n ∈ ns
        · rw [if_pos hn, if_pos (List.mem_cons_of_mem _ hn)]
        · rw [if_neg hn, if_neg]
          intro hc
          rcases List.mem_cons.1 hc with e | e
          · exact hm e.symm
          · exact hn e

theorem posn_blocks (base : Nat) (es : List (Nat × Nat × List Nat)) (h : ∀ x ∈ es, x.2.2.Nodup) (n : Nat) : posn (blocks base es) n = (posOf es n).map (base + ·) := by
  unfold blocks posOf
  rw [posn_flatMap, List.map_flatMap]
  refine List.flatMap_congr ?_
  intro x hx
  rw [posn_neighs _ _ (h x hx)]
  split
  · rw [List.map_add_range']
  · rfl

/-! ### Packing -/

theorem slice_vals (vals : List R) {s len : Nat} (h : s + len ≤ vals.length) : memcpyFrom vals s len = some ((List.range' s len).map (vals.getD · 0)) := by
  unfold memcpyFrom
  rw [if_pos h]
  congr 1
  apply List.ext_getElem?
  intro i
  rw [List.getElem?_take, List.getElem?_drop, List.getElem?_map]
  by_cases hi : i < len
  · rw [if_pos hi, List.getElem?_range' hi, Option.map_some, Nat.one_mul, List.getD_eq_getElem?_getD, List.getElem?_eq_getElem (by omega)]; rfl
  · rw [if_neg hi, List.getElem?_eq_none (by simp; omega)]; rfl

/-- The fold of packing over blocks. -/
def packOps (vals : List R) (ops : List Block) (st : List (List R) × List Nat) : Option (List (List R) × List Nat) :=
  ops.foldlM (fun st x => packStep vals x.1 0 x.2.1 x.2.2 st) st

omit [CommRing R] in
theorem packStep_block (vals : List R) (base b e n : Nat) (st : List (List R) × List Nat) : packStep vals base b e n st = packStep vals (base + b) 0 (e - b) n st := rfl

theorem packOps_spec (vals : List R) (nn : Nat) : ∀ (ops : List Block) (done rest : Nat → List R), (∀ x ∈ ops, x.2.2 < nn ∧ x.1 + x.2.1 ≤ vals.length) →
    (∀ n, n < nn → (posn ops n).length ≤ (rest n).length) →
    packOps vals ops (mk nn fun n => done n ++ rest n, mk nn fun n => (done n).length) =
      some (mk nn fun n => done n ++ (posn ops n).map (vals.getD · 0) ++ (rest n).drop (posn ops n).length, mk nn fun n => (done n).length + (posn ops n).length) := by
  intro ops
  induction ops with
  | nil =>
      intro done rest _ _
      show some _ = some _
      simp [posn_nil]
  | cons x ops ih =>
      obtain ⟨s, len, ni⟩ := x
      intro done rest hx hr
      obtain ⟨h1, h2⟩ := hx _ (List.mem_cons_self ..)
      dsimp only at h1 h2
      have hlen : len ≤ (rest ni).length := by
        have := hr ni h1
        rw [posn_cons, if_pos rfl, List.length_append, List.length_range'] at this
        dsimp only at this; omega
      have hstep : packStep vals s 0 len ni (mk nn fun n => done n ++ rest n, mk nn fun n => (done n).length) =
          some (mk nn fun n => upd done ni (done ni ++ (List.range' s len).map (vals.getD · 0)) n ++ upd rest ni ((rest ni).drop len) n,
            mk nn fun n => (upd done ni (done ni ++ (List.range' s len).map (vals.getD · 0)) n).length) := by
        unfold packStep
        have hm : memcpyTo (done ni ++ rest ni) (done ni).length ((List.range' s len).map (vals.getD · 0)) =
            some (done ni ++ (List.range' s len).map (vals.getD · 0) ++ (rest ni).drop len) := by
          have := memcpyTo_append (done ni) ((rest ni).take len) ((rest ni).drop len) ((List.range' s len).map (vals.getD · 0)) (by simp; omega)
          rw [List.append_assoc, List.take_append_drop] at this
          exact this
        simp only [mk_get _ h1, Option.bind_eq_bind, Option.bind_some, Nat.add_zero, Nat.sub_zero, slice_vals vals h2, hm, wr_mk _ _ h1]
        congr 2
        · apply mk_congr
          intro k _
          unfold upd
          by_cases hk : k = ni
          · subst hk; simp
          · simp [hk]
        · apply mk_congr
          intro k _
          unfold upd
          by_cases hk : k = ni
          · subst hk; simp
          · simp [hk]
      unfold packOps
      rw [List.foldlM_cons]
      show (packStep vals s 0 len ni _).bind _ = _
      rw [hstep]
      show packOps vals ops _ = _
      rw [ih _ _ (fun x hx' => hx x (List.mem_cons_of_mem _ hx'))]
      · congr 2
        · apply mk_congr
          intro k _
          rw [posn_cons]
          unfold upd
          by_cases hk : k = ni
          · subst hk; simp
          · simp only [hk, if_false]
            rw [if_neg (fun e => hk e.symm)]
        · apply mk_congr
          intro k _
          rw [posn_cons]
          unfold upd
          by_cases hk : k = ni
          · subst hk; simp; omega
          · simp only [hk, if_false]
            rw [if_neg (fun e => hk e.symm)]
      · intro n hn
        have := hr n hn
        rw [posn_cons] at this
        unfold upd
        by_cases hk : n = ni
        · subst hk
          rw [if_pos rfl, List.length_append, List.length_range'] at this
          rw [if_pos rfl, List.length_drop]
          dsimp only at this; omega
        · rw [if_neg (fun e => hk e.symm)] at this
          rw [if_neg hk]; exact this

/-! ### Adding -/

/-- The additions of the blocks: the values of the neighbour `n` are taken from `rc n`, from the position `off n` on. -/
def addList (rc : Nat → List R) : List Block → (Nat → Nat) → List (Nat × R)
  | [], _ => []
  | x :: ops, off => ((List.range x.2.1).map fun k => (x.1 + k, (rc x.2.2).getD (off x.2.2 + k) 0)) ++ addList rc ops (upd off x.2.2 (off x.2.2 + x.2.1))

theorem addList_cons (rc : Nat → List R) (x : Block) (ops : List Block) (off : Nat → Nat) : addList rc (x :: ops) off =
    ((List.range x.2.1).map fun k => (x.1 + k, (rc x.2.2).getD (off x.2.2 + k) 0)) ++ addList rc ops (upd off x.2.2 (off x.2.2 + x.2.1)) := rfl

/-- The fold of adding over blocks. -/
def addOps (recv : List (List R)) (ops : List Block) (st : List R × List Nat) : Option (List R × List Nat) :=
  ops.foldlM (fun st x => addStep recv x.1 0 x.2.1 x.2.2 st) st

theorem addStep_block (recv : List (List R)) (base b e n : Nat) (st : List R × List Nat) : addStep recv base b e n st = addStep recv (base + b) 0 (e - b) n st := rfl

theorem addOps_spec (rc : Nat → List R) (nn : Nat) : ∀ (ops : List Block) (off : Nat → Nat) (vals : List R), (∀ x ∈ ops, x.2.2 < nn) →
    (∀ n, n < nn → off n + (posn ops n).length ≤ (rc n).length) →
    addOps (mk nn rc) ops (vals, mk nn off) = (runOps (addList rc ops off) vals).bind fun v => some (v, mk nn fun n => off n + (posn ops n).length) := by
  intro ops
  induction ops with
  | nil =>
      intro off vals _ _
      show some _ = (some vals).bind _
      simp [posn_nil]
  | cons x ops ih =>
      obtain ⟨s, len, ni⟩ := x
      intro off vals hx hr
      have h1 : ni < nn := hx _ (List.mem_cons_self ..)
      have hlen : off ni + len ≤ (rc ni).length := by
        have := hr ni h1
        rw [posn_cons, if_pos rfl, List.length_append, List.length_range'] at this
        dsimp only at this; omega
      have hstep : addStep (mk nn rc) s 0 len ni (vals, mk nn off) =
          (runOps ((List.range len).map fun k => (s + k, (rc ni).getD (off ni + k) 0)) vals).bind fun v => some (v, mk nn (upd off ni (off ni + len))) := by
        unfold addStep
        simp only [mk_get _ h1, Option.bind_eq_bind, Option.bind_some, Nat.add_zero, Nat.sub_zero, wr_mk _ _ h1]
        congr 1
        unfold runOps
        rw [Verif.Csx.forLoop_range, List.foldlM_map]
        apply Verif.Csx.foldlM_congr
        intro k hk v
        rw [getD_get (show off ni + k < (rc ni).length by have := List.mem_range.1 hk; omega)]
        rfl
      unfold addOps
      rw [List.foldlM_cons]
      show (addStep (mk nn rc) s 0 len ni _).bind _ = _
      rw [hstep, addList_cons, runOps_append, Option.bind_assoc, Option.bind_assoc]
      congr 1
      funext v
      show addOps (mk nn rc) ops _ = _
      rw [ih _ _ (fun x hx' => hx x (List.mem_cons_of_mem _ hx'))]
      · congr 1
        funext v'
        congr 2
        apply mk_congr
        intro k _
        rw [posn_cons]
        unfold upd
        by_cases hk : k = ni
        · subst hk; simp; omega
        · simp only [hk, if_false]
          rw [if_neg (fun e => hk e.symm)]
      · intro n hn
        have := hr n hn
        rw [posn_cons] at this
        unfold upd
        by_cases hk : n = ni
        · subst hk
          rw [if_pos rfl, List.length_append, List.length_range'] at this
          rw [if_pos rfl]
          dsimp only at this; omega
        · rw [if_neg (fun e => hk e.symm)] at this
          rw [if_neg hk]; exact this

theorem range_zip (s len : Nat) (l : List R) (h : len ≤ l.length) : (List.range' s len).zip l = (List.range len).map fun k => (s + k, l.getD k 0) := by
  apply List.ext_getElem?
  intro i
  by_cases hi : i < len
  · rw [List.getElem?_zip_eq_some (z := (s + i, l.getD i 0)) |>.2 ⟨by rw [List.getElem?_range' hi, Nat.one_mul], getD_get (show i < l.length by omega)⟩, List.getElem?_map, List.getElem?_range hi]; rfl
  · rw [List.getElem?_eq_none (by simp; omega), List.getElem?_eq_none (by simp; omega)]

/-- The total added to a position: from every neighbour the values at the places of the position. -/
theorem total_addList (rc : Nat → List R) (nn k : Nat) : ∀ (ops : List Block) (off : Nat → Nat), (∀ x ∈ ops, x.2.2 < nn) →
    (∀ n, n < nn → off n + (posn ops n).length ≤ (rc n).length) →
    total (addList rc ops off) k = ∑ n ∈ range nn, total ((posn ops n).zip ((rc n).drop (off n))) k := by
  intro ops
  induction ops with
  | nil =>
      intro off _ _
      rw [show addList rc [] off = [] from rfl, total_nil]
      symm
      apply sum_eq_zero
      intro n _
      rw [posn_nil, List.zip_nil_left, total_nil]
  | cons x ops ih =>
      obtain ⟨s, len, ni⟩ := x
      intro off hx hr
      have h1 : ni < nn := hx _ (List.mem_cons_self ..)
      have hlen : off ni + len + (posn ops ni).length ≤ (rc ni).length := by
        have := hr ni h1
        rw [posn_cons, if_pos rfl, List.length_append, List.length_range'] at this
        dsimp only at this; omega
      rw [addList_cons, total_append, ih _ (fun x hx' => hx x (List.mem_cons_of_mem _ hx'))]
      · have hterm : ∀ n ∈ range nn, total ((posn ((s, len, ni) :: ops) n).zip ((rc n).drop (off n))) k =
            (if n = ni then total ((List.range len).map fun k => (s + k, (rc ni).getD (off ni + k) 0)) k else 0) +
              total ((posn ops n).zip ((rc n).drop (upd off ni (off ni + len) n))) k := by
          intro n _
          rw [posn_cons]
          unfold upd
          by_cases hk : n = ni
          · subst hk
            rw [if_pos rfl, if_pos rfl, if_pos rfl]
            have hsplit : (rc n).drop (off n) = ((rc n).drop (off n)).take len ++ (rc n).drop (off n + len) := by
              rw [← List.drop_drop, List.take_append_drop]
            rw [hsplit, List.zip_append (by simp; omega), total_append, range_zip _ _ _ (by simp; omega)]
            congr 2
            apply List.map_congr_left
            intro j hj
            have := List.mem_range.1 hj
            rw [List.getD_eq_getElem?_getD, List.getElem?_take, if_pos this, List.getElem?_drop, List.getD_eq_getElem?_getD]
          · rw [if_neg (fun e => hk e.symm), if_neg hk, if_neg hk, zero_add]
        rw [sum_congr rfl hterm, sum_add_distrib, sum_ite_eq' (range nn) ni, if_pos (mem_range.2 h1)]
      · intro n hn
        have := hr n hn
        rw [posn_cons] at this
        unfold upd
        by_cases hk : n = ni
        · subst hk; rw [if_pos rfl]; exact hlen
        · rw [if_neg (fun e => hk e.symm)] at this
          rw [if_neg hk]; exact this

/-- Each position is in the list at most once. -/
theorem total_map {P : List Nat} (h : P.Nodup) (g : Nat → R) (k : Nat) : total (P.map fun i => (i, g i)) k = if k ∈ P then g k else 0 := by
  induction P with
  | nil => rfl
  | cons i P ih =>
      rw [List.nodup_cons] at h
      rw [List.map_cons, total_cons, ih h.2]
      by_cases hi : i = k
      · subst hi; simp [h.1]
      · by_cases hk : k ∈ P
        · simp [hi, hk]
        · rw [if_neg hi, if_neg hk, if_neg (by rw [List.mem_cons]; rintro (e | e); exacts [hi e.symm, hk e]), add_zero]

theorem addList_range (rc : Nat → List R) (m : Nat) : ∀ (ops : List Block) (off : Nat → Nat), (∀ x ∈ ops, x.1 + x.2.1 ≤ m) → ∀ op ∈ addList rc ops off, op.1 < m := by
  intro ops
  induction ops with
  | nil => intro off _ op hop; cases hop
  | cons x ops ih =>
      intro off hx op hop
      rw [addList_cons] at hop
      rcases List.mem_append.1 hop with h | h
      · obtain ⟨k, hk, rfl⟩ := List.mem_map.1 h
        have := List.mem_range.1 hk
        have := hx x (List.mem_cons_self ..)
        dsimp only; omega
      · exact ih _ (fun y hy => hx y (List.mem_cons_of_mem _ hy)) op h

/-! ### Positions and multipliers -/

variable {L : Type}

theorem posOf_labels (D : Decomposition) (off : Nat → Nat) (doms : L → List Nat) (n : Nat) : ∀ (gs : List (Nat × List Nat)) (lam pre : List L),
    gs.flatMap (fun g => List.replicate g.1 g.2) = lam.map doms →
    (posOf (nentries D off gs pre.length) n).map ((pre ++ lam)[·]?) = (lam.filter fun l => decide (n ∈ neighsOf D off (doms l))).map some := by
  intro gs
  induction gs with
  | nil =>
      intro lam pre h
      have : lam = [] := by simpa using h.symm
      subst this; rfl
  | cons g gs ih =>
      obtain ⟨m, ds⟩ := g
      intro lam pre h
      rw [List.flatMap_cons] at h
      obtain ⟨l1, l2, rfl, e1, e2⟩ := List.map_eq_append_iff.1 h.symm
      have hl1 : l1.length = m := by rw [← List.length_map (f := doms), e1, List.length_replicate]
      have hd : ∀ l ∈ l1, doms l = ds := fun l hl => (List.mem_replicate.1 (by rw [← e1]; exact List.mem_map_of_mem hl)).2
      have hrec := ih l2 (pre ++ l1) e2.symm
      rw [List.length_append, hl1, List.append_assoc] at hrec
      rw [nentries_cons, List.filter_append, List.map_append]
      have hhead : (List.range' pre.length m).map ((pre ++ (l1 ++ l2))[·]?) = l1.map some := by
        apply List.ext_getElem?
        intro i
        by_cases hi : i < m
        · rw [List.getElem?_map, List.getElem?_range' hi, Option.map_some, Nat.one_mul, List.getElem?_append_right (by omega), show pre.length + i - pre.length = i by omega,
            List.getElem?_append_left (by omega), List.getElem?_map, List.getElem?_eq_getElem (by omega)]; rfl
        · rw [List.getElem?_eq_none (by simp; omega), List.getElem?_eq_none (by simp; omega)]
      by_cases hz : neighsOf D off ds = []
      · rw [if_pos hz, hrec, List.filter_eq_nil_iff (l := l1) |>.2 (by intro l hl; rw [hd l hl, hz]; simp)]
        rfl
      · rw [if_neg hz]
        unfold posOf at hrec ⊢
        rw [List.flatMap_cons, List.map_append, hrec]
        congr 1
        dsimp only
        by_cases hn : n ∈ neighsOf D off ds
        · rw [if_pos hn, show pre.length + m - pre.length = m by omega, hhead, List.filter_eq_self.2 (by intro l hl; rw [hd l hl]; simpa using hn)]
        · rw [if_neg hn, List.filter_eq_nil_iff.2 (by intro l hl; rw [hd l hl]; simpa using hn)]
          rfl

theorem posOf_sorted (D : Decomposition) (off : Nat → Nat) (n : Nat) : ∀ (gs : List (Nat × List Nat)) (o : Nat),
    (posOf (nentries D off gs o) n).Pairwise (· < ·) ∧ ∀ k ∈ posOf (nentries D off gs o) n, o ≤ k := by
  intro gs
  induction gs with
  | nil => intro o; exact ⟨List.Pairwise.nil, by intro k hk; cases hk⟩
  | cons g gs ih =>
      obtain ⟨m, ds⟩ := g
      intro o
      obtain ⟨h1, h2⟩ := ih (o + m)
      rw [nentries_cons]
      split
      · exact ⟨h1, fun k hk => by have := h2 k hk; omega⟩
      · unfold posOf at h1 h2 ⊢
        rw [List.flatMap_cons]
        dsimp only
        by_cases hn : n ∈ neighsOf D off ds
        · rw [if_pos hn]
          constructor
          · rw [List.pairwise_append]
            refine ⟨List.pairwise_lt_range', h1, ?_⟩
            intro a ha b hb
            have := List.mem_range'_1.1 ha
            have := h2 b hb; omega
          · intro k hk
            rcases List.mem_append.1 hk with h | h
            · exact (List.mem_range'_1.1 h).1
            · have := h2 k h; omega
        · rw [if_neg hn, List.nil_append]
          exact ⟨h1, fun k hk => by have := h2 k hk; omega⟩

theorem nentries_blocks (D : Decomposition) (off : Nat → Nat) : ∀ (gs : List (Nat × List Nat)) (o : Nat), ∀ x ∈ nentries D off gs o,
    x.1 ≤ x.2.1 ∧ x.2.1 ≤ o + (gs.flatMap fun g => List.replicate g.1 g.2).length ∧ ∃ g ∈ gs, x.2.2 = neighsOf D off g.2 := by
  intro gs
  induction gs with
  | nil => intro o x hx; cases hx
  | cons g gs ih =>
      obtain ⟨m, ds⟩ := g
      intro o x hx
      rw [nentries_cons] at hx
      rw [List.flatMap_cons, List.length_append, List.length_replicate]
      have hrec : ∀ x ∈ nentries D off gs (o + m), x.1 ≤ x.2.1 ∧ x.2.1 ≤ o + (m + (gs.flatMap fun g => List.replicate g.1 g.2).length) ∧ ∃ g ∈ (m, ds) :: gs, x.2.2 = neighsOf D off g.2 := by
        intro x hx
        obtain ⟨a, b, g, hg, c⟩ := ih _ x hx
        exact ⟨a, by omega, g, List.mem_cons_of_mem _ hg, c⟩
      split at hx
      · exact hrec x hx
      · rcases List.mem_cons.1 hx with rfl | h
        · exact ⟨by dsimp only; omega, by dsimp only; omega, _, List.mem_cons_self .., rfl⟩
        · exact hrec x h

end Verif.Feti
