import Verif.Model.DuplicateNodes
import Verif.Prop.KdTree
import Mathlib.Algebra.Order.Group.Basic
import Mathlib.Logic.Relation
/-! The search of duplicate nodes. -/
namespace Verif.KdTree

open Verif.Csx

variable {K : Type} [AddCommGroup K] [LinearOrder K]

/-- Two points differ by at most `eps` in each coordinate. -/
def Near (coord : Nat → Nat → K) (eps : K) (a c : Nat) : Prop := ∀ d, d < 3 → coord a d ≤ coord c d + eps ∧ coord c d ≤ coord a d + eps

theorem Near.symm {coord : Nat → Nat → K} {eps : K} {a c : Nat} (h : Near coord eps a c) : Near coord eps c a := fun d hd => ⟨(h d hd).2, (h d hd).1⟩

/-- Points connected by a chain of near points. -/
abbrev Connected (coord : Nat → Nat → K) (eps : K) : Nat → Nat → Prop := Relation.TransGen (Near coord eps)

variable [IsOrderedAddMonoid K]

theorem nearTest_iff (coord : Nat → Nat → K) (eps : K) (a c : Nat) : nearTest coord eps a c = true ↔ Near coord eps a c := by
  unfold nearTest
  simp only [Bool.and_eq_true, decide_eq_true_eq, sub_le_iff_le_add]
  constructor
  · intro ⟨⟨⟨⟨⟨h1, h2⟩, h3⟩, h4⟩, h5⟩, h6⟩ d hd
    match d, hd with
    | 0, _ => exact ⟨h1, h2⟩
    | 1, _ => exact ⟨h3, h4⟩
    | 2, _ => exact ⟨h5, h6⟩
  · intro h
    exact ⟨⟨⟨⟨⟨(h 0 (by omega)).1, (h 0 (by omega)).2⟩, (h 1 (by omega)).1⟩, (h 1 (by omega)).2⟩, (h 2 (by omega)).1⟩, (h 2 (by omega)).2⟩

/-- The points at the positions. -/
structure Points (n : Nat) (perm : List Nat) (X : Nat → Nat) : Prop where
  len : perm.length = n
  get : ∀ p, p < n → perm[p]? = some (X p)
  lt : ∀ p, p < n → X p < n

omit [AddCommGroup K] [LinearOrder K] [IsOrderedAddMonoid K] in
theorem points_of_perm {n : Nat} {perm : List Nat} (h : perm.Perm (List.range n)) : Points n perm (fun p => perm.getD p 0) := by
  have hl : perm.length = n := by rw [h.length_eq, List.length_range]
  refine ⟨hl, ?_, ?_⟩
  · intro p hp
    rw [List.getElem?_eq_getElem (by omega), List.getD_eq_getElem?_getD, List.getElem?_eq_getElem (by omega), Option.getD_some]
  · intro p hp
    rw [List.getD_eq_getElem?_getD, List.getElem?_eq_getElem (by omega), Option.getD_some]
    exact List.mem_range.1 (h.mem_iff.1 (List.getElem_mem _))

omit [AddCommGroup K] [LinearOrder K] [IsOrderedAddMonoid K] in
theorem Points.pointAt {n : Nat} {perm : List Nat} {X : Nat → Nat} (h : Points n perm X) {p : Nat} (hp : p < n) : pointAt n perm p = some (X p) := by
  unfold KdTree.pointAt keyAt
  simp only [Option.bind_eq_bind]
  rw [h.get p hp, Option.bind_some, if_pos (h.lt p hp)]; rfl

variable {n : Nat} {perm : List Nat} {X : Nat → Nat} {coord : Nat → Nat → K} {eps : K}

/-- All targets are below `T`; targets are not duplicates; merged points are connected; all is recorded by `merge`. -/
structure DInv (n : Nat) (X : Nat → Nat) (coord : Nat → Nat → K) (eps : K) (T : Nat) (st : DupState) : Prop where
  len : st.1.length = n
  tgt : ∀ p r, st.1[p]? = some (some r) → r < T ∧ st.1[r]? = some none ∧ Connected coord eps (X p) (X r)
  log : ∀ m ∈ st.2, ∃ p r r', p < n ∧ r < T ∧ X p = m.1 ∧ X r = m.2 ∧ st.1[p]? = some (some r') ∧ st.1[r]? = some none ∧ Connected coord eps m.1 m.2
  has : ∀ p r, st.1[p]? = some (some r) → (X p, X r) ∈ st.2

omit [IsOrderedAddMonoid K] in
theorem DInv.mono {T T' : Nat} {st : DupState} (h : DInv n X coord eps T st) (hT : T ≤ T') : DInv n X coord eps T' st :=
  { h with
    tgt := fun p r hp => ⟨by have := (h.tgt p r hp).1; omega, (h.tgt p r hp).2⟩
    log := fun m hm => by
      obtain ⟨p, r, r', a, b, c⟩ := h.log m hm
      exact ⟨p, r, r', a, by omega, c⟩ }

omit [IsOrderedAddMonoid K] in
theorem DInv.set {T : Nat} {st : DupState} (h : DInv n X coord eps T st) {p r : Nat} (hp : p < n) (hTp : T ≤ p) (hr : r < T) (hroot : st.1[r]? = some none)
    (hc : Connected coord eps (X p) (X r)) : DInv n X coord eps T (st.1.set p (some r), st.2 ++ [(X p, X r)]) := by
  have hl : p < st.1.length := by rw [h.len]; exact hp
  have hget : ∀ q, (st.1.set p (some r))[q]? = if p = q then some (some r) else st.1[q]? := fun q => getElem?_set' _ _ _ _ hl
  constructor
  · rw [List.length_set]; exact h.len
  · intro p' r' hp'
    dsimp only at hp' ⊢
    rw [hget] at hp'
    by_cases e : p = p'
    · rw [if_pos e] at hp'
      injection hp' with hp'
      injection hp' with hp'
      subst hp'; subst e
      rw [hget, if_neg (by omega)]
      exact ⟨hr, hroot, hc⟩
    · rw [if_neg e] at hp'
      obtain ⟨a, b, c⟩ := h.tgt p' r' hp'
      rw [hget, if_neg (by omega)]
      exact ⟨a, b, c⟩
  · intro m hm
    dsimp only at hm ⊢
    rcases List.mem_append.1 hm with hm | hm
    · obtain ⟨p', r', r'', a1, a2, a3, a4, a5, a6, a7⟩ := h.log m hm
      by_cases e : p = p'
      · exact ⟨p', r', r, a1, a2, a3, a4, by rw [hget, if_pos e], by rw [hget, if_neg (by omega)]; exact a6, a7⟩
      · exact ⟨p', r', r'', a1, a2, a3, a4, by rw [hget, if_neg e]; exact a5, by rw [hget, if_neg (by omega)]; exact a6, a7⟩
    · rw [List.mem_singleton] at hm
      subst hm
      exact ⟨p, r, r, hp, hr, rfl, rfl, by rw [hget, if_pos rfl], by rw [hget, if_neg (by omega)]; exact hroot, hc⟩
  · intro p' r' hp'
    dsimp only at hp' ⊢
    rw [hget] at hp'
    by_cases e : p = p'
    · rw [if_pos e] at hp'
      injection hp' with hp'
      injection hp' with hp'
      subst hp'; subst e
      exact List.mem_append_right _ List.mem_cons_self
    · rw [if_neg e] at hp'
      exact List.mem_append_left _ (h.has p' r' hp')

/-- Only `duplicate[p]` may change, and not to `-1`. -/
def OnlyAt (p : Nat) (st st' : DupState) : Prop := (∀ q, q ≠ p → st'.1[q]? = st.1[q]?) ∧ (∀ r, st.1[p]? = some (some r) → ∃ r', st'.1[p]? = some (some r'))

theorem OnlyAt.refl (p : Nat) (st : DupState) : OnlyAt p st st := ⟨fun _ _ => rfl, fun r h => ⟨r, h⟩⟩

theorem OnlyAt.trans {p : Nat} {st st' st'' : DupState} (h1 : OnlyAt p st st') (h2 : OnlyAt p st' st'') : OnlyAt p st st'' :=
  ⟨fun q hq => (h2.1 q hq).trans (h1.1 q hq), fun r hr => by obtain ⟨r', h⟩ := h1.2 r hr; exact h2.2 r' h⟩

/-- `p` is a duplicate. -/
def Dup (st : DupState) (p : Nat) : Prop := ∃ r, st.1[p]? = some (some r)

theorem OnlyAt.dup {p q : Nat} {st st' : DupState} (h : OnlyAt p st st') (hd : Dup st q) : Dup st' q := by
  obtain ⟨r, hr⟩ := hd
  by_cases e : q = p
  · subst e; exact h.2 r hr
  · exact ⟨r, by rw [h.1 q e]; exact hr⟩

omit [AddCommGroup K] [LinearOrder K] [IsOrderedAddMonoid K] in
theorem not_dup {st : DupState} {q : Nat} (hq : q < st.1.length) (h : ¬ Dup st q) : st.1[q]? = some none := by
  rw [List.getElem?_eq_getElem hq]
  cases hc : st.1[q] with
  | none => rfl
  | some r => exact absurd ⟨r, by rw [List.getElem?_eq_getElem hq, hc]⟩ h

omit [IsOrderedAddMonoid K] in
theorem mergeAt_spec (hP : Points n perm X) {T : Nat} {st : DupState} (hI : DInv n X coord eps T st) {p pp : Nat} (hp : p < n) (hTp : T ≤ p) (hpp : pp < T) (hnear : Near coord eps (X p) (X pp)) :
    ∃ st', mergeAt n perm p pp st = some st' ∧ DInv n X coord eps T st' ∧ OnlyAt p st st' ∧ Dup st' p := by
  have hl : p < st.1.length := by rw [hI.len]; exact hp
  have hl' : pp < st.1.length := by rw [hI.len]; omega
  have hget : ∀ (v : Option Nat) (q : Nat), (st.1.set p v)[q]? = if p = q then some v else st.1[q]? := fun v q => getElem?_set' _ _ _ _ hl
  unfold mergeAt
  simp only [Option.bind_eq_bind]
  rw [hP.pointAt hp, hP.pointAt (by omega), Option.bind_some, Option.bind_some, List.getElem?_eq_getElem hl', Option.bind_some]
  have hd := List.getElem?_eq_getElem hl'
  cases hc : st.1[pp] with
  | none =>
      rw [hc] at hd
      dsimp only
      rw [wr_eq_some hl, Option.bind_some]
      exact ⟨_, rfl, hI.set hp hTp hpp hd (Relation.TransGen.single hnear), ⟨fun q hq => by dsimp only; rw [hget, if_neg (fun h => hq h.symm)], fun r _ => ⟨pp, by dsimp only; rw [hget, if_pos rfl]⟩⟩,
        ⟨pp, by dsimp only; rw [hget, if_pos rfl]⟩⟩
  | some r =>
      rw [hc] at hd
      obtain ⟨h1, h2, h3⟩ := hI.tgt pp r hd
      dsimp only
      rw [hP.get r (by omega), Option.bind_some, wr_eq_some hl, Option.bind_some]
      exact ⟨_, rfl, hI.set hp hTp h1 h2 ((Relation.TransGen.single hnear).trans h3), ⟨fun q hq => by dsimp only; rw [hget, if_neg (fun h => hq h.symm)], fun _ _ => ⟨r, by dsimp only; rw [hget, if_pos rfl]⟩⟩,
        ⟨r, by dsimp only; rw [hget, if_pos rfl]⟩⟩

theorem check_spec (hP : Points n perm X) {T p : Nat} (hp : p < n) (hTp : T ≤ p) : ∀ (k pp : Nat) (st : DupState), pp + k ≤ T → DInv n X coord eps T st →
    ∃ st', check n coord eps perm p k pp st = some st' ∧ DInv n X coord eps T st' ∧ OnlyAt p st st' ∧
      ∀ q, pp ≤ q → q < pp + k → Near coord eps (X p) (X q) → Dup st' p := by
  intro k
  induction k with
  | zero => intro pp st _ hI; exact ⟨st, rfl, hI, OnlyAt.refl _ _, fun q h1 h2 => by omega⟩
  | succ k ih =>
      intro pp st hT hI
      unfold check
      simp only [Option.bind_eq_bind]
      rw [hP.pointAt hp, hP.pointAt (by omega), Option.bind_some, Option.bind_some]
      by_cases hn : Near coord eps (X p) (X pp)
      · rw [(nearTest_iff _ _ _ _).2 hn, cond_true]
        obtain ⟨st', e1, e2, e3, e4⟩ := mergeAt_spec hP hI hp hTp (by omega) hn
        exact ⟨st', e1, e2, e3, fun _ _ _ _ => e4⟩
      · rw [Bool.eq_false_iff.2 (fun h => hn ((nearTest_iff _ _ _ _).1 h)), cond_false]
        obtain ⟨st', e1, e2, e3, e4⟩ := ih (pp + 1) st (by omega) hI
        refine ⟨st', e1, e2, e3, ?_⟩
        intro q h1 h2 hq
        by_cases hqp : q = pp
        · subst hqp; exact absurd hq hn
        · exact e4 q (by omega) (by omega) hq

variable {L : Nat} {sp : List (Splitter K)}

/-- The facts about the tree. -/
structure TreeOk (n : Nat) (perm : List Nat) (X : Nat → Nat) (coord : Nat → Nat → K) (L : Nat) (sp : List (Splitter K)) : Prop where
  pts : Points n perm X
  len : sp.length = 2 ^ L
  node : ∀ l i, l < L → i < 2 ^ l → NodeOk n (fun _ q x => coord x q.d ≤ q.value) (fun _ q x => q.value < coord x q.d) (fun _ q => q.d < 3) sp perm l i
  sorted : ∀ i, i < 2 ^ L → ∀ p r, cut (idxOf sp) n L i ≤ p → p < r → r < cut (idxOf sp) n L (i + 1) → coord (X p) 0 ≤ coord (X r) 0

omit [AddCommGroup K] [IsOrderedAddMonoid K] in
theorem TreeOk.mono (hT : TreeOk n perm X coord L sp) : ∀ i j, i ≤ j → j ≤ 2 ^ L → cut (idxOf sp) n L i ≤ cut (idxOf sp) n L j := mono_of_step (cut_step hT.node L (Nat.le_refl _))

omit [AddCommGroup K] [IsOrderedAddMonoid K] in
theorem TreeOk.le (hT : TreeOk n perm X coord L sp) {i : Nat} (hi : i ≤ 2 ^ L) : cut (idxOf sp) n L i ≤ n := by
  conv => rhs; rw [← cut_last (idxOf sp) n L]
  exact hT.mono _ _ hi (Nat.le_refl _)

theorem checkLeaf_spec (hT : TreeOk n perm X coord L sp) {m p : Nat} (hm : m < 2 ^ L) (hp : p < n) (hmp : cut (idxOf sp) n L m ≤ p) {j : Nat} (hj : j < 2 ^ L) (st : DupState)
    (hI : DInv n X coord eps (cut (idxOf sp) n L m) st) :
    ∃ st', checkLeaf n coord eps perm sp (2 ^ L + m) p (2 ^ L + j) st = some st' ∧ DInv n X coord eps (cut (idxOf sp) n L m) st' ∧ OnlyAt p st st' ∧
      (j < m → ∀ q, cut (idxOf sp) n L j ≤ q → q < cut (idxOf sp) n L (j + 1) → Near coord eps (X p) (X q) → Dup st' p) := by
  unfold checkLeaf
  by_cases hjm : j < m
  · rw [if_pos (by omega)]
    simp only [Option.bind_eq_bind]
    rw [beginOf_cut sp n L j _ hj (by rw [hT.len]) (by omega), endOf_cut sp n L j _ hj (by rw [hT.len]) (by omega), Option.bind_some, Option.bind_some]
    have h1 := hT.mono j (j + 1) (by omega) (by omega)
    have h2 := hT.mono (j + 1) m (by omega) (by omega)
    obtain ⟨st', e1, e2, e3, e4⟩ := check_spec hT.pts hp hmp (cut (idxOf sp) n L (j + 1) - cut (idxOf sp) n L j) (cut (idxOf sp) n L j) st (by omega) hI
    exact ⟨st', e1, e2, e3, fun _ q q1 q2 => e4 q q1 (by omega)⟩
  · rw [if_neg (by omega)]
    exact ⟨st, rfl, hI, OnlyAt.refl _ _, fun h => absurd h hjm⟩

/-- The search in the subtree of node `2^l + i` finds a near point in every leaf before `m`. -/
theorem treeSearch_spec (hT : TreeOk n perm X coord L sp) {m p : Nat} (hm : m < 2 ^ L) (hp : p < n) (hmp : cut (idxOf sp) n L m ≤ p) :
    ∀ (k l i fuel : Nat) (st : DupState), l + (k + 1) = L → i < 2 ^ l → k < fuel → DInv n X coord eps (cut (idxOf sp) n L m) st →
    ∃ st', treeSearch n coord eps perm sp (2 ^ L + m) p fuel (2 ^ l + i) st = some st' ∧ DInv n X coord eps (cut (idxOf sp) n L m) st' ∧ OnlyAt p st st' ∧
      ∀ j q, 2 ^ (k + 1) * i ≤ j → j < 2 ^ (k + 1) * (i + 1) → j < m → cut (idxOf sp) n L j ≤ q → q < cut (idxOf sp) n L (j + 1) → Near coord eps (X p) (X q) → Dup st' p := by
  intro k
  induction k with
  | zero =>
      intro l i fuel st hl hi hf hI
      obtain ⟨f, rfl⟩ : ∃ f, fuel = f + 1 := ⟨fuel - 1, by omega⟩
      obtain ⟨q, q1, q2, q3, q4, q5, q6, q7⟩ := hT.node l i (by omega) hi
      have h2L : 2 ^ L = 2 * 2 ^ l := by rw [← hl, Nat.pow_succ]; omega
      have eL : cut (idxOf sp) n l i = cut (idxOf sp) n L (2 * i) := by rw [← hl, cut_double]
      have eR : cut (idxOf sp) n l (i + 1) = cut (idxOf sp) n L (2 * i + 1 + 1) := by rw [← hl, show 2 * i + 1 + 1 = 2 * (i + 1) by omega, cut_double]
      have eM : q.index = cut (idxOf sp) n L (2 * i + 1) := by rw [← hl, cut_odd, idxOf_some q1]
      unfold treeSearch
      simp only [Option.bind_eq_bind]
      rw [hT.pts.pointAt hp, Option.bind_some, q1, Option.bind_some, hT.len]
      simp only [if_neg (by omega : ¬ 2 * (2 ^ l + i) < 2 ^ L)]
      rw [show 2 * (2 ^ l + i) = 2 ^ L + 2 * i by omega, show 2 ^ L + 2 * i + 1 = 2 ^ L + (2 * i + 1) by omega]
      obtain ⟨st1, a1, a2, a3, a4⟩ : ∃ st1, (if coord (X p) q.d ≤ q.value + eps then checkLeaf n coord eps perm sp (2 ^ L + m) p (2 ^ L + 2 * i) st else some st) = some st1 ∧
          DInv n X coord eps (cut (idxOf sp) n L m) st1 ∧ OnlyAt p st st1 ∧
          (2 * i < m → ∀ q, cut (idxOf sp) n L (2 * i) ≤ q → q < cut (idxOf sp) n L (2 * i + 1) → Near coord eps (X p) (X q) → Dup st1 p) := by
        by_cases hc : coord (X p) q.d ≤ q.value + eps
        · rw [if_pos hc]; exact checkLeaf_spec hT hm hp hmp (by omega) st hI
        · rw [if_neg hc]
          refine ⟨st, rfl, hI, OnlyAt.refl _ _, ?_⟩
          intro _ r r1 r2 hn
          have hrn : r < n := Nat.lt_of_lt_of_le r2 (hT.le (by omega))
          exact absurd (le_trans (hn q.d q5).1 (add_le_add_left (q6 r _ (by omega) (by omega) (hT.pts.get r hrn)) eps)) hc
      obtain ⟨st2, b1, b2, b3, b4⟩ : ∃ st2, (if q.value - eps ≤ coord (X p) q.d then checkLeaf n coord eps perm sp (2 ^ L + m) p (2 ^ L + (2 * i + 1)) st1 else some st1) = some st2 ∧
          DInv n X coord eps (cut (idxOf sp) n L m) st2 ∧ OnlyAt p st1 st2 ∧
          (2 * i + 1 < m → ∀ q, cut (idxOf sp) n L (2 * i + 1) ≤ q → q < cut (idxOf sp) n L (2 * i + 1 + 1) → Near coord eps (X p) (X q) → Dup st2 p) := by
        by_cases hc : q.value - eps ≤ coord (X p) q.d
        · rw [if_pos hc]; exact checkLeaf_spec hT hm hp hmp (by omega) st1 a2
        · rw [if_neg hc]
          refine ⟨st1, rfl, a2, OnlyAt.refl _ _, ?_⟩
          intro _ r r1 r2 hn
          have hrn : r < n := Nat.lt_of_lt_of_le r2 (hT.le (by omega))
          exact absurd (sub_le_iff_le_add.2 (le_trans (le_of_lt (q7 r _ (by omega) (by omega) (hT.pts.get r hrn))) (hn q.d q5).2)) hc
      rw [a1, Option.bind_some, b1]
      refine ⟨st2, rfl, b2, a3.trans b3, ?_⟩
      intro j r j1 j2 j3 r1 r2 hn
      rw [Nat.zero_add, Nat.pow_one] at j1 j2
      by_cases hj : j = 2 * i
      · subst hj; exact b3.dup (a4 j3 r r1 r2 hn)
      · have : j = 2 * i + 1 := by omega
        subst this; exact b4 j3 r r1 r2 hn
  | succ k ih =>
      intro l i fuel st hl hi hf hI
      obtain ⟨f, rfl⟩ : ∃ f, fuel = f + 1 := ⟨fuel - 1, by omega⟩
      obtain ⟨q, q1, q2, q3, q4, q5, q6, q7⟩ := hT.node l i (by omega) hi
      have h2l : 2 ^ (l + 1) = 2 * 2 ^ l := by rw [Nat.pow_succ]; omega
      have h2L : 2 ^ (l + 2) ≤ 2 ^ L := Nat.pow_le_pow_right (by omega) (by omega)
      have h2l2 : 2 ^ (l + 2) = 4 * 2 ^ l := by rw [Nat.pow_add]; omega
      have hmono := hT.mono
      have eL : cut (idxOf sp) n l i = cut (idxOf sp) n L (2 ^ (k + 1 + 1) * i) := by rw [← hl]; exact (cut_fine _ _ _ _ _).symm
      have eR : cut (idxOf sp) n l (i + 1) = cut (idxOf sp) n L (2 ^ (k + 1 + 1) * (i + 1)) := by rw [← hl]; exact (cut_fine _ _ _ _ _).symm
      have eM : q.index = cut (idxOf sp) n L (2 ^ (k + 1) * (2 * i + 1)) := by
        rw [← idxOf_some q1, ← cut_odd (idxOf sp) n, ← hl, show l + (k + 1 + 1) = l + 1 + (k + 1) by omega]; exact (cut_fine _ _ _ _ _).symm
      have p1 : 2 ^ (k + 1 + 1) * i = 2 ^ (k + 1) * (2 * i) := by rw [Nat.pow_succ 2 (k + 1), Nat.mul_assoc]
      have p2 : 2 ^ (k + 1 + 1) * (i + 1) = 2 ^ (k + 1) * (2 * i + 1 + 1) := by rw [Nat.pow_succ 2 (k + 1), Nat.mul_assoc]; congr 1
      have m1 : 2 ^ (k + 1) * (2 * i) ≤ 2 ^ (k + 1) * (2 * i + 1) := Nat.mul_le_mul_left _ (by omega)
      have m2 : 2 ^ (k + 1) * (2 * i + 1) ≤ 2 ^ (k + 1) * (2 * i + 1 + 1) := Nat.mul_le_mul_left _ (by omega)
      have m3 : 2 ^ (k + 1) * (2 * i + 1 + 1) ≤ 2 ^ L := by
        rw [← hl, show l + (k + 1 + 1) = (k + 1) + (l + 1) by omega, Nat.pow_add 2 (k + 1)]
        exact Nat.mul_le_mul_left _ (by omega)
      unfold treeSearch
      simp only [Option.bind_eq_bind]
      rw [hT.pts.pointAt hp, Option.bind_some, q1, Option.bind_some, hT.len]
      simp only [if_pos (by omega : 2 * (2 ^ l + i) < 2 ^ L)]
      rw [show 2 * (2 ^ l + i) = 2 ^ (l + 1) + 2 * i by omega, show 2 ^ (l + 1) + 2 * i + 1 = 2 ^ (l + 1) + (2 * i + 1) by omega]
      obtain ⟨st1, a1, a2, a3, a4⟩ : ∃ st1, (if coord (X p) q.d ≤ q.value + eps then treeSearch n coord eps perm sp (2 ^ L + m) p f (2 ^ (l + 1) + 2 * i) st else some st) = some st1 ∧
          DInv n X coord eps (cut (idxOf sp) n L m) st1 ∧ OnlyAt p st st1 ∧
          ∀ j q, 2 ^ (k + 1) * (2 * i) ≤ j → j < 2 ^ (k + 1) * (2 * i + 1) → j < m → cut (idxOf sp) n L j ≤ q → q < cut (idxOf sp) n L (j + 1) → Near coord eps (X p) (X q) → Dup st1 p := by
        by_cases hc : coord (X p) q.d ≤ q.value + eps
        · rw [if_pos hc]; exact ih (l + 1) (2 * i) f st (by omega) (by omega) (by omega) hI
        · rw [if_neg hc]
          refine ⟨st, rfl, hI, OnlyAt.refl _ _, ?_⟩
          intro j r j1 j2 _ r1 r2 hn
          have hrn : r < n := Nat.lt_of_lt_of_le r2 (hT.le (by omega))
          have c1 := hmono _ _ j1 (by omega)
          have c2 := hmono (j + 1) _ j2 (by omega)
          exact absurd (le_trans (hn q.d q5).1 (add_le_add_left (q6 r _ (by rw [eL, p1]; omega) (by omega) (hT.pts.get r hrn)) eps)) hc
      obtain ⟨st2, b1, b2, b3, b4⟩ : ∃ st2, (if q.value - eps ≤ coord (X p) q.d then treeSearch n coord eps perm sp (2 ^ L + m) p f (2 ^ (l + 1) + (2 * i + 1)) st1 else some st1) = some st2 ∧
          DInv n X coord eps (cut (idxOf sp) n L m) st2 ∧ OnlyAt p st1 st2 ∧
          ∀ j q, 2 ^ (k + 1) * (2 * i + 1) ≤ j → j < 2 ^ (k + 1) * (2 * i + 1 + 1) → j < m → cut (idxOf sp) n L j ≤ q → q < cut (idxOf sp) n L (j + 1) → Near coord eps (X p) (X q) → Dup st2 p := by
        by_cases hc : q.value - eps ≤ coord (X p) q.d
        · rw [if_pos hc]; exact ih (l + 1) (2 * i + 1) f st1 (by omega) (by omega) (by omega) a2
        · rw [if_neg hc]
          refine ⟨st1, rfl, a2, OnlyAt.refl _ _, ?_⟩
          intro j r j1 j2 _ r1 r2 hn
          have hrn : r < n := Nat.lt_of_lt_of_le r2 (hT.le (by omega))
          have c1 := hmono _ _ j1 (by omega)
          have c2 := hmono (j + 1) _ j2 (by omega)
          exact absurd (sub_le_iff_le_add.2 (le_trans (le_of_lt (q7 r _ (by omega) (by rw [eR, p2]; omega) (hT.pts.get r hrn))) (hn q.d q5).2)) hc
      rw [a1, Option.bind_some, b1]
      refine ⟨st2, rfl, b2, a3.trans b3, ?_⟩
      intro j r j1 j2 j3 r1 r2 hn
      rw [p1] at j1; rw [p2] at j2
      by_cases hj : j < 2 ^ (k + 1) * (2 * i + 1)
      · exact b3.dup (a4 j r j1 hj j3 r1 r2 hn)
      · exact b4 j r (by omega) j2 j3 r1 r2 hn

end Verif.KdTree
