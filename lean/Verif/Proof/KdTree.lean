import Verif.Model.KdTree
import Verif.Proof.CsxConvert
/-! Splitting the node of a tree. -/
namespace Verif.KdTree

open Verif.Csx

variable {K : Type}

/-- `l'` is `l` permuted inside of the positions `[b, e)`. -/
def PermIn (b e : Nat) (l l' : List Nat) : Prop := l'.Perm l ∧ ∀ p, p < b ∨ e ≤ p → l'[p]? = l[p]?

theorem PermIn.refl (b e : Nat) (l : List Nat) : PermIn b e l l := ⟨List.Perm.refl _, fun _ _ => rfl⟩

theorem PermIn.trans {b e : Nat} {l l' l'' : List Nat} (h1 : PermIn b e l l') (h2 : PermIn b e l' l'') : PermIn b e l l'' :=
  ⟨h2.1.trans h1.1, fun p hp => (h2.2 p hp).trans (h1.2 p hp)⟩

theorem PermIn.mono {b e b' e' : Nat} {l l' : List Nat} (h : PermIn b e l l') (hb : b' ≤ b) (he : e ≤ e') : PermIn b' e' l l' :=
  ⟨h.1, fun p hp => h.2 p (by omega)⟩

theorem PermIn.length {b e : Nat} {l l' : List Nat} (h : PermIn b e l l') : l'.length = l.length := h.1.length_eq

theorem PermIn.slice {b e : Nat} {l l' : List Nat} (h : PermIn b e l l') (hbe : b ≤ e) : ((l'.take e).drop b).Perm ((l.take e).drop b) := by
  have hl := h.length
  have split : ∀ m : List Nat, m = m.take b ++ ((m.take e).drop b ++ m.drop e) := by
    intro m
    rw [← List.append_assoc, show m.take b = (m.take e).take b by rw [List.take_take, Nat.min_eq_left hbe], List.take_append_drop, List.take_append_drop]
  have h1 : l'.take b = l.take b := by
    apply List.ext_getElem?
    intro p
    rw [List.getElem?_take, List.getElem?_take]
    by_cases hp : p < b
    · rw [if_pos hp, if_pos hp, h.2 p (Or.inl hp)]
    · rw [if_neg hp, if_neg hp]
  have h2 : l'.drop e = l.drop e := by
    apply List.ext_getElem?
    intro p
    rw [List.getElem?_drop, List.getElem?_drop, h.2 _ (Or.inr (by omega))]
  have hp := h.1
  rw [split l', split l, h1, h2] at hp
  exact (List.perm_append_right_iff _).1 ((List.perm_append_left_iff _).1 hp)

theorem slice_get (l : List Nat) {b e p : Nat} (h1 : b ≤ p) (h2 : p < e) : ((l.take e).drop b)[p - b]? = l[p]? := by
  rw [List.getElem?_drop, List.getElem?_take, show b + (p - b) = p by omega, if_pos h2]

theorem PermIn.inside {b e : Nat} {l l' : List Nat} (h : PermIn b e l l') (he : e ≤ l.length) {p x : Nat} (h1 : b ≤ p) (h2 : p < e) (hx : l'[p]? = some x) :
    ∃ q, b ≤ q ∧ q < e ∧ l[q]? = some x := by
  have hs := h.slice (by omega)
  have hm : x ∈ (l'.take e).drop b := by
    apply List.mem_of_getElem? (i := p - b)
    rw [slice_get l' h1 h2, hx]
  obtain ⟨i, hi⟩ := List.mem_iff_getElem?.1 (hs.mem_iff.1 hm)
  have hil := (List.getElem?_eq_some_iff.1 hi).1
  rw [List.length_drop, List.length_take] at hil
  refine ⟨b + i, by omega, by omega, ?_⟩
  rw [← slice_get l (b := b) (e := e) (by omega) (by omega), Nat.add_sub_cancel_left]
  exact hi

theorem PermIn.ofSlice {b e : Nat} {l S : List Nat} (hbe : b ≤ e) (he : e ≤ l.length) (hS : S.Perm ((l.take e).drop b)) : PermIn b e l (l.take b ++ S ++ l.drop e) := by
  have hSl : S.length = e - b := by rw [hS.length_eq, List.length_drop, List.length_take]; omega
  have hl1 : (l.take b).length = b := by rw [List.length_take]; omega
  constructor
  · have : l = l.take b ++ (l.take e).drop b ++ l.drop e := by
      rw [show l.take b = (l.take e).take b by rw [List.take_take, Nat.min_eq_left hbe], List.take_append_drop, List.take_append_drop]
    conv => rhs; rw [this]
    exact (List.Perm.append_left _ hS).append_right _
  · intro p hp
    rcases hp with hp | hp
    · rw [List.append_assoc, List.getElem?_append_left (by omega), List.getElem?_take, if_pos hp]
    · rw [List.getElem?_append_right (by rw [List.length_append]; omega), List.getElem?_drop, List.length_append, hl1, hSl]
      congr 1; omega

theorem slice_insert {b e : Nat} {l S : List Nat} (hbe : b ≤ e) (he : e ≤ l.length) {i : Nat} (hi : i < S.length) :
    (l.take b ++ S ++ l.drop e)[b + i]? = S[i]? := by
  have hl1 : (l.take b).length = b := by rw [List.length_take]; omega
  rw [List.append_assoc, List.getElem?_append_right (by omega), hl1, Nat.add_sub_cancel_left, List.getElem?_append_left hi]

/-- All positions hold points. -/
def Valid (n : Nat) (l : List Nat) : Prop := ∀ x ∈ l, x < n

theorem Valid.perm {n : Nat} {l l' : List Nat} (h : Valid n l) (hp : l'.Perm l) : Valid n l' := fun x hx => h x (hp.mem_iff.1 hx)

theorem Valid.slice {n : Nat} {l : List Nat} (h : Valid n l) (b e : Nat) : ((l.take e).drop b).all (fun x => decide (x < n)) = true := by
  rw [List.all_eq_true]
  intro x hx
  exact decide_eq_true (h x (List.mem_of_mem_take (List.mem_of_mem_drop hx)))

theorem keyAt_valid {n : Nat} {l : List Nat} (h : Valid n l) (key : Nat → K) {p : Nat} (hp : p < l.length) : keyAt n key l p = some (key l[p]) := by
  unfold keyAt
  simp only [Option.bind_eq_bind]
  rw [List.getElem?_eq_getElem hp, Option.bind_some, if_pos (h _ (List.getElem_mem hp))]

/-- The specification of `std::nth_element` for the order given by a key. -/
def IsNth [LE K] (nth : (Nat → K) → List Nat → Nat → List Nat) : Prop := ∀ key l k, (nth key l k).Perm l ∧
  ∀ i j x y, k < l.length → (nth key l k)[i]? = some x → (nth key l k)[j]? = some y → (i ≤ k ∧ k ≤ j) → key x ≤ key y

variable [LinearOrder K]

theorem moveMid_spec (n : Nat) (key : Nat → K) (cur : List Nat → Nat → Option K) (perm : List Nat) (hv : Valid n perm) (e : Nat) (he : e ≤ perm.length) (v : K)
    (hcur : ∀ (l : List Nat) (p : Nat) (x : Nat), Valid n l → l[p]? = some x → key x = v → cur l p = some v) : ∀ (fuel idx : Nat), idx < e → e < idx + fuel + 1 →
    (∃ x, perm[idx]? = some x ∧ key x = v) →
    ∃ idx', moveMid n key cur perm e fuel idx = some idx' ∧ idx ≤ idx' ∧ idx' < e ∧ (∀ p x, idx ≤ p → p ≤ idx' → perm[p]? = some x → key x = v) ∧
      (∀ x, idx' + 1 < e → perm[idx' + 1]? = some x → key x ≠ v) := by
  intro fuel
  induction fuel with
  | zero => intro idx h1 h2; omega
  | succ fuel ih =>
      intro idx h1 h2 ⟨x, hx, hxv⟩
      unfold moveMid
      by_cases hlt : idx + 1 < e
      · have hy : idx + 1 < perm.length := by omega
        rw [if_pos hlt]
        simp only [Option.bind_eq_bind]
        rw [hcur perm idx x hv hx hxv, keyAt_valid hv key hy, Option.bind_some, Option.bind_some]
        by_cases heq : v = key perm[idx + 1]
        · rw [if_pos heq]
          obtain ⟨idx', e1, e2, e3, e4, e5⟩ := ih (idx + 1) hlt (by omega) ⟨_, List.getElem?_eq_getElem hy, heq.symm⟩
          refine ⟨idx', e1, by omega, e3, ?_, e5⟩
          intro p z hp1 hp2 hz
          by_cases hpi : p = idx
          · subst hpi; rw [hx] at hz; cases hz; exact hxv
          · exact e4 p z (by omega) hp2 hz
        · rw [if_neg heq]
          refine ⟨idx, rfl, Nat.le_refl _, h1, ?_, ?_⟩
          · intro p z hp1 hp2 hz
            have : p = idx := by omega
            subst this; rw [hx] at hz; cases hz; exact hxv
          · intro z _ hz
            rw [List.getElem?_eq_getElem hy] at hz
            cases hz
            exact fun h => heq h.symm
      · rw [if_neg hlt]
        refine ⟨idx, rfl, Nat.le_refl _, h1, ?_, fun z h => absurd h hlt⟩
        intro p z hp1 hp2 hz
        have : p = idx := by omega
        subst this; rw [hx] at hz; cases hz; exact hxv

theorem swap_permIn {b e i j : Nat} {l : List Nat} (hi : i < l.length) (hj : j < l.length) (h1 : b ≤ i) (h2 : i < e) (h3 : b ≤ j) (h4 : j < e) :
    PermIn b e l ((l.set i l[j]).set j l[i]) := by
  refine ⟨List.set_set_perm hi hj, ?_⟩
  intro p hp
  rw [getElem?_set' _ _ _ _ (by rw [List.length_set]; exact hj), if_neg (by omega), getElem?_set' _ _ _ _ hi, if_neg (by omega)]

theorem gather_spec (n : Nat) (key : Nat → K) (cur : List Nat → Nat → Option K) (b e : Nat) (v : K)
    (hcur : ∀ (l : List Nat) (p : Nat) (x : Nat), Valid n l → l[p]? = some x → key x = v → cur l p = some v) : ∀ (fuel idx c : Nat) (perm : List Nat), Valid n perm →
    e ≤ perm.length → b ≤ idx → idx < e → idx < c → (e - c) + (e - idx) < fuel → (∃ x, perm[idx]? = some x ∧ key x = v) →
    (∀ p x, b ≤ p → p ≤ idx → perm[p]? = some x → key x ≤ v) → (∀ p x, idx < p → (p < c ∨ p = idx + 1) → p < e → perm[p]? = some x → v < key x) →
    (∀ p x, c ≤ p → p < e → perm[p]? = some x → v ≤ key x) →
    ∃ idx' perm', gather n key cur e fuel idx c perm = some (idx', perm') ∧ PermIn b e perm perm' ∧ idx ≤ idx' ∧ idx' < e ∧
      (∀ p x, b ≤ p → p ≤ idx' → perm'[p]? = some x → key x ≤ v) ∧ ∀ p x, idx' < p → p < e → perm'[p]? = some x → v < key x := by
  intro fuel
  induction fuel with
  | zero => intro idx c perm _ _ _ _ _ h; omega
  | succ fuel ih =>
      intro idx c perm hv hel hb hie hic hf hat hlow hmid hhigh
      unfold gather
      by_cases hce : c < e
      · have hcl : c < perm.length := by omega
        have hil : idx + 1 < perm.length := by omega
        rw [if_pos hce]
        simp only [Option.bind_eq_bind]
        obtain ⟨x0, hx0, hx0v⟩ := hat
        rw [hcur perm idx x0 hv hx0 hx0v, keyAt_valid hv key hcl, Option.bind_some, Option.bind_some]
        by_cases heq : v = key perm[c]
        · have hc1 : c ≠ idx + 1 := by
            intro h
            subst h
            exact absurd heq (ne_of_lt (hmid (idx + 1) _ (by omega) (Or.inr rfl) hce (List.getElem?_eq_getElem hcl)))
          rw [if_pos heq, List.getElem?_eq_getElem hil, List.getElem?_eq_getElem hcl, Option.bind_some, Option.bind_some, wr_eq_some hil, Option.bind_some,
            wr_eq_some (by rw [List.length_set]; exact hcl), Option.bind_some]
          have hP : PermIn b e perm ((perm.set (idx + 1) perm[c]).set c perm[idx + 1]) := swap_permIn hil hcl (by omega) (by omega) (by omega) hce
          have hget : ∀ p, ((perm.set (idx + 1) perm[c]).set c perm[idx + 1])[p]? = if c = p then some perm[idx + 1] else if idx + 1 = p then some perm[c] else perm[p]? := by
            intro p
            rw [getElem?_set' _ _ _ _ (by rw [List.length_set]; exact hcl), getElem?_set' _ _ _ _ hil]
          obtain ⟨idx', perm', e1, e2, e3, e4, e5, e6⟩ := ih (idx + 1) c ((perm.set (idx + 1) perm[c]).set c perm[idx + 1]) (hv.perm hP.1) (by rw [hP.length]; exact hel) (by omega)
            (by omega) (by omega) (by omega) ⟨perm[c], by rw [hget, if_neg (by omega), if_pos rfl], heq.symm⟩ (by
              intro p x hp1 hp2 hx
              rw [hget, if_neg (by omega)] at hx
              by_cases hp : idx + 1 = p
              · rw [if_pos hp] at hx; cases hx; exact le_of_eq heq.symm
              · rw [if_neg hp] at hx; exact hlow p x hp1 (by omega) hx) (by
              intro p x hp1 hp2 hp3 hx
              rw [hget] at hx
              by_cases hp : c = p
              · rw [if_pos hp] at hx; cases hx
                exact hmid (idx + 1) _ (by omega) (Or.inr rfl) (by omega) (List.getElem?_eq_getElem hil)
              · rw [if_neg hp, if_neg (by omega)] at hx
                exact hmid p x (by omega) (by omega) hp3 hx) (by
              intro p x hp1 hp2 hx
              rw [hget] at hx
              by_cases hp : c = p
              · rw [if_pos hp] at hx; cases hx
                exact le_of_lt (hmid (idx + 1) _ (by omega) (Or.inr rfl) (by omega) (List.getElem?_eq_getElem hil))
              · rw [if_neg hp, if_neg (by omega)] at hx; exact hhigh p x hp1 hp2 hx)
          exact ⟨idx', perm', e1, hP.trans e2, by omega, e4, e5, e6⟩
        · rw [if_neg heq]
          exact ih idx (c + 1) perm hv hel hb hie (by omega) (by omega) ⟨x0, hx0, hx0v⟩ hlow (by
            intro p x hp1 hp2 hp3 hx
            by_cases hp : p = c
            · subst hp
              rw [List.getElem?_eq_getElem hcl] at hx; cases hx
              exact lt_of_le_of_ne (hhigh p _ (Nat.le_refl _) hce (List.getElem?_eq_getElem hcl)) heq
            · exact hmid p x hp1 (by omega) hp3 hx) fun p x hp1 => hhigh p x (by omega)
      · rw [if_neg hce]
        exact ⟨idx, perm, rfl, PermIn.refl _ _ _, Nat.le_refl _, hie, hlow, fun p x hp1 hp2 hx => hmid p x hp1 (by omega) hp2 hx⟩


theorem splitNode_spec (n : Nat) (nth : (Nat → K) → List Nat → Nat → List Nat) (hnth : IsNth nth) (key : Nat → K) (cur : K → List Nat → Nat → Option K)
    (hcur : ∀ (v : K) (l : List Nat) (p : Nat) (x : Nat), Valid n l → l[p]? = some x → key x = v → cur v l p = some v) (zero : K) (d b e : Nat) (perm : List Nat)
    (hv : Valid n perm) (hbe : b ≤ e) (he : e ≤ perm.length) :
    ∃ perm' s v, splitNode n nth key cur zero d b e perm = some (perm', ⟨d, s, v, zero⟩) ∧ PermIn b e perm perm' ∧ b ≤ s ∧ s ≤ e ∧ (b < e → b < s) ∧
      (∀ p x, b ≤ p → p < s → perm'[p]? = some x → key x ≤ v) ∧ (∀ p x, s ≤ p → p < e → perm'[p]? = some x → v < key x) ∧
      (b < e → ∃ p x, b ≤ p ∧ p < s ∧ perm'[p]? = some x ∧ key x = v) := by
  obtain ⟨hp1, hp2⟩ := hnth key ((perm.take e).drop b) (b + (e - b) / 2 - b)
  have hslen : ((perm.take e).drop b).length = e - b := by rw [List.length_drop, List.length_take]; omega
  have hlen1 : (nth key ((perm.take e).drop b) (b + (e - b) / 2 - b)).length = e - b := by rw [hp1.length_eq]; exact hslen
  unfold splitNode nthRange
  dsimp only
  rw [if_pos ⟨by omega, by omega, he, hv.slice b e⟩]
  have hPI := PermIn.ofSlice hbe he hp1
  have hget : ∀ i, i < e - b → (perm.take b ++ nth key ((perm.take e).drop b) (b + (e - b) / 2 - b) ++ perm.drop e)[b + i]? =
      (nth key ((perm.take e).drop b) (b + (e - b) / 2 - b))[i]? := fun i hi => slice_insert hbe he (by omega)
  generalize (nth key ((perm.take e).drop b) (b + (e - b) / 2 - b)) = S at hPI hget hlen1 hp2
  generalize hq : perm.take b ++ S ++ perm.drop e = q at hPI hget
  have hqv := hv.perm hPI.1
  have hql := hPI.length
  simp only [Option.bind_eq_bind, Option.bind_some]
  by_cases hlt : b < e
  · have hm : b + (e - b) / 2 < q.length := by omega
    have hmid := List.getElem?_eq_getElem hm
    rw [if_pos hlt, keyAt_valid hqv key hm, Option.bind_some]
    have hle : ∀ p r x y, b ≤ p → p ≤ b + (e - b) / 2 → b + (e - b) / 2 ≤ r → r < e → q[p]? = some x → q[r]? = some y → key x ≤ key y := by
      intro p r x y h1 h2 h3 h4 hx hy
      refine hp2 (p - b) (r - b) x y (by omega) ?_ ?_ (by omega)
      · rw [← hget (p - b) (by omega), show b + (p - b) = p by omega]; exact hx
      · rw [← hget (r - b) (by omega), show b + (r - b) = r by omega]; exact hy
    obtain ⟨idx, e1, e2, e3, e4, e5⟩ := moveMid_spec n key (cur (key q[b + (e - b) / 2])) q hqv e (by omega) (key q[b + (e - b) / 2]) (hcur _) (e + 1) (b + (e - b) / 2) (by omega)
      (by omega) ⟨_, hmid, rfl⟩
    rw [e1, Option.bind_some]
    obtain ⟨idx', perm', g1, g2, g3, g4, g5, g6⟩ := gather_spec n key (cur (key q[b + (e - b) / 2])) b e (key q[b + (e - b) / 2]) (hcur _) (2 * e + 1) idx (idx + 2) q hqv (by omega)
      (by omega) e3 (by omega) (by omega) ⟨q[idx], List.getElem?_eq_getElem (by omega), e4 idx _ e2 (Nat.le_refl _) (List.getElem?_eq_getElem (by omega))⟩ (by
        intro p x h1 h2 hx
        by_cases h : p ≤ b + (e - b) / 2
        · exact hle p _ x _ h1 h (Nat.le_refl _) (by omega) hx hmid
        · exact le_of_eq (e4 p x (by omega) h2 hx)) (by
        intro p x h1 h2 h3 hx
        have : p = idx + 1 := by omega
        subst this
        exact lt_of_le_of_ne (hle _ _ _ x (by omega) (Nat.le_refl _) (by omega) h3 hmid hx) (fun h => e5 x h3 hx h.symm)) (by
        intro p x h1 h2 hx
        exact hle _ _ _ x (by omega) (Nat.le_refl _) (by omega) h2 hmid hx)
    rw [g1, Option.bind_some]
    refine ⟨perm', min (idx' + 1) e, _, rfl, hPI.trans g2, by omega, by omega, fun _ => by omega, ?_, ?_, ?_⟩
    · intro p x h1 h2; exact g5 p x h1 (by omega)
    · intro p x h1 h2; exact g6 p x (by omega) h2
    · intro _
      have hsym : PermIn b e perm' q := ⟨g2.1.symm, fun p hp => (g2.2 p hp).symm⟩
      obtain ⟨r, r1, r2, r3⟩ := hsym.inside (by rw [g2.length]; omega) (p := b + (e - b) / 2) (by omega) (by omega) hmid
      refine ⟨r, _, r1, ?_, r3, rfl⟩
      by_cases hr : r ≤ idx'
      · omega
      · exact absurd (g6 r _ (by omega) r2 r3) (lt_irrefl _)
  · have hbe' : b = e := by omega
    subst hbe'
    have hz : b + (b - b) / 2 = b := by omega
    rw [if_neg hlt, Option.bind_some, hz]
    have e1 : moveMid n key (cur zero) q b (b + 1) b = some b := by
      unfold moveMid; rw [if_neg (by omega)]
    have e2 : gather n key (cur zero) b (2 * b + 1) b (b + 2) q = some (b, q) := by
      unfold gather; rw [if_neg (by omega)]
    rw [e1, Option.bind_some, e2, Option.bind_some]
    refine ⟨q, min (b + 1) b, zero, rfl, hPI, by omega, by omega, fun h => absurd h hlt, ?_, ?_, fun h => absurd h hlt⟩
    · intro p x h1 h2; omega
    · intro p x h1 h2; omega

end Verif.KdTree
