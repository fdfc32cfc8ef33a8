import Verif.Proof.KdTreeBuild
/-! The nodes of the kD-tree and of the interval tree, and the traversal. -/
namespace Verif.KdTree

open Verif.Csx

variable {K : Type} [LinearOrder K]

/-- The specification of `std::sort` with the comparator `compxyz`. -/
def IsSort (coord : Nat → Nat → K) (srt : List Nat → List Nat) : Prop := ∀ l, (srt l).Perm l ∧ (srt l).Pairwise fun a b => compxyz coord b a = false

/-- The points at the positions `[a, c)` are sorted. -/
def SortedIn (coord : Nat → Nat → K) (a c : Nat) (perm : List Nat) : Prop :=
  ∀ p r x y, a ≤ p → p < r → r < c → perm[p]? = some x → perm[r]? = some y → compxyz coord y x = false

theorem SortedIn.congr {coord : Nat → Nat → K} {a c : Nat} {perm perm' : List Nat} (h : SortedIn coord a c perm) (he : ∀ p, a ≤ p → p < c → perm'[p]? = perm[p]?) : SortedIn coord a c perm' := by
  intro p r x y h1 h2 h3 hx hy
  rw [he p h1 (by omega)] at hx
  rw [he r (by omega) h3] at hy
  exact h p r x y h1 h2 h3 hx hy

theorem sortPart_spec {n : Nat} {coord : Nat → Nat → K} {srt : List Nat → List Nat} (hs : IsSort coord srt) {perm : List Nat} (hv : Valid n perm) {b e : Nat} (hbe : b ≤ e)
    (he : e ≤ perm.length) : ∃ perm', sortPart n srt perm b e = some perm' ∧ PermIn b e perm perm' ∧ SortedIn coord b e perm' := by
  obtain ⟨h1, h2⟩ := hs ((perm.take e).drop b)
  unfold sortPart
  rw [if_pos ⟨hbe, he, hv.slice b e⟩]
  refine ⟨_, rfl, PermIn.ofSlice hbe he h1, ?_⟩
  have hlen : (srt ((perm.take e).drop b)).length = e - b := by rw [h1.length_eq, List.length_drop, List.length_take]; omega
  intro p r x y p1 p2 p3 hx hy
  rw [show p = b + (p - b) by omega, slice_insert hbe he (by omega)] at hx
  rw [show r = b + (r - b) by omega, slice_insert hbe he (by omega)] at hy
  obtain ⟨i1, i2⟩ := List.getElem?_eq_some_iff.1 hx
  obtain ⟨j1, j2⟩ := List.getElem?_eq_some_iff.1 hy
  have := List.pairwise_iff_getElem.1 h2 (p - b) (r - b) i1 j1 (by omega)
  rw [i2, j2] at this
  exact this

theorem kdNode_spec {n levels : Nat} {nth : (Nat → K) → List Nat → Nat → List Nat} (hnth : IsNth nth) {coord : Nat → Nat → K} {srt : List Nat → List Nat} (hsrt : IsSort coord srt) (zero : K)
    (dim : Nat → Nat) :
    NodeSpec n (kdNode n levels nth srt coord zero dim) (fun l q x => coord x (dim l) ≤ q.value) (fun l q x => q.value < coord x (dim l)) (fun l q => q.d = dim l)
      (fun l b e q perm => b ≤ q.index ∧ q.index ≤ e ∧ (l + 1 = levels → SortedIn coord b q.index perm ∧ SortedIn coord q.index e perm)) where
  run := by
    intro ll b e perm hv hbe he
    obtain ⟨perm1, s, v, e1, e2, e3, e4, e5, e6, e7, _⟩ := splitNode_spec n nth hnth (fun x => coord x (dim ll)) (fun _ perm idx => keyAt n (fun x => coord x (dim ll)) perm idx) (by
      intro v l p x hvl hx hxv
      obtain ⟨p1, p2⟩ := List.getElem?_eq_some_iff.1 hx
      rw [keyAt_valid hvl _ p1, p2, hxv]) zero (dim ll) b e perm hv hbe he
    have hv1 := hv.perm e2.1
    have hl1 := e2.length
    unfold kdNode
    simp only [Option.bind_eq_bind]
    rw [e1, Option.bind_some]
    dsimp only
    by_cases hl : ll + 1 = levels
    · rw [show (ll + 1 == levels) = true from beq_iff_eq.2 hl, cond_true]
      obtain ⟨perm2, f1, f2, f3⟩ := sortPart_spec hsrt hv1 e3 (by omega)
      have hl2 := f2.length
      obtain ⟨perm3, g1, g2, g3⟩ := sortPart_spec hsrt (hv1.perm f2.1) e4 (by omega)
      rw [f1, Option.bind_some, g1, Option.bind_some]
      refine ⟨perm3, _, rfl, (e2.trans (f2.mono (Nat.le_refl _) e4)).trans (g2.mono e3 (Nat.le_refl _)), e3, e4, e5, rfl, ?_, ?_, e3, e4, fun _ => ⟨?_, g3⟩⟩
      · exact keep_between g2 (by omega) (Or.inr (Or.inr (Nat.le_refl _))) (keep_between f2 (by omega) (Or.inl ⟨Nat.le_refl _, Nat.le_refl _⟩) e6)
      · exact keep_between g2 (by omega) (Or.inl ⟨Nat.le_refl _, Nat.le_refl _⟩) (keep_between f2 (by omega) (Or.inr (Or.inl (Nat.le_refl _))) e7)
      · exact f3.congr fun p _ h => g2.2 p (Or.inl h)
    · rw [show (ll + 1 == levels) = false from beq_eq_false_iff_ne.2 hl, cond_false]
      exact ⟨perm1, _, rfl, e2, e3, e4, e5, rfl, e6, e7, e3, e4, fun h => absurd h hl⟩
  stable := by
    intro ll b e q perm perm' ⟨h1, h2, h3⟩ he
    refine ⟨h1, h2, fun hl => ⟨(h3 hl).1.congr fun p p1 p2 => he p p1 (by omega), (h3 hl).2.congr fun p p1 p2 => he p (by omega) p2⟩⟩

theorem itNode_spec {n : Nat} {nth : (Nat → K) → List Nat → Nat → List Nat} (hnth : IsNth nth) (istart iend : Nat → Nat → K) (zero : K) (dim : Nat → Nat) :
    NodeSpec n (itNode n nth istart iend zero dim) (fun l q x => iend x (dim l) ≤ q.value) (fun l q x => q.value < iend x (dim l) ∧ q.start ≤ istart x (dim l))
      (fun l q => q.d = dim l ∧ q.start ≤ q.value) (fun _ _ _ _ _ => True) where
  run := by
    intro ll b e perm hv hbe he
    obtain ⟨perm1, s, v, e1, e2, e3, e4, e5, e6, e7, _⟩ := splitNode_spec n nth hnth (fun x => iend x (dim ll)) (fun v _ _ => some v) (fun v l p x _ _ _ => rfl)
      zero (dim ll) b e perm hv hbe he
    have hv1 := hv.perm e2.1
    have hl1 := e2.length
    unfold itNode
    simp only [Option.bind_eq_bind]
    rw [e1, Option.bind_some]
    dsimp only
    obtain ⟨st, f1, f2, f3⟩ := forLoop_inv e4 v (fun c start => (keyAt n (fun x => istart x (dim ll)) perm1 c).bind fun x => some (min start x))
      (fun c st => st ≤ v ∧ ∀ p x, s ≤ p → p < c → perm1[p]? = some x → st ≤ istart x (dim ll)) ⟨le_refl _, fun p x h1 h2 => by omega⟩ (by
        intro c h1 h2 st ⟨i1, i2⟩
        have hc : c < perm1.length := by omega
        rw [keyAt_valid hv1 _ hc, Option.bind_some]
        refine ⟨_, rfl, le_trans (min_le_left _ _) i1, ?_⟩
        intro p x p1 p2 hx
        by_cases hpc : p = c
        · subst hpc
          rw [List.getElem?_eq_getElem hc] at hx; cases hx
          exact min_le_right _ _
        · exact le_trans (min_le_left _ _) (i2 p x p1 (by omega) hx))
    rw [f1, Option.bind_some]
    exact ⟨perm1, _, rfl, e2, e3, e4, e5, ⟨rfl, f2⟩, e6, fun p x p1 p2 hx => ⟨e7 p x p1 p2 hx, f3 p x p1 p2 hx⟩, trivial⟩
  stable := fun _ _ _ _ _ _ h _ => h

section Traverse

variable {n L : Nat} {istart iend : Nat → Nat → K} {dim : Nat → Nat} {sp : List (Splitter K)} {perm : List Nat}

/-- The traversal from node `2^l + i` visits leaves of its subtree in the increasing order, among them all that hold a box overlapping the query. -/
theorem traverse_spec (hlen : sp.length = 2 ^ L)
    (hok : ∀ l i, l < L → i < 2 ^ l → NodeOk n (fun l q x => iend x (dim l) ≤ q.value) (fun l q x => q.value < iend x (dim l) ∧ q.start ≤ istart x (dim l))
      (fun l q => q.d = dim l ∧ q.start ≤ q.value) sp perm l i) (s e : Nat → K) : ∀ (k l i fuel : Nat) (acc : List Nat), l + k = L → i < 2 ^ l → k < fuel →
    ∃ out, traverse sp s e fuel (2 ^ l + i) acc = some (acc ++ out) ∧ (∀ a ∈ out, 2 ^ L + 2 ^ k * i ≤ a ∧ a < 2 ^ L + 2 ^ k * (i + 1)) ∧ out.Pairwise (· < ·) ∧
      ∀ j p x, 2 ^ k * i ≤ j → j < 2 ^ k * (i + 1) → cut (idxOf sp) n L j ≤ p → p < cut (idxOf sp) n L (j + 1) → perm[p]? = some x →
        (∀ d, istart x d < e d ∧ s d < iend x d) → 2 ^ L + j ∈ out := by
  intro k
  induction k with
  | zero =>
      intro l i fuel acc hl hi hf
      obtain ⟨f, rfl⟩ : ∃ f, fuel = f + 1 := ⟨fuel - 1, by omega⟩
      have : l = L := by omega
      subst this
      unfold traverse
      rw [if_neg (by omega)]
      refine ⟨[2 ^ l + i], rfl, ?_, List.pairwise_singleton _ _, ?_⟩
      · intro a ha
        rw [List.mem_singleton] at ha
        subst ha
        rw [Nat.pow_zero, Nat.one_mul, Nat.one_mul]; omega
      · intro j p x h1 h2 _ _ _ _
        rw [Nat.pow_zero, Nat.one_mul] at h1 h2
        rw [List.mem_singleton]; omega
  | succ k ih =>
      intro l i fuel acc hl hi hf
      obtain ⟨f, rfl⟩ : ∃ f, fuel = f + 1 := ⟨fuel - 1, by omega⟩
      have h2l : 2 ^ (l + 1) = 2 * 2 ^ l := by rw [Nat.pow_succ]; omega
      have h2L : 2 ^ (l + 1) ≤ 2 ^ L := Nat.pow_le_pow_right (by omega) (by omega)
      obtain ⟨q, q1, q2, q3, q4, ⟨q5, _⟩, q6, q7⟩ := hok l i (by omega) hi
      have hmono := mono_of_step (cut_step hok L (Nat.le_refl _))
      have eL : cut (idxOf sp) n l i = cut (idxOf sp) n L (2 ^ (k + 1) * i) := by rw [← hl]; exact (cut_fine _ _ _ _ _).symm
      have eR : cut (idxOf sp) n l (i + 1) = cut (idxOf sp) n L (2 ^ (k + 1) * (i + 1)) := by rw [← hl]; exact (cut_fine _ _ _ _ _).symm
      have eM : q.index = cut (idxOf sp) n L (2 ^ k * (2 * i + 1)) := by
        rw [← idxOf_some q1, ← cut_odd (idxOf sp) n, ← hl, show l + (k + 1) = l + 1 + k by omega]; exact (cut_fine _ _ _ _ _).symm
      have p1 : 2 ^ (k + 1) * i = 2 ^ k * (2 * i) := by rw [Nat.pow_succ, Nat.mul_assoc]
      have p2 : 2 ^ (k + 1) * (i + 1) = 2 ^ k * (2 * i + 1 + 1) := by rw [Nat.pow_succ, Nat.mul_assoc]; congr 1
      have m1 : 2 ^ k * (2 * i) ≤ 2 ^ k * (2 * i + 1) := Nat.mul_le_mul_left _ (by omega)
      have m2 : 2 ^ k * (2 * i + 1) ≤ 2 ^ k * (2 * i + 1 + 1) := Nat.mul_le_mul_left _ (by omega)
      have m3 : 2 ^ k * (2 * i + 1 + 1) ≤ 2 ^ L := by
        rw [← hl, show l + (k + 1) = k + (l + 1) by omega, Nat.pow_add]
        exact Nat.mul_le_mul_left _ (by omega)
      unfold traverse
      rw [if_pos (by omega)]
      simp only [Option.bind_eq_bind]
      rw [q1, Option.bind_some]
      obtain ⟨out1, a1, a2, a3, a4⟩ : ∃ out1, (if s q.d < q.value then traverse sp s e f (2 * (2 ^ l + i)) acc else some acc) = some (acc ++ out1) ∧
          (∀ a ∈ out1, 2 ^ L + 2 ^ k * (2 * i) ≤ a ∧ a < 2 ^ L + 2 ^ k * (2 * i + 1)) ∧ out1.Pairwise (· < ·) ∧
          ∀ j p x, 2 ^ k * (2 * i) ≤ j → j < 2 ^ k * (2 * i + 1) → cut (idxOf sp) n L j ≤ p → p < cut (idxOf sp) n L (j + 1) → perm[p]? = some x →
            (∀ d, istart x d < e d ∧ s d < iend x d) → 2 ^ L + j ∈ out1 := by
        by_cases hc : s q.d < q.value
        · rw [if_pos hc, show 2 * (2 ^ l + i) = 2 ^ (l + 1) + 2 * i by omega]
          exact ih (l + 1) (2 * i) f acc (by omega) (by omega) (by omega)
        · rw [if_neg hc]
          refine ⟨[], by rw [List.append_nil], (by intro a h; cases h), List.Pairwise.nil, ?_⟩
          intro j p x h1 h2 h3 h4 hx ho
          exfalso; apply hc
          rw [q5]
          refine lt_of_lt_of_le (ho (dim l)).2 (q6 p x ?_ ?_ hx)
          · rw [eL, p1]; exact Nat.le_trans (hmono _ _ h1 (by omega)) h3
          · rw [eM]; exact Nat.lt_of_lt_of_le h4 (hmono _ _ (by omega) (by omega))
      obtain ⟨out2, b1, b2, b3, b4⟩ : ∃ out2, (if q.start < e q.d then traverse sp s e f (2 * (2 ^ l + i) + 1) (acc ++ out1) else some (acc ++ out1)) = some (acc ++ out1 ++ out2) ∧
          (∀ a ∈ out2, 2 ^ L + 2 ^ k * (2 * i + 1) ≤ a ∧ a < 2 ^ L + 2 ^ k * (2 * i + 1 + 1)) ∧ out2.Pairwise (· < ·) ∧
          ∀ j p x, 2 ^ k * (2 * i + 1) ≤ j → j < 2 ^ k * (2 * i + 1 + 1) → cut (idxOf sp) n L j ≤ p → p < cut (idxOf sp) n L (j + 1) → perm[p]? = some x →
            (∀ d, istart x d < e d ∧ s d < iend x d) → 2 ^ L + j ∈ out2 := by
        by_cases hc : q.start < e q.d
        · rw [if_pos hc, show 2 * (2 ^ l + i) + 1 = 2 ^ (l + 1) + (2 * i + 1) by omega]
          exact ih (l + 1) (2 * i + 1) f (acc ++ out1) (by omega) (by omega) (by omega)
        · rw [if_neg hc]
          refine ⟨[], by rw [List.append_nil], (by intro a h; cases h), List.Pairwise.nil, ?_⟩
          intro j p x h1 h2 h3 h4 hx ho
          exfalso; apply hc
          rw [q5]
          refine lt_of_le_of_lt (q7 p x ?_ ?_ hx).2 (ho (dim l)).1
          · rw [eM]; exact Nat.le_trans (hmono _ _ h1 (by omega)) h3
          · rw [eR, p2]; exact Nat.lt_of_lt_of_le h4 (hmono _ _ (by omega) (by omega))
      rw [a1, Option.bind_some, b1]
      refine ⟨out1 ++ out2, by rw [List.append_assoc], ?_, ?_, ?_⟩
      · intro a ha
        rw [p1, p2]
        rcases List.mem_append.1 ha with h | h
        · have := a2 a h; omega
        · have := b2 a h; omega
      · rw [List.pairwise_append]
        exact ⟨a3, b3, fun x hx y hy => by have := a2 x hx; have := b2 y hy; omega⟩
      · intro j p x h1 h2 h3 h4 hx ho
        rw [p1] at h1; rw [p2] at h2
        by_cases hj : j < 2 ^ k * (2 * i + 1)
        · exact List.mem_append_left _ (a4 j p x h1 hj h3 h4 hx ho)
        · exact List.mem_append_right _ (b4 j p x (by omega) h2 h3 h4 hx ho)

end Traverse

/-- A lower bound of the coordinates of the points in a node. -/
theorem boxMin_spec {n : Nat} {PL PR : Nat → Splitter K → Nat → Prop} {G : Nat → Splitter K → Prop} {sp : List (Splitter K)} {perm : List Nat} {L : Nat} (coord : Nat → Nat → K)
    (hok : ∀ l i, l < L → i < 2 ^ l → NodeOk n PL PR G sp perm l i) (hR : ∀ l q x, G l q → PR l q x → q.value < coord x q.d) :
    ∀ (l i fuel : Nat) (min : Nat → K), l ≤ L → i < 2 ^ l → 2 ^ l + i < fuel →
      ∃ min', boxMin sp fuel (2 ^ l + i) min = some min' ∧ (∀ d, min d ≤ min' d) ∧
        ∀ p x, cut (idxOf sp) n l i ≤ p → p < cut (idxOf sp) n l (i + 1) → perm[p]? = some x → (∀ d, min d ≤ coord x d) → ∀ d, min' d ≤ coord x d := by
  intro l
  induction l with
  | zero =>
      intro i fuel min _ hi hf
      obtain ⟨f, rfl⟩ : ∃ f, fuel = f + 1 := ⟨fuel - 1, by omega⟩
      have : i = 0 := by simpa using hi
      subst this
      unfold boxMin
      exact ⟨min, rfl, fun _ => le_refl _, fun _ _ _ _ _ h => h⟩
  | succ l ih =>
      intro i fuel min hl hi hf
      obtain ⟨f, rfl⟩ : ∃ f, fuel = f + 1 := ⟨fuel - 1, by omega⟩
      have h2l : 2 ^ (l + 1) = 2 * 2 ^ l := by rw [Nat.pow_succ]; omega
      have h0 : 0 < 2 ^ l := Nat.two_pow_pos l
      obtain ⟨q, q1, q2, q3, q4, q5, q6, q7⟩ := hok l (i / 2) (by omega) (by omega)
      have hdiv : (2 ^ (l + 1) + i) / 2 = 2 ^ l + i / 2 := by omega
      unfold boxMin
      dsimp only
      rw [hdiv, if_neg (by omega)]
      by_cases hm : i % 2 = 0
      · rw [if_neg (by omega)]
        obtain ⟨min', a1, a2, a3⟩ := ih (i / 2) f min (by omega) (by omega) (by omega)
        refine ⟨min', a1, a2, ?_⟩
        intro p x h1 h2 hx hlow
        obtain ⟨j, rfl⟩ : ∃ j, i = 2 * j := ⟨i / 2, by omega⟩
        rw [show 2 * j / 2 = j by omega] at q1 q2 q3 a3
        rw [cut_double] at h1
        rw [cut_odd, idxOf_some q1] at h2
        exact a3 p x h1 (by omega) hx hlow
      · rw [if_pos (by omega)]
        simp only [Option.bind_eq_bind]
        rw [q1, Option.bind_some]
        obtain ⟨min', a1, a2, a3⟩ := ih (i / 2) f (fun d => if d = q.d ∧ min q.d < q.value then q.value else min d) (by omega) (by omega) (by omega)
        refine ⟨min', a1, ?_, ?_⟩
        · intro d
          refine le_trans ?_ (a2 d)
          by_cases hd : d = q.d ∧ min q.d < q.value
          · rw [if_pos hd, hd.1]; exact le_of_lt hd.2
          · rw [if_neg hd]
        · intro p x h1 h2 hx hlow
          obtain ⟨j, rfl⟩ : ∃ j, i = 2 * j + 1 := ⟨i / 2, by omega⟩
          rw [show (2 * j + 1) / 2 = j by omega] at q1 q2 q3 q7 a3
          rw [cut_odd, idxOf_some q1] at h1
          rw [show 2 * j + 1 + 1 = 2 * (j + 1) by omega, cut_double] at h2
          refine a3 p x (by omega) h2 hx ?_
          intro d
          by_cases hd : d = q.d ∧ min q.d < q.value
          · rw [if_pos hd, hd.1]; exact le_of_lt (hR l q x q5 (q7 p x h1 h2 hx))
          · rw [if_neg hd]; exact hlow d

end Verif.KdTree
