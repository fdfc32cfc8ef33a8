import Verif.Spec.KdTree
import Verif.Proof.KdTreeNode
import Mathlib.Data.List.Sort
/-!
C32: the kD-tree and the interval tree.
-/
namespace Verif.KdTree

open Verif.Csx

variable {K : Type} [LinearOrder K]

omit [LinearOrder K] in
theorem log2_node {l i : Nat} (h : i < 2 ^ l) : Nat.log2 (2 ^ l + i) = l := by
  have h0 : 0 < 2 ^ l := Nat.two_pow_pos l
  rw [Nat.log2_eq_iff (by omega)]
  rw [Nat.pow_succ]; omega

/-- The level of a node and its number in the level. -/
theorem node_split {k : Nat} (h : 1 ≤ k) : ∃ l i, k = 2 ^ l + i ∧ i < 2 ^ l := by
  have h1 := Nat.log2_self_le (n := k) (by omega)
  have h2 : k < 2 ^ (k.log2 + 1) := Nat.lt_log2_self
  rw [Nat.pow_succ] at h2
  exact ⟨k.log2, k - 2 ^ k.log2, by omega, by omega⟩

/-- The first and the last position of a node. -/
def bgOf (sp : List (Splitter K)) (n k : Nat) : Nat := cut (idxOf sp) n k.log2 (k - 2 ^ k.log2)
def enOf (sp : List (Splitter K)) (n k : Nat) : Nat := cut (idxOf sp) n k.log2 (k - 2 ^ k.log2 + 1)

omit [LinearOrder K] in
theorem bgOf_node (sp : List (Splitter K)) (n : Nat) {l i : Nat} (h : i < 2 ^ l) : bgOf sp n (2 ^ l + i) = cut (idxOf sp) n l i := by
  unfold bgOf; rw [log2_node h, Nat.add_sub_cancel_left]

omit [LinearOrder K] in
theorem enOf_node (sp : List (Splitter K)) (n : Nat) {l i : Nat} (h : i < 2 ^ l) : enOf sp n (2 ^ l + i) = cut (idxOf sp) n l (i + 1) := by
  unfold enOf; rw [log2_node h, Nat.add_sub_cancel_left]

omit [LinearOrder K] in
/-- A position lies between two successive borders. -/
theorem find_range {c : Nat → Nat} : ∀ m p, c 0 ≤ p → p < c m → ∃ i, i < m ∧ c i ≤ p ∧ p < c (i + 1) := by
  intro m
  induction m with
  | zero => intro p h1 h2; omega
  | succ m ih =>
      intro p h1 h2
      by_cases h : c m ≤ p
      · exact ⟨m, by omega, h, h2⟩
      · obtain ⟨i, i1, i2⟩ := ih p h1 (by omega)
        exact ⟨i, by omega, i2⟩

section

variable {n levels : Nat} {PL PR : Nat → Splitter K → Nat → Prop} {G : Nat → Splitter K → Prop} {sp : List (Splitter K)} {perm : List Nat}

omit [LinearOrder K] in
theorem isTree_of (hperm : perm.Perm (List.range n)) (hlen : sp.length = 2 ^ levels) (hok : ∀ l i, l < levels → i < 2 ^ l → NodeOk n PL PR G sp perm l i) :
    (∀ k, 1 ≤ k → k < 2 ^ (levels + 1) → beginOf sp (k + 1) k = some (bgOf sp n k) ∧ endOf sp n (k + 1) k = some (enOf sp n k)) ∧
      IsTree n levels perm (idxOf sp) (bgOf sp n) (enOf sp n) := by
  have lt_level : ∀ {l i m : Nat}, 2 ^ l + i < 2 ^ (m + 1) → l ≤ m := by
    intro l i m h
    by_cases hl : l ≤ m
    · exact hl
    · have : 2 ^ (m + 1) ≤ 2 ^ l := Nat.pow_le_pow_right (by omega) (by omega)
      omega
  have hmono : ∀ l, l ≤ levels → ∀ i j, i ≤ j → j ≤ 2 ^ l → cut (idxOf sp) n l i ≤ cut (idxOf sp) n l j := fun l hl => mono_of_step (cut_step hok l hl)
  refine ⟨?_, hperm, ?_, ?_, ?_, ?_, ?_⟩
  · intro k h1 h2
    obtain ⟨l, i, rfl, hi⟩ := node_split h1
    have hl := lt_level h2
    have : 2 ^ l ≤ 2 ^ levels := Nat.pow_le_pow_right (by omega) hl
    rw [bgOf_node sp n hi, enOf_node sp n hi]
    exact ⟨beginOf_cut sp n l i _ hi (by omega) (by omega), endOf_cut sp n l i _ hi (by omega) (by omega)⟩
  · exact ⟨rfl, rfl⟩
  · intro k h1 h2
    obtain ⟨l, i, rfl, hi⟩ := node_split h1
    have hl := lt_level h2
    rw [bgOf_node sp n hi, enOf_node sp n hi]
    refine ⟨hmono l hl _ _ (by omega) (by omega), ?_⟩
    conv => rhs; rw [← cut_last (idxOf sp) n l]
    exact hmono l hl _ _ (by omega) (Nat.le_refl _)
  · intro k h1 h2
    obtain ⟨l, i, rfl, hi⟩ := node_split h1
    have h2l : 2 ^ (l + 1) = 2 * 2 ^ l := by rw [Nat.pow_succ]; omega
    rw [show 2 * (2 ^ l + i) = 2 ^ (l + 1) + 2 * i by omega, show 2 ^ (l + 1) + 2 * i + 1 = 2 ^ (l + 1) + (2 * i + 1) by omega, bgOf_node sp n hi, enOf_node sp n hi,
      bgOf_node sp n (by omega), enOf_node sp n (by omega), bgOf_node sp n (by omega), enOf_node sp n (by omega), cut_double, cut_odd, show 2 * i + 1 + 1 = 2 * (i + 1) by omega, cut_double]
    exact ⟨rfl, rfl, rfl, rfl⟩
  · intro k h1 h2
    obtain ⟨l, i, rfl, hi⟩ := node_split h1
    have hl : l < levels := by
      by_cases hl : l < levels
      · exact hl
      · have : 2 ^ levels ≤ 2 ^ l := Nat.pow_le_pow_right (by omega) (by omega)
        omega
    obtain ⟨q, q1, q2, q3, q4, _⟩ := hok l i hl hi
    rw [bgOf_node sp n hi, enOf_node sp n hi, idxOf_some q1]
    exact q4
  · intro l p hl hp
    have h2l : 2 ^ (l + 1) = 2 * 2 ^ l := by rw [Nat.pow_succ]; omega
    obtain ⟨i, i1, i2, i3⟩ := find_range (c := cut (idxOf sp) n l) (2 ^ l) p (by rw [cut_zero]; omega) (by rw [cut_last]; exact hp)
    refine ⟨2 ^ l + i, ⟨by omega, by omega, by rw [bgOf_node sp n i1]; exact i2, by rw [enOf_node sp n i1]; exact i3⟩, ?_⟩
    intro k' k1 k2 k3 k4
    obtain ⟨j, rfl⟩ : ∃ j, k' = 2 ^ l + j := ⟨k' - 2 ^ l, by omega⟩
    rw [bgOf_node sp n (by omega)] at k3
    rw [enOf_node sp n (by omega)] at k4
    rcases Nat.lt_trichotomy j i with h | h | h
    · have := hmono l hl (j + 1) i (by omega) (by omega); omega
    · rw [h]
    · have := hmono l hl (i + 1) j (by omega) (by omega); omega

end

theorem lexLe_of_comp {coord : Nat → Nat → K} {x y : Nat} (h : compxyz coord y x = false) : LexLe coord x y := by
  unfold compxyz at h
  by_cases h0 : coord y 0 = coord x 0
  · rw [if_pos h0] at h
    by_cases h1 : coord y 1 = coord x 1
    · rw [if_pos h1] at h
      exact Or.inr ⟨h0.symm, Or.inr ⟨h1.symm, not_lt.1 (of_decide_eq_false h)⟩⟩
    · rw [if_neg h1] at h
      exact Or.inr ⟨h0.symm, Or.inl (lt_of_le_of_ne (not_lt.1 (of_decide_eq_false h)) (Ne.symm h1))⟩
  · rw [if_neg h0] at h
    exact Or.inl (lt_of_le_of_ne (not_lt.1 (of_decide_eq_false h)) (Ne.symm h0))

theorem levelsOf_some {n bucketsize : Nat} (hb : bucketsize ≠ 0) : ∃ levels, levelsOf n bucketsize = some levels ∧ (2 * bucketsize ≤ n ↔ 0 < levels) ∧ 2 ^ levels * bucketsize ≤ max n bucketsize := by
  unfold levelsOf
  by_cases h : n < bucketsize
  · rw [if_pos h]; exact ⟨0, rfl, by omega, by rw [Nat.pow_zero]; omega⟩
  · rw [if_neg h, if_neg hb]
    have hpos : 0 < n / bucketsize := Nat.div_pos (by omega) (by omega)
    refine ⟨_, rfl, ?_, ?_⟩
    · constructor
      · intro h2
        exact (Nat.le_log2 (k := 1) (by omega)).2 ((Nat.le_div_iff_mul_le (by omega)).2 (by omega))
      · intro h2
        have := (Nat.le_log2 (k := 1) (by omega : n / bucketsize ≠ 0)).1 h2
        have := (Nat.le_div_iff_mul_le (by omega)).1 this
        omega
    · have h1 := Nat.log2_self_le (n := n / bucketsize) (by omega)
      have h2 := (Nat.le_div_iff_mul_le (by omega)).1 h1
      omega

/-- The kD-tree: for every set of points, bucket size, choice of dimensions, implementation of `nth_element` and `sort`, and every order in which the nodes of a level are processed,
the nodes form a tree of ranges over a permutation of the points; the left points of a node are not greater than the value of the splitter, the right ones are greater; every leaf is sorted
lexicographically; `leaf_intervals` are the ranges of the last but one level. -/
theorem C32_kdtree (n bucketsize : Nat) (hb : bucketsize ≠ 0) (orders : Nat → List Nat) (hord : ∀ ll, (orders ll).Perm (List.range (2 ^ ll)))
    (nth : (Nat → K) → List Nat → Nat → List Nat) (hnth : IsNth nth) (coord : Nat → Nat → K) (srt : List Nat → List Nat) (hsrt : IsSort coord srt) (zero : K) (dim : Nat → Nat) :
    ∃ levels perm sp leaf bg en, kdBuild n bucketsize orders nth srt coord zero dim = some (perm, sp, leaf) ∧ levelsOf n bucketsize = some levels ∧ sp.length = 2 ^ levels ∧
      (∀ k, 1 ≤ k → k < 2 ^ (levels + 1) → beginOf sp (k + 1) k = some (bg k) ∧ endOf sp n (k + 1) k = some (en k)) ∧
      IsTree n levels perm (idxOf sp) bg en ∧
      (∀ k, 1 ≤ k → k < 2 ^ levels → ∃ q, sp[k]? = some q ∧ q.d = dim k.log2 ∧ (∀ p x, bg (2 * k) ≤ p → p < en (2 * k) → perm[p]? = some x → coord x q.d ≤ q.value) ∧
        ∀ p x, bg (2 * k + 1) ≤ p → p < en (2 * k + 1) → perm[p]? = some x → q.value < coord x q.d) ∧
      (∀ k, 2 ^ levels ≤ k → k < 2 ^ (levels + 1) → ∀ p r x y, bg k ≤ p → p < r → r < en k → perm[p]? = some x → perm[r]? = some y → LexLe coord x y) ∧
      leaf = (List.range (2 ^ levels / 2)).map fun i => (bg (2 ^ (levels - 1) + i), en (2 ^ (levels - 1) + i)) := by
  obtain ⟨levels, hlev, _⟩ := levelsOf_some (n := n) hb
  obtain ⟨⟨perm, sp, leaf⟩, r1, r2⟩ := buildLevels_spec (kdNode_spec (n := n) (levels := levels) hnth hsrt zero dim) levels orders hord (List.range n) (List.Perm.refl _)
    (List.replicate (2 ^ levels) ⟨0, 0, zero, zero⟩) List.length_replicate
  dsimp only at r2
  unfold kdBuild
  simp only [Option.bind_eq_bind]
  rw [hlev, Option.bind_some, r1, Option.bind_some]
  dsimp only
  by_cases hl0 : levels = 0
  · subst hl0
    have hv : Valid n perm := fun x hx => List.mem_range.1 (r2.isPerm.mem_iff.1 hx)
    have hn : perm.length = n := by rw [r2.isPerm.length_eq, List.length_range]
    obtain ⟨perm', s1, s2, s3⟩ := sortPart_spec hsrt hv (Nat.zero_le n) (by omega)
    obtain ⟨t1, t2⟩ := isTree_of (PL := fun _ _ _ => True) (PR := fun _ _ _ => True) (G := fun _ _ => True) (s2.1.trans r2.isPerm) r2.len (fun l i h => by omega)
    rw [show ((0 : Nat) == 0) = true from rfl, cond_true, s1, Option.bind_some]
    refine ⟨0, perm', sp, leaf, _, _, rfl, rfl, r2.len, t1, t2, ?_, ?_, ?_⟩
    · intro k h1 h2; rw [Nat.pow_zero] at h2; omega
    · intro k h1 h2 p r x y p1 p2 p3 hx hy
      have hk : k = 1 := by rw [Nat.pow_zero] at h1; simp at h2; omega
      subst hk
      rw [t2.root.2] at p3
      exact lexLe_of_comp (s3 p r x y (Nat.zero_le _) p2 p3 hx hy)
    · rw [r2.noleaf (Or.inr rfl)]; rfl
  · rw [show (levels == 0) = false from beq_eq_false_iff_ne.2 hl0, cond_false]
    obtain ⟨t1, t2⟩ := isTree_of r2.isPerm r2.len r2.above
    obtain ⟨m, rfl⟩ : ∃ m, levels = m + 1 := ⟨levels - 1, by omega⟩
    have h2m : 2 ^ (m + 1) = 2 * 2 ^ m := by rw [Nat.pow_succ]; omega
    refine ⟨m + 1, perm, sp, leaf, _, _, rfl, rfl, r2.len, t1, t2, ?_, ?_, ?_⟩
    · intro k h1 h2
      have hsplit := t2.split k h1 h2
      obtain ⟨l, i, rfl, hi⟩ := node_split h1
      have hl : l < m + 1 := by
        by_cases hl : l < m + 1
        · exact hl
        · have : 2 ^ (m + 1) ≤ 2 ^ l := Nat.pow_le_pow_right (by omega) (by omega)
          omega
      obtain ⟨q, q1, q2, q3, q4, q5, q6, q7⟩ := r2.above l i hl hi
      rw [bgOf_node sp n hi, enOf_node sp n hi, idxOf_some q1] at hsplit
      rw [hsplit.1, hsplit.2.1, hsplit.2.2.1, hsplit.2.2.2, log2_node hi]
      refine ⟨q, q1, q5, ?_, ?_⟩
      · rw [q5]; exact q6
      · rw [q5]; exact q7
    · intro k h1 h2 p r x y p1 p2 p3 hx hy
      have h2m' : 2 ^ (m + 1 + 1) = 4 * 2 ^ m := by rw [Nat.pow_succ]; omega
      obtain ⟨i, hi, hk⟩ : ∃ i, i < 2 ^ m ∧ (k = 2 * (2 ^ m + i) ∨ k = 2 * (2 ^ m + i) + 1) := ⟨k / 2 - 2 ^ m, by omega, by omega⟩
      have hsplit := t2.split (2 ^ m + i) (by have := Nat.two_pow_pos m; omega) (by omega)
      obtain ⟨q, q1, q2, q3, q4⟩ := r2.fin m rfl i hi
      rw [bgOf_node sp n hi, enOf_node sp n hi, idxOf_some q1] at hsplit
      obtain ⟨s1, s2⟩ := q4 rfl
      rcases hk with rfl | rfl
      · rw [hsplit.1] at p1; rw [hsplit.2.1] at p3
        exact lexLe_of_comp (s1 p r x y p1 p2 p3 hx hy)
      · rw [hsplit.2.2.1] at p1; rw [hsplit.2.2.2] at p3
        exact lexLe_of_comp (s2 p r x y p1 p2 p3 hx hy)
    · obtain ⟨l1, l2⟩ := r2.leafGet m rfl rfl
      rw [show 2 ^ (m + 1) / 2 = 2 ^ m by omega, show m + 1 - 1 = m by omega]
      apply List.ext_getElem?
      intro i
      by_cases hi : i < 2 ^ m
      · rw [l2 i hi, List.getElem?_map, List.getElem?_range hi, Option.map_some, bgOf_node sp n hi, enOf_node sp n hi]
      · rw [List.getElem?_eq_none (by omega), List.getElem?_eq_none (by rw [List.length_map, List.length_range]; omega)]

/-- The interval tree: the boxes are split by their ends; all boxes of the right part start at `start` or later. -/
theorem C32_interval_tree (n : Nat) (orders : Nat → List Nat) (hord : ∀ ll, (orders ll).Perm (List.range (2 ^ ll)))
    (nth : (Nat → K) → List Nat → Nat → List Nat) (hnth : IsNth nth) (istart iend : Nat → Nat → K) (zero : K) (dim : Nat → Nat) :
    ∃ levels perm sp bg en, itBuild n orders nth istart iend zero dim = some (perm, sp) ∧ levelsOf n 8 = some levels ∧ sp.length = 2 ^ levels ∧
      (∀ k, 1 ≤ k → k < 2 ^ (levels + 1) → beginOf sp (k + 1) k = some (bg k) ∧ endOf sp n (k + 1) k = some (en k)) ∧
      IsTree n levels perm (idxOf sp) bg en ∧
      (∀ k, 1 ≤ k → k < 2 ^ levels → ∃ q, sp[k]? = some q ∧ q.d = dim k.log2 ∧ (∀ p x, bg (2 * k) ≤ p → p < en (2 * k) → perm[p]? = some x → iend x q.d ≤ q.value) ∧
        ∀ p x, bg (2 * k + 1) ≤ p → p < en (2 * k + 1) → perm[p]? = some x → q.value < iend x q.d ∧ q.start ≤ istart x q.d) ∧
      -- queries: the visited nodes are leaves, each at most once, and every box that overlaps the query box lies in one of them
      ∀ s e : Nat → K, ∃ out, traverse sp s e (sp.length + 1) 1 [] = some out ∧ out.Pairwise (· < ·) ∧ (∀ k ∈ out, 2 ^ levels ≤ k ∧ k < 2 ^ (levels + 1)) ∧
        ∀ x, x < n → (∀ d, istart x d < e d ∧ s d < iend x d) → ∃ k ∈ out, ∃ p, bg k ≤ p ∧ p < en k ∧ perm[p]? = some x := by
  obtain ⟨levels, hlev, _⟩ := levelsOf_some (n := n) (bucketsize := 8) (by omega)
  obtain ⟨⟨perm, sp, leaf⟩, r1, r2⟩ := buildLevels_spec (itNode_spec (n := n) hnth istart iend zero dim) levels orders hord (List.range n) (List.Perm.refl _)
    (List.replicate (2 ^ levels) ⟨0, 0, zero, zero⟩) List.length_replicate
  dsimp only at r2
  unfold itBuild
  simp only [Option.bind_eq_bind]
  rw [hlev, Option.bind_some, r1, Option.bind_some]
  dsimp only
  obtain ⟨t1, t2⟩ := isTree_of r2.isPerm r2.len r2.above
  refine ⟨levels, perm, sp, _, _, rfl, rfl, r2.len, t1, t2, ?_, ?_⟩
  · intro k h1 h2
    have hsplit := t2.split k h1 h2
    obtain ⟨l, i, rfl, hi⟩ := node_split h1
    have hl : l < levels := by
      by_cases hl : l < levels
      · exact hl
      · have : 2 ^ levels ≤ 2 ^ l := Nat.pow_le_pow_right (by omega) (by omega)
        omega
    obtain ⟨q, q1, q2, q3, q4, ⟨q5, _⟩, q6, q7⟩ := r2.above l i hl hi
    rw [bgOf_node sp n hi, enOf_node sp n hi, idxOf_some q1] at hsplit
    rw [hsplit.1, hsplit.2.1, hsplit.2.2.1, hsplit.2.2.2, log2_node hi]
    refine ⟨q, q1, q5, ?_, ?_⟩
    · rw [q5]; exact q6
    · rw [q5]; exact q7
  · intro s e
    have hLl : levels < 2 ^ levels := Nat.lt_two_pow_self
    obtain ⟨out, o1, o2, o3, o4⟩ := traverse_spec r2.len r2.above s e levels 0 0 (sp.length + 1) [] (by omega) (by omega) (by rw [r2.len]; omega)
    rw [List.nil_append] at o1
    refine ⟨out, o1, o3, ?_, ?_⟩
    · intro k hk
      have := o2 k hk
      rw [Nat.pow_succ]; omega
    · intro x hx ho
      obtain ⟨p, hp⟩ := List.mem_iff_getElem?.1 (r2.isPerm.mem_iff.2 (List.mem_range.2 hx))
      have hpn : p < n := by
        have := (List.getElem?_eq_some_iff.1 hp).1
        rw [r2.isPerm.length_eq, List.length_range] at this
        exact this
      obtain ⟨k, ⟨k1, k2, k3, k4⟩, _⟩ := t2.partition levels p (Nat.le_refl _) hpn
      rw [Nat.pow_succ] at k2
      obtain ⟨j, rfl⟩ : ∃ j, k = 2 ^ levels + j := ⟨k - 2 ^ levels, by omega⟩
      refine ⟨2 ^ levels + j, o4 j p x (by omega) (by omega) ?_ ?_ hp ho, p, k3, k4, hp⟩
      · rw [bgOf_node sp n (by omega)] at k3; exact k3
      · rw [enOf_node sp n (by omega)] at k4; exact k4

/-- `boxMin` of the kD-tree is a lower bound of the coordinates of the points in the node (`min` is a lower bound of all points), not below `min`. -/
theorem C32_boxMin (n bucketsize : Nat) (hb : bucketsize ≠ 0) (orders : Nat → List Nat) (hord : ∀ ll, (orders ll).Perm (List.range (2 ^ ll)))
    (nth : (Nat → K) → List Nat → Nat → List Nat) (hnth : IsNth nth) (coord : Nat → Nat → K) (srt : List Nat → List Nat) (hsrt : IsSort coord srt) (zero : K) (dim : Nat → Nat)
    (min : Nat → K) (hmin : ∀ x, x < n → ∀ d, min d ≤ coord x d) :
    ∃ levels perm sp leaf, kdBuild n bucketsize orders nth srt coord zero dim = some (perm, sp, leaf) ∧ levelsOf n bucketsize = some levels ∧
      ∀ k, 1 ≤ k → k < 2 ^ (levels + 1) → ∃ min' b e, boxMin sp (k + 1) k min = some min' ∧ beginOf sp (k + 1) k = some b ∧ endOf sp n (k + 1) k = some e ∧ (∀ d, min d ≤ min' d) ∧
        ∀ p x, b ≤ p → p < e → perm[p]? = some x → ∀ d, min' d ≤ coord x d := by
  obtain ⟨levels, perm, sp, leaf, bg, en, h1, h2, h3, h4, h5, h6, _⟩ := C32_kdtree n bucketsize hb orders hord nth hnth coord srt hsrt zero dim
  refine ⟨levels, perm, sp, leaf, h1, h2, ?_⟩
  have hok : ∀ l i, l < levels → i < 2 ^ l → NodeOk n (fun _ _ _ => True) (fun _ q x => q.value < coord x q.d) (fun _ _ => True) sp perm l i := by
    intro l i hl hi
    have hpw : 2 ^ (l + 1) ≤ 2 ^ levels := Nat.pow_le_pow_right (by omega) hl
    have h2l : 2 ^ (l + 1) = 2 * 2 ^ l := by rw [Nat.pow_succ]; omega
    have h2L : 2 ^ (levels + 1) = 2 * 2 ^ levels := by rw [Nat.pow_succ]; omega
    have h0 := Nat.two_pow_pos l
    have e1 := h4 (2 ^ l + i) (by omega) (by omega)
    rw [beginOf_cut sp n l i _ hi (by omega) (by omega), endOf_cut sp n l i _ hi (by omega) (by omega)] at e1
    obtain ⟨q, q1, q2, q3, q4⟩ := h6 (2 ^ l + i) (by omega) (by omega)
    have e2 := h5.split (2 ^ l + i) (by omega) (by omega)
    have e3 := h5.range (2 * (2 ^ l + i)) (by omega) (by omega)
    have e4 := h5.range (2 * (2 ^ l + i) + 1) (by omega) (by omega)
    have e5 := h5.left (2 ^ l + i) (by omega) (by omega)
    rw [idxOf_some q1] at e2 e5
    obtain ⟨b1, b2⟩ := e1
    injection b1 with b1
    injection b2 with b2
    refine ⟨q, q1, ?_, ?_, ?_, trivial, fun _ _ _ _ _ => trivial, ?_⟩
    · rw [b1]; omega
    · rw [b2]; omega
    · rw [b1, b2]; exact e5
    · rw [b2]
      intro p x p1 p2 hx
      exact q4 p x (by omega) (by omega) hx
  intro k k1 k2
  obtain ⟨l, i, rfl, hi⟩ := node_split k1
  have hl : l ≤ levels := by
    by_cases hl : l ≤ levels
    · exact hl
    · have : 2 ^ (levels + 1) ≤ 2 ^ l := Nat.pow_le_pow_right (by omega) (by omega)
      omega
  have hpw : 2 ^ l ≤ 2 ^ levels := Nat.pow_le_pow_right (by omega) hl
  obtain ⟨min', m1, m2, m3⟩ := boxMin_spec coord hok (fun _ _ _ _ h => h) l i (2 ^ l + i + 1) min hl hi (by omega)
  refine ⟨min', _, _, m1, beginOf_cut sp n l i _ hi (by omega) (by omega), endOf_cut sp n l i _ hi (by omega) (by omega), m2, ?_⟩
  intro p x p1 p2 hx
  refine m3 p x p1 p2 hx (hmin x ?_)
  exact List.mem_range.1 (h5.perm.mem_iff.1 (List.mem_of_getElem? hx))

/-! ### Implementations of `nth_element` and `sort`, concrete trees -/

/-- Sorting everything is an implementation of `nth_element`. -/
def nthBySort (key : Nat → Int) (l : List Nat) (_ : Nat) : List Nat := l.insertionSort fun a b => key a ≤ key b

theorem nthBySort_isNth : IsNth nthBySort := by
  intro key l k
  refine ⟨List.perm_insertionSort _ _, ?_⟩
  intro i j x y _ hx hy hij
  by_cases h : i = j
  · subst h; rw [hx] at hy; cases hy; exact le_refl _
  · have hp : (nthBySort key l k).Pairwise fun a b => key a ≤ key b :=
      have : Std.Total (fun a b : Nat => key a ≤ key b) := ⟨fun a b => Int.le_total _ _⟩
      haveI : IsTrans Nat (fun a b => key a ≤ key b) := ⟨fun a b c => Int.le_trans⟩
      List.pairwise_insertionSort _ _
    obtain ⟨i1, i2⟩ := List.getElem?_eq_some_iff.1 hx
    obtain ⟨j1, j2⟩ := List.getElem?_eq_some_iff.1 hy
    have := List.pairwise_iff_getElem.1 hp i j i1 j1 (by omega)
    rw [i2, j2] at this
    exact this


theorem comp_false_iff {coord : Nat → Nat → K} {x y : Nat} : compxyz coord y x = false ↔ LexLe coord x y := by
  refine ⟨lexLe_of_comp, fun h => ?_⟩
  unfold compxyz
  rcases h with h | ⟨h, h1 | ⟨h1, h2⟩⟩
  · rw [if_neg (ne_of_gt h)]; exact decide_eq_false (not_lt_of_gt h)
  · rw [if_pos h.symm, if_neg (ne_of_gt h1)]; exact decide_eq_false (not_lt_of_gt h1)
  · rw [if_pos h.symm, if_pos h1.symm]; exact decide_eq_false (not_lt.2 h2)

theorem lexLe_total (coord : Nat → Nat → K) (x y : Nat) : LexLe coord x y ∨ LexLe coord y x := by
  unfold LexLe
  rcases lt_trichotomy (coord x 0) (coord y 0) with h | h | h
  · exact Or.inl (Or.inl h)
  · rcases lt_trichotomy (coord x 1) (coord y 1) with h1 | h1 | h1
    · exact Or.inl (Or.inr ⟨h, Or.inl h1⟩)
    · rcases le_total (coord x 2) (coord y 2) with h2 | h2
      · exact Or.inl (Or.inr ⟨h, Or.inr ⟨h1, h2⟩⟩)
      · exact Or.inr (Or.inr ⟨h.symm, Or.inr ⟨h1.symm, h2⟩⟩)
    · exact Or.inr (Or.inr ⟨h.symm, Or.inl h1⟩)
  · exact Or.inr (Or.inl h)

theorem lexLe_trans {coord : Nat → Nat → K} {x y z : Nat} (h1 : LexLe coord x y) (h2 : LexLe coord y z) : LexLe coord x z := by
  unfold LexLe at *
  rcases h1 with a | ⟨a, b⟩
  · rcases h2 with c | ⟨c, _⟩
    · exact Or.inl (lt_trans a c)
    · exact Or.inl (c ▸ a)
  · rcases h2 with c | ⟨c, d⟩
    · exact Or.inl (a ▸ c)
    · refine Or.inr ⟨a.trans c, ?_⟩
      rcases b with b | ⟨b, b'⟩
      · rcases d with d | ⟨d, _⟩
        · exact Or.inl (lt_trans b d)
        · exact Or.inl (d ▸ b)
      · rcases d with d | ⟨d, d'⟩
        · exact Or.inl (b ▸ d)
        · exact Or.inr ⟨b.trans d, le_trans b' d'⟩

/-- Insertion sort is an implementation of `std::sort`. -/
def sortPoints (coord : Nat → Nat → Int) (l : List Nat) : List Nat := l.insertionSort fun a b => compxyz coord b a = false

theorem sortPoints_isSort (coord : Nat → Nat → Int) : IsSort coord (sortPoints coord) := by
  intro l
  refine ⟨List.perm_insertionSort _ _, ?_⟩
  have : Std.Total (fun a b : Nat => compxyz coord b a = false) := ⟨fun a b => by rw [comp_false_iff, comp_false_iff]; exact lexLe_total coord a b⟩
  have : IsTrans Nat (fun a b : Nat => compxyz coord b a = false) := ⟨fun a b c => by rw [comp_false_iff, comp_false_iff, comp_false_iff]; exact lexLe_trans⟩
  exact List.pairwise_insertionSort _ _

/-- Six points on a line with equal coordinates in the middle; nodes of a level in the reversed order. -/
def exCoord (x d : Nat) : Int := ((([[5, 0, 0], [2, 1, 0], [2, 0, 0], [7, 0, 0], [2, 0, 0], [1, 3, 0]] : List (List Int))[x]?.getD [])[d]?).getD 0

/-- All points with the value of the splitter go to the left, leaves are sorted. -/
example : kdBuild 6 1 (fun ll => (List.range (2 ^ ll)).reverse) nthBySort (sortPoints exCoord) exCoord 0 (fun ll => ll % 2) =
    some ([2, 4, 1, 5, 0, 3], [⟨0, 0, 0, 0⟩, ⟨0, 4, 2, 0⟩, ⟨1, 3, 1, 0⟩, ⟨1, 6, 0, 0⟩], [(0, 4), (4, 6)]) := by decide +kernel

/-- Sixteen boxes `[x, x + 1]` on a line, the box 8 is the flat one `[9, 9]`. -/
def boxStart (x d : Nat) : Int := if d = 0 then (if x = 8 then 9 else x) else 0
def boxEnd (x d : Nat) : Int := if d = 0 then (x + 1 : Int) else 1

example : itBuild 16 (fun ll => List.range (2 ^ ll)) nthBySort boxStart boxEnd 0 (fun _ => 0) =
    some (List.range 16, [⟨0, 0, 0, 0⟩, ⟨0, 9, 9, 9⟩]) := by decide +kernel

/-- The comparisons in `traverse` are strict: a query by the box 8 itself visits no leaf at all, although the box 8 lies in the left leaf.  Flat boxes (faces parallel with an axis,
zero gap) and boxes that only touch the query can be missed. -/
theorem C32_touching_missed : ∃ perm sp, itBuild 16 (fun ll => List.range (2 ^ ll)) nthBySort boxStart boxEnd 0 (fun _ => 0) = some (perm, sp) ∧ 8 ∈ perm ∧
    traverse sp (boxStart 8) (boxEnd 8) (sp.length + 1) 1 [] = some [] := by
  refine ⟨List.range 16, [⟨0, 0, 0, 0⟩, ⟨0, 9, 9, 9⟩], by decide +kernel, by decide, by decide +kernel⟩

/-- An overlapping query visits the leaf (the hypothesis of `C32_interval_tree` holds for the boxes 6 to 10). -/
example : traverse ([⟨0, 0, 0, 0⟩, ⟨0, 9, 9, 9⟩] : List (Splitter Int)) (fun _ => 7) (fun _ => 9) 3 1 [] = some [2] := by decide +kernel

end Verif.KdTree
