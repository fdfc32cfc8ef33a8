import Verif.Proof.DuplicateSearch
import Mathlib.Algebra.Order.Group.Int
/-!
C59: the search of duplicate nodes.
-/
namespace Verif.KdTree

open Verif.Csx

variable {K : Type} [AddCommGroup K] [LinearOrder K] [IsOrderedAddMonoid K]

/-- For every set of points and tolerance: a merged point is connected with its target by a chain of points with the distance at most the tolerance (in each coordinate); no target is
itself merged, so there are no chains of merges; no two points that remain are within the tolerance. -/
theorem C59_duplicates (n : Nat) (orders : Nat → List Nat) (hord : ∀ ll, (orders ll).Perm (List.range (2 ^ ll))) (nth : (Nat → K) → List Nat → Nat → List Nat) (hnth : IsNth nth)
    (coord : Nat → Nat → K) (srt : List Nat → List Nat) (hsrt : IsSort coord srt) (dim : Nat → Nat) (hdim : ∀ l, dim l < 3) (eps : K) (heps : 0 ≤ eps) :
    ∃ perm dup ms, searchDuplicates n orders nth srt coord dim eps = some (perm, dup, ms) ∧
      (∀ a t, (a, t) ∈ ms → a < n ∧ t < n ∧ a ≠ t ∧ Connected coord eps a t ∧ ∀ t', (t, t') ∉ ms) ∧
      ∀ a b, a < n → b < n → a ≠ b → (∀ t, (a, t) ∉ ms) → (∀ t, (b, t) ∉ ms) → ¬ Near coord eps a b := by
  obtain ⟨L, perm, sp, leaf, h1, h2, h3, hT⟩ := kdtree_ok n 8 (by omega) orders hord nth hnth coord srt hsrt 0 dim hdim
  unfold searchDuplicates
  simp only [Option.bind_eq_bind]
  rw [h2, Option.bind_some, h1, Option.bind_some]
  dsimp only
  have h2L : 2 ^ (L + 1) = 2 * 2 ^ L := by rw [Nat.pow_succ]; omega
  obtain ⟨st, e1, e2, e3⟩ := forLoop_inv (show 2 ^ L ≤ 2 ^ (L + 1) by omega) ((List.replicate perm.length none, []) : DupState) (fun i st => searchLeaf n L coord eps perm sp (minPoint n coord) i st)
    (fun i st => DInv n (fun p => perm.getD p 0) coord eps (cut (idxOf sp) n L (i - 2 ^ L)) st ∧
      ∀ p r, p < r → r < cut (idxOf sp) n L (i - 2 ^ L) → ¬ Dup st p → ¬ Dup st r → ¬ Near coord eps (perm.getD p 0) (perm.getD r 0))
    (by
      constructor
      · have hno : ∀ (p : Nat) (r : Nat), ((List.replicate perm.length none : List (Option Nat)))[p]? ≠ some (some r) := by
          intro p r h
          rw [List.getElem?_replicate] at h
          by_cases hp : p < perm.length
          · rw [if_pos hp] at h; cases h
          · rw [if_neg hp] at h; cases h
        exact { len := by rw [List.length_replicate]; exact hT.pts.len
                tgt := fun p r h => absurd h (hno p r)
                log := fun m hm => by cases hm
                has := fun p r h => absurd h (hno p r) }
      · intro p r _ h
        rw [Nat.sub_self, cut_zero] at h; omega)
    (by
      intro i i1 i2 st ⟨j1, j2⟩
      obtain ⟨m, rfl⟩ : ∃ m, i = 2 ^ L + m := ⟨i - 2 ^ L, by omega⟩
      rw [Nat.add_sub_cancel_left] at j1 j2
      obtain ⟨st', a1, a2, a3⟩ := searchLeaf_spec hT heps (by omega : m < 2 ^ L) (minPoint n coord) st j1 j2
      rw [show 2 ^ L + m + 1 - 2 ^ L = m + 1 by omega]
      exact ⟨st', a1, a2, a3⟩)
  rw [show 2 ^ (L + 1) - 2 ^ L = 2 ^ L by omega, cut_last] at e2 e3
  rw [e1, Option.bind_some]
  obtain ⟨dup, ms⟩ := st
  -- positions and points correspond one to one
  have hinj : ∀ p r, p < n → r < n → perm.getD p 0 = perm.getD r 0 → p = r := by
    intro p r hp hr h
    have hnd : perm.Nodup := h3.nodup_iff.2 List.nodup_range
    have g1 := hT.pts.get p hp
    have g2 := hT.pts.get r hr
    rw [← h] at g2
    obtain ⟨a1, a2⟩ := List.getElem?_eq_some_iff.1 g1
    obtain ⟨b1, b2⟩ := List.getElem?_eq_some_iff.1 g2
    exact (List.getElem_inj hnd).1 (a2.trans b2.symm)
  have hlt : ∀ p r, dup[p]? = some r → p < n := by
    intro p r h
    have := (List.getElem?_eq_some_iff.1 h).1
    rw [← e2.len]; exact this
  refine ⟨perm, dup, ms, rfl, ?_, ?_⟩
  · intro a t hm
    obtain ⟨p, r, r', a1, a2, a3, a4, a5, a6, a7⟩ := e2.log _ hm
    dsimp only at a3 a4 a5 a6 a7
    subst a3; subst a4
    refine ⟨hT.pts.lt p a1, hT.pts.lt r a2, ?_, a7, ?_⟩
    · intro h
      have := hinj p r a1 a2 h
      subst this
      rw [a5] at a6; cases a6
    · intro t' ht'
      obtain ⟨q, s, s', b1, b2, b3, b4, b5, b6, b7⟩ := e2.log _ ht'
      dsimp only at b3 b5
      have := hinj q r b1 a2 b3
      subst this
      rw [a6] at b5; cases b5
  · intro a b ha hb hab hma hmb hn
    obtain ⟨p, hp⟩ := List.mem_iff_getElem?.1 (h3.mem_iff.2 (List.mem_range.2 ha))
    obtain ⟨r, hr⟩ := List.mem_iff_getElem?.1 (h3.mem_iff.2 (List.mem_range.2 hb))
    have hpn : p < n := by have := (List.getElem?_eq_some_iff.1 hp).1; rw [hT.pts.len] at this; exact this
    have hrn : r < n := by have := (List.getElem?_eq_some_iff.1 hr).1; rw [hT.pts.len] at this; exact this
    have xp : perm.getD p 0 = a := by rw [List.getD_eq_getElem?_getD, hp]; rfl
    have xr : perm.getD r 0 = b := by rw [List.getD_eq_getElem?_getD, hr]; rfl
    have hdp : ¬ Dup (dup, ms) p := fun ⟨t, ht⟩ => hma _ (by have := e2.has p t ht; rw [xp] at this; exact this)
    have hdr : ¬ Dup (dup, ms) r := fun ⟨t, ht⟩ => hmb _ (by have := e2.has r t ht; rw [xr] at this; exact this)
    rcases Nat.lt_trichotomy p r with h | h | h
    · exact e3 p r h hrn hdp hdr (by rw [xp, xr]; exact hn)
    · subst h; rw [xp] at xr; exact hab xr
    · exact e3 r p h hpn hdr hdp (by rw [xp, xr]; exact hn.symm)

omit [IsOrderedAddMonoid K] in
theorem near_zero {coord : Nat → Nat → K} {a b : Nat} : Near coord 0 a b ↔ ∀ d, d < 3 → coord a d = coord b d := by
  constructor
  · intro h d hd
    have := h d hd
    rw [add_zero, add_zero] at this
    exact le_antisymm this.1 this.2
  · intro h d hd
    rw [add_zero, add_zero, h d hd]
    exact ⟨le_refl _, le_refl _⟩

omit [IsOrderedAddMonoid K] in
theorem connected_zero {coord : Nat → Nat → K} {a b : Nat} (h : Connected coord 0 a b) : ∀ d, d < 3 → coord a d = coord b d := by
  induction h with
  | single h => exact near_zero.1 h
  | tail _ h2 ih => exact fun d hd => (ih d hd).trans (near_zero.1 h2 d hd)

/-- With the zero tolerance the search computes exactly the classes of points with equal coordinates: every class has one representative, all its other points are merged to it, and to
nothing else. -/
theorem C59_exact (n : Nat) (orders : Nat → List Nat) (hord : ∀ ll, (orders ll).Perm (List.range (2 ^ ll))) (nth : (Nat → K) → List Nat → Nat → List Nat) (hnth : IsNth nth)
    (coord : Nat → Nat → K) (srt : List Nat → List Nat) (hsrt : IsSort coord srt) (dim : Nat → Nat) (hdim : ∀ l, dim l < 3) :
    ∃ perm dup ms, searchDuplicates n orders nth srt coord dim 0 = some (perm, dup, ms) ∧
      ∃ rep : Nat → Nat, (∀ a, a < n → rep a < n) ∧ (∀ a t, (a, t) ∈ ms ↔ a < n ∧ t = rep a ∧ rep a ≠ a) ∧
        ∀ a b, a < n → b < n → (rep a = rep b ↔ ∀ d, d < 3 → coord a d = coord b d) := by
  obtain ⟨perm, dup, ms, h1, h2, h3⟩ := C59_duplicates n orders hord nth hnth coord srt hsrt dim hdim 0 (le_refl _)
  refine ⟨perm, dup, ms, h1, ?_⟩
  -- the target of a point
  have hrep : ∀ a, ∃ t, a < n → t < n ∧ (∀ d, d < 3 → coord a d = coord t d) ∧ (∀ t', (t, t') ∉ ms) ∧ ((a, t) ∈ ms ∨ t = a) := by
    intro a
    by_cases hm : ∃ t, (a, t) ∈ ms
    · obtain ⟨t, ht⟩ := hm
      obtain ⟨_, a2, _, a4, a5⟩ := h2 a t ht
      exact ⟨t, fun _ => ⟨a2, connected_zero a4, a5, Or.inl ht⟩⟩
    · exact ⟨a, fun ha => ⟨ha, fun _ _ => rfl, fun t' ht' => hm ⟨t', ht'⟩, Or.inr rfl⟩⟩
  have huniq : ∀ s t, s < n → t < n → (∀ t', (s, t') ∉ ms) → (∀ t', (t, t') ∉ ms) → (∀ d, d < 3 → coord s d = coord t d) → s = t := by
    intro s t hs ht hs' ht' he
    by_cases h : s = t
    · exact h
    · exact absurd (near_zero.2 he) (h3 s t hs ht h hs' ht')
  refine ⟨fun a => Classical.choose (hrep a), ?_, ?_, ?_⟩
  · intro a ha; exact (Classical.choose_spec (hrep a) ha).1
  · intro a t
    constructor
    · intro hm
      obtain ⟨b1, b2, b3, b4, b5⟩ := h2 a t hm
      obtain ⟨c1, c2, c3, c4⟩ := Classical.choose_spec (hrep a) b1
      have : t = Classical.choose (hrep a) := huniq _ _ b2 c1 b5 c3 fun d hd => (connected_zero b4 d hd).symm.trans (c2 d hd)
      refine ⟨b1, this, ?_⟩
      show Classical.choose (hrep a) ≠ a
      rw [← this]; exact fun h => b3 h.symm
    · intro ⟨ha, ht, hne⟩
      obtain ⟨c1, c2, c3, c4⟩ := Classical.choose_spec (hrep a) ha
      rw [ht]
      exact c4.resolve_right hne
  · intro a b ha hb
    obtain ⟨c1, c2, c3, c4⟩ := Classical.choose_spec (hrep a) ha
    obtain ⟨d1, d2, d3, d4⟩ := Classical.choose_spec (hrep b) hb
    show Classical.choose (hrep a) = Classical.choose (hrep b) ↔ _
    constructor
    · intro h d hd
      rw [c2 d hd, h]; exact (d2 d hd).symm
    · intro h
      exact huniq _ _ c1 d1 c3 d3 fun d hd => (c2 d hd).symm.trans ((h d hd).trans (d2 d hd))

/-- Points 1 and 3 have the coordinates of point 0. -/
def dupCoord (x d : Nat) : Int := ((([[1, 2, 3], [1, 2, 3], [0, 7, 7], [1, 2, 3]] : List (List Int))[x]?.getD [])[d]?).getD 0

example : searchDuplicates 4 (fun ll => List.range (2 ^ ll)) nthBySort (sortPoints dupCoord) dupCoord (fun _ => 0) 0 =
    some ([2, 0, 1, 3], [none, none, some 1, some 1], [(1, 0), (3, 0)]) := by decide +kernel

/-- Point 2 is near to the points 0 and 1, which are not near to each other. -/
def twoCoord (x d : Nat) : Int := ((([[0, 0, 0], [0, 4, 0], [1, 2, 0]] : List (List Int))[x]?.getD [])[d]?).getD 0

/-- With a positive tolerance `merge` can be called more than once for a point, with different targets. -/
theorem C59_two_targets : searchDuplicates 3 (fun ll => List.range (2 ^ ll)) nthBySort (sortPoints twoCoord) twoCoord (fun _ => 0) 2 =
    some ([0, 1, 2], [none, none, some 1], [(2, 0), (2, 1)]) := by decide +kernel

/-- Twice eight points at 0 and eight at 2 and 4 (tolerance 2): the points at 4 are merged to a point at 0. -/
def chainCoord (x d : Nat) : Int := if d = 0 then (if x < 16 then 0 else if x < 24 then 2 else 4) else 0

/-- The distance of merged points is not bounded by the tolerance (a chain across the leaves). -/
theorem C59_drift : ∃ r, searchDuplicates 32 (fun ll => List.range (2 ^ ll)) nthBySort (sortPoints chainCoord) chainCoord (fun _ => 0) 2 = some r ∧ (31, 0) ∈ r.2.2 ∧
    ¬ Near chainCoord 2 31 0 := by
  have h : ((searchDuplicates 32 (fun ll => List.range (2 ^ ll)) nthBySort (sortPoints chainCoord) chainCoord (fun _ => 0) 2).map fun r => decide ((31, 0) ∈ r.2.2)) = some true := by
    decide +kernel
  obtain ⟨r, h1, h2⟩ := Option.map_eq_some_iff.1 h
  refine ⟨r, h1, of_decide_eq_true h2, fun h => absurd (h 0 (by omega)).1 (by decide)⟩

end Verif.KdTree
