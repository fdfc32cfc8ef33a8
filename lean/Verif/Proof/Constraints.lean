import Verif.Model.Constraints
import Verif.Spec.Constraints
import Verif.Proof.DualMap
import Mathlib.Data.List.Flatten
/-! Lemmas for the equality constraints (C60), one process. -/
namespace Verif.Feti

open Verif.Dual Verif.Pattern

variable {K : Type}

/-- `decomposition->dmap` of `n` degrees of freedom with the domains `copies` and the indices `idx` in the own domains (see `fillDecomposition`). -/
def dmapOf (D : Decomposition) (n : Nat) (copies : Nat → List Nat) (idx : Nat → Nat → Nat) : List (List DIndex) :=
  mk n fun g => (copies g).map fun d => (d, if D.ismy d then some (idx d g) else none)

theorem dmapOf_get {D : Decomposition} {n g : Nat} (copies : Nat → List Nat) (idx : Nat → Nat → Nat) (h : g < n) :
    (dmapOf D n copies idx)[g]? = some ((copies g).map fun d => (d, if D.ismy d then some (idx d g) else none)) := mk_get _ h

/-! ### The first loop -/

theorem skipBelow_spec {ind : List Nat} {dof : Nat} : ∀ fuel i, ind.length ≤ i + fuel → (∀ k x, k < i → ind[k]? = some x → x < dof) →
    (∀ k x, k < skipBelow ind dof fuel i → ind[k]? = some x → x < dof) ∧ ∀ x, ind[skipBelow ind dof fuel i]? = some x → dof ≤ x := by
  intro fuel
  induction fuel with
  | zero =>
      intro i h1 h2
      refine ⟨h2, ?_⟩
      intro x hx
      have : i < ind.length := (List.getElem?_eq_some_iff.1 hx).1
      omega
  | succ fuel ih =>
      intro i h1 h2
      unfold skipBelow
      cases hi : ind[i]? with
      | none =>
          dsimp only
          exact ⟨h2, by intro x hx; rw [hi] at hx; cases hx⟩
      | some y =>
          dsimp only
          by_cases hy : y < dof
          · rw [if_pos hy]
            refine ih (i + 1) (by omega) ?_
            intro k x hk hx
            by_cases hki : k = i
            · subst hki; rw [hi] at hx; cases hx; exact hy
            · exact h2 k x (by omega) hx
          · rw [if_neg hy]
            refine ⟨h2, ?_⟩
            intro x hx
            rw [hi] at hx; cases hx; omega

/-- The test of a Dirichlet degree of freedom (31). -/
theorem skipBelow_test {ind : List Nat} (hs : ind.Pairwise (· < ·)) {dof i : Nat} (h : ∀ k x, k < i → ind[k]? = some x → x < dof) :
    ind[skipBelow ind dof ind.length i]? = some dof ↔ dof ∈ ind := by
  obtain ⟨h1, h2⟩ := skipBelow_spec (ind := ind) (dof := dof) ind.length i (by omega) h
  constructor
  · intro hx; exact List.mem_of_getElem? hx
  · intro hm
    obtain ⟨k, hk, e⟩ := List.getElem_of_mem hm
    have hge : skipBelow ind dof ind.length i ≤ k := by
      apply Nat.le_of_not_lt
      intro hlt
      have := h1 k dof hlt (by rw [List.getElem?_eq_getElem hk, e])
      omega
    have hlt : skipBelow ind dof ind.length i < ind.length := by omega
    have hge' := h2 _ (List.getElem?_eq_getElem hlt)
    rcases Nat.lt_or_eq_of_le hge with h3 | h3
    · have := List.pairwise_iff_getElem.1 hs _ _ hlt hk h3
      omega
    · rw [List.getElem?_eq_getElem hlt]
      congr 1
      refine Eq.trans ?_ e
      congr 1

theorem pushAt_mk {A : Type} {n j : Nat} (F : Nat → List A) (v : A) (h : j < n) : pushAt (mk n F) j v = some (mk n (upd F j (F j ++ [v]))) := by
  unfold pushAt
  rw [mk_get _ h]
  simp only [Option.bind_eq_bind, Option.bind_some]
  exact wr_mk _ _ h

theorem my_range {D : Decomposition} {d : Nat} (h : D.ismy d = true) : D.dbegin ≤ d ∧ d < D.dend := of_decide_eq_true h

/-- The value for the domain `d`, if it is in the list. -/
def one {A : Type} (ds : List Nat) (d : Nat) (v : A) : List A := if d ∈ ds then [v] else []

theorem upd_one {A : Type} {D : Decomposition} {d : Nat} {ds : List Nat} (hm : D.ismy d = true) (hd : d ∉ ds) (F : Nat → List A) (v : Nat → A) :
    (fun j => upd F (d - D.dbegin) (F (d - D.dbegin) ++ [v d]) j ++ one ds (D.dbegin + j) (v (D.dbegin + j))) = fun j => F j ++ one (d :: ds) (D.dbegin + j) (v (D.dbegin + j)) := by
  obtain ⟨h1, h2⟩ := my_range hm
  funext j
  unfold upd one
  by_cases hj : j = d - D.dbegin
  · subst hj
    have e : D.dbegin + (d - D.dbegin) = d := by omega
    rw [if_pos rfl, e, if_neg hd, if_pos (List.mem_cons_self ..), List.append_nil]
  · rw [if_neg hj]
    have : D.dbegin + j ≠ d := by omega
    simp only [List.mem_cons, this, false_or]

theorem one_foreign {A : Type} {D : Decomposition} {d : Nat} {ds : List Nat} (hm : D.ismy d = false) {j : Nat} (hj : j < D.dend - D.dbegin) (v : A) :
    one (d :: ds) (D.dbegin + j) v = one ds (D.dbegin + j) v := by
  have hm := of_decide_eq_false hm
  have : D.dbegin + j ≠ d := by omega
  unfold one
  simp only [List.mem_cons, this, false_or]

theorem fixDof_spec (D : Decomposition) (v : Nat → Nat) : ∀ (ds : List Nat), ds.Nodup → ∀ F : Nat → List Nat,
    fixDof D (ds.map fun d => (d, if D.ismy d then some (v d) else none)) (mk (D.dend - D.dbegin) F) =
      some (mk (D.dend - D.dbegin) fun j => F j ++ one ds (D.dbegin + j) (v (D.dbegin + j))) := by
  intro ds
  induction ds with
  | nil => intro _ F; unfold one; simp [fixDof]
  | cons d ds ih =>
      intro hnd F
      rw [List.nodup_cons] at hnd
      unfold fixDof
      rw [List.map_cons, List.foldlM_cons]
      cases hm : D.ismy d with
      | true =>
          obtain ⟨h1, h2⟩ := my_range hm
          simp only [cond_true, if_true, Option.bind_eq_bind, Option.bind_some]
          rw [pushAt_mk F _ (by omega)]
          simp only [Option.bind_some]
          have := ih hnd.2 (upd F (d - D.dbegin) (F (d - D.dbegin) ++ [v d]))
          rw [upd_one hm hnd.1] at this
          exact this
      | false =>
          simp only [cond_false, Option.bind_eq_bind, Option.bind_some]
          refine Eq.trans (ih hnd.2 F) ?_
          congr 1
          apply mk_congr
          intro j hj
          rw [one_foreign hm hj]

theorem firstOwn_eq (D : Decomposition) (v : Nat → Option Nat) (ds : List Nat) : firstOwn D (ds.map fun d => (d, v d)) = ds.findIdx D.ismy := by
  induction ds with
  | nil => rfl
  | cons d ds ih =>
      rw [List.map_cons, firstOwn, List.findIdx_cons, ih]

/-- The gluing multipliers of a degree of freedom with the domains `ds`. -/
def gluesOf (D : Decomposition) (g : Nat) (ds : List Nat) : List (Nat × Nat) :=
  (List.range' (max (ds.findIdx D.ismy) 1) (ds.length - max (ds.findIdx D.ismy) 1)).map fun i => (g, i + 1)

/-- The pairs of the first loop. -/
def permOf (D : Decomposition) (n : Nat) (copies : Nat → List Nat) (ind : List Nat) : List (Nat × Nat) :=
  (List.range n).flatMap fun g => if g ∈ ind then [] else gluesOf D g (copies g)

/-- The Dirichlet degrees of freedom of the domain `d`. -/
def fixedOf (n : Nat) (copies : Nat → List Nat) (ind : List Nat) (d : Nat) : List Nat := (List.range n).filter fun g => decide (g ∈ ind ∧ d ∈ copies g)

theorem fixedOf_succ (n : Nat) (copies : Nat → List Nat) (ind : List Nat) (d : Nat) :
    fixedOf (n + 1) copies ind d = fixedOf n copies ind d ++ if n ∈ ind ∧ d ∈ copies n then [n] else [] := by
  unfold fixedOf
  rw [List.range_succ, List.filter_append]
  congr 1
  by_cases h : n ∈ ind ∧ d ∈ copies n
  · rw [if_pos h, List.filter_cons_of_pos (by simpa using h)]; rfl
  · rw [if_neg h, List.filter_cons_of_neg (by simpa using h)]; rfl

theorem phase1_spec (D : Decomposition) (n : Nat) (copies : Nat → List Nat) (idx : Nat → Nat → Nat) {ind : List Nat} (hs : ind.Pairwise (· < ·)) (hc : ∀ g, g < n → (copies g).Nodup) :
    ∃ ph, phase1 D (dmapOf D n copies idx) ind = some ph ∧ ph.perm = permOf D n copies ind ∧
      ph.fixed = mk (D.dend - D.dbegin) (fun j => (fixedOf n copies ind (D.dbegin + j)).map (idx (D.dbegin + j))) ∧
      2 ≤ ph.maxM ∧ ∀ g, g < n → g ∉ ind → (copies g).length ≤ ph.maxM := by
  unfold phase1
  rw [show (dmapOf D n copies idx).length = n from mk_length _ _]
  obtain ⟨ph, h1, h2⟩ := forLoop_inv (Nat.zero_le n) (⟨0, List.replicate (D.dend - D.dbegin) [], [], 2⟩ : Phase1) (fun dof st => do
      let dm ← (dmapOf D n copies idx)[dof]?
      phase1Step D ind dof dm st) (fun i (ph : Phase1) =>
    (∀ k x, k < ph.dindex → ind[k]? = some x → x < i) ∧ ph.perm = permOf D i copies ind ∧
      ph.fixed = mk (D.dend - D.dbegin) (fun j => (fixedOf i copies ind (D.dbegin + j)).map (idx (D.dbegin + j))) ∧
      2 ≤ ph.maxM ∧ ∀ g, g < i → g ∉ ind → (copies g).length ≤ ph.maxM) (by
    refine ⟨by intro k x hk; exact absurd hk (Nat.not_lt_zero _), rfl, ?_, Nat.le_refl _, by intro g hg; omega⟩
    apply List.ext_getElem?
    intro i
    by_cases hi : i < D.dend - D.dbegin
    · rw [mk_get _ hi, List.getElem?_replicate, if_pos hi]; rfl
    · rw [List.getElem?_eq_none (by rw [List.length_replicate]; omega), List.getElem?_eq_none (by rw [mk_length]; omega)]) (by
    intro i _ hi ph hph
    obtain ⟨p1, p2, p3, p4, p5⟩ := hph
    rw [dmapOf_get _ _ hi]
    simp only [Option.bind_eq_bind, Option.bind_some]
    have ht := skipBelow_test hs p1
    have hsk := (skipBelow_spec (ind := ind) (dof := i) ind.length ph.dindex (by omega) p1).1
    unfold phase1Step
    dsimp only
    by_cases hm : i ∈ ind
    · rw [if_pos (ht.2 hm), p3, fixDof_spec D (fun d => idx d i) _ (hc i hi)]
      refine ⟨_, rfl, ?_, ?_, ?_, p4, ?_⟩
      · intro k x hk hx; have := hsk k x hk hx; omega
      · rw [p2]; unfold permOf; rw [List.range_succ, List.flatMap_append, List.flatMap_singleton, if_pos hm, List.append_nil]
      · dsimp only
        apply mk_congr
        intro j hj
        rw [fixedOf_succ, List.map_append]
        congr 1
        unfold one
        by_cases hd : D.dbegin + j ∈ copies i
        · rw [if_pos hd, if_pos ⟨hm, hd⟩]; rfl
        · rw [if_neg hd, if_neg (fun h => hd h.2)]; rfl
      · intro g hg hgi
        by_cases hge : g = i
        · subst hge; exact absurd hm hgi
        · exact p5 g (by omega) hgi
    · rw [if_neg fun h => hm (ht.1 h)]
      refine ⟨_, rfl, ?_, ?_, ?_, ?_, ?_⟩
      · intro k x hk hx; have := hsk k x hk hx; omega
      · dsimp only
        rw [p2, firstOwn_eq, List.length_map]; unfold permOf; rw [List.range_succ, List.flatMap_append, List.flatMap_singleton, if_neg hm]; rfl
      · dsimp only
        rw [p3]
        apply mk_congr
        intro j hj
        rw [fixedOf_succ, if_neg (fun h => hm h.1), List.append_nil]
      · exact Nat.le_trans p4 (Nat.le_max_left _ _)
      · intro g hg hgi
        dsimp only
        rw [List.length_map]
        by_cases hge : g = i
        · subst hge; exact Nat.le_max_right _ _
        · exact Nat.le_trans (p5 g (by omega) hgi) (Nat.le_max_left _ _))
  exact ⟨ph, h1, h2.2⟩

theorem mem_permOf {D : Decomposition} {n : Nat} {copies : Nat → List Nat} {ind : List Nat} {g s : Nat} :
    (g, s) ∈ permOf D n copies ind ↔ g < n ∧ g ∉ ind ∧ 2 ≤ s ∧ s ≤ (copies g).length ∧ ∃ d ∈ (copies g).take s, D.ismy d = true := by
  unfold permOf
  rw [List.mem_flatMap]
  have hown : ∀ s, (copies g).findIdx D.ismy < s ∧ s ≤ (copies g).length ↔ s ≤ (copies g).length ∧ ∃ d ∈ (copies g).take s, D.ismy d = true := by
    intro s
    constructor
    · rintro ⟨h1, h2⟩
      have hlt : (copies g).findIdx D.ismy < (copies g).length := by omega
      refine ⟨h2, _, List.mem_take_iff_getElem.2 ⟨_, by omega, rfl⟩, List.findIdx_getElem (w := hlt)⟩
    · rintro ⟨h2, d, hd, hm⟩
      obtain ⟨i, hi, rfl⟩ := List.mem_take_iff_getElem.1 hd
      have : (copies g).findIdx D.ismy ≤ i := by
        apply Nat.le_of_not_lt
        intro hlt
        have := List.not_of_lt_findIdx hlt
        rw [hm] at this
        cases this
      exact ⟨by omega, h2⟩
  constructor
  · rintro ⟨g', hg', h⟩
    split at h
    · cases h
    · rename_i hni
      obtain ⟨i, hi, e⟩ := List.mem_map.1 h
      cases e
      have hi := List.mem_range'_1.1 hi
      have hle := Nat.le_max_left ((copies g).findIdx D.ismy) 1
      have hle' := Nat.le_max_right ((copies g).findIdx D.ismy) 1
      obtain ⟨h3, h4⟩ := (hown (i + 1)).1 ⟨by omega, by omega⟩
      exact ⟨List.mem_range.1 hg', hni, by omega, h3, h4⟩
  · rintro ⟨h1, h2, h3, h4, h5⟩
    refine ⟨g, List.mem_range.2 h1, ?_⟩
    rw [if_neg h2]
    obtain ⟨h6, _⟩ := (hown s).2 ⟨h4, h5⟩
    have : max ((copies g).findIdx D.ismy) 1 < s := Nat.max_lt.2 ⟨h6, by omega⟩
    exact List.mem_map.2 ⟨s - 1, List.mem_range'_1.2 (by omega), by congr 1; omega⟩

theorem permOf_nodup (D : Decomposition) (n : Nat) (copies : Nat → List Nat) (ind : List Nat) : (permOf D n copies ind).Nodup := by
  unfold permOf
  rw [List.nodup_flatMap]
  constructor
  · intro g _
    split
    · exact List.nodup_nil
    · refine List.Nodup.map ?_ List.nodup_range'
      intro a b e
      cases e
      rfl
  · refine List.Pairwise.imp ?_ List.pairwise_lt_range
    intro a b hab
    rw [Function.onFun, List.disjoint_left]
    intro x hx hx'
    split at hx
    · cases hx
    · split at hx'
      · cases hx'
      · obtain ⟨i, _, rfl⟩ := List.mem_map.1 hx
        obtain ⟨j, _, e⟩ := List.mem_map.1 hx'
        cases e
        omega

end Verif.Feti
