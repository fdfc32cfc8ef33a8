import Verif.Proof.ConstraintsSet
import Verif.Prop.DualMap
import Verif.Prop.Gluing
/-! Lemmas for the equality constraints (C60), all processes. -/
namespace Verif.Feti

open Verif.Dual Verif.Pattern Finset

variable {K : Type} [Field K]

/-! ### Local and global numbers -/

theorem locals_sorted (P : Problem) (p : Nat) : (P.locals p).Pairwise (· < ·) := List.pairwise_lt_range.filter _

theorem dofAt_get {P : Problem} {p i : Nat} (h : i < (P.locals p).length) : (P.locals p)[i]? = some (P.dofAt p i) := by
  unfold Problem.dofAt
  rw [List.getD_eq_getElem?_getD, List.getElem?_eq_getElem h]; rfl

theorem dofAt_mem {P : Problem} {p i : Nat} (h : i < (P.locals p).length) : P.dofAt p i < P.ndofs ∧ touches P.first p (P.copies (P.dofAt p i)) = true := by
  have := List.mem_of_getElem? (dofAt_get h)
  unfold Problem.locals at this
  rw [List.mem_filter, List.mem_range] at this
  exact this

theorem dofAt_lt {P : Problem} {p i j : Nat} (hj : j < (P.locals p).length) (h : i < j) : P.dofAt p i < P.dofAt p j := by
  have hi : i < (P.locals p).length := by omega
  have h1 := (List.getElem?_eq_some_iff.1 (dofAt_get hi)).2
  have h2 := (List.getElem?_eq_some_iff.1 (dofAt_get hj)).2
  rw [← h1, ← h2]
  exact List.pairwise_iff_getElem.1 (locals_sorted P p) i j hi hj h

theorem dofAt_inj {P : Problem} {p i j : Nat} (hi : i < (P.locals p).length) (hj : j < (P.locals p).length) (h : P.dofAt p i = P.dofAt p j) : i = j := by
  rcases Nat.lt_trichotomy i j with hlt | he | hlt
  · have := dofAt_lt hj hlt; omega
  · exact he
  · have := dofAt_lt hi hlt; omega

theorem dofAt_surj {P : Problem} {p g : Nat} (hg : g < P.ndofs) (ht : touches P.first p (P.copies g) = true) : ∃ i, i < (P.locals p).length ∧ P.dofAt p i = g := by
  have : g ∈ P.locals p := List.mem_filter.2 ⟨List.mem_range.2 hg, ht⟩
  obtain ⟨i, hi, e⟩ := List.getElem_of_mem this
  refine ⟨i, hi, ?_⟩
  have := dofAt_get hi
  rw [List.getElem?_eq_getElem hi, e] at this
  exact (Option.some.inj this).symm

theorem dirichlet_sorted (P : Problem) (p : Nat) : (P.dirichlet p).Pairwise (· < ·) := List.pairwise_lt_range.filter _

theorem mem_dirichlet {P : Problem} {p i : Nat} : i ∈ P.dirichlet p ↔ i < (P.locals p).length ∧ P.fixed (P.dofAt p i) = true := by
  unfold Problem.dirichlet
  rw [List.mem_filter, List.mem_range]

/-- The copies of the local degrees of freedom. -/
def lcopies (P : Problem) (p i : Nat) : List Nat := P.copies (P.dofAt p i)

/-- A multiplier of local degrees of freedom in the global numbers. -/
def globalize (P : Problem) (p : Nat) : Mult → Mult
  | .glue i s => .glue (P.dofAt p i) s
  | .fix i d => .fix (P.dofAt p i) d

theorem globalize_doms (P : Problem) (p : Nat) (l : Mult) : (globalize P p l).doms P.copies = l.doms (lcopies P p) := by cases l <;> rfl

theorem globalize_dof (P : Problem) (p : Nat) (l : Mult) : (globalize P p l).dof = P.dofAt p l.dof := by cases l <;> rfl

/-- The decomposition data of the process. -/
def dec (P : Problem) (p : Nat) : Decomposition := decOf P.first P.nb p

/-- The multipliers of the process in local numbers. -/
def localMults (P : Problem) (srt : List (Nat × Nat) → List (Nat × Nat)) (p : Nat) : List Mult :=
  lamOf (dec P p) (P.locals p).length (lcopies P p) (P.dirichlet p) (srt (permOf (dec P p) (P.locals p).length (lcopies P p) (P.dirichlet p)))

/-- The multipliers of the process. -/
def multsOf (P : Problem) (srt : Nat → List (Nat × Nat) → List (Nat × Nat)) (p : Nat) : List Mult := (localMults P (srt p) p).map (globalize P p)

theorem touches_iff {first : Nat → Nat} {p : Nat} {ds : List Nat} : touches first p ds = true ↔ ∃ d ∈ ds, Owns first p d := by
  unfold touches
  simp

theorem mem_lamOf {D : Decomposition} {n : Nat} {copies : Nat → List Nat} {ind : List Nat} {perm : List (Nat × Nat)} (hp : perm.Perm (permOf D n copies ind)) {l : Mult} :
    l ∈ lamOf D n copies ind perm ↔ (∃ g s, l = .glue g s ∧ g < n ∧ g ∉ ind ∧ 2 ≤ s ∧ s ≤ (copies g).length ∧ ∃ d ∈ (copies g).take s, D.ismy d = true) ∨
      ∃ g d, l = .fix g d ∧ g < n ∧ g ∈ ind ∧ d ∈ copies g ∧ D.ismy d = true := by
  unfold lamOf
  rw [List.mem_append]
  apply or_congr
  · constructor
    · intro h
      obtain ⟨⟨g, s⟩, hx, rfl⟩ := List.mem_map.1 h
      exact ⟨g, s, rfl, mem_permOf.1 (hp.mem_iff.1 hx)⟩
    · rintro ⟨g, s, rfl, h⟩
      exact List.mem_map.2 ⟨(g, s), hp.mem_iff.2 (mem_permOf.2 h), rfl⟩
  · unfold fixesTo
    constructor
    · intro h
      obtain ⟨j, hj, h⟩ := List.mem_flatMap.1 h
      obtain ⟨g, hg, rfl⟩ := List.mem_map.1 h
      obtain ⟨hg1, hg2⟩ := List.mem_filter.1 hg
      have hg2 := of_decide_eq_true hg2
      have := List.mem_range.1 hj
      exact ⟨g, D.dbegin + j, rfl, List.mem_range.1 hg1, hg2.1, hg2.2, decide_eq_true (by omega)⟩
    · rintro ⟨g, d, rfl, h1, h2, h3, h4⟩
      obtain ⟨m1, m2⟩ := my_range h4
      refine List.mem_flatMap.2 ⟨d - D.dbegin, List.mem_range.2 (by omega), ?_⟩
      rw [show D.dbegin + (d - D.dbegin) = d by omega]
      exact List.mem_map.2 ⟨g, List.mem_filter.2 ⟨List.mem_range.2 h1, decide_eq_true ⟨h2, h3⟩⟩, rfl⟩

/-- The multipliers of a process are exactly the multipliers of the problem on its domains. -/
theorem mem_multsOf {P : Problem} {srt : Nat → List (Nat × Nat) → List (Nat × Nat)} {p : Nat}
    (hp : (srt p (permOf (dec P p) (P.locals p).length (lcopies P p) (P.dirichlet p))).Perm (permOf (dec P p) (P.locals p).length (lcopies P p) (P.dirichlet p))) {l : Mult} :
    l ∈ multsOf P srt p ↔ P.IsMult l ∧ touches P.first p (l.doms P.copies) = true := by
  have hmy : ∀ d, (dec P p).ismy d = true ↔ Owns P.first p d := fun d => by unfold dec; rw [ismy_iff]; simp
  unfold multsOf localMults
  rw [List.mem_map]
  constructor
  · rintro ⟨l', hl', rfl⟩
    rw [globalize_doms]
    rcases (mem_lamOf hp).1 hl' with ⟨g, s, rfl, h1, h2, h3, h4, d, h5, h6⟩ | ⟨g, d, rfl, h1, h2, h3, h4⟩
    · refine ⟨⟨(dofAt_mem h1).1, ?_, h3, h4⟩, touches_iff.2 ⟨d, h5, (hmy d).1 h6⟩⟩
      cases hf : P.fixed (P.dofAt p g) with
      | false => rfl
      | true => exact absurd (mem_dirichlet.2 ⟨h1, hf⟩) h2
    · exact ⟨⟨(dofAt_mem h1).1, (mem_dirichlet.1 h2).2, h3⟩, touches_iff.2 ⟨d, List.mem_singleton.2 rfl, (hmy d).1 h4⟩⟩
  · rintro ⟨h1, h2⟩
    obtain ⟨d, hd, ho⟩ := touches_iff.1 h2
    cases l with
    | glue g s =>
        obtain ⟨a1, a2, a3, a4⟩ := h1
        obtain ⟨i, hi, rfl⟩ := dofAt_surj a1 (touches_iff.2 ⟨d, List.mem_of_mem_take hd, ho⟩)
        refine ⟨.glue i s, (mem_lamOf hp).2 (Or.inl ⟨i, s, rfl, hi, ?_, a3, a4, d, hd, (hmy d).2 ho⟩), rfl⟩
        intro hm
        rw [(mem_dirichlet.1 hm).2] at a2
        cases a2
    | fix g d' =>
        obtain ⟨a1, a2, a3⟩ := h1
        have : d = d' := List.mem_singleton.1 hd
        subst this
        obtain ⟨i, hi, rfl⟩ := dofAt_surj a1 (touches_iff.2 ⟨d, a3, ho⟩)
        exact ⟨.fix i d, (mem_lamOf hp).2 (Or.inr ⟨i, d, rfl, hi, mem_dirichlet.2 ⟨hi, a2⟩, a3, (hmy d).2 ho⟩), rfl⟩

theorem lamOf_nodup {D : Decomposition} {n : Nat} {copies : Nat → List Nat} {ind : List Nat} {perm : List (Nat × Nat)} (hp : perm.Perm (permOf D n copies ind)) :
    (lamOf D n copies ind perm).Nodup := by
  unfold lamOf
  rw [List.nodup_append]
  refine ⟨?_, ?_, ?_⟩
  · refine List.Nodup.map ?_ (hp.nodup_iff.2 (permOf_nodup ..))
    rintro ⟨a, b⟩ ⟨c, d⟩ h
    cases h; rfl
  · unfold fixesTo
    rw [List.nodup_flatMap]
    refine ⟨?_, ?_⟩
    · intro j _
      refine List.Nodup.map ?_ (List.nodup_range.filter _)
      intro a b h
      cases h; rfl
    · refine List.pairwise_lt_range.imp ?_
      intro a b hab x hx hy
      obtain ⟨g, _, rfl⟩ := List.mem_map.1 hx
      obtain ⟨g', _, e⟩ := List.mem_map.1 hy
      injection e with _ e
      omega
  · intro a ha b hb e
    subst e
    obtain ⟨x, _, rfl⟩ := List.mem_map.1 ha
    obtain ⟨j, _, h⟩ := List.mem_flatMap.1 hb
    obtain ⟨g, _, e⟩ := List.mem_map.1 h
    cases e

/-- The order of gluing multipliers. -/
def multLt (copies : Nat → List Nat) : Mult → Mult → Prop
  | .glue g s, .glue g' s' => glueLt copies (g, s) (g', s')
  | _, _ => False

variable {P : Problem} {idx : Nat → Nat → Nat → Nat} {srt : Nat → List (Nat × Nat) → List (Nat × Nat)}

/-- The contract of the sorting on all processes. -/
def SortsAll (P : Problem) (srt : Nat → List (Nat × Nat) → List (Nat × Nat)) : Prop :=
  ∀ p, p < P.np → Sorts (lambdaLess (dmapOf (dec P p) (P.locals p).length (lcopies P p) fun d i => P.index d (P.dofAt p i))) (srt p)

theorem SortsAll.perm (h : SortsAll P srt) {p : Nat} (hp : p < P.np) :
    (srt p (permOf (dec P p) (P.locals p).length (lcopies P p) (P.dirichlet p))).Perm (permOf (dec P p) (P.locals p).length (lcopies P p) (P.dirichlet p)) := (h p hp _ (weak_permOf ..)).1

theorem localMults_range (h : SortsAll P srt) {p : Nat} (hp : p < P.np) {l : Mult} (hl : l ∈ localMults P (srt p) p) : l.dof < (P.locals p).length := by
  rcases (mem_lamOf (h.perm hp)).1 hl with ⟨g, s, rfl, h1, _⟩ | ⟨g, d, rfl, h1, _⟩
  · exact h1
  · exact h1

theorem multsOf_nodup (h : SortsAll P srt) {p : Nat} (hp : p < P.np) : (multsOf P srt p).Nodup := by
  unfold multsOf
  refine List.Nodup.map_on ?_ (lamOf_nodup (h.perm hp))
  intro x hx y hy e
  have h1 := localMults_range h hp hx
  have h2 := localMults_range h hp hy
  cases x with
  | glue i s =>
      cases y with
      | glue j t =>
          injection e with e1 e2
          have := dofAt_inj h1 h2 e1
          change i = j at this
          rw [this, e2]
      | fix j t => cases e
  | fix i s =>
      cases y with
      | glue j t => cases e
      | fix j t =>
          injection e with e1 e2
          have := dofAt_inj h1 h2 e1
          change i = j at this
          rw [this, e2]

/-- The multipliers shared with another process are gluing multipliers in the global order. -/
theorem shared_sorted (hP : P.Ok) (h : SortsAll P srt) {p q : Nat} (hp : p < P.np) (hpq : p ≠ q) :
    ((multsOf P srt p).filter fun l => touches P.first q (l.doms P.copies)).Pairwise (multLt P.copies) := by
  unfold multsOf localMults lamOf
  rw [List.map_append, List.filter_append]
  have hnil : (((fixesTo (dec P p) (P.locals p).length (lcopies P p) (P.dirichlet p) ((dec P p).dend - (dec P p).dbegin)).map (globalize P p)).filter fun l => touches P.first q (l.doms P.copies)) = [] := by
    rw [List.filter_eq_nil_iff]
    intro l hl ht
    obtain ⟨x, hx, rfl⟩ := List.mem_map.1 hl
    obtain ⟨j, hj, hx⟩ := List.mem_flatMap.1 hx
    obtain ⟨g, _, rfl⟩ := List.mem_map.1 hx
    obtain ⟨d, hd, ho⟩ := touches_iff.1 ht
    have hd : d = (dec P p).dbegin + j := List.mem_singleton.1 hd
    have hj := List.mem_range.1 hj
    have : Owns P.first p d := by
      subst hd
      change j < P.first (p + 1) - P.first p at hj
      show P.first p ≤ P.first p + j ∧ P.first p + j < P.first (p + 1)
      omega
    exact hpq (owner_unique hP.mono this ho)
  rw [hnil, List.append_nil]
  refine List.Pairwise.filter _ ?_
  rw [List.map_map, List.pairwise_map]
  refine (sorted_permOf (h p hp)).imp_of_mem ?_
  intro a b ha hb hab
  have h1 := (mem_permOf.1 ((h.perm hp).mem_iff.1 ha)).1
  have h2 := (mem_permOf.1 ((h.perm hp).mem_iff.1 hb)).1
  show glueLt P.copies (P.dofAt p a.1, a.2) (P.dofAt p b.1, b.2)
  rcases hab with hab | ⟨e, hab⟩
  · exact Or.inl hab
  · exact Or.inr ⟨e, dofAt_lt h2 hab⟩

/-- The multipliers of the processes satisfy what the synchronization (C61) assumes. -/
theorem shared_multsOf (hP : P.Ok) (h : SortsAll P srt) : Shared P.np P.first P.nb (multsOf P srt) (Mult.doms P.copies) := by
  have hsub : ∀ p, p < P.np → ∀ l ∈ multsOf P srt p, l.dof < P.ndofs ∧ (∀ d ∈ l.doms P.copies, d ∈ P.copies l.dof) ∧ (l.doms P.copies).Pairwise (· < ·) := by
    intro p hp l hl
    obtain ⟨h1, h2⟩ := (mem_multsOf (h.perm hp)).1 hl
    cases l with
    | glue g s => exact ⟨h1.1, fun d hd => List.mem_of_mem_take hd, (hP.csorted g h1.1).sublist (List.take_sublist ..)⟩
    | fix g d => exact ⟨h1.1, fun d' hd => by rw [List.mem_singleton.1 hd]; exact h1.2.2, List.pairwise_singleton ..⟩
  refine ⟨hP.mono, fun p hp l hl => (hsub p hp l hl).2.2, ?_, ?_, fun p hp => multsOf_nodup h hp, ?_, hP.nsorted, hP.nrange, hP.nsym⟩
  · intro p hp l hl d hd
    obtain ⟨h1, h2, _⟩ := hsub p hp l hl
    obtain ⟨q, hq, ho⟩ := hP.crange _ h1 d (h2 d hd)
    obtain ⟨d', hd', ho'⟩ := touches_iff.1 ((mem_multsOf (h.perm hp)).1 hl).2
    exact ⟨q, hq, ho, hP.neigh _ h1 p q hp hq (touches_iff.2 ⟨d', h2 d' hd', ho'⟩) (touches_iff.2 ⟨d, h2 d hd, ho⟩)⟩
  · intro p hp l hl
    exact ((mem_multsOf (h.perm hp)).1 hl).2
  · intro p q hp hq hpq
    have hperm : ((multsOf P srt p).filter fun l => touches P.first q (l.doms P.copies)).Perm ((multsOf P srt q).filter fun l => touches P.first p (l.doms P.copies)) := by
      rw [List.perm_ext_iff_of_nodup ((multsOf_nodup h hp).filter _) ((multsOf_nodup h hq).filter _)]
      intro l
      rw [List.mem_filter, List.mem_filter, mem_multsOf (h.perm hp), mem_multsOf (h.perm hq)]
      constructor
      · rintro ⟨⟨a, b⟩, c⟩; exact ⟨⟨a, c⟩, b⟩
      · rintro ⟨⟨a, b⟩, c⟩; exact ⟨⟨a, c⟩, b⟩
    refine hperm.eq_of_pairwise ?_ (shared_sorted hP h hp hpq) (shared_sorted hP h hq (Ne.symm hpq))
    intro a b _ _ hab hba
    cases a with
    | glue g s =>
        cases b with
        | glue g' s' => exact absurd (glueLt_trans hab hba) glueLt_irrefl
        | fix g' d => cases hab
    | fix g d => cases hab

end Verif.Feti
