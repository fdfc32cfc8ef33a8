import Verif.Proof.ConstraintsLoop
/-! `EqualityConstrains::set`, one process (C60). -/
namespace Verif.Feti

open Verif.Dual Verif.Pattern

variable {K : Type} [Field K]

theorem replicate_mk {A : Type} (n : Nat) (v : A) : List.replicate n v = mk n fun _ => v := by
  apply List.ext_getElem?
  intro i
  by_cases hi : i < n
  · rw [mk_get _ hi, List.getElem?_replicate, if_pos hi]
  · rw [List.getElem?_eq_none (by rw [List.length_replicate]; omega), List.getElem?_eq_none (by rw [mk_length]; omega)]

theorem glueFold_spec {D : Decomposition} {n : Nat} {copies : Nat → List Nat} {idx : Nat → Nat → Nat} (sq : K → K) {coefs : List K} {maxM : Nat}
    (hcoef : ∀ s c, 2 ≤ s → s ≤ maxM → c < s → coefs[(s - 2) * maxM + c]? = some (coef sq s c)) (hnd : ∀ g, g < n → (copies g).Nodup) :
    ∀ (todo lam : List (Nat × Nat)), (∀ l ∈ lam ++ todo, l.1 < n ∧ (2 ≤ l.2 ∧ l.2 ≤ (copies l.1).length) ∧ l.2 ≤ maxM) → (lam ++ todo).Pairwise (glueLt copies) →
      ∀ (cmap : List Nat) (prev halo : Nat), GroupsOf cmap prev ((lam.map toMult).map (Mult.doms copies)) → HaloOf D copies halo (lam.map toMult) →
      ∃ cmap' prev' halo', todo.foldlM (glueStep D (dmapOf D n copies idx) coefs maxM) (lamState D copies idx sq (lam.map toMult) cmap halo, prev) =
          some (lamState D copies idx sq ((lam ++ todo).map toMult) cmap' halo', prev') ∧
        GroupsOf cmap' prev' (((lam ++ todo).map toMult).map (Mult.doms copies)) ∧ HaloOf D copies halo' ((lam ++ todo).map toMult) := by
  intro todo
  induction todo with
  | nil =>
      intro lam _ _ cmap prev halo hg hh
      rw [List.append_nil]
      exact ⟨cmap, prev, halo, rfl, hg, hh⟩
  | cons l todo ih =>
      intro lam hl hs cmap prev halo hg hh
      obtain ⟨h1, h2, h3⟩ := hl l (List.mem_append_right _ (List.mem_cons_self ..))
      obtain ⟨c', p', h', e1, e2, e3⟩ := glueStep_spec (idx := idx) sq hcoef lam l h1 h2.1 h2.2 h3 (hnd l.1 h1) (by
        intro a ha
        have := (List.pairwise_append.1 hs).2.2 a ha l (List.mem_cons_self ..)
        exact glueLt_head this (hl a (List.mem_append_left _ ha)).2.1 h2) hg hh
      rw [List.foldlM_cons, e1]
      simp only [Option.bind_eq_bind, Option.bind_some]
      have e : lam ++ l :: todo = lam ++ [l] ++ todo := by simp
      rw [e] at hl hs ⊢
      exact ih (lam ++ [l]) hl hs c' p' h' e2 e3

/-- Groups without `prev`. -/
def GroupList (cmap : List Nat) (dl : List (List Nat)) : Prop :=
  ∃ gs : List (Nat × List Nat), (∀ g ∈ gs, 0 < g.1) ∧ cmap = encG gs ∧ gs.flatMap (fun g => List.replicate g.1 g.2) = dl

theorem GroupsOf.list {cmap : List Nat} {prev : Nat} {dl : List (List Nat)} (h : GroupsOf cmap prev dl) : GroupList cmap dl := by
  rcases h with ⟨rfl, _, rfl⟩ | ⟨gs, m, ds, h1, h2, _, h4⟩
  · exact ⟨[], by simp, rfl, rfl⟩
  · exact ⟨_, h1, h2, h4⟩

/-- The Dirichlet multipliers of the degrees of freedom `F` in the domain `d`. -/
def fixes (d : Nat) (F : List Nat) : List Mult := F.map fun g => .fix g d

theorem upd_rows {A : Type} {D : Decomposition} {j : Nat} (copies : Nat → List Nat) (lam : List Mult) (g : Nat) (f : Nat → Mult × Nat → A) {v : A} (hv : v = f j (.fix g (D.dbegin + j), lam.length)) :
    upd (fun j => (rowsOf copies lam (D.dbegin + j)).map (f j)) j ((rowsOf copies lam (D.dbegin + j)).map (f j) ++ [v]) =
      fun j' => (rowsOf copies (lam ++ [.fix g (D.dbegin + j)]) (D.dbegin + j')).map (f j') := by
  funext j'
  rw [rowsOf_push, List.map_append, one_map]
  unfold upd one
  show _ = _ ++ if D.dbegin + j' ∈ [D.dbegin + j] then _ else _
  by_cases h : j' = j
  · subst h
    rw [if_pos rfl, if_pos (List.mem_singleton.2 rfl), hv]
  · rw [if_neg h, if_neg (by intro hm; have := List.mem_singleton.1 hm; omega), List.append_nil]

theorem fixFold_spec {D : Decomposition} {copies : Nat → List Nat} {idx : Nat → Nat → Nat} (sq : K → K) {j : Nat} (hj : j < D.dend - D.dbegin) (cmap : List Nat) (halo : Nat) :
    ∀ (F : List Nat) (lam : List Mult), (F.map (idx (D.dbegin + j))).foldlM (m := Option) (fun (st : Lambdas K) k => do
      let d2c ← pushAt st.d2c j st.size
      let cols ← pushAt st.cols j k
      let vals ← pushAt st.vals j 1
      some { st with size := st.size + 1, d2c := d2c, cols := cols, vals := vals }) (lamState D copies idx sq lam cmap halo) =
        some (lamState D copies idx sq (lam ++ fixes (D.dbegin + j) F) cmap halo) := by
  intro F
  induction F with
  | nil => intro lam; unfold fixes; simp
  | cons g F ih =>
      intro lam
      rw [List.map_cons, List.foldlM_cons]
      have : (do
          let d2c ← pushAt (lamState D copies idx sq lam cmap halo).d2c j (lamState D copies idx sq lam cmap halo).size
          let cols ← pushAt (lamState D copies idx sq lam cmap halo).cols j (idx (D.dbegin + j) g)
          let vals ← pushAt (lamState D copies idx sq lam cmap halo).vals j 1
          some { lamState D copies idx sq lam cmap halo with size := (lamState D copies idx sq lam cmap halo).size + 1, d2c := d2c, cols := cols, vals := vals }) =
          some (lamState D copies idx sq (lam ++ [.fix g (D.dbegin + j)]) cmap halo) := by
        unfold lamState
        dsimp only
        rw [pushAt_mk _ _ hj, pushAt_mk _ _ hj, pushAt_mk _ _ hj]
        simp only [Option.bind_eq_bind, Option.bind_some]
        rw [upd_rows (D := D) (j := j) copies lam g (fun _ x => x.2) (v := lam.length) rfl, upd_rows (D := D) (j := j) copies lam g (fun j x => idx (D.dbegin + j) x.1.dof) (v := idx (D.dbegin + j) g) rfl,
          upd_rows (D := D) (j := j) copies lam g (fun j x => coefAt sq copies x.1 (D.dbegin + j)) (v := 1) rfl]
        simp
      rw [this]
      simp only [Option.bind_eq_bind, Option.bind_some]
      have h := ih (lam ++ [.fix g (D.dbegin + j)])
      rw [show lam ++ fixes (D.dbegin + j) (g :: F) = lam ++ [.fix g (D.dbegin + j)] ++ fixes (D.dbegin + j) F by unfold fixes; simp]
      exact h

/-- The Dirichlet multipliers of the first `m` domains. -/
def fixesTo (D : Decomposition) (n : Nat) (copies : Nat → List Nat) (ind : List Nat) (m : Nat) : List Mult :=
  (List.range m).flatMap fun j => fixes (D.dbegin + j) (fixedOf n copies ind (D.dbegin + j))

theorem fixesTo_succ (D : Decomposition) (n : Nat) (copies : Nat → List Nat) (ind : List Nat) (m : Nat) :
    fixesTo D n copies ind (m + 1) = fixesTo D n copies ind m ++ fixes (D.dbegin + m) (fixedOf n copies ind (D.dbegin + m)) := by
  unfold fixesTo; rw [List.range_succ, List.flatMap_append, List.flatMap_singleton]

/-- The multipliers of a process. -/
def lamOf (D : Decomposition) (n : Nat) (copies : Nat → List Nat) (ind : List Nat) (perm : List (Nat × Nat)) : List Mult :=
  perm.map toMult ++ fixesTo D n copies ind (D.dend - D.dbegin)

/-- `doffset`: the first Dirichlet multiplier of a domain. -/
def doffsetOf (D : Decomposition) (n : Nat) (copies : Nat → List Nat) (ind : List Nat) (perm : List (Nat × Nat)) (j : Nat) : Nat := perm.length + (fixesTo D n copies ind j).length

theorem fixLoop_spec {D : Decomposition} {n : Nat} {copies : Nat → List Nat} {idx : Nat → Nat → Nat} (sq : K → K) (ind : List Nat) (perm : List (Nat × Nat)) {cmap : List Nat} {halo : Nat}
    (hg : GroupList cmap ((perm.map toMult).map (Mult.doms copies))) :
    ∃ cmap', forLoop 0 (D.dend - D.dbegin) (lamState D copies idx sq (perm.map toMult) cmap halo, List.replicate (D.dend - D.dbegin) 0) (fun d s =>
        fixDomain D (mk (D.dend - D.dbegin) fun j => (fixedOf n copies ind (D.dbegin + j)).map (idx (D.dbegin + j))) d s) =
      some (lamState D copies idx sq (lamOf D n copies ind perm) cmap' halo, mk (D.dend - D.dbegin) (doffsetOf D n copies ind perm)) ∧
      GroupList cmap' ((lamOf D n copies ind perm).map (Mult.doms copies)) := by
  obtain ⟨r, h1, cmap', h2, h3⟩ := forLoop_inv (Nat.zero_le (D.dend - D.dbegin)) (lamState D copies idx sq (perm.map toMult) cmap halo, List.replicate (D.dend - D.dbegin) 0) (fun d s =>
      fixDomain D (mk (D.dend - D.dbegin) fun j => (fixedOf n copies ind (D.dbegin + j)).map (idx (D.dbegin + j))) d s)
    (fun m r => ∃ cmap', r = (lamState D copies idx sq (perm.map toMult ++ fixesTo D n copies ind m) cmap' halo,
        mk (D.dend - D.dbegin) fun j => if j < m then doffsetOf D n copies ind perm j else 0) ∧
      GroupList cmap' ((perm.map toMult ++ fixesTo D n copies ind m).map (Mult.doms copies))) (by
      refine ⟨cmap, ?_, ?_⟩
      · rw [replicate_mk]
        unfold fixesTo
        simp
      · unfold fixesTo; simpa using hg) (by
      rintro m _ hm r ⟨cm, rfl, hgl⟩
      unfold fixDomain
      dsimp only
      rw [wr_mk _ _ hm]
      simp only [Option.bind_eq_bind, Option.bind_some]
      rw [mk_get _ hm]
      simp only [Option.bind_some]
      have := fixFold_spec (copies := copies) (idx := idx) sq hm cm halo (fixedOf n copies ind (D.dbegin + m)) (perm.map toMult ++ fixesTo D n copies ind m)
      simp only [Option.bind_eq_bind] at this
      rw [this]
      simp only [Option.bind_some]
      refine ⟨_, rfl, (if ((fixedOf n copies ind (D.dbegin + m)).map (idx (D.dbegin + m))).length ≠ 0 then
        cm ++ [((fixedOf n copies ind (D.dbegin + m)).map (idx (D.dbegin + m))).length, 1, D.dbegin + m] else cm), ?_, ?_⟩
      · rw [fixesTo_succ, ← List.append_assoc]
        congr 1
        apply mk_congr
        intro j hj
        unfold upd
        by_cases hjm : j = m
        · subst hjm
          rw [if_pos rfl, if_pos (Nat.lt_succ_self _)]
          unfold lamState doffsetOf
          simp
        · rw [if_neg hjm]
          dsimp only
          by_cases hlt : j < m
          · rw [if_pos hlt, if_pos (by omega)]
          · rw [if_neg hlt, if_neg (by omega)]
      · rw [fixesTo_succ, ← List.append_assoc, List.map_append, List.length_map]
        obtain ⟨gs, g1, g2, g3⟩ := hgl
        have hfix : (fixes (D.dbegin + m) (fixedOf n copies ind (D.dbegin + m))).map (Mult.doms copies) = List.replicate (fixedOf n copies ind (D.dbegin + m)).length [D.dbegin + m] := by
          unfold fixes
          rw [List.map_map]
          exact List.map_const' ..
        rw [hfix]
        by_cases h0 : (fixedOf n copies ind (D.dbegin + m)).length = 0
        · rw [if_neg (by simpa using h0), h0]
          refine ⟨gs, g1, g2, ?_⟩
          rw [g3]; simp
        · rw [if_pos h0]
          refine ⟨gs ++ [((fixedOf n copies ind (D.dbegin + m)).length, [D.dbegin + m])], ?_, ?_, ?_⟩
          · intro g hg
            rcases List.mem_append.1 hg with hg | hg
            · exact g1 g hg
            · rw [List.mem_singleton.1 hg]; exact Nat.pos_of_ne_zero h0
          · rw [encG_append, encG_one, g2]; rfl
          · rw [List.flatMap_append, g3]; simp)
  refine ⟨cmap', ?_, h3⟩
  rw [h1, h2]
  congr 2
  apply mk_congr
  intro j hj
  rw [if_pos hj]

/-- `EqualityConstrains::set` for the degrees of freedom `0, …, n - 1` of the process. -/
theorem set_spec (D : Decomposition) (n : Nat) {copies : Nat → List Nat} (idx : Nat → Nat → Nat) (sq : K → K) {ind : List Nat} (hs : ind.Pairwise (· < ·)) (hc : ∀ g, g < n → (copies g).Pairwise (· < ·))
    {srt : List (Nat × Nat) → List (Nat × Nat)} (hsrt : Sorts (lambdaLess (dmapOf D n copies idx)) srt) :
    ∃ cmap halo, constraintsSet sq srt D (dmapOf D n copies idx) ind =
        some (lamState D copies idx sq (lamOf D n copies ind (srt (permOf D n copies ind))) cmap halo, mk (D.dend - D.dbegin) (doffsetOf D n copies ind (srt (permOf D n copies ind)))) ∧
      Describes cmap (lamOf D n copies ind (srt (permOf D n copies ind))) (Mult.doms copies) ∧ HaloOf D copies halo (lamOf D n copies ind (srt (permOf D n copies ind))) := by
  have hnd : ∀ g, g < n → (copies g).Nodup := fun g hg => (hc g hg).imp fun h => Nat.ne_of_lt h
  obtain ⟨ph, p1, p2, p3, p4, p5⟩ := phase1_spec D n copies idx hs hnd
  obtain ⟨w, w1, w2⟩ := coefficients_spec sq ph.maxM
  obtain ⟨hperm, _⟩ := hsrt (permOf D n copies ind) (weak_permOf ..)
  obtain ⟨cmap, prev, halo, e1, e2, e3⟩ := glueFold_spec (D := D) (idx := idx) sq w2 hnd (srt (permOf D n copies ind)) [] (by
    intro l hl
    rw [List.nil_append] at hl
    obtain ⟨m1, m2, m3, m4, _⟩ := mem_permOf.1 (hperm.mem_iff.1 hl)
    exact ⟨m1, ⟨m3, m4⟩, Nat.le_trans m4 (p5 l.1 m1 m2)⟩) (by rw [List.nil_append]; exact sorted_permOf hsrt) [] 0 0 (Or.inl ⟨rfl, rfl, rfl⟩)
    ⟨Nat.le_refl _, (by intro l hl; cases hl), (by intro l hl; cases hl)⟩
  rw [List.nil_append] at e1 e2 e3
  obtain ⟨cmap', f1, f2⟩ := fixLoop_spec (n := n) (idx := idx) (halo := halo) sq ind (srt (permOf D n copies ind)) e2.list
  refine ⟨cmap', halo, ?_, ?_, ?_⟩
  · unfold constraintsSet
    rw [p1]
    simp only [Option.bind_eq_bind, Option.bind_some]
    rw [w1]
    simp only [Option.bind_some]
    unfold glueLoop
    dsimp only
    have h0 : (⟨[], 0, 0, List.replicate (D.dend - D.dbegin) [], List.replicate (D.dend - D.dbegin) [], List.replicate (D.dend - D.dbegin) []⟩ : Lambdas K) =
        lamState D copies idx sq (([] : List (Nat × Nat)).map toMult) [] 0 := by
      rw [replicate_mk, replicate_mk]; rfl
    rw [h0, p2, e1]
    simp only [Option.bind_eq_bind, Option.bind_some]
    rw [p3]
    exact f1
  · obtain ⟨gs, g1, g2, g3⟩ := f2
    exact ⟨gs, g1, g2, g3⟩
  · obtain ⟨h1, h2, h3⟩ := e3
    unfold lamOf
    refine ⟨by rw [List.length_append]; omega, ?_, ?_⟩
    · rw [List.take_append_of_le_length h1]; exact h2
    · rw [List.drop_append_of_le_length h1]
      intro l hl
      rcases List.mem_append.1 hl with hl | hl
      · exact h3 l hl
      · obtain ⟨j, _, hl⟩ := List.mem_flatMap.1 hl
        obtain ⟨g, _, rfl⟩ := List.mem_map.1 hl
        exact Nat.le_add_right _ _

/-! ### `update` and `enforce` -/

/-- Two increasing lists with the same elements. -/
theorem increasing_ext {a b : List Nat} (ha : a.Pairwise (· < ·)) (hb : b.Pairwise (· < ·)) (h : ∀ x, x ∈ a ↔ x ∈ b) : a = b := by
  have hp : a.Perm b := (List.perm_ext_iff_of_nodup (ha.imp fun h => Nat.ne_of_lt h) (hb.imp fun h => Nat.ne_of_lt h)).2 h
  exact hp.eq_of_pairwise (fun a b _ _ hab hba => absurd hab (by omega)) ha hb

theorem fixedOf_eq {n : Nat} {ind : List Nat} (hs : ind.Pairwise (· < ·)) (hr : ∀ g ∈ ind, g < n) (copies : Nat → List Nat) (d : Nat) :
    fixedOf n copies ind d = ind.filter fun g => decide (d ∈ copies g) := by
  unfold fixedOf
  apply increasing_ext (List.pairwise_lt_range.filter _) (hs.filter _)
  intro x
  simp only [List.mem_filter, List.mem_range, decide_eq_true_iff]
  constructor
  · rintro ⟨_, h1, h2⟩; exact ⟨h1, h2⟩
  · rintro ⟨h1, h2⟩; exact ⟨hr x h1, h1, h2⟩

/-- The position of a Dirichlet multiplier. -/
theorem fix_position {D : Decomposition} {n : Nat} {copies : Nat → List Nat} {ind : List Nat} (hs : ind.Pairwise (· < ·)) (hr : ∀ g ∈ ind, g < n) (perm : List (Nat × Nat)) {done todo : List Nat} {g j : Nat}
    (e : ind = done ++ g :: todo) (hj : j < D.dend - D.dbegin) (hd : D.dbegin + j ∈ copies g) :
    (lamOf D n copies ind perm)[doffsetOf D n copies ind perm j + (done.filter fun g => decide (D.dbegin + j ∈ copies g)).length]? = some (.fix g (D.dbegin + j)) := by
  unfold lamOf doffsetOf
  have hsplit : fixesTo D n copies ind (D.dend - D.dbegin) = fixesTo D n copies ind j ++ (fixes (D.dbegin + j) (fixedOf n copies ind (D.dbegin + j)) ++
      (List.range' (j + 1) (D.dend - D.dbegin - (j + 1))).flatMap fun j => fixes (D.dbegin + j) (fixedOf n copies ind (D.dbegin + j))) := by
    have hrange : List.range (D.dend - D.dbegin) = List.range (j + 1) ++ List.range' (j + 1) (D.dend - D.dbegin - (j + 1)) := by
      have := List.range'_append_1 (s := 0) (m := j + 1) (n := D.dend - D.dbegin - (j + 1))
      rw [List.range_eq_range', List.range_eq_range', show D.dend - D.dbegin = j + 1 + (D.dend - D.dbegin - (j + 1)) by omega, ← this]
      congr 2 <;> omega
    conv_lhs => unfold fixesTo
    rw [hrange, List.flatMap_append, List.range_succ, List.flatMap_append, List.flatMap_singleton, List.append_assoc]
    rfl
  rw [List.getElem?_append_right (by rw [List.length_map]; omega), List.length_map, hsplit, List.getElem?_append_right (by omega)]
  rw [show perm.length + (fixesTo D n copies ind j).length + (done.filter fun g => decide (D.dbegin + j ∈ copies g)).length - perm.length - (fixesTo D n copies ind j).length =
    (done.filter fun g => decide (D.dbegin + j ∈ copies g)).length by omega]
  rw [fixedOf_eq hs hr, e, List.filter_append, List.filter_cons_of_pos (by simpa using hd)]
  unfold fixes
  rw [List.map_append, List.map_cons, List.append_assoc, List.getElem?_append_right (by rw [List.length_map]), List.length_map, Nat.sub_self]
  rfl

/-- The right-hand side when the Dirichlet values of the copies in `S` are known. -/
def rhsOf (val : Nat → K) (S : Nat → Nat → Bool) : Mult → K
  | .glue _ _ => 0
  | .fix g d => bif S g d then val g else 0

theorem set_rhs {lam : List Mult} (hnd : lam.Nodup) {val : Nat → K} {S S' : Nat → Nat → Bool} {k g d : Nat} (hk : lam[k]? = some (.fix g d))
    (hS : ∀ g' d', S' g' d' = (S g' d' || (decide (g' = g) && decide (d' = d)))) : (lam.map (rhsOf val S)).set k (val g) = lam.map (rhsOf val S') := by
  obtain ⟨hlt, he⟩ := List.getElem?_eq_some_iff.1 hk
  apply List.ext_getElem?
  intro i
  rw [Verif.Csx.getElem?_set' _ _ _ _ (by rw [List.length_map]; exact hlt), List.getElem?_map, List.getElem?_map]
  by_cases hi : k = i
  · subst hi
    rw [if_pos rfl, hk, Option.map_some]
    simp [rhsOf, hS]
  · rw [if_neg hi]
    cases hl : lam[i]? with
    | none => rfl
    | some l =>
        rw [Option.map_some, Option.map_some]
        cases l with
        | glue g' s => rfl
        | fix g' d' =>
            simp only [rhsOf, hS]
            have : ¬ (g' = g ∧ d' = d) := by
              rintro ⟨rfl, rfl⟩
              obtain ⟨hlt', he'⟩ := List.getElem?_eq_some_iff.1 hl
              exact hi ((List.Nodup.getElem_inj_iff hnd).1 (he.trans he'.symm))
            by_cases h1 : g' = g
            · by_cases h2 : d' = d
              · exact absurd ⟨h1, h2⟩ this
              · simp [h2]
            · simp [h1]

theorem updateDof_spec {D : Decomposition} {lam : List Mult} (hnd : lam.Nodup) (val : Nat → K) (g : Nat) (v : Nat → Option Nat) : ∀ (ds : List Nat), ds.Nodup → ∀ (S : Nat → Nat → Bool) (X : Nat → Nat),
    (∀ j, D.dbegin + j ∈ ds → j < D.dend - D.dbegin → lam[X j]? = some (.fix g (D.dbegin + j))) →
    updateDof D (ds.map fun d => (d, v d)) (val g) (lam.map (rhsOf val S), mk (D.dend - D.dbegin) X) =
      some (lam.map (rhsOf val fun g' d' => S g' d' || (decide (g' = g) && (decide (d' ∈ ds) && D.ismy d'))),
        mk (D.dend - D.dbegin) fun j => X j + (one ds (D.dbegin + j) ()).length) := by
  intro ds
  induction ds with
  | nil =>
      intro _ S X _
      unfold updateDof one
      simp
  | cons d ds ih =>
      intro hds S X hX
      rw [List.nodup_cons] at hds
      unfold updateDof
      rw [List.map_cons, List.foldlM_cons]
      cases hm : D.ismy d with
      | true =>
          obtain ⟨m1, m2⟩ := my_range hm
          have hj : d - D.dbegin < D.dend - D.dbegin := by omega
          have ed : D.dbegin + (d - D.dbegin) = d := by omega
          have hk := hX (d - D.dbegin) (by rw [ed]; exact List.mem_cons_self ..) hj
          rw [ed] at hk
          simp only [cond_true, Option.bind_eq_bind]
          rw [mk_get _ hj]
          simp only [Option.bind_some]
          rw [wr_eq_some (by rw [List.length_map]; exact (List.getElem?_eq_some_iff.1 hk).1), set_rhs hnd hk (S' := fun g' d' => S g' d' || (decide (g' = g) && decide (d' = d))) (fun _ _ => rfl)]
          simp only [Option.bind_some]
          rw [wr_mk _ _ hj]
          simp only [Option.bind_some]
          refine Eq.trans (ih hds.2 _ _ ?_) ?_
          · intro j hj1 hj2
            unfold upd
            have : j ≠ d - D.dbegin := by intro e; subst e; rw [ed] at hj1; exact hds.1 hj1
            rw [if_neg this]
            exact hX j (List.mem_cons_of_mem _ hj1) hj2
          · congr 2
            · congr 2
              funext g' d'
              by_cases h2 : d' = d
              · subst h2
                simp [hds.1, hm]
              · simp [h2]
            · apply mk_congr
              intro j _
              unfold upd one
              by_cases h2 : j = d - D.dbegin
              · subst h2
                rw [ed]
                simp [hds.1]
              · have : D.dbegin + j ≠ d := by omega
                simp [h2, this]
      | false =>
          simp only [cond_false, Option.bind_eq_bind, Option.bind_some]
          refine Eq.trans (ih hds.2 _ _ ?_) ?_
          · intro j hj1 hj2
            exact hX j (List.mem_cons_of_mem _ hj1) hj2
          · congr 2
            · congr 2
              funext g' d'
              by_cases h2 : d' = d
              · subst h2
                simp [hm]
              · simp [h2]
            · apply mk_congr
              intro j hj
              rw [one_foreign hm hj]

theorem mem_lamOf_fix {D : Decomposition} {n : Nat} {copies : Nat → List Nat} {ind : List Nat} {perm : List (Nat × Nat)} {g d : Nat} (h : Mult.fix g d ∈ lamOf D n copies ind perm) :
    g ∈ ind ∧ d ∈ copies g ∧ D.ismy d = true := by
  unfold lamOf fixesTo at h
  rcases List.mem_append.1 h with h | h
  · obtain ⟨x, _, e⟩ := List.mem_map.1 h; cases e
  · obtain ⟨j, hj, h⟩ := List.mem_flatMap.1 h
    obtain ⟨g', hg', e⟩ := List.mem_map.1 h
    cases e
    have := of_decide_eq_true (List.mem_filter.1 hg').2
    refine ⟨this.1, this.2, decide_eq_true ?_⟩
    have := List.mem_range.1 hj
    omega

/-- `EqualityConstrains::update`. -/
theorem update_spec {D : Decomposition} {n : Nat} {copies : Nat → List Nat} (idx : Nat → Nat → Nat) {ind : List Nat} (hs : ind.Pairwise (· < ·)) (hr : ∀ g ∈ ind, g < n)
    (hc : ∀ g, g < n → (copies g).Nodup) {perm : List (Nat × Nat)} (hnd : (lamOf D n copies ind perm).Nodup) (val : Nat → K) {c : List K} (hcl : c.length = (lamOf D n copies ind perm).length) :
    constraintsUpdate D (dmapOf D n copies idx) (mk (D.dend - D.dbegin) (doffsetOf D n copies ind perm)) (ind.map fun g => (g, val g)) c =
      some ((lamOf D n copies ind perm).map (rhsOf val fun _ _ => true)) := by
  unfold constraintsUpdate
  have hc0 : (c.map fun _ => (0 : K)) = (lamOf D n copies ind perm).map (rhsOf val fun _ _ => false) := by
    have : rhsOf val (fun _ _ => false) = fun _ => (0 : K) := by
      funext l; cases l <;> rfl
    rw [this, List.map_const', List.map_const', hcl]
  rw [hc0]
  have gen : ∀ (todo done : List Nat) (pos prev : Nat), ind = done ++ todo → pos = prev → (∀ g ∈ todo, prev ≤ g) →
      ∃ r, (todo.map fun g => (g, val g)).foldlM (m := Option) (fun (s : Nat × Nat × List K × List Nat) f => do
        let (pos, prev, st) := s
        let pos := pos + f.1 - prev
        let dm ← (dmapOf D n copies idx)[pos]?
        let st ← updateDof D dm f.2 st
        some (pos, f.1, st)) (pos, prev, (lamOf D n copies ind perm).map (rhsOf val fun g _ => decide (g ∈ done)),
          mk (D.dend - D.dbegin) fun j => doffsetOf D n copies ind perm j + (done.filter fun g => decide (D.dbegin + j ∈ copies g)).length) = some r ∧
        r.2.2.1 = (lamOf D n copies ind perm).map (rhsOf val fun g _ => decide (g ∈ ind)) := by
    intro todo
    induction todo with
    | nil =>
        intro done pos prev e _ _
        refine ⟨_, rfl, ?_⟩
        rw [e, List.append_nil]
    | cons g todo ih =>
        intro done pos prev e hp hge
        subst hp
        have hg : g ∈ ind := by rw [e]; exact List.mem_append_right _ (List.mem_cons_self ..)
        rw [List.map_cons, List.foldlM_cons]
        simp only [Option.bind_eq_bind, Nat.add_sub_cancel_left]
        rw [dmapOf_get _ _ (hr g hg)]
        simp only [Option.bind_some]
        rw [updateDof_spec hnd val g (fun d => if D.ismy d then some (idx d g) else none) (copies g) (hc g (hr g hg)) _ _ (fun j hj1 hj2 => fix_position hs hr perm e hj2 hj1)]
        simp only [Option.bind_some]
        have hs' := hs
        rw [e, List.pairwise_append, List.pairwise_cons] at hs'
        obtain ⟨r, h1, h2⟩ := ih (done ++ [g]) g g (by rw [e]; simp) rfl (fun x hx => Nat.le_of_lt (hs'.2.1.1 x hx))
        refine ⟨r, ?_, h2⟩
        refine Eq.trans ?_ h1
        congr 4
        · apply List.map_congr_left
          intro l hl
          cases l with
          | glue _ _ => rfl
          | fix g' d' =>
              obtain ⟨_, h4, h5⟩ := mem_lamOf_fix hl
              unfold rhsOf
              by_cases hgg : g' = g
              · subst hgg; simp [h4, h5]
              · simp [hgg]
        · apply mk_congr
          intro j _
          rw [List.filter_append, List.length_append, Nat.add_assoc]
          congr 2
          unfold one
          by_cases hd : D.dbegin + j ∈ copies g
          · simp [hd]
          · simp [hd]
  obtain ⟨r, h1, h2⟩ := gen ind [] 0 0 rfl rfl (fun _ _ => Nat.zero_le _)
  simp only [List.not_mem_nil, decide_false, List.filter_nil, List.length_nil, Nat.add_zero] at h1
  rw [h1]
  simp only [Option.bind_eq_bind, Option.bind_some]
  obtain ⟨a, b, c', d⟩ := r
  dsimp only at h2 ⊢
  rw [h2]
  congr 1
  apply List.map_congr_left
  intro l hl
  cases l with
  | glue _ _ => rfl
  | fix g' d' =>
      obtain ⟨h3, _, _⟩ := mem_lamOf_fix hl
      unfold rhsOf
      simp [h3]

omit [Field K] in
/-- The solution of the own domains as functions: the copy of `g` in `d` is at `idx d g`. -/
theorem enforceDof_spec {D : Decomposition} (v : K) (idx : Nat → Nat) {dim : Nat → Nat} : ∀ (ds : List Nat), ds.Nodup → (∀ d ∈ ds, idx d < dim d) → ∀ X : Nat → Nat → K,
    (ds.map fun d => ((d, if D.ismy d then some (idx d) else none) : DIndex)).foldlM (m := Option) (fun (x : List (List K)) di =>
      bif D.ismy di.1 then do
        let w ← x[di.1 - D.dbegin]?
        let k ← di.2
        let w ← wr w k v
        wr x (di.1 - D.dbegin) w
      else some x) (mk (D.dend - D.dbegin) fun j => mk (dim (D.dbegin + j)) (X (D.dbegin + j))) =
    some (mk (D.dend - D.dbegin) fun j => mk (dim (D.dbegin + j)) fun i => if D.dbegin + j ∈ ds ∧ i = idx (D.dbegin + j) then v else X (D.dbegin + j) i) := by
  intro ds
  induction ds with
  | nil => intro _ _ X; simp
  | cons d ds ih =>
      intro hds hr X
      rw [List.nodup_cons] at hds
      rw [List.map_cons, List.foldlM_cons]
      cases hm : D.ismy d with
      | true =>
          obtain ⟨m1, m2⟩ := my_range hm
          have hj : d - D.dbegin < D.dend - D.dbegin := by omega
          have ed : D.dbegin + (d - D.dbegin) = d := by omega
          simp only [cond_true, Option.bind_eq_bind, if_true]
          rw [mk_get _ hj]
          simp only [Option.bind_some]
          rw [ed, wr_mk _ _ (hr d (List.mem_cons_self ..))]
          simp only [Option.bind_some]
          rw [wr_mk _ _ hj]
          simp only [Option.bind_some]
          have e : mk (D.dend - D.dbegin) (upd (fun j => mk (dim (D.dbegin + j)) (X (D.dbegin + j))) (d - D.dbegin) (mk (dim d) (upd (X d) (idx d) v))) =
              mk (D.dend - D.dbegin) fun j => mk (dim (D.dbegin + j)) ((fun d' => if d' = d then upd (X d) (idx d) v else X d') (D.dbegin + j)) := by
            apply mk_congr
            intro j _
            unfold upd
            by_cases hjd : j = d - D.dbegin
            · subst hjd; rw [if_pos rfl, ed]; dsimp only; rw [if_pos rfl]
            · rw [if_neg hjd]; dsimp only; rw [if_neg (by omega)]
          rw [e]
          have hih := ih hds.2 (fun d hd => hr d (List.mem_cons_of_mem _ hd))
          simp only [Option.bind_eq_bind] at hih
          refine Eq.trans (hih (fun d' => if d' = d then upd (X d) (idx d) v else X d')) ?_
          congr 1
          apply mk_congr
          intro j _
          apply mk_congr
          intro i _
          by_cases hjd : D.dbegin + j = d
          · rw [hjd]
            unfold upd
            simp [hds.1]
          · simp [hjd]
      | false =>
          simp only [cond_false, Option.bind_eq_bind, Option.bind_some]
          have hih := ih hds.2 (fun d hd => hr d (List.mem_cons_of_mem _ hd))
          simp only [Option.bind_eq_bind] at hih
          refine Eq.trans (hih _) ?_
          congr 1
          apply mk_congr
          intro j hj
          apply mk_congr
          intro i _
          have := of_decide_eq_false hm
          have : D.dbegin + j ≠ d := by omega
          simp [this]

omit [Field K] in
/-- `EqualityConstrains::enforce`: the copies of the Dirichlet degrees of freedom get the values, nothing else changes. -/
theorem enforce_spec {D : Decomposition} {n : Nat} {copies : Nat → List Nat} {idx : Nat → Nat → Nat} {dim : Nat → Nat} {ind : List Nat} (hs : ind.Pairwise (· < ·)) (hr : ∀ g ∈ ind, g < n)
    (hc : ∀ g, g < n → (copies g).Nodup) (hi : ∀ g, g < n → ∀ d ∈ copies g, idx d g < dim d) (val : Nat → K) (X : Nat → Nat → K) :
    ∃ Y : Nat → Nat → K, constraintsEnforce D (dmapOf D n copies idx) (ind.map fun g => (g, val g)) (mk (D.dend - D.dbegin) fun j => mk (dim (D.dbegin + j)) (X (D.dbegin + j))) =
        some (mk (D.dend - D.dbegin) fun j => mk (dim (D.dbegin + j)) (Y (D.dbegin + j))) ∧
      (∀ d i, (∀ g ∈ ind, d ∈ copies g → i ≠ idx d g) → Y d i = X d i) ∧
      ∀ d, (∀ g ∈ ind, ∀ g' ∈ ind, d ∈ copies g → d ∈ copies g' → idx d g = idx d g' → g = g') → ∀ g ∈ ind, d ∈ copies g → Y d (idx d g) = val g := by
  unfold constraintsEnforce
  have gen : ∀ (todo : List Nat) (pos prev : Nat) (X : Nat → Nat → K), todo.Pairwise (· < ·) → (∀ g ∈ todo, g < n) → pos = prev →
      ∃ (Y : Nat → Nat → K) (r : Nat × Nat × List (List K)), (todo.map fun g => (g, val g)).foldlM (m := Option) (fun (s : Nat × Nat × List (List K)) f => do
        let (pos, prev, x) := s
        let pos := pos + f.1 - prev
        let dm ← (dmapOf D n copies idx)[pos]?
        let x ← dm.foldlM (m := Option) (fun x di =>
          bif D.ismy di.1 then do
            let v ← x[di.1 - D.dbegin]?
            let k ← di.2
            let v ← wr v k f.2
            wr x (di.1 - D.dbegin) v
          else some x) x
        some (pos, f.1, x)) (pos, prev, mk (D.dend - D.dbegin) fun j => mk (dim (D.dbegin + j)) (X (D.dbegin + j))) = some r ∧
        r.2.2 = (mk (D.dend - D.dbegin) fun j => mk (dim (D.dbegin + j)) (Y (D.dbegin + j))) ∧
        (∀ d i, (∀ g ∈ todo, d ∈ copies g → i ≠ idx d g) → Y d i = X d i) ∧
        ∀ d, (∀ g ∈ todo, ∀ g' ∈ todo, d ∈ copies g → d ∈ copies g' → idx d g = idx d g' → g = g') → ∀ g ∈ todo, d ∈ copies g → Y d (idx d g) = val g := by
    intro todo
    induction todo with
    | nil =>
        intro pos prev X _ _ _
        exact ⟨X, _, rfl, rfl, fun _ _ _ => rfl, fun _ _ g hg => by cases hg⟩
    | cons g todo ih =>
        intro pos prev X hp hn e
        subst e
        rw [List.pairwise_cons] at hp
        have hg := hn g (List.mem_cons_self ..)
        rw [List.map_cons, List.foldlM_cons]
        simp only [Option.bind_eq_bind, Nat.add_sub_cancel_left]
        rw [dmapOf_get _ _ hg]
        simp only [Option.bind_some]
        have h0 := enforceDof_spec (D := D) (val g) (fun d => idx d g) (copies g) (hc g hg) (hi g hg) X
        simp only [Option.bind_eq_bind] at h0
        rw [h0]
        simp only [Option.bind_some]
        obtain ⟨Y, r, h1, h2, h3, h4⟩ := ih g g (fun d i => if d ∈ copies g ∧ i = idx d g then val g else X d i) hp.2 (fun x hx => hn x (List.mem_cons_of_mem _ hx)) rfl
        simp only [Option.bind_eq_bind] at h1
        refine ⟨Y, r, h1, h2, ?_, ?_⟩
        · intro d i h
          rw [h3 d i fun g' hg' => h g' (List.mem_cons_of_mem _ hg')]
          rw [if_neg]
          rintro ⟨h5, h6⟩
          exact h g (List.mem_cons_self ..) h5 h6
        · intro d hinj g' hg' hd
          rcases List.mem_cons.1 hg' with rfl | hg'
          · rw [h3 d (idx d g'), if_pos ⟨hd, rfl⟩]
            intro g'' hg'' hd'' he
            have := hinj g' (List.mem_cons_self ..) g'' (List.mem_cons_of_mem _ hg'') hd hd'' he
            have := hp.1 g'' hg''
            omega
          · exact h4 d (fun a ha b hb => hinj a (List.mem_cons_of_mem _ ha) b (List.mem_cons_of_mem _ hb)) g' hg' hd
  obtain ⟨Y, r, h1, h2, h3, h4⟩ := gen ind 0 0 X hs hr rfl
  refine ⟨Y, ?_, h3, h4⟩
  rw [h1]
  simp only [Option.bind_eq_bind, Option.bind_some]
  obtain ⟨a, b, x⟩ := r
  exact congrArg some h2

end Verif.Feti
