import Verif.Base.Mpi
/-! The main facts about the message passing semantics: one execution without buffering determines all executions. -/
namespace Verif.Mpi
variable {M R : Type}

theorem gstep_congr {w} {c d d' : Cfg M R} (g : GStep w c d) (hp : d.p = d'.p) (hc : d.ch = d'.ch) : GStep w c d' := by
  cases d; cases d'; simp only at hp hc; subst hp; subst hc; exact g

theorem diamond {w1 w2 : Nat} {c c1 c2 : Cfg M R} (s1 : GStep w1 c c1) (s2 : Step w2 c c2) :
    (c1 = c2 ∧ w1 = w2) ∨ (w1 = 2 ∧ w2 = 1 ∧ GStep 1 c2 c1) ∨ ∃ c3, Step w2 c1 c3 ∧ GStep w1 c2 c3 := by
  cases s1 with
  | @recv _ i j t m ms k hp hc =>
    cases s2 with
    | g s2 =>
      cases s2 with
      | @recv _ i' j' t' m' ms' k' hp' hc' =>
        by_cases hj : j = j'
        · subst hj
          rw [hp] at hp'; cases hp'
          rw [hc] at hc'; cases hc'
          exact .inl ⟨rfl, rfl⟩
        · refine .inr (.inr ⟨_, .g (.recv (i := i') (j := j') (t := t') (m := m') (ms := ms') (k := k') ?_ ?_), ?_⟩)
          · simp only; rw [upd_ne _ _ (Ne.symm hj)]; exact hp'
          · simp only; rw [updc_ne _ _ (by omega)]; exact hc'
          · refine gstep_congr (.recv (i := i) (j := j) (t := t) (m := m) (ms := ms) (k := k) ?_ ?_) ?_ ?_
            · simp only; rw [upd_ne _ _ hj]; exact hp
            · simp only; rw [updc_ne _ _ (by omega)]; exact hc
            · simp only; exact upd_comm _ _ _ (Ne.symm hj)
            · simp only; exact updc_comm _ _ _ (by omega)
      | @rdv _ i' j' t' m' k1 k2 h1 h2 h3 =>
        have hi : i' ≠ j := by intro h; subst h; rw [hp] at h1; cases h1
        have hj : j' ≠ j := by
          intro h; subst h; rw [hp] at h2; cases h2; rw [hc] at h3; cases h3
        refine .inr (.inr ⟨_, .g (.rdv (i := i') (j := j') (t := t') (m := m') (k := k1) (k' := k2) ?_ ?_ ?_), ?_⟩)
        · simp only; rw [upd_ne _ _ hi]; exact h1
        · simp only; rw [upd_ne _ _ hj]; exact h2
        · simp only; rw [updc_ne _ _ (by omega)]; exact h3
        · refine gstep_congr (.recv (i := i) (j := j) (t := t) (m := m) (ms := ms) (k := k) ?_ ?_) ?_ ?_
          · simp only; rw [upd_ne _ _ (Ne.symm hj), upd_ne _ _ (Ne.symm hi)]; exact hp
          · exact hc
          · simp only; rw [upd_comm _ _ _ hj, upd_comm c.p _ _ hi]
          · rfl
      | @isend _ i' j' t' m' k1 h1 =>
        have hi : i' ≠ j := by intro h; subst h; rw [hp] at h1; cases h1
        refine .inr (.inr ⟨_, .g (.isend (i := i') (j := j') (t := t') (m := m') (k := k1) ?_), ?_⟩)
        · simp only; rw [upd_ne _ _ hi]; exact h1
        · by_cases hx : i = i' ∧ j = j' ∧ t = t'
          · obtain ⟨rfl, rfl, rfl⟩ := hx
            refine gstep_congr (.recv (i := i) (j := j) (t := t) (m := m) (ms := ms ++ [m']) (k := k) ?_ ?_) ?_ ?_
            · simp only; rw [upd_ne _ _ (Ne.symm hi)]; exact hp
            · simp only; rw [updc_same, hc]; rfl
            · simp only; exact upd_comm _ _ _ hi
            · simp only [updc_same, updc_updc]
          · refine gstep_congr (.recv (i := i) (j := j) (t := t) (m := m) (ms := ms) (k := k) ?_ ?_) ?_ ?_
            · simp only; rw [upd_ne _ _ (Ne.symm hi)]; exact hp
            · simp only; rw [updc_ne _ _ hx]; exact hc
            · simp only; exact upd_comm _ _ _ hi
            · simp only; rw [updc_comm _ _ _ hx, updc_ne _ _ (by omega)]
      | @wait _ i' k1 h1 h2 =>
        have hi : i' ≠ j := by intro h; subst h; rw [hp] at h1; cases h1
        refine .inr (.inr ⟨_, .g (.wait (i := i') (k := k1) ?_ ?_), ?_⟩)
        · simp only; rw [upd_ne _ _ hi]; exact h1
        · intro y z
          simp only
          have : i' ≠ i := by intro h; subst h; rw [h2] at hc; cases hc
          rw [updc_ne _ _ (by omega)]; exact h2 y z
        · refine gstep_congr (.recv (i := i) (j := j) (t := t) (m := m) (ms := ms) (k := k) ?_ ?_) ?_ ?_
          · simp only; rw [upd_ne _ _ (Ne.symm hi)]; exact hp
          · exact hc
          · simp only; exact upd_comm _ _ _ hi
          · rfl
    | @bsend _ i' j' t' m' k1 h1 =>
        have hi : i' ≠ j := by intro h; subst h; rw [hp] at h1; cases h1
        refine .inr (.inr ⟨_, .bsend (i := i') (j := j') (t := t') (m := m') (k := k1) ?_, ?_⟩)
        · simp only; rw [upd_ne _ _ hi]; exact h1
        · by_cases hx : i = i' ∧ j = j' ∧ t = t'
          · obtain ⟨rfl, rfl, rfl⟩ := hx
            refine gstep_congr (.recv (i := i) (j := j) (t := t) (m := m) (ms := ms ++ [m']) (k := k) ?_ ?_) ?_ ?_
            · simp only; rw [upd_ne _ _ (Ne.symm hi)]; exact hp
            · simp only; rw [updc_same, hc]; rfl
            · simp only; exact upd_comm _ _ _ hi
            · simp only [updc_same, updc_updc]
          · refine gstep_congr (.recv (i := i) (j := j) (t := t) (m := m) (ms := ms) (k := k) ?_ ?_) ?_ ?_
            · simp only; rw [upd_ne _ _ (Ne.symm hi)]; exact hp
            · simp only; rw [updc_ne _ _ hx]; exact hc
            · simp only; exact upd_comm _ _ _ hi
            · simp only; rw [updc_comm _ _ _ hx, updc_ne _ _ (by omega)]
    | @bwait _ i' k1 h1 =>
        have hi : i' ≠ j := by intro h; subst h; rw [hp] at h1; cases h1
        refine .inr (.inr ⟨_, .bwait (i := i') (k := k1) ?_, ?_⟩)
        · simp only; rw [upd_ne _ _ hi]; exact h1
        · refine gstep_congr (.recv (i := i) (j := j) (t := t) (m := m) (ms := ms) (k := k) ?_ ?_) ?_ ?_
          · simp only; rw [upd_ne _ _ (Ne.symm hi)]; exact hp
          · exact hc
          · simp only; exact upd_comm _ _ _ hi
          · rfl
  | @rdv _ i j t m k k' ps pr hc =>
    have hij : i ≠ j := by intro h; subst h; rw [ps] at pr; cases pr
    cases s2 with
    | g s2 =>
      cases s2 with
      | @recv _ i' j' t' m' ms' k1 hp' hc' =>
        have hi : j' ≠ i := by intro h; subst h; rw [ps] at hp'; cases hp'
        have hj : j' ≠ j := by
          intro h; subst h; rw [pr] at hp'; cases hp'; rw [hc] at hc'; cases hc'
        refine .inr (.inr ⟨_, .g (.recv (i := i') (j := j') (t := t') (m := m') (ms := ms') (k := k1) ?_ ?_), ?_⟩)
        · simp only; rw [upd_ne _ _ hj, upd_ne _ _ hi]; exact hp'
        · exact hc'
        · refine gstep_congr (.rdv (i := i) (j := j) (t := t) (m := m) (k := k) (k' := k') ?_ ?_ ?_) ?_ ?_
          · simp only; rw [upd_ne _ _ (Ne.symm hi)]; exact ps
          · simp only; rw [upd_ne _ _ (Ne.symm hj)]; exact pr
          · simp only; rw [updc_ne _ _ (by omega)]; exact hc
          · simp only; rw [upd_comm _ _ _ (Ne.symm hj), upd_comm c.p _ _ (Ne.symm hi)]
          · rfl
      | @rdv _ i' j' t' m' k1 k2 h1 h2 h3 =>
        by_cases hii : i = i'
        · subst hii
          rw [ps] at h1; cases h1
          rw [pr] at h2; cases h2
          exact .inl ⟨rfl, rfl⟩
        · have hjj : j ≠ j' := by intro h; subst h; rw [pr] at h2; cases h2; exact hii rfl
          have h4 : i' ≠ j := by intro h; subst h; rw [pr] at h1; cases h1
          have h5 : j' ≠ i := by intro h; subst h; rw [ps] at h2; cases h2
          refine .inr (.inr ⟨_, .g (.rdv (i := i') (j := j') (t := t') (m := m') (k := k1) (k' := k2) ?_ ?_ ?_), ?_⟩)
          · simp only; rw [upd_ne _ _ h4, upd_ne _ _ (Ne.symm hii)]; exact h1
          · simp only; rw [upd_ne _ _ (Ne.symm hjj), upd_ne _ _ h5]; exact h2
          · exact h3
          · refine gstep_congr (.rdv (i := i) (j := j) (t := t) (m := m) (k := k) (k' := k') ?_ ?_ ?_) ?_ ?_
            · simp only; rw [upd_ne _ _ (Ne.symm h5), upd_ne _ _ hii]; exact ps
            · simp only; rw [upd_ne _ _ hjj, upd_ne _ _ (Ne.symm h4)]; exact pr
            · exact hc
            · simp only
              funext x
              simp only [upd]
              repeat' split
              all_goals first | rfl | (exfalso; omega)
            · rfl
      | @isend _ i' j' t' m' k1 h1 =>
        have h4 : i' ≠ j := by intro h; subst h; rw [pr] at h1; cases h1
        have h5 : i' ≠ i := by intro h; subst h; rw [ps] at h1; cases h1
        refine .inr (.inr ⟨_, .g (.isend (i := i') (j := j') (t := t') (m := m') (k := k1) ?_), ?_⟩)
        · simp only; rw [upd_ne _ _ h4, upd_ne _ _ h5]; exact h1
        · refine gstep_congr (.rdv (i := i) (j := j) (t := t) (m := m) (k := k) (k' := k') ?_ ?_ ?_) ?_ ?_
          · simp only; rw [upd_ne _ _ (Ne.symm h5)]; exact ps
          · simp only; rw [upd_ne _ _ (Ne.symm h4)]; exact pr
          · simp only; rw [updc_ne _ _ (by omega)]; exact hc
          · simp only; rw [upd_comm _ _ _ (Ne.symm h4), upd_comm c.p _ _ (Ne.symm h5)]
          · rfl
      | @wait _ i' k1 h1 h2 =>
        have h4 : i' ≠ j := by intro h; subst h; rw [pr] at h1; cases h1
        have h5 : i' ≠ i := by intro h; subst h; rw [ps] at h1; cases h1
        refine .inr (.inr ⟨_, .g (.wait (i := i') (k := k1) ?_ h2), ?_⟩)
        · simp only; rw [upd_ne _ _ h4, upd_ne _ _ h5]; exact h1
        · refine gstep_congr (.rdv (i := i) (j := j) (t := t) (m := m) (k := k) (k' := k') ?_ ?_ hc) ?_ ?_
          · simp only; rw [upd_ne _ _ (Ne.symm h5)]; exact ps
          · simp only; rw [upd_ne _ _ (Ne.symm h4)]; exact pr
          · simp only; rw [upd_comm _ _ _ (Ne.symm h4), upd_comm c.p _ _ (Ne.symm h5)]
          · rfl
    | @bsend _ i' j' t' m' k1 h1 =>
        have h4 : i' ≠ j := by intro h; subst h; rw [pr] at h1; cases h1
        by_cases h5 : i' = i
        · subst h5
          rw [ps] at h1; cases h1
          refine .inr (.inl ⟨rfl, rfl, ?_⟩)
          refine gstep_congr (.recv (i := i') (j := j) (t := t) (m := m) (ms := []) (k := k') ?_ ?_) ?_ ?_
          · simp only; rw [upd_ne _ _ (Ne.symm hij)]; exact pr
          · simp only; rw [updc_same, hc]; rfl
          · rfl
          · simp only [updc_updc]
            funext x y z
            unfold updc
            split
            · rename_i h; obtain ⟨rfl, rfl, rfl⟩ := h; exact hc.symm
            · rfl
        · refine .inr (.inr ⟨_, .bsend (i := i') (j := j') (t := t') (m := m') (k := k1) ?_, ?_⟩)
          · simp only; rw [upd_ne _ _ h4, upd_ne _ _ h5]; exact h1
          · refine gstep_congr (.rdv (i := i) (j := j) (t := t) (m := m) (k := k) (k' := k') ?_ ?_ ?_) ?_ ?_
            · simp only; rw [upd_ne _ _ (Ne.symm h5)]; exact ps
            · simp only; rw [upd_ne _ _ (Ne.symm h4)]; exact pr
            · simp only; rw [updc_ne _ _ (by omega)]; exact hc
            · simp only; rw [upd_comm _ _ _ (Ne.symm h4), upd_comm c.p _ _ (Ne.symm h5)]
            · rfl
    | @bwait _ i' k1 h1 =>
        have h4 : i' ≠ j := by intro h; subst h; rw [pr] at h1; cases h1
        have h5 : i' ≠ i := by intro h; subst h; rw [ps] at h1; cases h1
        refine .inr (.inr ⟨_, .bwait (i := i') (k := k1) ?_, ?_⟩)
        · simp only; rw [upd_ne _ _ h4, upd_ne _ _ h5]; exact h1
        · refine gstep_congr (.rdv (i := i) (j := j) (t := t) (m := m) (k := k) (k' := k') ?_ ?_ hc) ?_ ?_
          · simp only; rw [upd_ne _ _ (Ne.symm h5)]; exact ps
          · simp only; rw [upd_ne _ _ (Ne.symm h4)]; exact pr
          · simp only; rw [upd_comm _ _ _ (Ne.symm h4), upd_comm c.p _ _ (Ne.symm h5)]
          · rfl
  | @isend _ i j t m k ps =>
    cases s2 with
    | g s2 =>
      cases s2 with
      | @recv _ i' j' t' m' ms' k1 hp' hc' =>
        have hi : j' ≠ i := by intro h; subst h; rw [ps] at hp'; cases hp'
        by_cases hx : i' = i ∧ j' = j ∧ t' = t
        · obtain ⟨rfl, rfl, rfl⟩ := hx
          refine .inr (.inr ⟨_, .g (.recv (i := i') (j := j') (t := t') (m := m') (ms := ms' ++ [m]) (k := k1) ?_ ?_), ?_⟩)
          · simp only; rw [upd_ne _ _ hi]; exact hp'
          · simp only; rw [updc_same, hc']; rfl
          · refine gstep_congr (.isend (i := i') (j := j') (t := t') (m := m) (k := k) ?_) ?_ ?_
            · simp only; rw [upd_ne _ _ (Ne.symm hi)]; exact ps
            · simp only; exact upd_comm _ _ _ hi
            · simp only [updc_same, updc_updc]
        · refine .inr (.inr ⟨_, .g (.recv (i := i') (j := j') (t := t') (m := m') (ms := ms') (k := k1) ?_ ?_), ?_⟩)
          · simp only; rw [upd_ne _ _ hi]; exact hp'
          · simp only; rw [updc_ne _ _ hx]; exact hc'
          · refine gstep_congr (.isend (i := i) (j := j) (t := t) (m := m) (k := k) ?_) ?_ ?_
            · simp only; rw [upd_ne _ _ (Ne.symm hi)]; exact ps
            · simp only; exact upd_comm _ _ _ hi
            · simp only; rw [updc_comm c.ch _ _ hx, updc_ne _ _ (by omega)]
      | @rdv _ i' j' t' m' k1 k2 h1 h2 h3 =>
        have h4 : i' ≠ i := by intro h; subst h; rw [ps] at h1; cases h1
        have h5 : j' ≠ i := by intro h; subst h; rw [ps] at h2; cases h2
        refine .inr (.inr ⟨_, .g (.rdv (i := i') (j := j') (t := t') (m := m') (k := k1) (k' := k2) ?_ ?_ ?_), ?_⟩)
        · simp only; rw [upd_ne _ _ h4]; exact h1
        · simp only; rw [upd_ne _ _ h5]; exact h2
        · simp only; rw [updc_ne _ _ (by omega)]; exact h3
        · refine gstep_congr (.isend (i := i) (j := j) (t := t) (m := m) (k := k) ?_) ?_ ?_
          · simp only; rw [upd_ne _ _ (Ne.symm h5), upd_ne _ _ (Ne.symm h4)]; exact ps
          · simp only; rw [upd_comm _ _ _ h5, upd_comm c.p _ _ h4]
          · rfl
      | @isend _ i' j' t' m' k1 h1 =>
        by_cases h4 : i' = i
        · subst h4; rw [ps] at h1; cases h1; exact .inl ⟨rfl, rfl⟩
        · refine .inr (.inr ⟨_, .g (.isend (i := i') (j := j') (t := t') (m := m') (k := k1) ?_), ?_⟩)
          · simp only; rw [upd_ne _ _ h4]; exact h1
          · refine gstep_congr (.isend (i := i) (j := j) (t := t) (m := m) (k := k) ?_) ?_ ?_
            · simp only; rw [upd_ne _ _ (Ne.symm h4)]; exact ps
            · simp only; exact upd_comm _ _ _ h4
            · simp only
              rw [updc_comm c.ch _ _ (by omega), updc_ne _ _ (by omega), updc_ne _ _ (by omega)]
      | @wait _ i' k1 h1 h2 =>
        have h4 : i' ≠ i := by intro h; subst h; rw [ps] at h1; cases h1
        refine .inr (.inr ⟨_, .g (.wait (i := i') (k := k1) ?_ ?_), ?_⟩)
        · simp only; rw [upd_ne _ _ h4]; exact h1
        · intro y z; simp only; rw [updc_ne _ _ (by omega)]; exact h2 y z
        · refine gstep_congr (.isend (i := i) (j := j) (t := t) (m := m) (k := k) ?_) ?_ ?_
          · simp only; rw [upd_ne _ _ (Ne.symm h4)]; exact ps
          · simp only; exact upd_comm _ _ _ h4
          · rfl
    | @bsend _ i' j' t' m' k1 h1 =>
        have h4 : i' ≠ i := by intro h; subst h; rw [ps] at h1; cases h1
        refine .inr (.inr ⟨_, .bsend (i := i') (j := j') (t := t') (m := m') (k := k1) ?_, ?_⟩)
        · simp only; rw [upd_ne _ _ h4]; exact h1
        · refine gstep_congr (.isend (i := i) (j := j) (t := t) (m := m) (k := k) ?_) ?_ ?_
          · simp only; rw [upd_ne _ _ (Ne.symm h4)]; exact ps
          · simp only; exact upd_comm _ _ _ h4
          · simp only
            rw [updc_comm c.ch _ _ (by omega), updc_ne _ _ (by omega), updc_ne _ _ (by omega)]
    | @bwait _ i' k1 h1 =>
        have h4 : i' ≠ i := by intro h; subst h; rw [ps] at h1; cases h1
        refine .inr (.inr ⟨_, .bwait (i := i') (k := k1) ?_, ?_⟩)
        · simp only; rw [upd_ne _ _ h4]; exact h1
        · refine gstep_congr (.isend (i := i) (j := j) (t := t) (m := m) (k := k) ?_) ?_ ?_
          · simp only; rw [upd_ne _ _ (Ne.symm h4)]; exact ps
          · simp only; exact upd_comm _ _ _ h4
          · rfl
  | @wait _ i k ps hw =>
    cases s2 with
    | g s2 =>
      cases s2 with
      | @recv _ i' j' t' m' ms' k1 hp' hc' =>
        have hi : j' ≠ i := by intro h; subst h; rw [ps] at hp'; cases hp'
        have hii : i' ≠ i := by intro h; subst h; rw [hw] at hc'; cases hc'
        refine .inr (.inr ⟨_, .g (.recv (i := i') (j := j') (t := t') (m := m') (ms := ms') (k := k1) ?_ hc'), ?_⟩)
        · simp only; rw [upd_ne _ _ hi]; exact hp'
        · refine gstep_congr (.wait (i := i) (k := k) ?_ ?_) ?_ ?_
          · simp only; rw [upd_ne _ _ (Ne.symm hi)]; exact ps
          · intro y z; simp only; rw [updc_ne _ _ (by omega)]; exact hw y z
          · simp only; exact upd_comm _ _ _ hi
          · rfl
      | @rdv _ i' j' t' m' k1 k2 h1 h2 h3 =>
        have h4 : i' ≠ i := by intro h; subst h; rw [ps] at h1; cases h1
        have h5 : j' ≠ i := by intro h; subst h; rw [ps] at h2; cases h2
        refine .inr (.inr ⟨_, .g (.rdv (i := i') (j := j') (t := t') (m := m') (k := k1) (k' := k2) ?_ ?_ h3), ?_⟩)
        · simp only; rw [upd_ne _ _ h4]; exact h1
        · simp only; rw [upd_ne _ _ h5]; exact h2
        · refine gstep_congr (.wait (i := i) (k := k) ?_ hw) ?_ ?_
          · simp only; rw [upd_ne _ _ (Ne.symm h5), upd_ne _ _ (Ne.symm h4)]; exact ps
          · simp only; rw [upd_comm _ _ _ h5, upd_comm c.p _ _ h4]
          · rfl
      | @isend _ i' j' t' m' k1 h1 =>
        have h4 : i' ≠ i := by intro h; subst h; rw [ps] at h1; cases h1
        refine .inr (.inr ⟨_, .g (.isend (i := i') (j := j') (t := t') (m := m') (k := k1) ?_), ?_⟩)
        · simp only; rw [upd_ne _ _ h4]; exact h1
        · refine gstep_congr (.wait (i := i) (k := k) ?_ ?_) ?_ ?_
          · simp only; rw [upd_ne _ _ (Ne.symm h4)]; exact ps
          · intro y z; simp only; rw [updc_ne _ _ (by omega)]; exact hw y z
          · simp only; exact upd_comm _ _ _ h4
          · rfl
      | @wait _ i' k1 h1 h2 =>
        by_cases h4 : i' = i
        · subst h4; rw [ps] at h1; cases h1; exact .inl ⟨rfl, rfl⟩
        · refine .inr (.inr ⟨_, .g (.wait (i := i') (k := k1) ?_ h2), ?_⟩)
          · simp only; rw [upd_ne _ _ h4]; exact h1
          · refine gstep_congr (.wait (i := i) (k := k) ?_ hw) ?_ ?_
            · simp only; rw [upd_ne _ _ (Ne.symm h4)]; exact ps
            · simp only; exact upd_comm _ _ _ h4
            · rfl
    | @bsend _ i' j' t' m' k1 h1 =>
        have h4 : i' ≠ i := by intro h; subst h; rw [ps] at h1; cases h1
        refine .inr (.inr ⟨_, .bsend (i := i') (j := j') (t := t') (m := m') (k := k1) ?_, ?_⟩)
        · simp only; rw [upd_ne _ _ h4]; exact h1
        · refine gstep_congr (.wait (i := i) (k := k) ?_ ?_) ?_ ?_
          · simp only; rw [upd_ne _ _ (Ne.symm h4)]; exact ps
          · intro y z; simp only; rw [updc_ne _ _ (by omega)]; exact hw y z
          · simp only; exact upd_comm _ _ _ h4
          · rfl
    | @bwait _ i' k1 h1 =>
        by_cases h4 : i' = i
        · subst h4; rw [ps] at h1; cases h1; exact .inl ⟨rfl, rfl⟩
        · refine .inr (.inr ⟨_, .bwait (i := i') (k := k1) ?_, ?_⟩)
          · simp only; rw [upd_ne _ _ h4]; exact h1
          · refine gstep_congr (.wait (i := i) (k := k) ?_ hw) ?_ ?_
            · simp only; rw [upd_ne _ _ (Ne.symm h4)]; exact ps
            · simp only; exact upd_comm _ _ _ h4
            · rfl

theorem final_no_step {w : Nat} {c c' : Cfg M R} (hf : Final c) (s : Step w c c') : False := by
  cases s with
  | g s =>
    cases s with
    | recv hp _ => obtain ⟨r, hr⟩ := hf.1 _; rw [hr] at hp; cases hp
    | rdv hp _ _ => obtain ⟨r, hr⟩ := hf.1 _; rw [hr] at hp; cases hp
    | isend hp => obtain ⟨r, hr⟩ := hf.1 _; rw [hr] at hp; cases hp
    | wait hp _ => obtain ⟨r, hr⟩ := hf.1 _; rw [hr] at hp; cases hp
  | bsend hp => obtain ⟨r, hr⟩ := hf.1 _; rw [hr] at hp; cases hp
  | bwait hp => obtain ⟨r, hr⟩ := hf.1 _; rw [hr] at hp; cases hp

/-- A run to the end survives every step of the implementation. -/
theorem grun_step {n : Nat} {c f : Cfg M R} (h : GRun n c f) (hf : Final f) :
    ∀ {w : Nat} {c' : Cfg M R}, Step w c c' → ∃ n', n = n' + w ∧ GRun n' c' f := by
  induction h with
  | refl => intro w c' s; exact (final_no_step hf s).elim
  | @step n w1 c c1 f g r ih =>
    intro w c' s
    rcases diamond g s with ⟨rfl, rfl⟩ | ⟨rfl, rfl, g'⟩ | ⟨c3, s3, g3⟩
    · exact ⟨n, by omega, r⟩
    · exact ⟨1 + n, by omega, .step g' r⟩
    · obtain ⟨n', e, r'⟩ := ih hf s3
      exact ⟨w1 + n', by omega, .step g3 r'⟩

theorem grun_exec {n : Nat} {c f : Cfg M R} (h : GRun n c f) (hf : Final f) {l : Nat} {c' : Cfg M R} (e : Exec l c c') :
    ∃ n', n = n' + l ∧ GRun n' c' f := by
  induction e with
  | refl => exact ⟨n, rfl, h⟩
  | step _ s ih =>
    obtain ⟨n1, e1, r1⟩ := ih h
    obtain ⟨n2, e2, r2⟩ := grun_step r1 hf s
    exact ⟨n2, by omega, r2⟩

theorem exec_trans {a b : Nat} {c d e : Cfg M R} (h : Exec a c d) (h' : Exec b d e) : Exec (a + b) c e := by
  induction h' with
  | refl => exact h
  | step _ s ih => rw [← Nat.add_assoc]; exact .step (ih h) s

theorem exec_of_grun {n : Nat} {c f : Cfg M R} (h : GRun n c f) : Exec n c f := by
  induction h with
  | refl => exact .refl
  | @step n w c c' c'' g _ ih =>
    have h1 : Exec (0 + w) c c' := .step .refl (.g g)
    rw [Nat.zero_add] at h1
    exact exec_trans h1 ih

theorem completes_of_grun {n : Nat} {c f : Cfg M R} (h : GRun n c f) (hf : Final f) : Completes c f := by
  refine ⟨hf, ⟨n, ?_⟩, ?_⟩
  · intro l c' e
    obtain ⟨n', e', -⟩ := grun_exec h hf e
    omega
  · intro l c' e
    obtain ⟨n', e', r⟩ := grun_exec h hf e
    refine ⟨?_, n', exec_of_grun r⟩
    cases r with
    | refl => exact .inl rfl
    | step g _ => exact .inr ⟨_, _, g⟩

/-- The final state is unique. -/
theorem completes_unique {c f f' : Cfg M R} (h : Completes c f) (h' : Completes c f') : f = f' := by
  obtain ⟨l, e⟩ := (h.2.2 0 c .refl).2
  rcases (h'.2.2 l f e).1 with e | ⟨w, c'', g⟩
  · exact e
  · exact (final_no_step h.1 (.g g)).elim

/-! ### Runs that use only rendezvous, composed from runs of disjoint sets of ranks -/

/-- Runs by rendezvous on empty channels. -/
inductive SRun : (Nat → Prog M R) → (Nat → Prog M R) → Prop where
  | refl {p : Nat → Prog M R} : SRun p p
  | step {p q : Nat → Prog M R} {i j t m k k'} : p i = .send j t m k → p j = .recv i t k' →
      SRun (upd (upd p i k) j (k' m)) q → SRun p q

theorem SRun.trans {p q r : Nat → Prog M R} (h : SRun p q) (h' : SRun q r) : SRun p r := by
  induction h with
  | refl => exact h'
  | step a b _ ih => exact .step a b (ih h')

theorem grun_of_srun {p q : Nat → Prog M R} (h : SRun p q) : ∃ n, GRun n (start p) (start q) := by
  induction h with
  | refl => exact ⟨0, .refl⟩
  | step a b _ ih =>
    obtain ⟨n, r⟩ := ih
    exact ⟨_, .step (.rdv (c := start _) a b rfl) r⟩

/-- The ranks in `A` can go from `P` to `Q` by rendezvous among themselves, whatever the other ranks do. -/
def Local (A : Nat → Prop) (P Q : Nat → Prog M R) : Prop :=
  ∀ p, (∀ i, A i → p i = P i) → ∃ q, SRun p q ∧ (∀ i, A i → q i = Q i) ∧ ∀ i, ¬ A i → q i = p i

namespace Local
variable {A B : Nat → Prop} {P Q S : Nat → Prog M R}

theorem refl (h : ∀ i, A i → P i = Q i) : Local A P Q :=
  fun p hp => ⟨p, .refl, fun i hi => (hp i hi).trans (h i hi), fun _ _ => rfl⟩

theorem trans (h : Local A P Q) (h' : Local A Q S) : Local A P S := by
  intro p hp
  obtain ⟨q, r1, q1, q2⟩ := h p hp
  obtain ⟨s, r2, s1, s2⟩ := h' q q1
  exact ⟨s, r1.trans r2, s1, fun i hi => (s2 i hi).trans (q2 i hi)⟩

theorem congr {P' Q' : Nat → Prog M R} (h : Local A P Q) (hP : ∀ i, A i → P' i = P i) (hQ : ∀ i, A i → Q i = Q' i) : Local A P' Q' :=
  ((refl hP).trans h).trans (refl hQ)

/-- Extension to more ranks, which do nothing. -/
theorem frame (h : Local A P Q) (hA : ∀ i, A i → B i) (he : ∀ i, B i → ¬ A i → P i = Q i) : Local B P Q := by
  intro p hp
  obtain ⟨q, r, q1, q2⟩ := h p (fun i hi => hp i (hA i hi))
  refine ⟨q, r, ?_, fun i hi => q2 i (fun h => hi (hA i h))⟩
  intro i hi
  by_cases ha : A i
  · exact q1 i ha
  · rw [q2 i ha, hp i hi, he i hi ha]

theorem iff (h : Local A P Q) (hA : ∀ i, A i ↔ B i) : Local B P Q := by
  have : A = B := funext fun i => propext (hA i)
  subst this; exact h

/-- Two disjoint sets of ranks. -/
theorem par (h : Local A P Q) (h' : Local B P Q) (hd : ∀ i, A i → ¬ B i) : Local (fun i => A i ∨ B i) P Q := by
  intro p hp
  obtain ⟨q, r1, q1, q2⟩ := h p (fun i hi => hp i (.inl hi))
  obtain ⟨s, r2, s1, s2⟩ := h' q (fun i hi => by rw [q2 i (fun ha => hd i ha hi)]; exact hp i (.inr hi))
  refine ⟨s, r1.trans r2, ?_, fun i hi => ?_⟩
  · intro i hi
    by_cases hb : B i
    · exact s1 i hb
    · rw [s2 i hb]; exact q1 i (hi.resolve_right hb)
  · rw [s2 i (fun h => hi (.inr h)), q2 i (fun h => hi (.inl h))]

/-- Any number of pairwise disjoint sets of ranks. -/
theorem all (n : Nat) (A : Nat → Nat → Prop) (h : ∀ s, s < n → Local (A s) P Q)
    (hd : ∀ s s' i, s < n → s' < n → A s i → A s' i → s = s') : Local (fun i => ∃ s, s < n ∧ A s i) P Q := by
  induction n with
  | zero => exact (refl (A := fun _ => False) (fun i hi => hi.elim)).iff (fun i => by simp)
  | succ n ih =>
    have h1 := ih (fun s hs => h s (by omega)) (fun s s' i hs hs' => hd s s' i (by omega) (by omega))
    refine (h1.par (h n (by omega)) ?_).iff ?_
    · rintro i ⟨s, hs, ha⟩ hb
      have := hd s n i (by omega) (by omega) ha hb
      omega
    · intro i
      constructor
      · rintro (⟨s, hs, ha⟩ | ha)
        · exact ⟨s, by omega, ha⟩
        · exact ⟨n, by omega, ha⟩
      · rintro ⟨s, hs, ha⟩
        by_cases hn : s = n
        · subst hn; exact .inr ha
        · exact .inl ⟨s, by omega, ha⟩

/-- One message. -/
theorem msg {i j t : Nat} {m : M} {k : Prog M R} {k' : M → Prog M R} (hi : P i = .send j t m k) (hj : P j = .recv i t k')
    (qi : Q i = k) (qj : Q j = k' m) : Local (fun x => x = i ∨ x = j) P Q := by
  have hij : i ≠ j := by intro h; subst h; rw [hi] at hj; cases hj
  intro p hp
  refine ⟨upd (upd p i k) j (k' m), .step (m := m) ((hp i (.inl rfl)).trans hi) ((hp j (.inr rfl)).trans hj) .refl, ?_, ?_⟩
  · rintro x (rfl | rfl)
    · rw [upd_ne _ _ hij, upd_same, qi]
    · rw [upd_same, qj]
  · intro x hx
    rw [upd_ne _ _ (fun h => hx (.inr h)), upd_ne _ _ (fun h => hx (.inl h))]

/-- `i` sends to `j`, then `j` sends to `i`. -/
theorem exch {i j t : Nat} {a b : M} {ki f : M → Prog M R} {kj : Prog M R} (hi : P i = .send j t a (.recv j t ki))
    (hj : P j = .recv i t f) (hf : f a = .send i t b kj) (qi : Q i = ki b) (qj : Q j = kj) :
    Local (fun x => x = i ∨ x = j) P Q := by
  have hij : i ≠ j := by intro h; subst h; rw [hi] at hj; cases hj
  have h1 : Local (fun x => x = i ∨ x = j) P (upd (upd P i (.recv j t ki)) j (.send i t b kj)) :=
    msg hi hj (by rw [upd_ne _ _ hij, upd_same]) (by rw [upd_same, hf])
  have h2 : Local (fun x => x = j ∨ x = i) (upd (upd P i (.recv j t ki)) j (.send i t b kj)) Q :=
    msg (by rw [upd_same]) (by rw [upd_ne _ _ hij, upd_same]) qj qi
  exact h1.trans (h2.iff (fun x => Or.comm))

end Local

/-- From a run of the ranks in `A` to all executions. -/
theorem completes_of_local {A : Nat → Prop} {P : Nat → Prog M R} {res : Nat → R} (h : Local A P (fun i => .ret (res i)))
    (ho : ∀ i, ¬ A i → P i = .ret (res i)) : Completes (start P) (start fun i => .ret (res i)) := by
  obtain ⟨q, r, q1, q2⟩ := h P (fun _ _ => rfl)
  have hq : q = fun i => .ret (res i) := by
    funext i
    by_cases ha : A i
    · exact q1 i ha
    · rw [q2 i ha, ho i ha]
  subst hq
  obtain ⟨n, g⟩ := grun_of_srun r
  exact completes_of_grun g ⟨fun i => ⟨_, rfl⟩, fun _ _ _ => rfl⟩

end Verif.Mpi
