import Verif.Proof.ConstraintsGlobal
import Mathlib.Algebra.CharZero.Defs
import Mathlib.Data.Nat.Cast.Field
import Mathlib.Tactic.FieldSimp
import Mathlib.Tactic.LinearCombination
import Mathlib.Analysis.Real.Sqrt
import Mathlib.Tactic.Positivity
/-! C60: the equality constraints (gluing of the domains and Dirichlet conditions). -/
namespace Verif.Feti

open Verif.Dual Verif.Pattern Verif.Csx Finset Verif.Mpi Verif.Comm

variable {K : Type} [Field K] {P : Problem} {srt : Nat → List (Nat × Nat) → List (Nat × Nat)}

/-! ### Matrices with one entry in every row -/

omit [Field K] in
theorem oneEntry_wf (m : Nat) (cols : List Nat) (vals : List K) (hl : vals.length = cols.length) (hr : ∀ c ∈ cols, c < m) : WellFormed (oneEntryRows m cols vals) := by
  refine ⟨List.length_range, by simp [oneEntryRows], List.pairwise_lt_range.imp fun h => Nat.le_of_lt h, ?_, hl, hr⟩
  show (List.range (cols.length + 1)).getD cols.length 0 = cols.length
  rw [List.getD_eq_getElem?_getD, List.getElem?_range (by omega)]; rfl

omit [Field K] in
theorem oneEntry_row {A : Type} (m : Nat) (rows : List A) (f : A → Nat) (g : A → K) {r : Nat} {x : A} (hr : rows[r]? = some x) :
    (oneEntryRows m (rows.map f) (rows.map g)).row r = [(f x, g x)] := by
  obtain ⟨hlt, he⟩ := List.getElem?_eq_some_iff.1 hr
  unfold Csx.row oneEntryRows
  dsimp only
  have h1 : ∀ k, k ≤ rows.length → (List.range ((rows.map f).length + 1)).getD k 0 = k := by
    intro k hk
    rw [List.getD_eq_getElem?_getD, List.getElem?_range (by rw [List.length_map]; omega)]; rfl
  rw [h1 r (by omega), h1 (r + 1) (by omega), show r + 1 - r = 1 by omega]
  have hz : ((rows.map f).zip (rows.map g)) = rows.map fun x => (f x, g x) := by
    rw [List.zip_map']
  rw [hz, List.drop_eq_getElem_cons (by rw [List.length_map]; omega)]
  simp [he]

theorem oneEntry_at {A : Type} (m : Nat) (rows : List A) (f : A → Nat) (g : A → K) {r : Nat} {x : A} (hr : rows[r]? = some x) (i : Nat) :
    (oneEntryRows m (rows.map f) (rows.map g)).at r i = if f x = i then g x else 0 := by
  unfold Csx.at
  rw [oneEntry_row m rows f g hr]
  by_cases h : f x = i <;> simp [h]

/-- The sum of the rows with the multiplier `k`. -/
theorem rows_sum (copies : Nat → List Nat) (lam : List Mult) (d k : Nat) {l : Mult} (hk : lam[k]? = some l) (F : Mult → K) :
    ((rowsOf copies lam d).map fun x => if x.2 = k then F x.1 else 0).sum = if d ∈ l.doms copies then F l else 0 := by
  unfold rowsOf
  obtain ⟨hlt, he⟩ := List.getElem?_eq_some_iff.1 hk
  have hz : lam.zipIdx = (List.range lam.length).map fun i => (lam.getD i (.glue 0 0), i) := by
    apply List.ext_getElem?
    intro i
    rw [List.getElem?_zipIdx, List.getElem?_map, Nat.zero_add]
    by_cases hi : i < lam.length
    · rw [List.getElem?_range hi, List.getElem?_eq_getElem hi, Option.map_some, Option.map_some, List.getD_eq_getElem?_getD, List.getElem?_eq_getElem hi]; rfl
    · rw [List.getElem?_eq_none (by omega), List.getElem?_eq_none (by rw [List.length_range]; omega)]; rfl
  have hfs : ∀ (u : List (Mult × Nat)) (q : Mult × Nat → Bool) (G : Mult × Nat → K), ((u.filter q).map G).sum = (u.map fun x => if q x then G x else 0).sum := by
    intro u q G
    induction u with
    | nil => rfl
    | cons x u ih =>
        rw [List.map_cons, List.sum_cons, ← ih]
        by_cases hq : q x = true
        · rw [List.filter_cons_of_pos hq, List.map_cons, List.sum_cons, if_pos hq]
        · rw [List.filter_cons_of_neg hq, if_neg hq, zero_add]
  rw [hfs, hz, List.map_map, list_sum_range]
  dsimp only [Function.comp]
  rw [Finset.sum_eq_single k]
  · have hg : lam.getD k (.glue 0 0) = l := by rw [List.getD_eq_getElem?_getD, hk]; rfl
    simp only [hg, if_true, decide_eq_true_iff]
  · intro i _ hi
    rw [if_neg hi]
    simp
  · intro h
    exact absurd (Finset.mem_range.2 hlt) h

/-! ### The constraint matrix -/

/-- The entry of the row `l` of the global constraint matrix at the unknown `i` of the domain `d`. -/
def entryOf (P : Problem) (sq : K → K) (l : Mult) (d i : Nat) : K := if d ∈ l.doms P.copies ∧ P.index d l.dof = i then coefAt sq P.copies l d else 0

theorem coefAt_globalize (P : Problem) (sq : K → K) (p : Nat) (l : Mult) (d : Nat) : coefAt sq P.copies (globalize P p l) d = coefAt sq (lcopies P p) l d := by cases l <;> rfl

/-- The arrays of a domain of the process. -/
theorem domain_rows (hP : P.Ok) (h : SortsAll P srt) (sq : K → K) {p : Nat} (hp : p < P.np) (d : Nat) :
    let rows := rowsOf (lcopies P p) (localMults P (srt p) p) d
    let B := oneEntryRows (P.dim d) (rows.map fun x => P.index d (P.dofAt p x.1.dof)) (rows.map fun x => coefAt sq (lcopies P p) x.1 d)
    (∀ x : List K, x.length = P.dim d → DomainOk (multsOf P srt p).length (B, rows.map (·.2), x)) ∧
      ∀ (k : Nat) (l : Mult), (multsOf P srt p)[k]? = some l → ∀ i, (∑ r ∈ range B.np, if (rows.map (·.2)).getD r 0 = k then B.at r i else 0) = entryOf P sq l d i := by
  intro rows B
  have hmem : ∀ x ∈ rows, x.1 ∈ localMults P (srt p) p ∧ x.2 < (localMults P (srt p) p).length ∧ d ∈ x.1.doms (lcopies P p) := by
    intro x hx
    obtain ⟨h1, h2⟩ := List.mem_filter.1 hx
    obtain ⟨y, k⟩ := x
    have := List.mem_zipIdx_iff_getElem?.1 h1
    exact ⟨List.mem_of_getElem? this, (List.getElem?_eq_some_iff.1 this).1, of_decide_eq_true h2⟩
  constructor
  · intro x hx
    refine ⟨oneEntry_wf _ _ _ (by rw [List.length_map, List.length_map]) ?_, ?_, ?_, hx⟩
    · intro c hc
      obtain ⟨y, hy, rfl⟩ := List.mem_map.1 hc
      obtain ⟨h1, _, h3⟩ := hmem y hy
      have hr := localMults_range h hp h1
      refine hP.irange _ (dofAt_mem hr).1 d ?_
      cases hy1 : y.1 with
      | glue g s => rw [hy1] at h3; exact List.mem_of_mem_take h3
      | fix g d' =>
          rw [hy1] at h3 h1
          rw [List.mem_singleton.1 h3]
          exact (mem_lamOf_fix h1).2.1
    · show (rows.map (·.2)).length = (rows.map _).length
      rw [List.length_map, List.length_map]
    · intro k hk
      obtain ⟨y, hy, rfl⟩ := List.mem_map.1 hk
      unfold multsOf
      rw [List.length_map]
      exact (hmem y hy).2.1
  · intro k l hk i
    unfold multsOf at hk
    rw [List.getElem?_map] at hk
    obtain ⟨l', hl', rfl⟩ := Option.map_eq_some_iff.1 hk
    have hnp : B.np = rows.length := by show (rows.map _).length = _; rw [List.length_map]
    rw [hnp]
    have := rows_sum (lcopies P p) (localMults P (srt p) p) d k hl' (fun l => if P.index d (P.dofAt p l.dof) = i then coefAt sq (lcopies P p) l d else 0)
    unfold entryOf
    rw [globalize_doms, globalize_dof, coefAt_globalize]
    rw [show (if d ∈ l'.doms (lcopies P p) ∧ P.index d (P.dofAt p l'.dof) = i then coefAt sq (lcopies P p) l' d else 0) =
      if d ∈ l'.doms (lcopies P p) then (if P.index d (P.dofAt p l'.dof) = i then coefAt sq (lcopies P p) l' d else 0) else 0 by
        by_cases h1 : d ∈ l'.doms (lcopies P p) <;> simp [h1], ← this]
    have hrange : ∀ (u : List (Mult × Nat)) (G : Mult × Nat → K), (u.map G).sum = ∑ r ∈ range u.length, G (u.getD r (.glue 0 0, 0)) := by
      intro u G
      rw [← list_sum_range]
      congr 1
      apply List.ext_getElem?
      intro r
      rw [List.getElem?_map, List.getElem?_map]
      by_cases hr : r < u.length
      · rw [List.getElem?_range hr, List.getElem?_eq_getElem hr, Option.map_some, Option.map_some, List.getD_eq_getElem?_getD, List.getElem?_eq_getElem hr]; rfl
      · rw [List.getElem?_eq_none (by omega), List.getElem?_eq_none (by rw [List.length_range]; omega)]; rfl
    rw [hrange]
    apply Finset.sum_congr rfl
    intro r hr
    have hr := Finset.mem_range.1 hr
    have hx : rows[r]? = some (rows.getD r (.glue 0 0, 0)) := by
      rw [List.getD_eq_getElem?_getD, List.getElem?_eq_getElem hr]; rfl
    rw [oneEntry_at _ rows _ _ hx, List.getD_eq_getElem?_getD (l := rows.map _), List.getElem?_map, hx]
    rfl

/-- The matrices `B1` and the maps `D2C` of the own domains with the vectors `x`. -/
def domainsOf (P : Problem) (p : Nat) (st : Lambdas K) (x : Nat → List K) : Domains K :=
  (List.range (P.first (p + 1) - P.first p)).map fun j => (oneEntryRows (P.dim (P.first p + j)) (st.cols.getD j []) (st.vals.getD j []), st.d2c.getD j [], x (P.first p + j))

/-- The local numbers of the unknowns. -/
def lindex (P : Problem) (p d i : Nat) : Nat := P.index d (P.dofAt p i)

/-- `decomposition->dmap` of the process (`fillDecomposition`, C46). -/
def dmapAt (P : Problem) (p : Nat) : List (List DIndex) := dmapOf (dec P p) (P.locals p).length (lcopies P p) (lindex P p)

/-- The contract of `std::sort` on all processes. -/
def SortContract (P : Problem) (srt : Nat → List (Nat × Nat) → List (Nat × Nat)) : Prop := ∀ p, p < P.np → Sorts (lambdaLess (dmapAt P p)) (srt p)

theorem mk_getD {A : Type} {n j : Nat} (f : Nat → A) (d : A) (h : j < n) : (mk n f).getD j d = f j := by
  rw [List.getD_eq_getElem?_getD, mk_get _ h]; rfl

/-- The result of `set` on a process, in the form used below. -/
theorem set_global (hP : P.Ok) (h : SortContract P srt) (sq : K → K) {p : Nat} (hp : p < P.np) :
    ∃ cmap halo, constraintsSet sq (srt p) (dec P p) (dmapAt P p) (P.dirichlet p) = some (lamState (dec P p) (lcopies P p) (lindex P p) sq (localMults P (srt p) p) cmap halo,
        mk (P.first (p + 1) - P.first p) (doffsetOf (dec P p) (P.locals p).length (lcopies P p) (P.dirichlet p) (srt p (permOf (dec P p) (P.locals p).length (lcopies P p) (P.dirichlet p))))) ∧
      Describes cmap (multsOf P srt p) (Mult.doms P.copies) ∧ Intervals P.first p (multsOf P srt p) (Mult.doms P.copies) [(halo, (localMults P (srt p) p).length - halo)] := by
  obtain ⟨cmap, halo, h1, h2, h3⟩ := set_spec (dec P p) (P.locals p).length (copies := lcopies P p) (lindex P p) sq (dirichlet_sorted P p) (fun g hg => hP.csorted _ (dofAt_mem hg).1) (h p hp)
  refine ⟨cmap, halo, h1, ?_, ?_⟩
  · obtain ⟨gs, g1, g2, g3⟩ := h2
    refine ⟨gs, g1, g2, g3.trans ?_⟩
    unfold multsOf
    rw [List.map_map]
    exact List.map_congr_left fun l _ => (globalize_doms P p l).symm
  · obtain ⟨k1, k2, k3⟩ := h3
    refine ⟨[((multsOf P srt p).take halo, (multsOf P srt p).drop halo)], ?_, ?_, ?_⟩
    · unfold multsOf
      simp only [List.map_cons, List.map_nil, List.length_take, List.length_drop, List.length_map]
      rw [Nat.min_eq_left (show halo ≤ (localMults P (srt p) p).length from k1)]
    · simp
    · intro x hx
      rw [List.mem_singleton.1 hx]
      unfold multsOf
      rw [← List.map_take, ← List.map_drop]
      constructor
      · intro l hl
        obtain ⟨l', hl', rfl⟩ := List.mem_map.1 hl
        rw [globalize_doms]
        exact k2 l' hl'
      · intro l hl
        obtain ⟨l', hl', rfl⟩ := List.mem_map.1 hl
        rw [globalize_doms]
        exact k3 l' hl'

/-! ### Sums over the domains -/

theorem sum_domains {first : Nat → Nat} (h0 : first 0 = 0) (hm : ∀ p, first p ≤ first (p + 1)) (f : Nat → K) (n : Nat) :
    ∑ q ∈ range n, ∑ j ∈ range (first (q + 1) - first q), f (first q + j) = ∑ d ∈ range (first n), f d := by
  induction n with
  | zero => rw [h0]; rfl
  | succ n ih =>
      rw [sum_range_succ, ih, show first (n + 1) = first n + (first (n + 1) - first n) by have := hm n; omega, sum_range_add]
      simp

/-- The constraint `l` applied to the vectors `x` of the domains. -/
def applied (P : Problem) (sq : K → K) (x : Nat → List K) (l : Mult) : K := ∑ d ∈ range (P.first P.np), ∑ i ∈ range (P.dim d), entryOf P sq l d i * (x d).getD i 0

theorem isMult_doms (hP : P.Ok) {l : Mult} (hl : P.IsMult l) : (∀ d ∈ l.doms P.copies, d < P.first P.np ∧ P.index d l.dof < P.dim d ∧ d ∈ P.copies l.dof) ∧ (l.doms P.copies).Nodup := by
  have key : ∀ g, g < P.ndofs → ∀ d ∈ P.copies g, d < P.first P.np ∧ P.index d g < P.dim d ∧ d ∈ P.copies g := by
    intro g hg d hd
    obtain ⟨q, hq, ho⟩ := hP.crange g hg d hd
    have := first_mono hP.mono (show q + 1 ≤ P.np by omega)
    exact ⟨Nat.lt_of_lt_of_le ho.2 this, hP.irange g hg d hd, hd⟩
  cases l with
  | glue g s => exact ⟨fun d hd => key g hl.1 d (List.mem_of_mem_take hd), ((hP.csorted g hl.1).imp fun h => Nat.ne_of_lt h).sublist (List.take_sublist ..)⟩
  | fix g d =>
      refine ⟨?_, List.nodup_singleton _⟩
      intro d' hd
      rw [List.mem_singleton.1 hd]
      exact key g hl.1 d hl.2.2

theorem sum_nodup {ds : List Nat} (hnd : ds.Nodup) {N : Nat} (hN : ∀ d ∈ ds, d < N) (F : Nat → K) : (∑ d ∈ range N, if d ∈ ds then F d else 0) = (ds.map F).sum := by
  rw [← List.sum_toFinset F hnd, ← Finset.sum_filter]
  apply Finset.sum_congr _ fun _ _ => rfl
  ext d
  rw [Finset.mem_filter, Finset.mem_range, List.mem_toFinset]
  exact ⟨fun h => h.2, fun h => ⟨hN d h, h⟩⟩

/-- A row of the constraint matrix times functions on the unknowns. -/
theorem row_times (hP : P.Ok) (sq : K → K) {l : Mult} (hl : P.IsMult l) (X : Nat → Nat → K) :
    ∑ d ∈ range (P.first P.np), ∑ i ∈ range (P.dim d), entryOf P sq l d i * X d i = ((l.doms P.copies).map fun d => coefAt sq P.copies l d * X d (P.index d l.dof)).sum := by
  obtain ⟨h1, h2⟩ := isMult_doms hP hl
  rw [← sum_nodup h2 (fun d hd => (h1 d hd).1)]
  apply Finset.sum_congr rfl
  intro d _
  by_cases hd : d ∈ l.doms P.copies
  · rw [if_pos hd, Finset.sum_eq_single (P.index d l.dof)]
    · unfold entryOf
      rw [if_pos ⟨hd, rfl⟩]
    · intro i _ hi
      unfold entryOf
      rw [if_neg (fun h => hi h.2.symm), zero_mul]
    · intro h
      exact absurd (Finset.mem_range.2 (h1 d hd).2.1) h
  · rw [if_neg hd]
    apply Finset.sum_eq_zero
    intro i _
    unfold entryOf
    rw [if_neg (fun h => hd h.1), zero_mul]

/-- The sum over the first `s` elements of a list. -/
theorem sum_take (ds : List Nat) (F : Nat → K) : ∀ s, s ≤ ds.length → ((ds.take s).map F).sum = ∑ c ∈ range s, F (ds.getD c 0) := by
  intro s
  induction s with
  | zero => intro _; simp
  | succ s ih =>
      intro hs
      rw [sum_range_succ, ← ih (by omega), List.take_add_one, List.map_append, List.sum_append, List.getElem?_eq_getElem (by omega), List.getD_eq_getElem?_getD, List.getElem?_eq_getElem (by omega)]
      simp

theorem glue_times (hP : P.Ok) (sq : K → K) {g s : Nat} (hl : P.IsMult (.glue g s)) (X : Nat → Nat → K) :
    ∑ d ∈ range (P.first P.np), ∑ i ∈ range (P.dim d), entryOf P sq (.glue g s) d i * X d i =
      ∑ c ∈ range s, coef sq s c * X ((P.copies g).getD c 0) (P.index ((P.copies g).getD c 0) g) := by
  rw [row_times hP sq hl]
  obtain ⟨h1, _, _, h4⟩ := hl
  show (((P.copies g).take s).map _).sum = _
  rw [sum_take _ _ _ h4]
  apply Finset.sum_congr rfl
  intro c hc
  have hc := Finset.mem_range.1 hc
  have hnd : (P.copies g).Nodup := (hP.csorted g h1).imp fun h => Nat.ne_of_lt h
  have hg : (P.copies g)[c]? = some ((P.copies g).getD c 0) := by
    rw [List.getD_eq_getElem?_getD, List.getElem?_eq_getElem (by omega)]; rfl
  show coef sq s ((P.copies g).idxOf _) * _ = _
  rw [idxOf_get hnd hg]
  rfl

theorem coef_sum (sq : K → K) {s : Nat} (hs : 2 ≤ s) (u : Nat → K) : ∑ c ∈ range s, coef sq s c * u c =
    sq (1 + ((s - 1 : Nat) : K) / (((s - 1) * (s - 1) : Nat) : K)) / (s : K) * (∑ c ∈ range (s - 1), u c - ((s - 1 : Nat) : K) * u (s - 1)) := by
  obtain ⟨n, rfl⟩ : ∃ n, s = n + 1 := ⟨s - 1, by omega⟩
  rw [sum_range_succ, Nat.add_sub_cancel, mul_sub, Finset.mul_sum, sub_eq_add_neg]
  congr 1
  · apply Finset.sum_congr rfl
    intro c hc
    unfold coef
    rw [if_pos (by have := Finset.mem_range.1 hc; omega), Nat.add_sub_cancel]
  · unfold coef
    rw [if_neg (by omega), Nat.add_sub_cancel]
    ring

/-- What is assumed of the square root and the field: the arguments that occur have square roots different from zero. -/
def Root (sq : K → K) : Prop := ∀ n : Nat, 0 < n → sq (1 + (n : K) / ((n * n : Nat) : K)) * sq (1 + (n : K) / ((n * n : Nat) : K)) = 1 + (n : K) / ((n * n : Nat) : K)

section
variable [CharZero K]

theorem root_ne {sq : K → K} (h : Root sq) {n : Nat} (hn : 0 < n) : sq (1 + (n : K) / ((n * n : Nat) : K)) ≠ 0 := by
  intro e
  have := h n hn
  rw [e, mul_zero] at this
  have hn' : (n : K) ≠ 0 := Nat.cast_ne_zero.2 (by omega)
  have hn1 : ((n : K) + 1) ≠ 0 := by exact_mod_cast Nat.succ_ne_zero n
  apply hn1
  have h2 : (1 : K) + (n : K) / ((n * n : Nat) : K) = ((n : K) + 1) / n := by
    push_cast
    field_simp
  rw [h2] at this
  rcases div_eq_zero_iff.1 this.symm with h3 | h3
  · exact h3
  · exact absurd h3 hn'

/-- The gluing constraints of a degree of freedom say that all copies are equal. -/
theorem glue_iff {sq : K → K} (h : Root sq) (u : Nat → K) (m : Nat) :
    (∀ s, 2 ≤ s → s ≤ m → ∑ c ∈ range s, coef sq s c * u c = 0) ↔ ∀ c, c < m → u c = u 0 := by
  constructor
  · intro hz
    have : ∀ n, ∀ c, c ≤ n → c < m → u c = u 0 := by
      intro n
      induction n with
      | zero => intro c hc _; rw [Nat.le_zero.1 hc]
      | succ n ih =>
          intro c hc hm
          by_cases hcn : c ≤ n
          · exact ih c hcn hm
          · have hce : c = n + 1 := by omega
            subst hce
            have h1 := hz (n + 2) (by omega) (by omega)
            rw [coef_sum sq (by omega), show n + 2 - 1 = n + 1 by omega] at h1
            have h2 : ∑ c ∈ range (n + 1), u c = ((n + 1 : Nat) : K) * u 0 := by
              rw [Finset.sum_congr rfl fun c hc => ih c (by have := Finset.mem_range.1 hc; omega) (by have := Finset.mem_range.1 hc; omega)]
              simp
            rw [h2, ← mul_sub] at h1
            have h3 : ((n + 1 : Nat) : K) ≠ 0 := Nat.cast_ne_zero.2 (by omega)
            have h4 : ((n + 2 : Nat) : K) ≠ 0 := Nat.cast_ne_zero.2 (by omega)
            rcases mul_eq_zero.1 h1 with h5 | h5
            · rcases div_eq_zero_iff.1 h5 with h6 | h6
              · exact absurd h6 (root_ne h (by omega))
              · exact absurd h6 h4
            · rcases mul_eq_zero.1 h5 with h6 | h6
              · exact absurd h6 h3
              · exact (sub_eq_zero.1 h6).symm
    intro c hc
    exact this c c (Nat.le_refl _) hc
  · intro hu s hs hm
    rw [coef_sum sq hs, hu (s - 1) (by omega), Finset.sum_congr rfl fun c hc => hu c (by have := Finset.mem_range.1 hc; omega)]
    simp

theorem coef_self {sq : K → K} (h : Root sq) {s : Nat} (hs : 2 ≤ s) : ∑ c ∈ range s, coef sq s c * coef sq s c = 1 := by
  obtain ⟨n, rfl⟩ : ∃ n, s = n + 1 := ⟨s - 1, by omega⟩
  have hn : 0 < n := by omega
  have hr := h n hn
  rw [coef_sum sq hs, Nat.add_sub_cancel]
  rw [Finset.sum_congr rfl (g := fun _ => sq (1 + (n : K) / ((n * n : Nat) : K)) / ((n + 1 : Nat) : K)) (by
    intro c hc
    unfold coef
    rw [if_pos (by have := Finset.mem_range.1 hc; omega), Nat.add_sub_cancel])]
  have hl : coef sq (n + 1) n = -sq (1 + (n : K) / ((n * n : Nat) : K)) * (n : K) / ((n + 1 : Nat) : K) := by
    unfold coef
    rw [if_neg (by omega), Nat.add_sub_cancel]
  rw [hl]
  generalize sq (1 + (n : K) / ((n * n : Nat) : K)) = a at hr ⊢
  have hn' : (n : K) ≠ 0 := Nat.cast_ne_zero.2 (by omega)
  have hn1 : ((n : K) + 1) ≠ 0 := by exact_mod_cast Nat.succ_ne_zero n
  rw [Finset.sum_const, Finset.card_range, nsmul_eq_mul]
  push_cast at hr ⊢
  have h2 : a * a * n = n + 1 := by
    rw [hr]; field_simp
  field_simp
  linear_combination (n + 1 : K) * h2

omit [CharZero K] in
theorem coef_other {sq : K → K} {s t : Nat} (hs : 2 ≤ s) (hst : s < t) : ∑ c ∈ range s, coef sq s c * coef sq t c = 0 := by
  rw [coef_sum sq hs]
  have : ∀ c, c < s → coef sq t c = coef sq t 0 := by
    intro c hc
    unfold coef
    rw [if_pos (by omega), if_pos (by omega)]
  rw [this (s - 1) (by omega), Finset.sum_congr rfl fun c hc => this c (by have := Finset.mem_range.1 hc; omega)]
  simp

/-- The rows of the constraint matrix are orthonormal. -/
theorem orthonormal (hP : P.Ok) {sq : K → K} (h : Root sq) {l l' : Mult} (hl : P.IsMult l) (hl' : P.IsMult l') :
    ∑ d ∈ range (P.first P.np), ∑ i ∈ range (P.dim d), entryOf P sq l d i * entryOf P sq l' d i = if l = l' then 1 else 0 := by
  by_cases hdof : l.dof = l'.dof
  · cases l with
    | glue g s =>
        cases l' with
        | fix g' d =>
            change g = g' at hdof
            subst hdof
            have := hl.2.1
            rw [hl'.2.1] at this
            cases this
        | glue g' t =>
            change g = g' at hdof
            subst hdof
            have hnd : (P.copies g).Nodup := (hP.csorted g hl.1).imp fun h => Nat.ne_of_lt h
            have hent : ∀ (s t : Nat), P.IsMult (.glue g s) → P.IsMult (.glue g t) → s ≤ t →
                ∑ d ∈ range (P.first P.np), ∑ i ∈ range (P.dim d), entryOf P sq (.glue g s) d i * entryOf P sq (.glue g t) d i = ∑ c ∈ range s, coef sq s c * coef sq t c := by
              intro s t hs ht hst
              rw [glue_times hP sq hs]
              apply Finset.sum_congr rfl
              intro c hc
              have hc := Finset.mem_range.1 hc
              have hlen := hs.2.2.2
              have hg : (P.copies g)[c]? = some ((P.copies g).getD c 0) := by
                rw [List.getD_eq_getElem?_getD, List.getElem?_eq_getElem (by omega)]; rfl
              congr 1
              unfold entryOf
              rw [if_pos]
              · show coef sq t ((P.copies g).idxOf _) = _
                rw [idxOf_get hnd hg]
              · refine ⟨?_, rfl⟩
                show _ ∈ (P.copies g).take t
                exact List.mem_of_getElem? (i := c) (by rw [List.getElem?_take_of_lt (by omega)]; exact hg)
            rcases Nat.lt_trichotomy s t with hlt | he | hlt
            · rw [hent s t hl hl' (by omega), coef_other hl.2.2.1 hlt, if_neg (by intro e; injection e; omega)]
            · subst he
              rw [hent s s hl hl' (Nat.le_refl _), coef_self h hl.2.2.1, if_pos rfl]
            · rw [if_neg (by intro e; injection e; omega)]
              have := hent t s hl' hl (by omega)
              rw [coef_other hl'.2.2.1 hlt] at this
              rw [← this]
              apply Finset.sum_congr rfl; intro d _
              apply Finset.sum_congr rfl; intro i _
              rw [mul_comm]
    | fix g d =>
        cases l' with
        | glue g' t =>
            change g = g' at hdof
            subst hdof
            have := hl.2.1
            rw [hl'.2.1] at this
            cases this
        | fix g' d' =>
            change g = g' at hdof
            subst hdof
            rw [row_times hP sq hl]
            show ([d].map _).sum = _
            rw [List.map_cons, List.map_nil, List.sum_cons, List.sum_nil, add_zero]
            show 1 * entryOf P sq (.fix g d') d (P.index d g) = _
            rw [one_mul]
            unfold entryOf
            by_cases hd : d = d'
            · subst hd
              rw [if_pos ⟨List.mem_singleton.2 rfl, rfl⟩, if_pos rfl]
              rfl
            · rw [if_neg (fun h => hd (List.mem_singleton.1 h.1)), if_neg (by intro e; injection e with _ e; exact hd e)]
  · rw [if_neg (fun e => hdof (by rw [e]))]
    apply Finset.sum_eq_zero; intro d _
    apply Finset.sum_eq_zero; intro i _
    unfold entryOf
    by_cases h1 : d ∈ l.doms P.copies ∧ P.index d l.dof = i
    · by_cases h2 : d ∈ l'.doms P.copies ∧ P.index d l'.dof = i
      · exfalso
        apply hdof
        have a1 := ((isMult_doms hP hl).1 d h1.1).2.2
        have a2 := ((isMult_doms hP hl').1 d h2.1).2.2
        have b1 : l.dof < P.ndofs := by cases l <;> exact hl.1
        have b2 : l'.dof < P.ndofs := by cases l' <;> exact hl'.1
        exact hP.inj d _ _ b1 b2 a1 a2 (h1.2.trans h2.2.symm)
      · rw [if_neg h2, mul_zero]
    · rw [if_neg h1, zero_mul]

end

/-! ### Theorems -/

/-- C60, multipliers: on every process `set` succeeds; the multipliers of a process are exactly the multipliers of the problem on its domains; two processes have the common ones in the same
order; `cmap` describes them and the interval separates the halo, so the maps and the operations of dual vectors (C61) can be used. -/
theorem C60_multipliers (hP : P.Ok) (h : SortContract P srt) (sq : K → K) :
    ∃ (lam : Nat → List Mult) (st : Nat → Lambdas K) (off : Nat → List Nat),
      (∀ p, p < P.np → constraintsSet sq (srt p) (dec P p) (dmapAt P p) (P.dirichlet p) = some (st p, off p)) ∧
      (∀ p, p < P.np → ∀ l, l ∈ lam p ↔ P.IsMult l ∧ touches P.first p (l.doms P.copies) = true) ∧
      Shared P.np P.first P.nb lam (Mult.doms P.copies) ∧
      ∀ p, p < P.np → (st p).size = (lam p).length ∧ Describes (st p).cmap (lam p) (Mult.doms P.copies) ∧ Intervals P.first p (lam p) (Mult.doms P.copies) [equalityInterval (st p)] := by
  choose! cmap halo h1 h2 h3 using fun p (hp : p < P.np) => set_global hP h sq hp
  refine ⟨multsOf P srt, _, _, h1, fun p hp l => mem_multsOf (SortsAll.perm h hp), shared_multsOf hP h, ?_⟩
  intro p hp
  refine ⟨?_, h2 p hp, h3 p hp⟩
  unfold multsOf lamState
  rw [List.length_map]

/-- The sum of the rows of `B1` of the domain `j` of the process that belong to the multiplier `k`, at the unknown `i`. -/
def matrixEntry (D : Domains K) (j k i : Nat) : K :=
  match D[j]? with
  | some x => ∑ r ∈ range x.1.np, if x.2.1.getD r 0 = k then x.1.at r i else 0
  | none => 0

omit [Field K] in
theorem domainsOf_get {p j : Nat} (st : Lambdas K) (x : Nat → List K) (hj : j < P.first (p + 1) - P.first p) :
    (domainsOf P p st x)[j]? = some (oneEntryRows (P.dim (P.first p + j)) (st.cols.getD j []) (st.vals.getD j []), st.d2c.getD j [], x (P.first p + j)) := by
  unfold domainsOf
  rw [List.getElem?_map, List.getElem?_range hj]; rfl

theorem domainsOf_ok (hP : P.Ok) (h : SortContract P srt) (sq : K → K) {p : Nat} (hp : p < P.np) (cmap : List Nat) (halo : Nat) (x : Nat → List K) (hx : ∀ d, (x d).length = P.dim d) :
    (∀ y ∈ domainsOf P p (lamState (dec P p) (lcopies P p) (lindex P p) sq (localMults P (srt p) p) cmap halo) x, DomainOk (multsOf P srt p).length y) ∧
      ∀ j, j < P.first (p + 1) - P.first p → ∀ (k : Nat) (l : Mult), (multsOf P srt p)[k]? = some l → ∀ i,
        matrixEntry (domainsOf P p (lamState (dec P p) (lcopies P p) (lindex P p) sq (localMults P (srt p) p) cmap halo) x) j k i = entryOf P sq l (P.first p + j) i := by
  have hget : ∀ j, j < P.first (p + 1) - P.first p → (domainsOf P p (lamState (dec P p) (lcopies P p) (lindex P p) sq (localMults P (srt p) p) cmap halo) x)[j]? = some (
      oneEntryRows (P.dim (P.first p + j)) ((rowsOf (lcopies P p) (localMults P (srt p) p) (P.first p + j)).map fun y => P.index (P.first p + j) (P.dofAt p y.1.dof))
        ((rowsOf (lcopies P p) (localMults P (srt p) p) (P.first p + j)).map fun y => coefAt sq (lcopies P p) y.1 (P.first p + j)),
      (rowsOf (lcopies P p) (localMults P (srt p) p) (P.first p + j)).map (·.2), x (P.first p + j)) := by
    intro j hj
    rw [domainsOf_get _ _ hj]
    unfold lamState
    dsimp only
    have hj' : j < (dec P p).dend - (dec P p).dbegin := hj
    rw [mk_getD _ _ hj', mk_getD _ _ hj', mk_getD _ _ hj']
    rfl
  constructor
  · intro y hy
    obtain ⟨j, hj, e⟩ := List.getElem_of_mem hy
    have hj' : j < P.first (p + 1) - P.first p := by
      unfold domainsOf at hj
      rw [List.length_map, List.length_range] at hj
      exact hj
    have := hget j hj'
    rw [List.getElem?_eq_getElem hj, e] at this
    rw [Option.some.inj this]
    exact (domain_rows hP h sq hp (P.first p + j)).1 _ (hx _)
  · intro j hj k l hk i
    unfold matrixEntry
    rw [hget j hj]
    exact (domain_rows hP h sq hp (P.first p + j)).2 k l hk i

/-- C60, matrix: the matrices `B1` with the maps `D2C` are the rows of one global matrix (the same on all processes with a multiplier), and the rows of this matrix are orthonormal. -/
theorem C60_orthonormal [CharZero K] (hP : P.Ok) (h : SortContract P srt) {sq : K → K} (hsq : Root sq) :
    ∃ (lam : Nat → List Mult) (st : Nat → Lambdas K) (off : Nat → List Nat) (entry : Mult → Nat → Nat → K),
      (∀ p, p < P.np → constraintsSet sq (srt p) (dec P p) (dmapAt P p) (P.dirichlet p) = some (st p, off p)) ∧
      (∀ p, p < P.np → ∀ l, l ∈ lam p ↔ P.IsMult l ∧ touches P.first p (l.doms P.copies) = true) ∧
      (∀ p, p < P.np → ∀ x : Nat → List K, (∀ d, (x d).length = P.dim d) → (∀ y ∈ domainsOf P p (st p) x, DomainOk (lam p).length y) ∧
        ∀ j, j < P.first (p + 1) - P.first p → ∀ (k : Nat) (l : Mult), (lam p)[k]? = some l → ∀ i, matrixEntry (domainsOf P p (st p) x) j k i = entry l (P.first p + j) i) ∧
      (∀ l d i, d ∉ l.doms P.copies → entry l d i = 0) ∧
      ∀ l l', P.IsMult l → P.IsMult l' → ∑ d ∈ range (P.first P.np), ∑ i ∈ range (P.dim d), entry l d i * entry l' d i = if l = l' then 1 else 0 := by
  choose! cmap halo h1 h2 h3 using fun p (hp : p < P.np) => set_global hP h sq hp
  refine ⟨multsOf P srt, _, _, entryOf P sq, h1, fun p hp l => mem_multsOf (SortsAll.perm h hp), fun p hp x hx => domainsOf_ok hP h sq hp _ _ x hx, ?_, fun l l' hl hl' => orthonormal hP hsq hl hl'⟩
  intro l d i hd
  unfold entryOf
  rw [if_neg (fun h => hd h.1)]

/-- The right-hand side of a constraint. -/
def rhs (val : Nat → K) : Mult → K
  | .glue _ _ => 0
  | .fix g _ => val g

/-- `applyB` on a process. -/
theorem applyB_global (hP : P.Ok) (h : SortContract P srt) (sq : K → K) {p : Nat} (hp : p < P.np) (cmap : List Nat) (halo : Nat) (x : Nat → List K) (hx : ∀ d, (x d).length = P.dim d)
    (out : List K) (ho : out.length = (multsOf P srt p).length) :
    ∃ y, applyB (domainsOf P p (lamState (dec P p) (lcopies P p) (lindex P p) sq (localMults P (srt p) p) cmap halo) x) out = some y ∧ y.length = (multsOf P srt p).length ∧
      ∀ (k : Nat) (l : Mult), (multsOf P srt p)[k]? = some l → y[k]? = some (∑ j ∈ range (P.first (p + 1) - P.first p), ∑ i ∈ range (P.dim (P.first p + j)),
        entryOf P sq l (P.first p + j) i * (x (P.first p + j)).getD i 0) := by
  obtain ⟨hok, hent⟩ := domainsOf_ok hP h sq hp cmap halo x hx
  obtain ⟨y, h1, h2, h3⟩ := C47_applyB (domainsOf P p (lamState (dec P p) (lcopies P p) (lindex P p) sq (localMults P (srt p) p) cmap halo) x) out (by rw [ho]; exact hok)
  refine ⟨y, h1, h2.trans ho, ?_⟩
  intro k l hk
  rw [h3 k (by rw [ho]; exact (List.getElem?_eq_some_iff.1 hk).1)]
  congr 1
  unfold glued
  conv_lhs => unfold domainsOf
  rw [List.map_map, list_sum_range]
  apply Finset.sum_congr rfl
  intro j hj
  have hj := Finset.mem_range.1 hj
  dsimp only [Function.comp]
  have hR : ∑ i ∈ range (P.dim (P.first p + j)), entryOf P sq l (P.first p + j) i * (x (P.first p + j)).getD i 0 =
      ∑ i ∈ range (P.dim (P.first p + j)), matrixEntry (domainsOf P p (lamState (dec P p) (lcopies P p) (lindex P p) sq (localMults P (srt p) p) cmap halo) x) j k i * (x (P.first p + j)).getD i 0 :=
    Finset.sum_congr rfl fun i _ => by rw [hent j hj k l hk i]
  rw [hR]
  unfold matrixEntry
  rw [domainsOf_get _ _ hj]
  dsimp only
  simp only [Finset.sum_mul, ite_mul, zero_mul]
  rw [Finset.sum_comm]
  apply Finset.sum_congr rfl
  intro r _
  split
  · rfl
  · simp

section
variable [CharZero K]

/-- All constraints together. -/
theorem applied_iff (hP : P.Ok) {sq : K → K} (hsq : Root sq) (val : Nat → K) (x : Nat → List K) (hx : ∀ d, (x d).length = P.dim d) :
    (∀ l, P.IsMult l → applied P sq x l = rhs val l) ↔ ∀ g, g < P.ndofs →
      (P.fixed g = true → ∀ d ∈ P.copies g, (x d)[P.index d g]? = some (val g)) ∧
      (P.fixed g = false → ∀ d ∈ P.copies g, ∀ d' ∈ P.copies g, (x d)[P.index d g]? = (x d')[P.index d' g]?) := by
  have hget : ∀ g, g < P.ndofs → ∀ d ∈ P.copies g, (x d)[P.index d g]? = some ((x d).getD (P.index d g) 0) := by
    intro g hg d hd
    exact getD_get (by rw [hx]; exact hP.irange g hg d hd)
  have hfix : ∀ g d, P.IsMult (.fix g d) → applied P sq x (.fix g d) = (x d).getD (P.index d g) 0 := by
    intro g d hl
    unfold applied
    rw [row_times hP sq hl fun d i => (x d).getD i 0]
    show ([d].map fun d => (1 : K) * (x d).getD (P.index d g) 0).sum = _
    simp
  have hglue : ∀ g s, P.IsMult (.glue g s) → applied P sq x (.glue g s) =
      ∑ c ∈ range s, coef sq s c * (fun c => (x ((P.copies g).getD c 0)).getD (P.index ((P.copies g).getD c 0) g) 0) c := by
    intro g s hl
    unfold applied
    exact glue_times hP sq hl fun d i => (x d).getD i 0
  constructor
  · intro hall g hg
    constructor
    · intro hf d hd
      have hl : P.IsMult (.fix g d) := ⟨hg, hf, hd⟩
      have := hall _ hl
      rw [hfix g d hl] at this
      rw [hget g hg d hd, this]
      rfl
    · intro hf d hd d' hd'
      have heq := (glue_iff hsq (fun c => (x ((P.copies g).getD c 0)).getD (P.index ((P.copies g).getD c 0) g) 0) (P.copies g).length).1 (by
        intro s hs1 hs2
        have hl : P.IsMult (.glue g s) := ⟨hg, hf, hs1, hs2⟩
        rw [← hglue g s hl, hall _ hl]
        rfl)
      have hpos : ∀ d ∈ P.copies g, (x d).getD (P.index d g) 0 = (x ((P.copies g).getD 0 0)).getD (P.index ((P.copies g).getD 0 0) g) 0 := by
        intro d hd
        obtain ⟨c, hc, e⟩ := List.getElem_of_mem hd
        have hgc : (P.copies g).getD c 0 = d := by rw [List.getD_eq_getElem?_getD, List.getElem?_eq_getElem hc, e]; rfl
        have := heq c hc
        rw [hgc] at this
        exact this
      rw [hget g hg d hd, hget g hg d' hd', hpos d hd, hpos d' hd']
  · intro hall l hl
    cases l with
    | fix g d =>
        have h1 := (hall g hl.1).1 hl.2.1 d hl.2.2
        rw [hget g hl.1 d hl.2.2] at h1
        rw [hfix g d hl, Option.some.inj h1]
        rfl
    | glue g s =>
        rw [hglue g s hl]
        refine (glue_iff hsq _ (P.copies g).length).2 ?_ s hl.2.2.1 hl.2.2.2
        intro c hc
        have hm : ∀ c, c < (P.copies g).length → (P.copies g).getD c 0 ∈ P.copies g := by
          intro c hc
          rw [List.getD_eq_getElem?_getD, List.getElem?_eq_getElem hc]
          exact List.getElem_mem hc
        have := (hall g hl.1).2 hl.2.1 _ (hm c hc) _ (hm 0 (by omega))
        rw [hget g hl.1 _ (hm c hc), hget g hl.1 _ (hm 0 (by omega))] at this
        exact Option.some.inj this

/-- C60: the equality constraints `B x = c`.  On all processes `set` and the map of the multipliers are computed, `B x` is computed by `applyB` and the synchronization (every schedule of the
messages completes with the same result) and `c` by `update`; `B x = c` holds if and only if all copies of every degree of freedom without a Dirichlet condition are equal and all copies of
the others have the prescribed value. -/
theorem C60_continuity (hP : P.Ok) (h : SortContract P srt) {sq : K → K} (hsq : Root sq) :
    ∃ (st : Nat → Lambdas K) (off nmap nsize : Nat → List Nat),
      (∀ p, p < P.np → constraintsSet sq (srt p) (dec P p) (dmapAt P p) (P.dirichlet p) = some (st p, off p) ∧ dualMapSet (dec P p) (st p).cmap = some (nmap p, nsize p)) ∧
      ∀ (t : Nat) (val : Nat → K) (x out c0 : Nat → List K) (send recv : Nat → List (List K)), (∀ d, (x d).length = P.dim d) →
        (∀ p, p < P.np → (out p).length = (st p).size ∧ (c0 p).length = (st p).size ∧ (send p).map List.length = nsize p ∧ (recv p).map List.length = nsize p) →
        ∃ (y z c : Nat → List K) (packed received : Nat → List (List K)),
          (∀ p, p < P.np → applyB (domainsOf P p (st p) x) (out p) = some (y p) ∧ syncPack (nmap p) (y p) (send p) = some (packed p)) ∧
          Completes (world 0 P.np fun p => exchangeKnownSize t (P.nb p) (packed p) (recv p)) (finished 0 P.np fun p => some (received p)) ∧
          (∀ p, p < P.np → syncAdd (nmap p) (y p) (received p) = some (z p) ∧
            constraintsUpdate (dec P p) (dmapAt P p) (off p) ((P.dirichlet p).map fun i => (i, val (P.dofAt p i))) (c0 p) = some (c p)) ∧
          ((∀ p, p < P.np → z p = c p) ↔ ∀ g, g < P.ndofs →
            (P.fixed g = true → ∀ d ∈ P.copies g, (x d)[P.index d g]? = some (val g)) ∧
            (P.fixed g = false → ∀ d ∈ P.copies g, ∀ d' ∈ P.copies g, (x d)[P.index d g]? = (x d')[P.index d' g]?)) := by
  choose! cmap halo h1 h2 h3 using fun p (hp : p < P.np) => set_global hP h sq hp
  have hS := shared_multsOf hP h
  obtain ⟨nmap, nsize, hm, hsync⟩ := C61_vector (R := K) hS cmap h2
  refine ⟨_, _, nmap, nsize, fun p hp => ⟨h1 p hp, hm p hp⟩, ?_⟩
  intro t val x out c0 send recv hx hb
  have hsize : ∀ p, (localMults P (srt p) p).length = (multsOf P srt p).length := by
    intro p; unfold multsOf; rw [List.length_map]
  choose! y hy1 hy2 hy3 using fun p (hp : p < P.np) => applyB_global hP h sq hp (cmap p) (halo p) x hx (out p) ((hb p hp).1.trans (hsize p))
  obtain ⟨packed, received, _, s1, s2, s3⟩ := hsync t y send recv hy2 (fun p hp => (hb p hp).2.2)
  choose! z hz1 hz2 hz3 using s3
  have hup : ∀ p, p < P.np → constraintsUpdate (dec P p) (dmapAt P p) (mk (P.first (p + 1) - P.first p)
      (doffsetOf (dec P p) (P.locals p).length (lcopies P p) (P.dirichlet p) (srt p (permOf (dec P p) (P.locals p).length (lcopies P p) (P.dirichlet p)))))
      ((P.dirichlet p).map fun i => (i, val (P.dofAt p i))) (c0 p) = some ((multsOf P srt p).map (rhs val)) := by
    intro p hp
    have := update_spec (D := dec P p) (n := (P.locals p).length) (copies := lcopies P p) (lindex P p) (dirichlet_sorted P p) (fun g hg => (mem_dirichlet.1 hg).1)
      (fun g hg => (hP.csorted _ (dofAt_mem hg).1).imp fun h => Nat.ne_of_lt h) (lamOf_nodup (SortsAll.perm h hp)) (fun i => val (P.dofAt p i)) (c := c0 p) (hb p hp).2.1
    refine this.trans ?_
    congr 1
    unfold multsOf
    rw [List.map_map]
    apply List.map_congr_left
    intro l _
    cases l <;> rfl
  refine ⟨y, z, fun p => (multsOf P srt p).map (rhs val), packed, received, fun p hp => ⟨hy1 p hp, s1 p hp⟩, s2, fun p hp => ⟨hz1 p hp, hup p hp⟩, ?_⟩
  rw [← applied_iff hP hsq val x hx]
  have hzv : ∀ p, p < P.np → ∀ (k : Nat) (l : Mult), (multsOf P srt p)[k]? = some l → (z p)[k]? = some (applied P sq x l) := by
    intro p hp k l hk
    rw [hz3 p hp k l hk]
    congr 1
    have hl := (mem_multsOf (SortsAll.perm h hp)).1 (List.mem_of_getElem? hk)
    unfold applied
    rw [← sum_domains hP.zero hP.mono]
    apply Finset.sum_congr rfl
    intro q hq
    have hq := Finset.mem_range.1 hq
    by_cases hm : l ∈ multsOf P srt q
    · obtain ⟨k', hk', e⟩ := List.getElem_of_mem hm
      have hk'' : (multsOf P srt q)[k']? = some l := by rw [List.getElem?_eq_getElem hk', e]
      rw [valueOf_get (multsOf_nodup h hq) hk'', List.getD_eq_getElem?_getD, hy3 q hq k' l hk'']
      rfl
    · unfold valueOf
      rw [if_neg hm]
      symm
      apply Finset.sum_eq_zero
      intro j hj
      have hj := Finset.mem_range.1 hj
      apply Finset.sum_eq_zero
      intro i _
      unfold entryOf
      rw [if_neg, zero_mul]
      rintro ⟨hd, _⟩
      apply hm
      rw [mem_multsOf (SortsAll.perm h hq)]
      exact ⟨hl.1, touches_iff.2 ⟨_, hd, by constructor <;> omega⟩⟩
  constructor
  · intro hall l hl
    have : ∃ d ∈ l.doms P.copies, d ∈ P.copies l.dof := by
      cases l with
      | glue g s =>
          refine ⟨(P.copies g)[0]'(by have := hl.2.2; omega), ?_, List.getElem_mem _⟩
          exact List.mem_of_getElem? (i := 0) (by show ((P.copies g).take s)[0]? = _; rw [List.getElem?_take_of_lt (by have := hl.2.2.1; omega), List.getElem?_eq_getElem])
      | fix g d => exact ⟨d, List.mem_singleton.2 rfl, hl.2.2⟩
    obtain ⟨d, hd1, hd2⟩ := this
    have hdof : l.dof < P.ndofs := by cases l <;> exact hl.1
    obtain ⟨p, hp, ho⟩ := hP.crange _ hdof d hd2
    have hm : l ∈ multsOf P srt p := (mem_multsOf (SortsAll.perm h hp)).2 ⟨hl, touches_iff.2 ⟨d, hd1, ho⟩⟩
    obtain ⟨k, hk, e⟩ := List.getElem_of_mem hm
    have hk' : (multsOf P srt p)[k]? = some l := by rw [List.getElem?_eq_getElem hk, e]
    have h5 := hzv p hp k l hk'
    rw [hall p hp, List.getElem?_map, hk'] at h5
    exact (Option.some.inj h5).symm
  · intro hall p hp
    apply List.ext_getElem?
    intro k
    rw [List.getElem?_map]
    cases hk : (multsOf P srt p)[k]? with
    | none =>
        have : (multsOf P srt p).length ≤ k := by
          rw [List.getElem?_eq_none_iff] at hk; exact hk
        rw [List.getElem?_eq_none (by rw [hz2 p hp]; exact this)]
        rfl
    | some l =>
        rw [hzv p hp k l hk, hall l ((mem_multsOf (SortsAll.perm h hp)).1 (List.mem_of_getElem? hk)).1]
        rfl

end

/-- C60, enforce: `enforce` writes the Dirichlet values to all copies in the own domains and changes nothing else. -/
theorem C60_enforce (hP : P.Ok) (val : Nat → K) (p : Nat) (x : Nat → List K) (hx : ∀ d, (x d).length = P.dim d) :
    ∃ y : Nat → List K, constraintsEnforce (dec P p) (dmapAt P p) ((P.dirichlet p).map fun i => (i, val (P.dofAt p i))) ((List.range (P.first (p + 1) - P.first p)).map fun j => x (P.first p + j)) =
        some ((List.range (P.first (p + 1) - P.first p)).map fun j => y (P.first p + j)) ∧
      ∀ d, Owns P.first p d → (y d).length = P.dim d ∧
        (∀ g, g < P.ndofs → P.fixed g = true → d ∈ P.copies g → (y d)[P.index d g]? = some (val g)) ∧
        ∀ i, (∀ g, g < P.ndofs → P.fixed g = true → d ∈ P.copies g → i ≠ P.index d g) → (y d)[i]? = (x d)[i]? := by
  obtain ⟨Y, h1, h2, h3⟩ := enforce_spec (D := dec P p) (n := (P.locals p).length) (copies := lcopies P p) (idx := lindex P p) (dim := P.dim) (dirichlet_sorted P p)
    (fun g hg => (mem_dirichlet.1 hg).1) (fun g hg => (hP.csorted _ (dofAt_mem hg).1).imp fun h => Nat.ne_of_lt h) (fun g hg d hd => hP.irange _ (dofAt_mem hg).1 d hd)
    (fun i => val (P.dofAt p i)) (fun d i => (x d).getD i 0)
  have hxm : ∀ d, x d = mk (P.dim d) fun i => (x d).getD i 0 := by
    intro d
    rw [← hx d]
    exact mk_of_length _ _
  refine ⟨fun d => mk (P.dim d) (Y d), ?_, ?_⟩
  · refine Eq.trans ?_ h1
    unfold dmapAt
    congr 1
    show mk _ _ = mk _ _
    apply mk_congr
    intro j _
    exact hxm _
  · intro d ho
    refine ⟨mk_length .., ?_, ?_⟩
    · intro g hg hf hd
      obtain ⟨i, hi, rfl⟩ := dofAt_surj hg (touches_iff.2 ⟨d, hd, ho⟩)
      rw [mk_get _ (hP.irange _ hg d hd)]
      congr 1
      refine h3 d ?_ i (mem_dirichlet.2 ⟨hi, hf⟩) hd
      intro a ha b hb hda hdb e
      obtain ⟨ha, _⟩ := mem_dirichlet.1 ha
      obtain ⟨hb, _⟩ := mem_dirichlet.1 hb
      exact dofAt_inj ha hb (hP.inj d _ _ (dofAt_mem ha).1 (dofAt_mem hb).1 hda hdb e)
    · intro i hi
      by_cases hlt : i < P.dim d
      · rw [mk_get _ hlt, getD_get (by rw [hx]; exact hlt)]
        congr 1
        refine h2 d i ?_
        intro g hg hd
        obtain ⟨hg1, hg2⟩ := mem_dirichlet.1 hg
        exact hi _ (dofAt_mem hg1).1 hg2 hd
      · rw [List.getElem?_eq_none (by rw [mk_length]; omega), List.getElem?_eq_none (by rw [hx]; omega)]

/-! ### Examples -/

/-- A function that meets the contract of `std::sort`. -/
def sortBy (less : Nat × Nat → Nat × Nat → Bool) (l : List (Nat × Nat)) : List (Nat × Nat) := (l.attach.mergeSort fun a b => !less b.1 a.1).map (·.1)

theorem sortBy_sorts (less : Nat × Nat → Nat × Nat → Bool) : Sorts less (sortBy less) := by
  intro l hw
  obtain ⟨h1, h2, h3⟩ := hw
  constructor
  · unfold sortBy
    have := (List.mergeSort_perm l.attach fun a b => !less b.1 a.1).map (·.1)
    rw [List.attach_map_subtype_val] at this
    exact this
  · unfold sortBy
    rw [List.pairwise_map]
    refine (List.pairwise_mergeSort ?_ ?_ l.attach).imp ?_
    · intro a b c hab hbc
      simp only [Bool.not_eq_eq_eq_not, Bool.not_true] at hab hbc ⊢
      cases hca : less c.1 a.1 with
      | false => rfl
      | true =>
          exfalso
          cases hab' : less a.1 b.1 with
          | true =>
              have := h2 _ c.2 _ a.2 _ b.2 hca hab'
              rw [this] at hbc; cases hbc
          | false =>
              cases hbc' : less b.1 c.1 with
              | true =>
                  have := h2 _ b.2 _ c.2 _ a.2 hbc' hca
                  rw [this] at hab; cases hab
              | false =>
                  have := (h3 _ a.2 _ b.2 _ c.2 hab' hab hbc' hbc).2
                  rw [this] at hca; cases hca
    · intro a b
      cases hab : less a.1 b.1 with
      | false => simp
      | true =>
          cases hba : less b.1 a.1 with
          | false => simp
          | true =>
              have := h2 _ a.2 _ b.2 _ a.2 hab hba
              rw [h1 _ a.2] at this; cases this
    · intro a b hab
      simpa using hab

/-- Three domains on two processes (the first has the domains 0 and 1); four degrees of freedom, the last one with a Dirichlet condition. -/
def exampleProblem : Problem :=
  { np := 2
    first := fun p => if p = 0 then 0 else if p = 1 then 2 else 3
    nb := fun p => [[1], [0]].getD p []
    ndofs := 4
    copies := fun g => [[0, 1, 2], [0, 1], [1, 2], [0, 2]].getD g []
    index := fun d g => ([[0, 1, 0, 2], [0, 1, 2, 0], [0, 0, 1, 2]].getD d []).getD g 0
    dim := fun _ => 3
    fixed := fun g => g == 3 }

theorem example_ok : exampleProblem.Ok := by
  refine ⟨rfl, ?_, ?_, ?_, ?_, ?_, ?_, ?_, ?_, ?_⟩
  · intro p
    show (if p = 0 then 0 else if p = 1 then 2 else 3) ≤ (if p + 1 = 0 then 0 else if p + 1 = 1 then 2 else 3)
    rcases p with _ | _ | p
    · decide
    · decide
    · simp
  · decide
  · decide
  · intro p q hp
    have hp : p < 2 := hp
    have : p = 0 ∨ p = 1 := by omega
    rcases this with rfl | rfl
    · intro hq
      have : q = 1 := List.mem_singleton.1 hq
      subst this; decide
    · intro hq
      have : q = 0 := List.mem_singleton.1 hq
      subst this; decide
  · decide
  · decide
  · intro g _ p q hp hq _ _
    have hp : p < 2 := hp
    have hq : q < 2 := hq
    have : (p = 0 ∨ p = 1) ∧ (q = 0 ∨ q = 1) := by omega
    rcases this with ⟨rfl | rfl, rfl | rfl⟩ <;> decide
  · decide
  · intro d g g' hg hg' hd hd'
    have hd3 : ∀ g, g < 4 → ∀ d ∈ exampleProblem.copies g, d < 3 := by decide
    have := hd3 g hg d hd
    have key : ∀ (d : Fin 3) (g g' : Fin 4), (d.1 ∈ exampleProblem.copies g ∧ d.1 ∈ exampleProblem.copies g' ∧ exampleProblem.index d g = exampleProblem.index d g') → g.1 = g'.1 := by decide
    exact fun e => key ⟨d, this⟩ ⟨g, hg⟩ ⟨g', hg'⟩ ⟨hd, hd', e⟩

theorem root_real : Root Real.sqrt := by
  intro n _
  exact Real.mul_self_sqrt (by positivity)

/-- The hypotheses hold for the real numbers, the square root and an example with multipliers of every kind on both processes. -/
example : exampleProblem.Ok ∧ SortContract exampleProblem (fun p => sortBy (lambdaLess (dmapAt exampleProblem p))) ∧ Root Real.sqrt ∧
    exampleProblem.IsMult (.glue 0 3) ∧ exampleProblem.IsMult (.glue 2 2) ∧ exampleProblem.IsMult (.fix 3 0) ∧ exampleProblem.IsMult (.fix 3 2) := by
  refine ⟨example_ok, fun p _ => sortBy_sorts _, root_real, ?_, ?_, ?_, ?_⟩ <;> simp [Problem.IsMult, exampleProblem]

end Verif.Feti
