import Verif.Proof.Gluing
import Verif.Prop.CsxGemv
import Mathlib.Algebra.BigOperators.Group.Finset.Sigma
import Mathlib.Tactic.Ring
/-! C47: the gluing operator, its transpose and the threaded version. -/
namespace Verif.Feti

open Verif.Csx Finset

variable {R : Type} [CommRing R]

/-- What the callers guarantee about a domain: the matrix is well formed, every multiplier of the domain has a place in the dual vector of `n` values, the vector of the domain
has one value for each degree of freedom. -/
structure DomainOk (n : Nat) (D : Csx R × List Nat × List R) : Prop where
  wf : WellFormed D.1
  mlen : D.2.1.length = D.1.np
  mrange : ∀ k ∈ D.2.1, k < n
  xlen : D.2.2.length = D.1.ns

/-- The product of the row `r` of the matrix of the domain with the vector of the domain. -/
def rowProduct (D : Csx R × List Nat × List R) (r : Nat) : R := ∑ j ∈ range D.1.ns, D.1.at r j * D.2.2.getD j 0

/-- The multiplier `i` of `B x`: the products of all rows, of all domains, that belong to the multiplier. -/
def glued (D : Domains R) (i : Nat) : R := (D.map fun D => ∑ r ∈ range D.1.np, if D.2.1.getD r 0 = i then rowProduct D r else 0).sum

theorem list_sum_range (f : Nat → R) (n : Nat) : ((List.range n).map f).sum = ∑ i ∈ range n, f i := by
  induction n with
  | zero => rfl
  | succ n ih => rw [List.range_succ, List.map_append, List.sum_append, ih, sum_range_succ]; simp

theorem getD_get {v : List R} {i : Nat} (h : i < v.length) : v[i]? = some (v.getD i 0) := by
  rw [List.getD_eq_getElem?_getD, List.getElem?_eq_getElem h]; rfl

/-- The additions of one domain. -/
def opsOf (D : Csx R × List Nat × List R) : List (Nat × R) := D.1.entries.map fun e => (D.2.1.getD e.1 0, e.2.2 * D.2.2.getD e.2.1 0)

omit [CommRing R] in
theorem ok_map {n : Nat} {D : Csx R × List Nat × List R} (h : DomainOk n D) {r : Nat} (hr : r < D.1.np) : D.2.1[r]? = some (D.2.1.getD r 0) ∧ D.2.1.getD r 0 < n := by
  have e := getD_some (show r < D.2.1.length by rw [h.mlen]; exact hr)
  exact ⟨e, h.mrange _ (List.mem_of_getElem? e)⟩

theorem opsOf_range {n : Nat} {D : Csx R × List Nat × List R} (h : DomainOk n D) : ∀ op ∈ opsOf D, op.1 < n := by
  intro op hop
  obtain ⟨e, he, rfl⟩ := List.mem_map.1 hop
  exact (ok_map h (entries_range h.wf he).1).2

omit [CommRing R] in
theorem row_cols {A : Csx R} (hA : WellFormed A) {p : Nat} (hp : p < A.np) : ∀ e ∈ A.row p, e.1 < A.ns :=
  fun e he => wf_cols hA (A.row p) (List.mem_map.2 ⟨p, List.mem_range.2 hp, rfl⟩) e he

theorem total_const (k i : Nat) (l : List R) : total (l.map fun v => (k, v)) i = if k = i then l.sum else 0 := by
  induction l with
  | nil => unfold total; simp
  | cons a l ih =>
      rw [List.map_cons, total_cons, ih, List.sum_cons]
      by_cases h : k = i
      · simp [h]
      · simp [h]

theorem total_opsOf {n : Nat} {D : Csx R × List Nat × List R} (h : DomainOk n D) (i : Nat) :
    total (opsOf D) i = ∑ r ∈ range D.1.np, if D.2.1.getD r 0 = i then rowProduct D r else 0 := by
  unfold opsOf Csx.entries
  rw [List.map_flatMap, total_flatMap, list_sum_range]
  apply sum_congr rfl
  intro r hr
  rw [List.map_map]
  have : ((fun e : Nat × Nat × R => (D.2.1.getD e.1 0, e.2.2 * D.2.2.getD e.2.1 0)) ∘ fun e : Nat × R => (r, e.1, e.2)) =
      (fun v : R => (D.2.1.getD r 0, v)) ∘ fun e : Nat × R => e.2 * D.2.2.getD e.1 0 := rfl
  rw [this, ← List.map_map, total_const, sum_row _ (fun j => D.2.2.getD j 0) D.1.ns (row_cols h.wf (mem_range.1 hr))]
  rfl

theorem applyBDomain_eq {n : Nat} {D : Csx R × List Nat × List R} (h : DomainOk n D) (out : List R) :
    applyBDomain D.1 D.2.1 D.2.2 out = runOps (opsOf D) out := by
  unfold applyBDomain runOps opsOf
  simp only [Option.bind_eq_bind]
  rw [forEntries_entries h.wf (fun r c v out => D.2.1[r]?.bind fun k => D.2.2[c]?.bind fun xv => addAt out k (v * xv)), List.foldlM_map]
  apply Verif.Csx.foldlM_congr
  intro e he s
  obtain ⟨h1, h2⟩ := entries_range h.wf he
  rw [(ok_map h h1).1, getD_get (show e.2.1 < D.2.2.length by rw [h.xlen]; exact h2)]
  rfl

theorem domainOps_eq {n : Nat} {D : Csx R × List Nat × List R} (h : DomainOk n D) : domainOps D.1 D.2.1 D.2.2 = some (opsOf D) := by
  unfold domainOps opsOf
  simp only [Option.bind_eq_bind]
  rw [forEntries_entries h.wf (fun r c v ops => D.2.1[r]?.bind fun k => D.2.2[c]?.bind fun xv => some (ops ++ [(k, v * xv)]))]
  rw [Verif.Csx.foldlM_congr (g := fun ops e => some (ops ++ [(D.2.1.getD e.1 0, e.2.2 * D.2.2.getD e.2.1 0)])) (by
    intro e he s
    obtain ⟨h1, h2⟩ := entries_range h.wf he
    rw [(ok_map h h1).1, getD_get (show e.2.1 < D.2.2.length by rw [h.xlen]; exact h2)]
    rfl)]
  have gen : ∀ (l : List (Nat × Nat × R)) (s : List (Nat × R)), l.foldlM (m := Option) (fun ops e => some (ops ++ [(D.2.1.getD e.1 0, e.2.2 * D.2.2.getD e.2.1 0)])) s =
      some (s ++ l.map fun e => (D.2.1.getD e.1 0, e.2.2 * D.2.2.getD e.2.1 0)) := by
    intro l
    induction l with
    | nil => intro s; rw [List.map_nil, List.append_nil]; rfl
    | cons e l ih => intro s; rw [List.foldlM_cons]; show List.foldlM _ _ _ = _; rw [ih, List.append_assoc]; rfl
  rw [gen, List.nil_append]

theorem loop_list {A σ : Type} (l : List A) (f : A → σ → Option σ) (s : σ) :
    forLoop 0 l.length s (fun d s => l[d]?.bind fun a => f a s) = l.foldlM (fun s a => f a s) s := by
  rw [forLoop_range]
  induction l using List.reverseRecOn generalizing s with
  | nil => rfl
  | append_singleton l a ih =>
      rw [List.length_append, List.length_singleton, List.range_succ, List.foldlM_append, List.foldlM_append, ← ih s]
      congr 1
      · apply Verif.Csx.foldlM_congr
        intro k hk s
        rw [List.getElem?_append_left (List.mem_range.1 hk)]
      · funext s'
        simp

theorem foldlM_runOps {A : Type} (F : A → List (Nat × R)) (l : List A) (out : List R) : l.foldlM (fun out a => runOps (F a) out) out = runOps (l.flatMap F) out := by
  unfold runOps
  rw [foldlM_flatMap']

theorem applyB_ops {n : Nat} (D : Domains R) (h : ∀ x ∈ D, DomainOk n x) (out : List R) : applyB D out = runOps (D.flatMap opsOf) (zeros out) := by
  unfold applyB
  simp only [Option.bind_eq_bind]
  rw [loop_list D (fun D out => applyBDomain D.1 D.2.1 D.2.2 out), ← foldlM_runOps]
  apply Verif.Csx.foldlM_congr
  intro x hx s
  exact applyBDomain_eq (h x hx) s

theorem runOps_zeros (ops : List (Nat × R)) (out : List R) (h : ∀ op ∈ ops, op.1 < out.length) :
    ∃ y, runOps ops (zeros out) = some y ∧ y.length = out.length ∧ ∀ i, i < out.length → y[i]? = some (total ops i) := by
  obtain ⟨y, e1, e2, e3⟩ := runOps_spec ops (zeros out) (by rw [zeros_length]; exact h)
  rw [zeros_length] at e2 e3
  refine ⟨y, e1, e2, ?_⟩
  intro i hi
  rw [e3 i hi, zeros_getD, zero_add]

theorem ops_range {n : Nat} (D : Domains R) (h : ∀ x ∈ D, DomainOk n x) : ∀ op ∈ D.flatMap opsOf, op.1 < n := by
  intro op hop
  obtain ⟨x, hx, ho⟩ := List.mem_flatMap.1 hop
  exact opsOf_range (h x hx) op ho

theorem total_glued {n : Nat} (D : Domains R) (h : ∀ x ∈ D, DomainOk n x) (i : Nat) : total (D.flatMap opsOf) i = glued D i := by
  rw [total_flatMap]
  unfold glued
  congr 1
  apply List.map_congr_left
  intro x hx
  exact total_opsOf (h x hx) i

/-- **C47** (operator): `applyB` computes `B x` whatever the output vector held; no access is outside of the vectors. -/
theorem C47_applyB (D : Domains R) (out : List R) (h : ∀ x ∈ D, DomainOk out.length x) :
    ∃ y, applyB D out = some y ∧ y.length = out.length ∧ ∀ i, i < out.length → y[i]? = some (glued D i) := by
  obtain ⟨y, e1, e2, e3⟩ := runOps_zeros _ out (ops_range D h)
  exact ⟨y, by rw [applyB_ops D h]; exact e1, e2, fun i hi => by rw [e3 i hi, total_glued D h]⟩

/-- **C47** (filter): with a filter the product is restricted to the listed domains. -/
theorem C47_applyB_filter (D : Domains R) (out : List R) (filter : List Nat) (sub : Domains R) (hs : filter.mapM (fun d => D[d]?) = some sub)
    (h : ∀ x ∈ sub, DomainOk out.length x) :
    ∃ y, applyBFilter D out filter = some y ∧ y.length = out.length ∧ ∀ i, i < out.length → y[i]? = some (glued sub i) := by
  have e : applyBFilter D out filter = applyB sub out := by
    unfold applyBFilter applyB
    simp only [Option.bind_eq_bind]
    rw [loop_list filter (fun d out => D[d]?.bind fun D => applyBDomain D.1 D.2.1 D.2.2 out), loop_list sub (fun D out => applyBDomain D.1 D.2.1 D.2.2 out)]
    clear h
    generalize zeros out = s
    induction filter generalizing sub s with
    | nil => simp at hs; subst hs; rfl
    | cons d filter ih =>
        rw [List.mapM_cons] at hs
        cases hd : D[d]? with
        | none => rw [hd] at hs; cases hs
        | some x =>
            rw [hd] at hs
            cases hr : filter.mapM (fun d => D[d]?) with
            | none => rw [hr] at hs; cases hs
            | some xs =>
                rw [hr] at hs
                cases hs
                rw [List.foldlM_cons, List.foldlM_cons, hd]
                congr 1
                funext s'
                exact ih xs hr s'
  rw [e]
  exact C47_applyB sub out h

/-- **C47** (transpose): `applyBt` computes the part of `α Bᵀ x` of the domain whatever the output vector held. -/
theorem C47_applyBt (B : Csx R) (map : List Nat) (x out : List R) (α : R) (h : DomainOk x.length (B, map, out)) :
    ∃ y, applyBt B map x out α = some y ∧ y.length = B.ns ∧ ∀ j, j < B.ns → y[j]? = some (α * ∑ r ∈ range B.np, B.at r j * x.getD (map.getD r 0) 0) := by
  have hlen : out.length = B.ns := h.xlen
  have e : applyBt B map x out α = runOps (B.entries.map fun e => (e.2.1, α * e.2.2 * x.getD (map.getD e.1 0) 0)) (zeros out) := by
    unfold applyBt runOps
    simp only [Option.bind_eq_bind]
    rw [forEntries_entries h.wf (fun r c v out => map[r]?.bind fun k => x[k]?.bind fun xv => addAt out c (α * v * xv)), List.foldlM_map]
    apply Verif.Csx.foldlM_congr
    intro e he s
    obtain ⟨h1, h2⟩ := entries_range h.wf he
    have := ok_map h h1
    rw [this.1]
    simp only [Option.bind_some]
    rw [getD_get this.2]
    rfl
  rw [e]
  obtain ⟨y, e1, e2, e3⟩ := runOps_zeros (B.entries.map fun e => (e.2.1, α * e.2.2 * x.getD (map.getD e.1 0) 0)) out (by
    intro op hop
    obtain ⟨e, he, rfl⟩ := List.mem_map.1 hop
    rw [hlen]
    exact (entries_range h.wf he).2)
  refine ⟨y, e1, by rw [e2, hlen], ?_⟩
  intro j hj
  rw [e3 j (by rw [hlen]; exact hj)]
  congr 1
  unfold Csx.entries
  rw [List.map_flatMap, total_flatMap, list_sum_range, mul_sum]
  apply sum_congr rfl
  intro r _
  rw [List.map_map]
  have gen : ∀ (xv : R) (l : List (Nat × R)), total (l.map fun e => (e.1, α * e.2 * xv)) j = α * ((((l.filter fun e => e.1 = j).map fun e => e.2).sum) * xv) := by
    intro xv l
    induction l with
    | nil => unfold total; simp
    | cons e l ih =>
        rw [List.map_cons, total_cons, ih]
        by_cases hej : e.1 = j
        · rw [List.filter_cons_of_pos (by simpa using hej), List.map_cons, List.sum_cons, if_pos hej]; ring
        · rw [List.filter_cons_of_neg (by simpa using hej), if_neg hej, zero_add]
  exact gen (x.getD (map.getD r 0) 0) (B.row r)

theorem getD_of_get {v : List R} {i : Nat} {a : R} (h : v[i]? = some a) : v.getD i 0 = a := by
  rw [List.getD_eq_getElem?_getD, h]; rfl

/-- **C47** (adjoint): for every dual vector `l` and every vector `x` of the domains, `<B x, l> = <x, Bt l>` (without conjugation, also for complex values). -/
theorem C47_adjoint (D : Domains R) (l out y : List R) (h : ∀ x ∈ D, DomainOk l.length x) (hl : out.length = l.length) (hy : applyB D out = some y)
    (z : List (List R)) (hz : D.mapM (fun x => applyBt x.1 x.2.1 l x.2.2 1) = some z) :
    ∑ i ∈ range l.length, y.getD i 0 * l.getD i 0 =
      ((D.zip z).map fun p => ∑ j ∈ range p.1.1.ns, p.1.2.2.getD j 0 * p.2.getD j 0).sum := by
  obtain ⟨y', e1, _, e3⟩ := C47_applyB D out (by rw [hl]; exact h)
  rw [hy] at e1
  cases e1
  have hyi : ∀ i ∈ range l.length, y.getD i 0 * l.getD i 0 = glued D i * l.getD i 0 := by
    intro i hi
    rw [getD_of_get (e3 i (by rw [hl]; exact mem_range.1 hi))]
  rw [sum_congr rfl hyi]
  clear hyi e3 hy
  induction D generalizing z with
  | nil => simp [glued]
  | cons x D ih =>
      have hx := h x List.mem_cons_self
      rw [List.mapM_cons] at hz
      obtain ⟨w, w1, w2, w3⟩ := C47_applyBt x.1 x.2.1 l x.2.2 1 hx
      rw [w1] at hz
      cases hr : D.mapM (fun x => applyBt x.1 x.2.1 l x.2.2 1) with
      | none => rw [hr] at hz; cases hz
      | some zs =>
          rw [hr] at hz
          cases hz
          rw [List.zip_cons_cons, List.map_cons, List.sum_cons, ← ih (fun x hx => h x (List.mem_cons_of_mem _ hx)) zs hr]
          have hg : ∀ i, glued (x :: D) i = (∑ r ∈ range x.1.np, if x.2.1.getD r 0 = i then rowProduct x r else 0) + glued D i := by
            intro i
            unfold glued
            rw [List.map_cons, List.sum_cons]
          simp only [hg, add_mul, sum_add_distrib]
          congr 1
          have h1 : ∀ j ∈ range x.1.ns, x.2.2.getD j 0 * w.getD j 0 = ∑ r ∈ range x.1.np, x.1.at r j * x.2.2.getD j 0 * l.getD (x.2.1.getD r 0) 0 := by
            intro j hj
            rw [getD_of_get (w3 j (mem_range.1 hj)), one_mul, mul_sum]
            apply sum_congr rfl
            intro r _; ring
          rw [sum_congr rfl h1, sum_comm]
          simp only [sum_mul]
          rw [sum_comm]
          apply sum_congr rfl
          intro r hr
          have hk := (ok_map hx (mem_range.1 hr)).2
          simp only [ite_mul, zero_mul]
          rw [sum_ite_eq (range l.length) (x.2.1.getD r 0) (fun i => rowProduct x r * l.getD i 0), if_pos (mem_range.2 hk)]
          unfold rowProduct
          rw [sum_mul]

/-! ### Threads -/

/-- The number of additions that remain. -/
def remaining (progs : List (List (Nat × R))) : Nat := (progs.map List.length).sum

omit [CommRing R] in
theorem set_perm {progs : List (List (Nat × R))} {t : Nat} {op : Nat × R} {rest : List (Nat × R)} (h : progs[t]? = some (op :: rest)) :
    progs.flatten.Perm (op :: (progs.set t rest).flatten) := by
  induction progs generalizing t with
  | nil => cases h
  | cons p progs ih =>
      cases t with
      | zero =>
          simp only [List.getElem?_cons_zero, Option.some.injEq] at h
          subst h
          exact List.Perm.refl _
      | succ t =>
          rw [List.getElem?_cons_succ] at h
          rw [List.set_cons_succ, List.flatten_cons, List.flatten_cons]
          exact ((ih h).append_left p).trans List.perm_middle

omit [CommRing R] in
theorem flatten_nil_of {progs : List (List (Nat × R))} (h : ∀ p ∈ progs, p = []) : progs.flatten = [] := List.flatten_eq_nil_iff.2 h

/-- Every execution adds the same values. -/
theorem run_spec {s : List (List (Nat × R)) × List R} {r : Option (List R)} (hr : Run s r) (h : ∀ op ∈ s.1.flatten, op.1 < s.2.length) :
    r = runOps s.1.flatten s.2 := by
  induction hr with
  | done hp => rw [flatten_nil_of hp]; rfl
  | @fail s hs =>
      generalize hn : (none : Option (List (List (Nat × R)) × List R)) = q at hs
      cases hs with
      | @mk progs out t k a rest ht =>
        have hk := h (k, a) ((set_perm ht).mem_iff.2 List.mem_cons_self)
        rw [addAt_some hk] at hn
        cases hn
  | @step s s' r hs hr' ih =>
      generalize hn : some s' = q at hs
      cases hs with
      | @mk progs out t k a rest ht =>
        have hp := set_perm ht
        have hk := h (k, a) (hp.mem_iff.2 List.mem_cons_self)
        rw [addAt_some hk] at hn
        cases hn
        rw [ih (by
          intro op hop
          show op.1 < (out.set k _).length
          rw [List.length_set]
          exact h op (hp.mem_iff.2 (List.mem_cons_of_mem _ hop)))]
        obtain ⟨w, w1, w2, w3⟩ := runOps_spec progs.flatten out h
        obtain ⟨w', w1', w2', w3'⟩ := runOps_spec ((k, a) :: (progs.set t rest).flatten) out (by
          intro op hop
          exact h op (hp.mem_iff.2 hop))
        have e : runOps ((k, a) :: (progs.set t rest).flatten) out = runOps (progs.set t rest).flatten (out.set k (out[k] + a)) := by
          unfold runOps
          rw [List.foldlM_cons, addAt_some hk]; rfl
        show runOps (progs.set t rest).flatten (out.set k (out[k] + a)) = runOps progs.flatten out
        rw [← e, w1, w1']
        congr 1
        apply List.ext_getElem?
        intro i
        by_cases hi : i < out.length
        · rw [w3 i hi, w3' i hi, total_perm hp]
        · rw [List.getElem?_eq_none (by omega), List.getElem?_eq_none (by omega)]

theorem threadOps_eq {n : Nat} (D : Domains R) (h : ∀ x ∈ D, DomainOk n x) (T t : Nat) :
    threadOps D T t = some ((D.zipIdx.filter fun p => p.2 % T = t).flatMap fun p => opsOf p.1) := by
  unfold threadOps
  rw [forLoop_range]
  induction D using List.reverseRecOn with
  | nil => rfl
  | append_singleton D d ih =>
      rw [List.length_append, List.length_singleton, List.range_succ, List.foldlM_append]
      rw [Verif.Csx.foldlM_congr (g := fun ops d => if d % T = t then (do
          let (B, map, x) ← D[d]?
          let o ← domainOps B map x
          some (ops ++ o)) else some ops) (by
        intro k hk s
        rw [List.getElem?_append_left (List.mem_range.1 hk)])]
      rw [ih fun x hx => h x (List.mem_append_left _ hx), List.zipIdx_append, List.filter_append, List.flatMap_append]
      show Option.bind (some _) _ = _
      rw [Option.bind_some, List.foldlM_cons]
      simp only [List.zipIdx_cons, List.zipIdx_nil, Nat.zero_add]
      by_cases hd : D.length % T = t
      · rw [if_pos hd, List.filter_cons_of_pos (by simpa using hd)]
        have := domainOps_eq (h d (List.mem_append_right _ List.mem_cons_self))
        simp [this]
      · rw [if_neg hd, List.filter_cons_of_neg (by simpa using hd)]
        simp

theorem threads_perm {A : Type} (T : Nat) (hT : 0 < T) (l : List (A × Nat)) :
    ((List.range T).flatMap fun t => l.filter fun p => p.2 % T = t).Perm l := by
  induction l with
  | nil => simp
  | cons p l ih =>
      have hp := Nat.mod_lt p.2 hT
      have e1 := flatMap_range_split (fun t => (p :: l).filter fun p => decide (p.2 % T = t)) hp
      have e2 := flatMap_range_split (fun t => l.filter fun p => decide (p.2 % T = t)) hp
      rw [e1]
      rw [e2] at ih
      have hne : ∀ t, t ≠ p.2 % T → (p :: l).filter (fun p => decide (p.2 % T = t)) = l.filter fun p => decide (p.2 % T = t) := by
        intro t ht
        rw [List.filter_cons_of_neg (by simpa using fun h => ht h.symm)]
      rw [flatMap_range_congr (F := fun t => (p :: l).filter fun p => decide (p.2 % T = t)) (G := fun t => l.filter fun p => decide (p.2 % T = t)) (by
          intro t ht; exact hne t (by have := List.mem_range.1 ht; omega)),
        flatMap_range_congr (l := List.range' _ _) (F := fun t => (p :: l).filter fun p => decide (p.2 % T = t)) (G := fun t => l.filter fun p => decide (p.2 % T = t)) (by
          intro t ht; exact hne t (by have := List.mem_range'_1.1 ht; omega)),
        List.filter_cons_of_pos (by simp)]
      exact List.perm_middle.trans (ih.cons p)

theorem zipIdx_flatMap {A B : Type} (F : A → List B) : ∀ (l : List A) (k : Nat), (l.zipIdx k).flatMap (fun p => F p.1) = l.flatMap F := by
  intro l
  induction l with
  | nil => intro k; rfl
  | cons a l ih => intro k; rw [List.zipIdx_cons, List.flatMap_cons, List.flatMap_cons, ih]

theorem allThreads_eq {n : Nat} (D : Domains R) (h : ∀ x ∈ D, DomainOk n x) (T : Nat) :
    allThreads D T = some ((List.range T).map fun t => (D.zipIdx.filter fun p => p.2 % T = t).flatMap fun p => opsOf p.1) := by
  unfold allThreads
  generalize List.range T = l
  induction l with
  | nil => rfl
  | cons t l ih => rw [List.mapM_cons, ih, threadOps_eq D h, List.map_cons]; rfl

theorem allThreads_perm {n : Nat} (D : Domains R) (h : ∀ x ∈ D, DomainOk n x) (T : Nat) (hT : 0 < T) :
    ∃ progs, allThreads D T = some progs ∧ progs.flatten.Perm (D.flatMap opsOf) := by
  refine ⟨_, allThreads_eq D h T, ?_⟩
  rw [← List.flatMap_def, ← List.flatMap_assoc, ← zipIdx_flatMap opsOf D 0]
  exact (threads_perm T hT D.zipIdx).flatMap_right _

/-- **C47** (threads): for every number of threads, every execution of the parallel loop that ends, ends with the result of the sequential loop. -/
theorem C47_threaded (D : Domains R) (out : List R) (h : ∀ x ∈ D, DomainOk out.length x) (T : Nat) (hT : 0 < T) :
    ∃ progs, allThreads D T = some progs ∧ ∀ r, Run (progs, zeros out) r → r = applyB D out := by
  obtain ⟨progs, e, hp⟩ := allThreads_perm D h T hT
  refine ⟨progs, e, ?_⟩
  intro r hr
  have hops := ops_range D h
  have h1 : ∀ op ∈ progs.flatten, op.1 < out.length := fun op hop => hops op (hp.mem_iff.1 hop)
  rw [run_spec hr (by rw [zeros_length]; exact h1), applyB_ops D h]
  obtain ⟨w, w1, w2, w3⟩ := runOps_zeros _ out h1
  obtain ⟨w', w1', w2', w3'⟩ := runOps_zeros _ out hops
  show runOps progs.flatten (zeros out) = _
  rw [w1, w1']
  congr 1
  apply List.ext_getElem?
  intro i
  by_cases hi : i < out.length
  · rw [w3 i hi, w3' i hi, total_perm hp]
  · rw [List.getElem?_eq_none (by omega), List.getElem?_eq_none (by omega)]

/-- **C47** (threads, progress): while a thread has an addition left, some step is possible, and every step decreases the number of additions that remain; so every
execution ends after finitely many steps. -/
theorem C47_threads_progress (progs : List (List (Nat × R))) (out : List R) :
    ((¬ ∀ p ∈ progs, p = []) → ∃ s, Step (progs, out) s) ∧
    ∀ s', Step (progs, out) (some s') → remaining s'.1 < remaining progs ∧ s'.2.length = out.length := by
  constructor
  · intro hne
    obtain ⟨p, hp⟩ := Classical.not_forall.1 hne
    obtain ⟨hp1, hp2⟩ := Classical.not_imp.1 hp
    obtain ⟨t, ht⟩ := List.mem_iff_getElem?.1 hp1
    cases p with
    | nil => exact absurd rfl hp2
    | cons op rest => exact ⟨_, Step.mk (k := op.1) (a := op.2) ht⟩
  · intro s' hs
    generalize hn : some s' = q at hs
    cases hs with
    | mk ht =>
      rename_i t k a rest
      by_cases hk : k < out.length
      · rw [addAt_some hk] at hn
        cases hn
        refine ⟨?_, List.length_set⟩
        have := (set_perm ht).length_eq
        unfold remaining
        rw [← List.length_flatten, ← List.length_flatten, this, List.length_cons]
        exact Nat.lt_succ_self _
      · rw [addAt_none hk] at hn; cases hn

/-! ### Domain vectors -/

/-- **C47** (extraction): `extractDomain` gives every multiplier of the domain its value (the rest of the output, if any, is zero). -/
theorem C47_extract (B : Csx R) (map : List Nat) (x out : List R) (hm : map.length = B.np) (hr : ∀ k ∈ map, k < x.length) (ho : B.np ≤ out.length) :
    ∃ y, extractDomain B map x out = some y ∧ y.length = out.length ∧
      ∀ r, r < out.length → y[r]? = some (if r < B.np then x.getD (map.getD r 0) 0 else 0) := by
  unfold extractDomain
  obtain ⟨s, e, h1, h2⟩ := forLoop_inv (Nat.zero_le B.np) (zeros out) (fun r out => do
    let k ← map[r]?
    let xv ← x[k]?
    wr out r xv) (fun n s => s.length = out.length ∧ ∀ r, r < out.length → s[r]? = some (if r < n then x.getD (map.getD r 0) 0 else 0))
    ⟨zeros_length out, by
      intro r hr
      rw [if_neg (by omega), getD_get (by rw [zeros_length]; exact hr), zeros_getD]⟩ (by
    intro r _ hr' s ⟨h1, h2⟩
    have hk := getD_some (show r < map.length by omega)
    refine ⟨s.set r (x.getD (map.getD r 0) 0), ?_, by rw [List.length_set]; exact h1, ?_⟩
    · simp only [Option.bind_eq_bind]
      rw [hk, Option.bind_some, getD_get (hr _ (List.mem_of_getElem? hk)), Option.bind_some, wr_eq_some (by omega)]
    · intro q hq
      rw [getElem?_set' _ _ _ _ (by omega)]
      by_cases hrq : r = q
      · rw [if_pos hrq, ← hrq, if_pos (by omega)]
      · rw [if_neg hrq, h2 q hq]
        by_cases hqr : q < r
        · rw [if_pos hqr, if_pos (by omega)]
        · rw [if_neg hqr, if_neg (by omega)])
  exact ⟨s, e, h1, h2⟩

/-- **C47** (insertion): `insertDomains` adds the values of the multipliers of all domains; it is the transpose of `extractDomain`.  The vector of a domain here has one value
for each multiplier. -/
theorem C47_insert (D : Domains R) (out : List R) (h : ∀ x ∈ D, x.2.1.length = x.1.np ∧ x.2.2.length = x.1.np ∧ ∀ k ∈ x.2.1, k < out.length) :
    ∃ y, insertDomains D out = some y ∧ y.length = out.length ∧
      ∀ i, i < out.length → y[i]? = some ((D.map fun x => ∑ r ∈ range x.1.np, if x.2.1.getD r 0 = i then x.2.2.getD r 0 else 0).sum) := by
  have e : insertDomains D out = runOps (D.flatMap fun x => (List.range x.1.np).map fun r => (x.2.1.getD r 0, x.2.2.getD r 0)) (zeros out) := by
    unfold insertDomains
    simp only [Option.bind_eq_bind]
    rw [loop_list D (fun x out => forLoop 0 x.1.np out fun r out => x.2.1[r]?.bind fun k => x.2.2[r]?.bind fun xv => addAt out k xv), ← foldlM_runOps]
    apply Verif.Csx.foldlM_congr
    intro x hx s
    obtain ⟨h1, h2, h3⟩ := h x hx
    rw [forLoop_range]
    unfold runOps
    rw [List.foldlM_map]
    apply Verif.Csx.foldlM_congr
    intro r hr s
    have hr := List.mem_range.1 hr
    rw [getD_some (show r < x.2.1.length by omega), getD_get (show r < x.2.2.length by omega)]
    rfl
  rw [e]
  obtain ⟨y, e1, e2, e3⟩ := runOps_zeros (D.flatMap fun x => (List.range x.1.np).map fun r => (x.2.1.getD r 0, x.2.2.getD r 0)) out (by
    intro op hop
    obtain ⟨x, hx, ho⟩ := List.mem_flatMap.1 hop
    obtain ⟨r, hr, rfl⟩ := List.mem_map.1 ho
    obtain ⟨h1, h2, h3⟩ := h x hx
    have hr := List.mem_range.1 hr
    exact h3 _ (List.mem_of_getElem? (getD_some (show r < x.2.1.length by omega))))
  refine ⟨y, e1, e2, ?_⟩
  intro i hi
  rw [e3 i hi, total_flatMap]
  congr 2
  apply List.map_congr_left
  intro x _
  rw [← list_sum_range]
  generalize List.range x.1.np = l
  induction l with
  | nil => rfl
  | cons r l ih => rw [List.map_cons, total_cons, ih, List.map_cons, List.sum_cons]

/-! A concrete case: two domains sharing the multiplier 1; the second one has two entries in a row and a permuted map. -/

def glueEx : Domains Int := [(⟨2, 2, [0, 1, 2], [0, 1], [1, 1]⟩, [0, 1], [5, 7]), (⟨2, 3, [0, 2, 3], [0, 2, 1], [-1, 2, 3]⟩, [2, 1], [1, 10, 100])]

theorem glueEx_ok : ∀ x ∈ glueEx, DomainOk 3 x := by
  intro x hx
  rcases List.mem_cons.1 hx with rfl | hx
  · exact ⟨⟨rfl, rfl, by decide, rfl, rfl, by decide⟩, rfl, by decide, rfl⟩
  · rcases List.mem_cons.1 hx with rfl | hx
    · exact ⟨⟨rfl, rfl, by decide, rfl, rfl, by decide⟩, rfl, by decide, rfl⟩
    · cases hx

example : applyB glueEx [8, 8, 8] = some [5, 37, 199] := by decide

example : applyBFilter glueEx [8, 8, 8] [1] = some [0, 30, 199] := by decide

example : glueEx.mapM (fun x => applyBt x.1 x.2.1 [1, 2, 3] x.2.2 1) = some [[1, 2], [-3, 6, 6]] := by decide

example : (5 * 1 + 37 * 2 + 199 * 3 : Int) = (5 * 1 + 7 * 2) + (1 * -3 + 10 * 6 + 100 * 6) := by decide

example : allThreads glueEx 2 = some [[(0, 5), (1, 7)], [(2, -1), (2, 200), (1, 30)]] := by decide

omit [CommRing R] in
theorem Step.mk' [Add R] {progs : List (List (Nat × R))} {out out' : List R} (t k : Nat) (a : R) (rest : List (Nat × R)) (h : progs[t]? = some ((k, a) :: rest))
    (e : addAt out k a = some out') : Step (progs, out) (some (progs.set t rest, out')) := by
  have := Step.mk (out := out) h
  rw [e] at this
  exact this

/-- an execution in which the second thread comes first -/
example : Run ([[(0, 5)], [(0, 30)]], [0]) (some [(35 : Int)]) := by
  refine Run.step (s' := ([[(0, 5)], []], [30])) (Step.mk' 1 0 30 [] rfl rfl) ?_
  refine Run.step (s' := ([[], []], [35])) (Step.mk' 0 0 5 [] rfl rfl) ?_
  exact Run.done (by decide)

example : insertDomains [(⟨2, 1, [0, 0, 0], [], []⟩, [2, 0], [4, 5]), (⟨1, 1, [0, 0], [], []⟩, [2], [6])] [9, 9, 9] = some [(5 : Int), 0, 10] := by decide

example : extractDomain ⟨2, 1, [0, 0, 0], [], []⟩ [2, 0] [7, 8, 9] [1, 1] = some [(9 : Int), 7] := by decide

end Verif.Feti
