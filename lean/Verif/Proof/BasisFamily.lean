import Verif.Proof.BaseFunctions
import Mathlib.Algebra.BigOperators.Group.Finset.Sigma
import Mathlib.Algebra.BigOperators.Intervals
/-!
The tables as functions of points given as lists, and the element degraded by merging nodes.
-/
namespace Verif.Fem

/-- The coordinate of a column: the tetrahedra with explicit functions store the derivatives by the second and the third coordinate swapped. -/
def swapped : Nat → Nat
  | 1 => 2
  | 2 => 1
  | d => d

theorem length_one {p : List ℝ} (h : p.length = 1) : ∃ r, p = [r] := List.length_eq_one_iff.1 h

theorem basis1 {m : Nat} {F : ℝ → List (ℝ × List ℝ)} {f : List ℝ → Option (List (ℝ × List ℝ))} (hf : ∀ r, f [r] = some (F r))
    (hl : ∀ r, (F r).length = m ∧ ∀ e ∈ F r, e.2.length = 1)
    (hu : ∀ r, ∑ n ∈ Finset.range m, valueOf (F r) n = 1)
    (hb : ∀ r, ∑ n ∈ Finset.range m, slopeOf (F r) n 0 = 0)
    (hd : ∀ r n, n < m → HasDerivAt (fun y => valueOf (F y) n) (slopeOf (F r) n 0) r) : IsBasis 1 m id f := by
  refine ⟨?_, ?_, ?_, ?_⟩
  · intro p hp
    obtain ⟨r, rfl⟩ := length_one hp
    exact ⟨_, hf r, hl r⟩
  · intro p tab hp he
    obtain ⟨r, rfl⟩ := length_one hp
    cases (hf r).symm.trans he
    exact hu r
  · intro p tab d hp he hd'
    obtain ⟨r, rfl⟩ := length_one hp
    cases (hf r).symm.trans he
    obtain rfl : d = 0 := by omega
    exact hb r
  · intro p tab d n hp he hd' hn
    obtain ⟨r, rfl⟩ := length_one hp
    cases (hf r).symm.trans he
    obtain rfl : d = 0 := by omega
    simpa [valueIn, hf] using hd r n hn

theorem basis2 {m : Nat} {F : ℝ → ℝ → List (ℝ × List ℝ)} {f : List ℝ → Option (List (ℝ × List ℝ))} (hf : ∀ r s, f [r, s] = some (F r s))
    (hl : ∀ r s, (F r s).length = m ∧ ∀ e ∈ F r s, e.2.length = 2)
    (hu : ∀ r s, ∑ n ∈ Finset.range m, valueOf (F r s) n = 1)
    (hb0 : ∀ r s, ∑ n ∈ Finset.range m, slopeOf (F r s) n 0 = 0)
    (hb1 : ∀ r s, ∑ n ∈ Finset.range m, slopeOf (F r s) n 1 = 0)
    (hd0 : ∀ r s n, n < m → HasDerivAt (fun y => valueOf (F y s) n) (slopeOf (F r s) n 0) r)
    (hd1 : ∀ r s n, n < m → HasDerivAt (fun y => valueOf (F r y) n) (slopeOf (F r s) n 1) s) : IsBasis 2 m id f := by
  refine ⟨?_, ?_, ?_, ?_⟩
  · intro p hp
    obtain ⟨r, s, rfl⟩ := List.length_eq_two.1 hp
    exact ⟨_, hf r s, hl r s⟩
  · intro p tab hp he
    obtain ⟨r, s, rfl⟩ := List.length_eq_two.1 hp
    cases (hf r s).symm.trans he
    exact hu r s
  · intro p tab d hp he hd'
    obtain ⟨r, s, rfl⟩ := List.length_eq_two.1 hp
    cases (hf r s).symm.trans he
    interval_cases d
    · exact hb0 r s
    · exact hb1 r s
  · intro p tab d n hp he hd' hn
    obtain ⟨r, s, rfl⟩ := List.length_eq_two.1 hp
    cases (hf r s).symm.trans he
    interval_cases d
    · simpa [valueIn, hf] using hd0 r s n hn
    · simpa [valueIn, hf] using hd1 r s n hn

theorem basis3 {m : Nat} {F : ℝ → ℝ → ℝ → List (ℝ × List ℝ)} {f : List ℝ → Option (List (ℝ × List ℝ))}
    (hf : ∀ r s t, f [r, s, t] = some (F r s t))
    (hl : ∀ r s t, (F r s t).length = m ∧ ∀ e ∈ F r s t, e.2.length = 3)
    (hu : ∀ r s t, ∑ n ∈ Finset.range m, valueOf (F r s t) n = 1)
    (hb0 : ∀ r s t, ∑ n ∈ Finset.range m, slopeOf (F r s t) n 0 = 0)
    (hb1 : ∀ r s t, ∑ n ∈ Finset.range m, slopeOf (F r s t) n 1 = 0)
    (hb2 : ∀ r s t, ∑ n ∈ Finset.range m, slopeOf (F r s t) n 2 = 0)
    (hd0 : ∀ r s t n, n < m → HasDerivAt (fun y => valueOf (F y s t) n) (slopeOf (F r s t) n 0) r)
    (hd1 : ∀ r s t n, n < m → HasDerivAt (fun y => valueOf (F r y t) n) (slopeOf (F r s t) n 1) s)
    (hd2 : ∀ r s t n, n < m → HasDerivAt (fun y => valueOf (F r s y) n) (slopeOf (F r s t) n 2) t) : IsBasis 3 m id f := by
  refine ⟨?_, ?_, ?_, ?_⟩
  · intro p hp
    obtain ⟨r, s, t, rfl⟩ := List.length_eq_three.1 hp
    exact ⟨_, hf r s t, hl r s t⟩
  · intro p tab hp he
    obtain ⟨r, s, t, rfl⟩ := List.length_eq_three.1 hp
    cases (hf r s t).symm.trans he
    exact hu r s t
  · intro p tab d hp he hd'
    obtain ⟨r, s, t, rfl⟩ := List.length_eq_three.1 hp
    cases (hf r s t).symm.trans he
    interval_cases d
    · exact hb0 r s t
    · exact hb1 r s t
    · exact hb2 r s t
  · intro p tab d n hp he hd' hn
    obtain ⟨r, s, t, rfl⟩ := List.length_eq_three.1 hp
    cases (hf r s t).symm.trans he
    interval_cases d
    · simpa [valueIn, hf] using hd0 r s t n hn
    · simpa [valueIn, hf] using hd1 r s t n hn
    · simpa [valueIn, hf] using hd2 r s t n hn

theorem basis3_swapped {m : Nat} {F : ℝ → ℝ → ℝ → List (ℝ × List ℝ)} {f : List ℝ → Option (List (ℝ × List ℝ))}
    (hf : ∀ r s t, f [r, s, t] = some (F r s t))
    (hl : ∀ r s t, (F r s t).length = m ∧ ∀ e ∈ F r s t, e.2.length = 3)
    (hu : ∀ r s t, ∑ n ∈ Finset.range m, valueOf (F r s t) n = 1)
    (hb0 : ∀ r s t, ∑ n ∈ Finset.range m, slopeOf (F r s t) n 0 = 0)
    (hb1 : ∀ r s t, ∑ n ∈ Finset.range m, slopeOf (F r s t) n 1 = 0)
    (hb2 : ∀ r s t, ∑ n ∈ Finset.range m, slopeOf (F r s t) n 2 = 0)
    (hd0 : ∀ r s t n, n < m → HasDerivAt (fun y => valueOf (F y s t) n) (slopeOf (F r s t) n 0) r)
    (hd1 : ∀ r s t n, n < m → HasDerivAt (fun y => valueOf (F r s y) n) (slopeOf (F r s t) n 1) t)
    (hd2 : ∀ r s t n, n < m → HasDerivAt (fun y => valueOf (F r y t) n) (slopeOf (F r s t) n 2) s) : IsBasis 3 m swapped f := by
  refine ⟨?_, ?_, ?_, ?_⟩
  · intro p hp
    obtain ⟨r, s, t, rfl⟩ := List.length_eq_three.1 hp
    exact ⟨_, hf r s t, hl r s t⟩
  · intro p tab hp he
    obtain ⟨r, s, t, rfl⟩ := List.length_eq_three.1 hp
    cases (hf r s t).symm.trans he
    exact hu r s t
  · intro p tab d hp he hd'
    obtain ⟨r, s, t, rfl⟩ := List.length_eq_three.1 hp
    cases (hf r s t).symm.trans he
    interval_cases d
    · exact hb0 r s t
    · exact hb1 r s t
    · exact hb2 r s t
  · intro p tab d n hp he hd' hn
    obtain ⟨r, s, t, rfl⟩ := List.length_eq_three.1 hp
    cases (hf r s t).symm.trans he
    interval_cases d
    · simpa [valueIn, hf, swapped] using hd0 r s t n hn
    · simpa [valueIn, hf, swapped] using hd1 r s t n hn
    · simpa [valueIn, hf, swapped] using hd2 r s t n hn

/-! ### Merged nodes -/

section Degrade
variable {K : Type} [Field K]

theorem valueOf_set {tab : List (K × List K)} {k : Nat} (e : K × List K) (hk : k < tab.length) (n : Nat) :
    valueOf (tab.set k e) n = if k = n then e.1 else valueOf tab n := by
  unfold valueOf
  rw [List.getElem?_set]
  split <;> simp_all

theorem slopeOf_set {tab : List (K × List K)} {k : Nat} (e : K × List K) (hk : k < tab.length) (n d : Nat) :
    slopeOf (tab.set k e) n d = if k = n then (e.2[d]?).getD 0 else slopeOf tab n d := by
  unfold slopeOf
  rw [List.getElem?_set]
  split <;> simp_all

theorem addTerm_eq {tab : List (K × List K)} {dim : Nat} {x : Nat × (K × List K)} (hx : x.1 < tab.length) (hr : x.2.2.length = dim)
    (ht : ∀ e ∈ tab, e.2.length = dim) :
    ∃ tab', addTerm tab x = some tab' ∧ tab'.length = tab.length ∧ (∀ e ∈ tab', e.2.length = dim) ∧
      (∀ n, valueOf tab' n = valueOf tab n + if x.1 = n then x.2.1 else 0) ∧
      ∀ n d, d < dim → slopeOf tab' n d = slopeOf tab n d + if x.1 = n then (x.2.2[d]?).getD 0 else 0 := by
  refine ⟨tab.set x.1 (tab[x.1].1 + x.2.1, List.zipWith (· + ·) tab[x.1].2 x.2.2), ?_, by simp, ?_, ?_, ?_⟩
  · simp [addTerm, List.getElem?_eq_getElem hx, wr, hx]
  · intro e he
    rcases List.mem_or_eq_of_mem_set he with he | rfl
    · exact ht e he
    · have := ht _ (List.getElem_mem hx)
      simp [this, hr]
  · intro n
    rw [valueOf_set _ hx]
    split
    · rename_i h
      subst h
      simp [valueOf, List.getElem?_eq_getElem hx]
    · simp
  · intro n d hd
    rw [slopeOf_set _ hx]
    split
    · rename_i h
      subst h
      have h1 : d < tab[x.1].2.length := by rw [ht _ (List.getElem_mem hx)]; exact hd
      have h2 : d < x.2.2.length := by omega
      simp [slopeOf, List.getElem?_eq_getElem hx, List.getElem?_zipWith, List.getElem?_eq_getElem h1, List.getElem?_eq_getElem h2]
    · simp

theorem addAll_eq {dim : Nat} : ∀ (xs : List (Nat × (K × List K))) (tab : List (K × List K)),
    (∀ x ∈ xs, x.1 < tab.length ∧ x.2.2.length = dim) → (∀ e ∈ tab, e.2.length = dim) →
    ∃ tab', xs.foldlM addTerm tab = some tab' ∧ tab'.length = tab.length ∧ (∀ e ∈ tab', e.2.length = dim) ∧
      (∀ n, valueOf tab' n = valueOf tab n + (xs.map fun x => if x.1 = n then x.2.1 else 0).sum) ∧
      ∀ n d, d < dim → slopeOf tab' n d = slopeOf tab n d + (xs.map fun x => if x.1 = n then (x.2.2[d]?).getD 0 else 0).sum
  | [], tab, _, ht => ⟨tab, rfl, rfl, ht, by simp, by simp⟩
  | x :: xs, tab, hx, ht => by
    obtain ⟨tab1, h1, l1, r1, v1, s1⟩ := addTerm_eq (hx x (by simp)).1 (hx x (by simp)).2 ht
    obtain ⟨tab2, h2, l2, r2, v2, s2⟩ := addAll_eq xs tab1 (fun y hy => by rw [l1]; exact hx y (by simp [hy])) r1
    refine ⟨tab2, ?_, l2.trans l1, r2, ?_, ?_⟩
    · simp [List.foldlM_cons, h1, h2]
    · intro n
      rw [v2, v1, List.map_cons, List.sum_cons, add_assoc]
    · intro n d hd
      rw [s2 n d hd, s1 n d hd, List.map_cons, List.sum_cons, add_assoc]

theorem zip_sum (g : Nat → (K × List K) → K) : ∀ (order : List Nat) (terms : List (K × List K)), order.length = terms.length →
    ((order.zip terms).map fun x => g x.1 x.2).sum =
      ∑ k ∈ Finset.range terms.length, g (order.getD k 0) (terms.getD k (0, []))
  | [], [], _ => by simp
  | o :: order, e :: terms, h => by
    rw [List.zip_cons_cons, List.map_cons, List.sum_cons, zip_sum g order terms (by simpa using h), List.length_cons, Finset.sum_range_succ', add_comm]
    simp
  | [], _ :: _, h => by simp at h
  | _ :: _, [], h => by simp at h

theorem getD_fst (terms : List (K × List K)) (k : Nat) : (terms.getD k (0, [])).1 = valueOf terms k := by
  unfold valueOf
  rw [List.getD_eq_getElem?_getD]
  cases terms[k]? <;> simp

theorem getD_snd (terms : List (K × List K)) (k d : Nat) : ((terms.getD k (0, [])).2[d]?).getD 0 = slopeOf terms k d := by
  unfold slopeOf
  rw [List.getD_eq_getElem?_getD]
  cases terms[k]? <;> simp

/-- Every node gets the sum of its terms. -/
theorem degrade_eq {nodes dim : Nat} {order : List Nat} {terms : List (K × List K)} (hl : order.length = terms.length)
    (ho : ∀ k ∈ order, k < nodes) (ht : ∀ e ∈ terms, e.2.length = dim) :
    ∃ tab, degrade nodes dim order terms = some tab ∧ tab.length = nodes ∧ (∀ e ∈ tab, e.2.length = dim) ∧
      (∀ n, valueOf tab n = ∑ k ∈ Finset.range terms.length, if order.getD k 0 = n then valueOf terms k else 0) ∧
      ∀ n d, d < dim → slopeOf tab n d = ∑ k ∈ Finset.range terms.length, if order.getD k 0 = n then slopeOf terms k d else 0 := by
  obtain ⟨tab, h, l, r, v, s⟩ := addAll_eq (dim := dim) (order.zip terms) (List.replicate nodes ((0 : K), List.replicate dim 0))
    (fun x hx => ⟨by simpa using ho _ (List.of_mem_zip hx).1, ht _ (List.of_mem_zip hx).2⟩)
    (fun e he => by rw [(List.mem_replicate.1 he).2]; simp)
  refine ⟨tab, h, by simpa using l, r, ?_, ?_⟩
  · intro n
    rw [v, zip_sum (fun a e => if a = n then e.1 else 0) order terms hl]
    have : valueOf (List.replicate nodes ((0 : K), List.replicate dim (0 : K))) n = 0 := by
      unfold valueOf
      rw [List.getElem?_replicate]
      split <;> simp
    rw [this, zero_add]
    exact Finset.sum_congr rfl fun k _ => by rw [getD_fst]
  · intro n d hd
    rw [s n d hd, zip_sum (fun a e => if a = n then (e.2[d]?).getD 0 else 0) order terms hl]
    have : slopeOf (List.replicate nodes ((0 : K), List.replicate dim (0 : K))) n d = 0 := by
      unfold slopeOf
      rw [List.getElem?_replicate]
      split <;> simp [List.getElem?_replicate, hd]
    rw [this, zero_add]
    exact Finset.sum_congr rfl fun k _ => by rw [getD_snd]

end Degrade

theorem merge_sum {nodes m : Nat} {order : List Nat} (ho : ∀ k ∈ order, k < nodes) (hm : order.length = m) (g : Nat → ℝ) :
    ∑ n ∈ Finset.range nodes, ∑ k ∈ Finset.range m, (if order.getD k 0 = n then g k else 0) = ∑ k ∈ Finset.range m, g k := by
  rw [Finset.sum_comm]
  refine Finset.sum_congr rfl fun k hk => ?_
  have hk' : k < order.length := by rw [hm]; exact Finset.mem_range.1 hk
  rw [Finset.sum_ite_eq, if_pos]
  rw [Finset.mem_range, List.getD_eq_getElem?_getD, List.getElem?_eq_getElem hk']
  exact ho _ (List.getElem_mem hk')

/-- Merging nodes keeps a family of basis functions. -/
theorem IsBasis.degrade {dim m nodes : Nat} {axis : Nat → Nat} {f : List ℝ → Option (List (ℝ × List ℝ))} (h : IsBasis dim m axis f)
    {order : List Nat} (hm : order.length = m) (ho : ∀ k ∈ order, k < nodes) :
    IsBasis dim nodes axis fun p => (f p).bind (Fem.degrade nodes dim order) := by
  have key : ∀ p, p.length = dim → ∃ terms tab, f p = some terms ∧ terms.length = m ∧ Fem.degrade nodes dim order terms = some tab ∧ tab.length = nodes ∧
      (∀ e ∈ tab, e.2.length = dim) ∧
      (∀ n, valueOf tab n = ∑ k ∈ Finset.range m, if order.getD k 0 = n then valueOf terms k else 0) ∧
      ∀ n d, d < dim → slopeOf tab n d = ∑ k ∈ Finset.range m, if order.getD k 0 = n then slopeOf terms k d else 0 := by
    intro p hp
    obtain ⟨terms, h1, h2, h3⟩ := h.defined p hp
    obtain ⟨tab, h4, h5, h6, h7, h8⟩ := degrade_eq (hm.trans h2.symm) ho h3
    rw [h2] at h7 h8
    exact ⟨terms, tab, h1, h2, h4, h5, h6, h7, h8⟩
  refine ⟨?_, ?_, ?_, ?_⟩
  · intro p hp
    obtain ⟨terms, tab, h1, _, h3, h4, h5, _⟩ := key p hp
    exact ⟨tab, by simp [h1, h3], h4, h5⟩
  · intro p tab' hp he
    obtain ⟨terms, tab, h1, _, h3, _, _, h6, _⟩ := key p hp
    obtain rfl : tab = tab' := by simpa [h1, h3] using he
    simp only [h6]
    rw [merge_sum ho hm, h.unity p terms hp h1]
  · intro p tab' d hp he hd
    obtain ⟨terms, tab, h1, _, h3, _, _, _, h7⟩ := key p hp
    obtain rfl : tab = tab' := by simpa [h1, h3] using he
    simp only [h7 _ d hd]
    rw [merge_sum ho hm, h.balance p terms d hp h1 hd]
  · intro p tab' d n hp he hd hn
    obtain ⟨terms, tab, h1, _, h3, _, _, _, h7⟩ := key p hp
    obtain rfl : tab = tab' := by simpa [h1, h3] using he
    rw [h7 n d hd]
    have : (fun y => valueIn (fun p => (f p).bind (Fem.degrade nodes dim order)) n (p.set (axis d) y)) =
        fun y => ∑ k ∈ Finset.range m, if order.getD k 0 = n then valueIn f k (p.set (axis d) y) else 0 := by
      funext y
      obtain ⟨terms', tab', g1, _, g3, _, _, g6, _⟩ := key (p.set (axis d) y) (by simpa using hp)
      simp [valueIn, g1, g3, g6]
    rw [this]
    refine HasDerivAt.fun_sum fun k hk => ?_
    split
    · exact h.derivative p terms d k hp h1 hd (Finset.mem_range.1 hk)
    · exact hasDerivAt_const _ _

end Verif.Fem
