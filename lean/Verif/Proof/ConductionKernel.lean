import Verif.Prop.ConductionForm
import Mathlib.Combinatorics.Nullstellensatz
import Mathlib.Analysis.Calculus.MeanValue
/-!
Nodal values whose gradient vanishes in all points of a Gauss rule are constant.
-/
namespace Verif.Fem

/-- The points of the Gauss rules are different. -/
theorem gauss_nodup {order : Nat} {rule : List (ℝ × ℝ)} (h : gauss Real.sqrt order = some rule) : (rule.map Prod.fst).Nodup := by
  have h3 : 0 < Real.sqrt 3 := Real.sqrt_pos.2 (by norm_num)
  have h35 : 0 < Real.sqrt (3 / 5) := Real.sqrt_pos.2 (by norm_num)
  have a1 : 0 < Real.sqrt (6 / 5) := Real.sqrt_pos.2 (by norm_num)
  have a2 : Real.sqrt (6 / 5) < 3 / 2 := by rw [Real.sqrt_lt' (by norm_num)]; norm_num
  have b1 : 0 < Real.sqrt (10 / 7) := Real.sqrt_pos.2 (by norm_num)
  have b2 : Real.sqrt (10 / 7) < 5 / 2 := by rw [Real.sqrt_lt' (by norm_num)]; norm_num
  have a3 : 0 < Real.sqrt (3 / 7 - Real.sqrt (6 / 5) * 2 / 7) := Real.sqrt_pos.2 (by linarith)
  have a4 : Real.sqrt (3 / 7 - Real.sqrt (6 / 5) * 2 / 7) < Real.sqrt (3 / 7 + Real.sqrt (6 / 5) * 2 / 7) := Real.sqrt_lt_sqrt (by linarith) (by linarith)
  have b3 : 0 < Real.sqrt (5 - 2 * Real.sqrt (10 / 7)) := Real.sqrt_pos.2 (by linarith)
  have b4 : Real.sqrt (5 - 2 * Real.sqrt (10 / 7)) < Real.sqrt (5 + 2 * Real.sqrt (10 / 7)) := Real.sqrt_lt_sqrt (by linarith) (by linarith)
  have sorted : ∀ l : List ℝ, l.Pairwise (· < ·) → l.Nodup := fun l hl => hl.imp fun h => ne_of_lt h
  refine sorted _ ?_
  unfold gauss at h
  split at h
  · obtain rfl := Option.some.inj h; simp
  · obtain rfl := Option.some.inj h
    have : 0 < 1 / Real.sqrt 3 := by positivity
    simp only [List.map_cons, List.map_nil, List.pairwise_cons, List.mem_cons, List.not_mem_nil, or_false, forall_eq_or_imp, forall_eq, List.Pairwise.nil,
      and_true, false_implies, implies_true]
    linarith
  · obtain rfl := Option.some.inj h
    simp only [List.map_cons, List.map_nil, List.pairwise_cons, List.mem_cons, List.not_mem_nil, or_false, forall_eq_or_imp, forall_eq, List.Pairwise.nil,
      and_true, false_implies, implies_true]
    refine ⟨⟨?_, ?_⟩, ?_⟩ <;> linarith
  · obtain rfl := Option.some.inj h
    simp only [List.map_cons, List.map_nil, List.pairwise_cons, List.mem_cons, List.not_mem_nil, or_false, forall_eq_or_imp, forall_eq, List.Pairwise.nil,
      and_true, false_implies, implies_true]
    refine ⟨⟨?_, ?_, ?_⟩, ⟨?_, ?_⟩, ?_⟩ <;> linarith
  · obtain rfl := Option.some.inj h
    simp only [List.map_cons, List.map_nil, List.pairwise_cons, List.mem_cons, List.not_mem_nil, or_false, forall_eq_or_imp, forall_eq, List.Pairwise.nil,
      and_true, false_implies, implies_true]
    refine ⟨⟨?_, ?_, ?_, ?_⟩, ⟨?_, ?_, ?_⟩, ⟨?_, ?_⟩, ?_⟩ <;> linarith
  · obtain rfl := Option.some.inj h; simp [List.pairwise_cons]; norm_num
  · obtain rfl := Option.some.inj h; simp [List.pairwise_cons]; norm_num
  · obtain rfl := Option.some.inj h; simp [List.pairwise_cons]; norm_num
  · simp at h

theorem tensor_mem {d : Nat} (hd : d = 2 ∨ d = 3) {rule : List (ℝ × ℝ)} (x : Fin d → ℝ) (hx : ∀ i, x i ∈ rule.map Prod.fst) :
    ∃ p ∈ tensor rule d, p.1 = List.ofFn x := by
  rcases hd with rfl | rfl
  · obtain ⟨r, hr, e1⟩ := List.mem_map.1 (hx 0)
    obtain ⟨s, hs, e2⟩ := List.mem_map.1 (hx 1)
    refine ⟨([r.1, s.1], r.2 * s.2), ?_, by simp [List.ofFn_succ, e1, e2]⟩
    simp only [tensor, List.mem_flatMap, List.mem_map]
    exact ⟨r, hr, s, hs, rfl⟩
  · obtain ⟨r, hr, e1⟩ := List.mem_map.1 (hx 0)
    obtain ⟨s, hs, e2⟩ := List.mem_map.1 (hx 1)
    obtain ⟨t, ht, e3⟩ := List.mem_map.1 (hx 2)
    refine ⟨([r.1, s.1, t.1], r.2 * s.2 * t.2), ?_, by simp [List.ofFn_succ, e1, e2, e3]⟩
    simp only [tensor, List.mem_flatMap, List.mem_map]
    exact ⟨r, hr, s, hs, t, ht, rfl⟩

/-- A polynomial of low degree in each variable that vanishes on a grid vanishes everywhere. -/
theorem grid_zero {d : Nat} (hd : d = 2 ∨ d = 3) {D : Deg} {f : List ℝ → ℝ} (h : Poly (each d) D f) {q : Nat} (hq : D ≤ (q, q, q))
    {rule : List (ℝ × ℝ)} (hn : (rule.map Prod.fst).Nodup) (hl : q < rule.length) (hz : ∀ p ∈ tensor rule d, f p.1 = 0) (p : List ℝ) (hp : p.length = d) :
    f p = 0 := by
  obtain ⟨P, h1, h2⟩ := h
  have hcard : (rule.map Prod.fst).toFinset.card = rule.length := by rw [List.toFinset_card_of_nodup hn, List.length_map]
  have hP : P = 0 := by
    refine MvPolynomial.eq_zero_of_eval_zero_at_prod_finset P (fun _ => (rule.map Prod.fst).toFinset) (fun i => ?_) fun x hx => ?_
    · rw [hcard, MvPolynomial.degreeOf_lt_iff (by omega)]
      intro m hm
      have := expOf_each hd m (h1 m hm) hq i i.isLt
      rw [expOf, dif_pos i.isLt] at this
      have e : m i ≤ q := this
      omega
    · obtain ⟨p, hp, e⟩ := tensor_mem hd x fun i => by simpa using hx i
      have := hz p hp
      rw [h2 p.1 (by rw [e, List.length_ofFn]), polyAt, e] at this
      rw [← this]
      congr 2
      funext i
      simp
  rw [h2 p hp, hP]
  simp [polyAt]

theorem const_of_zero_deriv {f : ℝ → ℝ} (h : ∀ x, HasDerivAt f 0 x) (x y : ℝ) : f x = f y :=
  is_const_of_deriv_eq_zero (fun x => (h x).differentiableAt) (fun x => (h x).deriv) x y

/-- An interpolation whose derivatives vanish everywhere is constant. -/
theorem interpolated_const {dim nodes : Nat} {f : List ℝ → Option (List (ℝ × List ℝ))} (hd : dim = 2 ∨ dim = 3) (h : IsBasis dim nodes id f) (u : Nat → ℝ)
    (hz : ∀ p tab j, p.length = dim → f p = some tab → j < dim → ∑ n ∈ Finset.range nodes, u n * slopeOf tab n j = 0) (p q : List ℝ)
    (hp : p.length = dim) (hq : q.length = dim) : interpolated f nodes u p = interpolated f nodes u q := by
  have key : ∀ p : List ℝ, p.length = dim → ∀ j < dim, HasDerivAt (fun y => interpolated f nodes u (p.set j y)) 0 (p.getD j 0) := by
    intro p hp j hj
    obtain ⟨tab, ht, -⟩ := h.defined p hp
    have := interpolated_deriv h hp ht hj u
    rw [hz p tab j hp ht hj] at this
    exact this
  rcases hd with rfl | rfl
  · obtain ⟨a, b, rfl⟩ := List.length_eq_two.1 hp
    obtain ⟨a', b', rfl⟩ := List.length_eq_two.1 hq
    have e1 : interpolated f nodes u [a, b] = interpolated f nodes u [a', b] :=
      const_of_zero_deriv (f := fun y => interpolated f nodes u [y, b]) (fun x => key [x, b] rfl 0 (by omega)) a a'
    have e2 : interpolated f nodes u [a', b] = interpolated f nodes u [a', b'] :=
      const_of_zero_deriv (f := fun y => interpolated f nodes u [a', y]) (fun x => key [a', x] rfl 1 (by omega)) b b'
    rw [e1, e2]
  · obtain ⟨a, b, c, rfl⟩ := List.length_eq_three.1 hp
    obtain ⟨a', b', c', rfl⟩ := List.length_eq_three.1 hq
    have e1 : interpolated f nodes u [a, b, c] = interpolated f nodes u [a', b, c] :=
      const_of_zero_deriv (f := fun y => interpolated f nodes u [y, b, c]) (fun x => key [x, b, c] rfl 0 (by omega)) a a'
    have e2 : interpolated f nodes u [a', b, c] = interpolated f nodes u [a', b', c] :=
      const_of_zero_deriv (f := fun y => interpolated f nodes u [a', y, c]) (fun x => key [a', x, c] rfl 1 (by omega)) b b'
    have e3 : interpolated f nodes u [a', b', c] = interpolated f nodes u [a', b', c'] :=
      const_of_zero_deriv (f := fun y => interpolated f nodes u [a', b', y]) (fun x => key [a', b', x] rfl 2 (by omega)) c c'
    rw [e1, e2, e3]

/-! ### The values in the corners -/

/-- The corners of the square and the cube. -/
noncomputable def cornersOf (c : Code) : List (List ℝ) := if edim c = 2 then corner2 (nOrder c).length else corner3 (nOrder c).length

theorem terms4x2_corner (k l : Nat) (hk : k < 4) (hl : l < 4) :
    valueIn (fun p => some (terms4x2 (p.getD 0 0) (p.getD 1 0))) l ((corner2 (K := ℝ) 4).getD k []) = if l = k then 1 else 0 := by
  interval_cases k <;> (norm_num [valueIn, terms4x2, corner2]; interval_cases l <;> simp [valueOf])

theorem terms8x2_corner (k l : Nat) (hk : k < 8) (hl : l < 8) :
    valueIn (fun p => some (terms8x2 (p.getD 0 0) (p.getD 1 0))) l ((corner2 (K := ℝ) 8).getD k []) = if l = k then 1 else 0 := by
  interval_cases k <;> (norm_num [valueIn, terms8x2, corner2]; interval_cases l <;> simp [valueOf])

theorem terms8x3_corner (k l : Nat) (hk : k < 8) (hl : l < 8) :
    valueIn (fun p => some (terms8x3 (p.getD 0 0) (p.getD 1 0) (p.getD 2 0))) l ((corner3 (K := ℝ) 8).getD k []) = if l = k then 1 else 0 := by
  interval_cases k <;> (norm_num [valueIn, terms8x3, corner3]; interval_cases l <;> simp [valueOf])

theorem terms20x3_corner (k l : Nat) (hk : k < 20) (hl : l < 20) :
    valueIn (fun p => some (terms20x3 (p.getD 0 0) (p.getD 1 0) (p.getD 2 0))) l ((corner3 (K := ℝ) 20).getD k []) = if l = k then 1 else 0 := by
  interval_cases k <;> (norm_num [valueIn, terms20x3, corner3]; interval_cases l <;> simp [valueOf])

/-- The terms in the corners. -/
theorem degradedTerms_corner (c : Code) (hd : 2 ≤ edim c) (k l : Nat) (hk : k < (nOrder c).length) (hl : l < (nOrder c).length) :
    valueIn (degradedTerms c) l ((cornersOf c).getD k []) = if l = k then 1 else 0 := by
  have hc : ((cornersOf c).getD k []).length = edim c := by
    cases c <;> first
      | exact absurd hd (by decide)
      | (simp only [cornersOf, edim, nOrder, List.length_cons, List.length_nil] at hk ⊢
         interval_cases k <;> simp [corner2, corner3])
  cases c
  case line2 => exact absurd hd (by decide)
  case line3 => exact absurd hd (by decide)
  all_goals first
    | (rw [← terms4x2_corner k l hk hl]; obtain ⟨r, s, e⟩ := List.length_eq_two.1 hc
       change (corner2 (K := ℝ) 4).getD k [] = _ at e
       change valueIn _ l ((corner2 (K := ℝ) 4).getD k []) = _
       rw [e]; rfl)
    | (rw [← terms8x2_corner k l hk hl]; obtain ⟨r, s, e⟩ := List.length_eq_two.1 hc
       change (corner2 (K := ℝ) 8).getD k [] = _ at e
       change valueIn _ l ((corner2 (K := ℝ) 8).getD k []) = _
       rw [e]; rfl)
    | (rw [← terms8x3_corner k l hk hl]; obtain ⟨r, s, t, e⟩ := List.length_eq_three.1 hc
       change (corner3 (K := ℝ) 8).getD k [] = _ at e
       change valueIn _ l ((corner3 (K := ℝ) 8).getD k []) = _
       rw [e]; rfl)
    | (rw [← terms20x3_corner k l hk hl]; obtain ⟨r, s, t, e⟩ := List.length_eq_three.1 hc
       change (corner3 (K := ℝ) 20).getD k [] = _ at e
       change valueIn _ l ((corner3 (K := ℝ) 20).getD k []) = _
       rw [e]; rfl)

theorem cornersOf_length (c : Code) (hd : 2 ≤ edim c) (k : Nat) (hk : k < (nOrder c).length) : ((cornersOf c).getD k []).length = edim c := by
  cases c <;> first
    | exact absurd hd (by decide)
    | (simp only [cornersOf, edim, nOrder, List.length_cons, List.length_nil] at hk ⊢
       interval_cases k <;> simp [corner2, corner3])

/-- The interpolation in a corner is the value of its node. -/
theorem interpolated_corner {c : Code} {gps : Nat} (h : isExplicit c gps = false) (hd : 2 ≤ edim c) (u : Nat → ℝ) (k : Nat) (hk : k < (nOrder c).length) :
    interpolated (setAt c gps) (nodes c) u ((cornersOf c).getD k []) = u ((nOrder c).getD k 0) := by
  have hp := cornersOf_length c hd k hk
  have hv := fun l hl => degradedTerms_corner c hd k l hk hl
  generalize (cornersOf c).getD k [] = p at hp hv
  obtain ⟨terms, ht, hl, hr⟩ := (degradedTerms_basis c).defined p hp
  obtain ⟨tab, e1, _, _, e2, _⟩ := degrade_eq (nodes := nodes c) (dim := edim c) (order := nOrder c) hl.symm (nOrder_lt c) hr
  unfold interpolated
  rw [setAt_degraded h]
  simp only [valueIn, ht, Option.bind_some, e1] at hv ⊢
  have e3 : ∀ n, valueOf tab n = if (nOrder c).getD k 0 = n then 1 else 0 := by
    intro n
    rw [e2, Finset.sum_eq_single k]
    · rw [show valueOf terms k = 1 by simpa using hv k hk]
    · intro l hl' hne
      rw [show valueOf terms l = 0 by simpa [hne] using hv l (by rw [← hl]; exact Finset.mem_range.1 hl')]
      split <;> rfl
    · intro hk'
      exact absurd (Finset.mem_range.2 (by rw [hl]; exact hk)) hk'
  have hlt : (nOrder c).getD k 0 < nodes c := by
    rw [List.getD_eq_getElem?_getD, List.getElem?_eq_getElem hk]
    exact nOrder_lt c _ (List.getElem_mem hk)
  simp only [Option.elim_some, e3, ite_mul, one_mul, zero_mul]
  rw [Finset.sum_ite_eq (Finset.range (nodes c)), if_pos (Finset.mem_range.2 hlt)]

theorem nOrder_surj (c : Code) : ∀ n < nodes c, ∃ k < (nOrder c).length, (nOrder c).getD k 0 = n := by cases c <;> decide

/-- The order of the Gauss rule that sees all functions of the element. -/
def kernelOrder : Code → Nat
  | .triangle3 | .square4 | .tetra4 | .pyramid5 | .prisma6 | .hexa8 => 2
  | _ => 3

theorem degraded_kernel {c : Code} {gps : Nat} (he : isExplicit c gps = false) (hd : edim c = 2 ∨ edim c = 3) {order : Nat} {rule : List (ℝ × ℝ)}
    (hr : gauss Real.sqrt order = some rule) (ho : kernelOrder c ≤ order) (u : Nat → ℝ)
    (hz : ∀ p ∈ tensor rule (edim c), ∀ tab, setAt c gps p.1 = some tab → ∀ j < edim c, ∑ n ∈ Finset.range (nodes c), u n * slopeOf tab n j = 0) :
    ∀ n < nodes c, u n = u 0 := by
  have hd' : 2 ≤ edim c := by omega
  have hb := C75_basis c gps
  rw [axis_degraded he] at hb
  have hslope : ∀ j < edim c, ∀ p : List ℝ, p.length = edim c → ∑ n ∈ Finset.range (nodes c), u n * slopeIn (setAt c gps) n j p = 0 := by
    intro j hj p hp
    have hP : Poly (each (edim c)) (columnDegree c j) fun p => ∑ n ∈ Finset.range (nodes c), u n * slopeIn (setAt c gps) n j p := by
      refine Poly.sum _ _ fun n _ => ?_
      have := (Poly.const (u n)).mul (degraded_slope he hj (fun k hk => terms_degree c hd' j hj k hk) n)
      simpa only [zero_add] using this
    have hq : columnDegree c j ≤ (kernelOrder c - 1, kernelOrder c - 1, kernelOrder c - 1) := by
      clear hz hP hr ho hb hp p he u
      cases c <;> first
        | exact absurd hd' (by decide)
        | (change j < 2 at hj; interval_cases j <;> decide)
        | (change j < 3 at hj; interval_cases j <;> decide)
    refine grid_zero hd hP hq (gauss_nodup hr) ?_ (fun q hq => ?_) p hp
    · rw [gauss_length hr]
      have : 0 < kernelOrder c := by cases c <;> decide
      omega
    · have hlen : q.1.length = edim c := by
        rcases hd with hd | hd <;> rw [hd] at hq ⊢ <;> simp only [tensor, List.mem_map, List.mem_flatMap] at hq
        · obtain ⟨r, -, s, -, rfl⟩ := hq; rfl
        · obtain ⟨r, -, s, -, t, -, rfl⟩ := hq; rfl
      obtain ⟨tab, ht, -⟩ := hb.defined q.1 hlen
      have := hz q hq tab ht j hj
      simpa only [slopeIn, ht, Option.elim_some] using this
  have hconst := interpolated_const hd hb u fun p tab j hp ht hj => by
    have := hslope j hj p hp
    simpa only [slopeIn, ht, Option.elim_some] using this
  intro n hn
  obtain ⟨k, hk, e⟩ := nOrder_surj c n hn
  obtain ⟨k0, hk0, e0⟩ := nOrder_surj c 0 (by omega)
  have := hconst ((cornersOf c).getD k []) ((cornersOf c).getD k0 []) (cornersOf_length c hd' k hk) (cornersOf_length c hd' k0 hk0)
  rwa [interpolated_corner he hd' u k hk, interpolated_corner he hd' u k0 hk0, e, e0] at this

end Verif.Fem
