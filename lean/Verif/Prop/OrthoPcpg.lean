import Verif.Proof.OrthoStop
import Verif.Prop.Pcpg
/-!
C70: the orthogonalized conjugate projected gradients in exact arithmetic.
-/
namespace Verif.Pcpg

section
variable {K V : Type} [Field K] [AddCommGroup V] [Module K V]

/-- **C70.** `r` is the residual of the multipliers and `w` is its projection; the multipliers satisfy the same constraint `G x = e` as the initial ones for every linear `G` that vanishes on the range
of the projector. -/
theorem C70_residual [DecidableEq K] (o : Ops K V) (hl : Linear o) (k : Nat) (s : OState K V) (h : oiterate o k = some s) :
    s.r = o.d - o.F s.x ∧ s.w = o.Pt (o.d - o.F s.x) ∧ ∀ (W : Type) [AddCommGroup W] [Module K W] (G : V → W), IsLinearMap K G → (∀ a, G (o.P a) = 0) → G s.x = G o.l := by
  have g := (oiterate_good hl.F k s h).1
  refine ⟨g.r, by rw [g.w, g.r], ?_⟩
  intro W _ _ G hG hGP
  exact (oiterate_feasible hG hGP k s h).1

/-- **C70.** All directions are conjugate and orthogonal to the residual, whatever is the preconditioner. -/
theorem C70_conjugate [DecidableEq K] (o : Ops K V) (hl : Linear o) (hs : HalfSymmetric o) (k : Nat) (s : OState K V) (h : oiterate o k = some s) :
    ∃ x p : Nat → V, (∀ j, j ≤ k → ∃ t, oiterate o j = some t ∧ t.x = x j ∧ t.p = p j ∧ o.P (p j) = p j) ∧
      (∀ i j, i < j → j ≤ k → o.dot (p i) (o.F (p j)) = 0) ∧ (∀ i j, i < j → j ≤ k → o.dot (p i) (o.d - o.F (x j)) = 0) := by
  have hall : ∀ j, ∃ t : OState K V, j ≤ k → oiterate o j = some t := by
    intro j
    by_cases hj : j ≤ k
    · rcases Nat.lt_or_ge j k with hjk | hjk
      · obtain ⟨t, ht, _⟩ := oiterate_stored k s h j hjk
        exact ⟨t, fun _ => ht⟩
      · exact ⟨s, fun _ => by rw [show j = k by omega]; exact h⟩
    · exact ⟨s, fun h => absurd h hj⟩
  choose t ht using hall
  have hmem : ∀ i j, i < j → j ≤ k → ∃ q ∈ (t j).ps, q.1 = (t i).p := by
    intro i j hij hj
    obtain ⟨u, hu, hq, _⟩ := oiterate_stored j (t j) (ht j hj) i hij
    rw [ht i (by omega)] at hu
    cases hu
    exact ⟨_, List.mem_of_getElem? hq, rfl⟩
  refine ⟨fun j => (t j).x, fun j => (t j).p, ?_, ?_, ?_⟩
  · intro j hj
    exact ⟨t j, ht j hj, rfl, rfl, (oiterate_conj hl hs j (t j) (ht j hj)).rangep⟩
  · intro i j hij hj
    obtain ⟨q, hq, e⟩ := hmem i j hij hj
    have := (oiterate_conj hl hs j (t j) (ht j hj)).last q hq
    rw [e] at this
    exact this
  · intro i j hij hj
    obtain ⟨q, hq, e⟩ := hmem i j hij hj
    have := (oiterate_conj hl hs j (t j) (ht j hj)).pr q hq
    rw [e, (oiterate_good hl.F j (t j) (ht j hj)).1.r] at this
    exact this

/-- **C70.** No division by zero before `yw` is zero, and this happens after at most as many steps as is the dimension of the range of the projector; the preconditioner does not have to be symmetric. -/
theorem C70_finite [DecidableEq K] [FiniteDimensional K V] (o : Ops K V) (hl : Linear o) (hs : HalfSymmetric o) (hF : ∀ a, o.P a ≠ 0 → o.dot (o.P a) (o.F (o.P a)) ≠ 0) :
    ∃ m s, m ≤ Module.finrank K (LinearMap.range (IsLinearMap.mk' o.P hl.P)) ∧ oiterate o m = some s ∧ s.yw = 0 ∧ (∀ j t, j < m → oiterate o j = some t → t.yw ≠ 0) ∧
      ((∀ a, o.Pt a ≠ 0 → o.dot (o.S (o.Pt a)) (o.Pt a) ≠ 0) → o.Pt (o.d - o.F s.x) = 0) := by
  classical
  -- some iterate has `yw = 0`
  have hex : ∃ m, ∃ s, oiterate o m = some s ∧ s.yw = 0 := by
    by_contra hno
    have hdef : ∀ k, ∃ s, oiterate o k = some s := by
      intro k
      induction k with
      | zero => exact ⟨_, rfl⟩
      | succ k ih =>
        obtain ⟨s, hs'⟩ := ih
        exact onext hl hs hF k s hs' fun h0 => hno ⟨k, s, hs', h0⟩
    obtain ⟨s, hs'⟩ := hdef (Module.finrank K (LinearMap.range (IsLinearMap.mk' o.P hl.P)) + 1)
    have := osteps_le hl hs (IsLinearMap.mk' o.P hl.P) (fun _ => rfl) _ s hs'
    omega
  obtain ⟨s, h1, h2⟩ := Nat.find_spec hex
  refine ⟨Nat.find hex, s, osteps_le hl hs (IsLinearMap.mk' o.P hl.P) (fun _ => rfl) _ s h1, h1, h2, fun j t hj ht h0 => Nat.find_min hex hj ⟨t, ht, h0⟩, ?_⟩
  intro hS
  have g := (oiterate_good hl.F _ s h1).1
  rw [← g.r]
  by_contra hne
  apply hS s.r hne
  rw [g.yw, hs.rho_eq, yOf, hs.P] at h2
  exact h2

/-- **C70.** With a symmetric preconditioner the multipliers are those of the method without the orthogonalization. -/
theorem C70_same [DecidableEq K] (o : Ops K V) (hl : Linear o) (hs : Symmetric o) (k : Nat) (s : OState K V) (h : oiterate o k = some s) (hy : ∀ j t, j < k → oiterate o j = some t → t.yw ≠ 0) :
    (iterate o k).x = some s.x ∧ (iterate o k).r = some s.r ∧ (iterate o k).p = some s.p := by
  obtain ⟨h1, h2, h3, h4⟩ := osame hl hs k s h hy
  rw [iterate_eq o k (fun j hj => (h4 j hj).1) (fun j hj => (h4 j hj).2)]
  exact ⟨congrArg some h1.symm, congrArg some h2.symm, congrArg some h3.symm⟩

end

section
variable {K V : Type} [Field K] [LinearOrder K] [IsStrictOrderedRing K] [AddCommGroup V] [Module K V]

/-- **C70.** The multipliers minimise the energy `x F x - 2 x d` over all combinations of the directions used so far. -/
theorem C70_minimal (o : Ops K V) (hl : Linear o) (hs : HalfSymmetric o) (hpos : ∀ a, 0 ≤ o.dot (o.P a) (o.F (o.P a))) (k : Nat) (s : OState K V) (h : oiterate o k = some s) :
    s.x - o.l ∈ Submodule.span K {v | ∃ j t, j < k ∧ oiterate o j = some t ∧ v = t.p} ∧
      ∀ z ∈ Submodule.span K {v | ∃ j t, j < k ∧ oiterate o j = some t ∧ v = t.p}, o.dot s.x (o.F s.x) - 2 * o.dot s.x o.d ≤ o.dot (o.l + z) (o.F (o.l + z)) - 2 * o.dot (o.l + z) o.d := by
  have c := oiterate_conj hl hs k s h
  have g := oiterate_good hl.F k s h
  have hset : {v | ∃ j t, j < k ∧ oiterate o j = some t ∧ v = t.p} = {v | ∃ q ∈ s.ps, v = q.1} := by
    ext v
    constructor
    · rintro ⟨j, t, hj, ht, rfl⟩
      obtain ⟨u, hu, hq, _⟩ := oiterate_stored k s h j hj
      rw [ht] at hu
      cases hu
      exact ⟨_, List.mem_of_getElem? hq, rfl⟩
    · rintro ⟨q, hq, rfl⟩
      obtain ⟨i, hi, rfl⟩ := List.mem_iff_getElem.1 hq
      obtain ⟨u, hu, hq, _⟩ := oiterate_stored k s h i (by omega)
      rw [List.getElem?_eq_getElem hi] at hq
      exact ⟨i, u, by omega, hu, by rw [Option.some.inj hq]⟩
  rw [hset]
  have hsp := ox_span o k s h
  refine ⟨hsp, ?_⟩
  intro z hz
  obtain ⟨v, hv⟩ : ∃ v, v = o.l + z - s.x := ⟨_, rfl⟩
  have hvs : v ∈ Submodule.span K {v | ∃ q ∈ s.ps, v = q.1} := by
    have e : v = z - (s.x - o.l) := by rw [hv]; abel
    rw [e]
    exact Submodule.sub_mem _ hz hsp
  have hor := ospan_orth hs c hvs
  have hPv : o.P v = v := by
    clear hor hv
    induction hvs using Submodule.span_induction with
    | mem a ha => obtain ⟨q, hq, rfl⟩ := ha; exact c.range q hq
    | zero => have := hl.P.map_smul 0 0; simpa using this
    | add a b _ _ ha hb => rw [hl.P.map_add, ha, hb]
    | smul a b _ hb => rw [hl.P.map_smul, hb]
  have hp := hpos v
  rw [hPv] at hp
  have hx : o.l + z = s.x + v := by rw [hv]; abel
  rw [g.1.r] at hor
  have hor' : o.dot v o.d = o.dot v (o.F s.x) := by
    have : o.d = (o.d - o.F s.x) + o.F s.x := by abel
    rw [this, hs.dot_add', hor, zero_add]
  rw [hx, hl.F.map_add, hs.dot_add, hs.dot_add', hs.dot_add', hs.dot_add _ _ o.d, hor']
  have e : o.dot s.x (o.F v) = o.dot v (o.F s.x) := by rw [← hs.F, hs.dot_comm]
  rw [e]
  linarith

end

section
variable {K V : Type} [Field K] [LinearOrder K] [AddCommGroup V] [Module K V]

/-- **C70.** The run stops at the first check with a reason to stop and reports this reason; as without the orthogonalization the returned multipliers are one step further than the checked ones. -/
theorem C70_stops (o : Ops K V) (cfg : Config K) (hm : 1 ≤ cfg.maxStagnation) (hs : ¬ satisfiedAtStart cfg (some (ostart o).yw)) (i : Nat) (hi : 1 ≤ i) (e : Error) (s : OState K V)
    (hdef : oiterate o i = some s) (hall : ∀ j, 1 ≤ j → j < i → stopReason cfg (fun j => measured cfg (some (ostart o).yw) ((oiterate o (j - 1)).map OState.yw)) j = none)
    (hr : stopReason cfg (fun j => measured cfg (some (ostart o).yw) ((oiterate o (j - 1)).map OState.yw)) i = some e) :
    ∃ out, (∀ f, i ≤ f → osolve o cfg f = some (s, out)) ∧ out.converged = true ∧ out.error = e ∧ out.iterations = i :=
  let ⟨out, h1, h2, h3, h4, _⟩ := osolve_stops o cfg hm hs i hi e s hdef hall hr
  ⟨out, h1, h2, h3, h4⟩

/-- **C70.** The run does not stop without a reason. -/
theorem C70_reason (o : Ops K V) (cfg : Config K) (hm : 1 ≤ cfg.maxStagnation) (f : Nat) (s : OState K V) (out : Info K) (h : osolve o cfg f = some (s, out)) :
    (satisfiedAtStart cfg (some (ostart o).yw) ∧ s = ostart o ∧ out.error = .ok) ∨
    ∃ i, 1 ≤ i ∧ i ≤ f ∧ (∀ j, 1 ≤ j → j < i → stopReason cfg (fun j => measured cfg (some (ostart o).yw) ((oiterate o (j - 1)).map OState.yw)) j = none) ∧
      stopReason cfg (fun j => measured cfg (some (ostart o).yw) ((oiterate o (j - 1)).map OState.yw)) i = some out.error ∧ oiterate o i = some s ∧ out.iterations = i := by
  classical
  by_cases hs : satisfiedAtStart cfg (some (ostart o).yw)
  · rw [osolve_start o cfg hs] at h
    cases h
    exact Or.inl ⟨hs, rfl, rfl⟩
  · obtain ⟨j, h1, h2, h3, h4, h5, h6⟩ := oloop_some o cfg hm f 1 _ (ostart o) s out (Nat.le_refl 1) (oset_before o cfg hs) rfl h
    exact Or.inr ⟨j, h1, by omega, h3, h4, h5, h6⟩

end

/-! ### Cases -/

/-- Three multipliers and a preconditioner that is not symmetric: the method without the orthogonalization loses the conjugacy. -/
def skew : Ops ℚ (ℚ × ℚ × ℚ) where
  F := fun a => (a.1, 2 * a.2.1, 3 * a.2.2)
  P := id
  Pt := id
  S := fun a => (a.1 + a.2.1, a.2.1 - a.1, a.2.2)
  d := (1, 2, 3)
  l := (0, 0, 0)
  dot := fun a b => a.1 * b.1 + a.2.1 * b.2.1 + a.2.2 * b.2.2

theorem skew_linear : Linear skew := by
  constructor <;> constructor <;> intros <;> simp [skew] <;> (try constructor) <;> (try constructor) <;> ring

theorem skew_half : HalfSymmetric skew := by
  constructor <;> intros <;> simp [skew] <;> (try constructor) <;> ring

theorem sum_squares {a b c : ℚ} (h : a * a + b * b + c * c = 0) : a = 0 ∧ b = 0 ∧ c = 0 := by
  have h1 := mul_self_nonneg a
  have h2 := mul_self_nonneg b
  have h3 := mul_self_nonneg c
  exact ⟨mul_self_eq_zero.1 (by linarith), mul_self_eq_zero.1 (by linarith), mul_self_eq_zero.1 (by linarith)⟩

theorem skew_definite (a : ℚ × ℚ × ℚ) (h : skew.P a ≠ 0) : skew.dot (skew.P a) (skew.F (skew.P a)) ≠ 0 := by
  intro h0
  apply h
  simp only [skew, id] at h0 ⊢
  have h1 := mul_self_nonneg a.1
  have h2 := mul_self_nonneg a.2.1
  have h3 := mul_self_nonneg a.2.2
  have : a.1 * a.1 + a.2.1 * a.2.1 + a.2.2 * a.2.2 = 0 := by
    have e1 : a.1 * a.1 = 0 := by linarith
    have e2 : a.2.1 * a.2.1 = 0 := by linarith
    have e3 : a.2.2 * a.2.2 = 0 := by linarith
    rw [e1, e2, e3]
    ring
  obtain ⟨e1, e2, e3⟩ := sum_squares this
  ext <;> assumption

example := C70_finite skew skew_linear skew_half skew_definite

theorem skew_third : ∃ s, oiterate skew 3 = some s ∧ s.x = (1, 1, 1) ∧ s.w = 0 ∧ s.yw = 0 := by
  have h : (oiterate skew 3).map (fun s => (s.x, s.w, s.yw)) = some ((1, 1, 1), 0, 0) := by decide +kernel
  obtain ⟨s, hs, he⟩ := Option.map_eq_some_iff.1 h
  simp only [Prod.mk.injEq] at he
  exact ⟨s, hs, by ext <;> simp [he.1], he.2.1, he.2.2⟩

/-- Three steps to the solution; the third direction of the method without the orthogonalization is not conjugate to the first. -/
example : ∃ p q, (iterate skew 0).p = some p ∧ (iterate skew 2).p = some q ∧ skew.dot p (skew.F q) ≠ 0 := by
  refine ⟨(3, 1, 3), (3922732 / 6739605, 52174844 / 33698025, -1255004 / 3744225), by decide +kernel, by decide +kernel, by decide +kernel⟩

example := fun s h => C70_residual skew skew_linear 3 s h
example := fun s h => C70_conjugate skew skew_linear skew_half 3 s h

theorem skew_positive (a : ℚ × ℚ × ℚ) : 0 ≤ skew.dot (skew.P a) (skew.F (skew.P a)) := by
  simp only [skew, id]
  have h1 := mul_self_nonneg a.1
  have h2 := mul_self_nonneg a.2.1
  have h3 := mul_self_nonneg a.2.2
  linarith

example := fun s h => C70_minimal skew skew_linear skew_half skew_positive 3 s h

example := fun s h hy => C70_same pair pair_linear pair_symmetric 1 s h hy
example : ∃ s, oiterate pair 1 = some s ∧ s.x = (1 / 3, 5 / 3) ∧ (ostart pair).yw ≠ 0 := by
  have h : (oiterate pair 1).map (fun s => s.x) = some (1 / 3, 5 / 3) := by decide +kernel
  obtain ⟨s, hs, he⟩ := Option.map_eq_some_iff.1 h
  exact ⟨s, hs, he, by decide +kernel⟩

/-- The absolute criterion stops the run at the second check; the third step is not made. -/
example : ∃ s out, osolve skew { unitConfig with criterion := .absolute, precision := 2 } 10 = some (s, out) ∧ out.error = .ok ∧ out.iterations = 2 ∧ s.x = (125 / 89, 71 / 89, 81 / 89) := by
  have h2 : (oiterate skew 2).map (fun s => s.x) = some (125 / 89, 71 / 89, 81 / 89) := by decide +kernel
  obtain ⟨s, hs, he⟩ := Option.map_eq_some_iff.1 h2
  obtain ⟨out, h1, h2, h3, h4⟩ := C70_stops skew { unitConfig with criterion := .absolute, precision := 2 } (by decide) (by intro h; exact absurd h (by unfold satisfiedAtStart; decide +kernel)) 2 (by decide) .ok s hs
    (fun j h1 h2 => by
      have : j = 1 := by omega
      subst this
      decide +kernel)
    (by decide +kernel)
  exact ⟨s, out, h1 10 (by decide), h3, h4, he⟩

end Verif.Pcpg
