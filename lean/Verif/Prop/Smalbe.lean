import Verif.Proof.Smalbe
/-!
C74: the semimonotonic augmented Lagrangians in exact arithmetic.
-/
namespace Verif.Mprgp

variable {ι κ K : Type} [Fintype ι] [Fintype κ] [Field K] [LinearOrder K] [IsStrictOrderedRing K]

/-- **C74.** The multipliers of every result satisfy the bounds, also when the iterations are exhausted. -/
theorem C74_feasible (S : SProblem ι κ K) {G : (ι → K) → κ → K} {Gt : (κ → K) → ι → K} (h : Consistent S G Gt) (cfg : SConfig K) (hr : 0 < cfg.rho) (ha : 0 < cfg.alpham) (fuel : Nat)
    (r : SResult ι κ K) (p : SReport ι κ K) (hs : smalbe S cfg fuel = some (r, p)) : S.B.Has p.x := by
  obtain ⟨g, e⟩ := smalbe_good h ⟨hr, ha⟩ hs
  rw [e]
  exact ((sbegin_box h cfg).2.2 r.x).1 g.has

/-- The equality constraint of the kernels of a result. -/
theorem sfinish_equality {S : SProblem ι κ K} {G : (ι → K) → κ → K} {Gt : (κ → K) → ι → K} (h : Consistent S G Gt) (cfg : SConfig K) (r : SResult ι κ K) (hg : r.Gx = S.invLG r.x) :
    S.invL (G (sfinish S cfg (sbegin S cfg).1 r).x) = r.Gx + if cfg.sqrt (dot (S.invL S.e) (S.invL S.e)) > 10 * cfg.precision then S.invL S.e else 0 := by
  rw [← h.invLG, hg]
  show S.invLG (r.x + (1 : K) • (sbegin S cfg).1.xim) = _
  rw [h.linear'.map_add, h.linear'.map_smul, one_smul]
  congr 1
  unfold sbegin homogenize
  dsimp only
  split
  · exact h.orthonormal _
  · exact h.linear'.map_zero

/-- **C74.** What a result after `break` satisfies: `r` is the tested gradient, `c` the violation of the equality constraint, both are below the precision. With the amplitudes of the kernels
the gradient of the Lagrange function is, up to `r` and `c`, normal to the bounds. The equality constraint holds up to `c` only when the load of the kernels exceeds ten times the precision. -/
theorem C74_result_partial (S : SProblem ι κ K) {G : (ι → K) → κ → K} {Gt : (κ → K) → ι → K} (h : Consistent S G Gt) (cfg : SConfig K) (hr : 0 < cfg.rho) (ha : 0 < cfg.alpham) (fuel : Nat)
    (r : SResult ι κ K) (p : SReport ι κ K) (hs : smalbe S cfg fuel = some (r, p)) (hb : r.broke = true) :
    cfg.sqrt (dot r.gstop r.gstop) ≤ cfg.precision * (sbegin S cfg).1.normb ∧ cfg.sqrt (dot r.Gx r.Gx) ≤ cfg.precision * (sbegin S cfg).1.normb ∧
      (∀ u, S.B.Has u → 0 ≤ dot (S.F p.x - S.d + Gt p.rbm + (S.normPFP * cfg.rho) • S.GtinvU r.Gx - S.P (S.F (S.GtinvU r.Gx)) - S.normPFP • r.gstop) (u - p.x + cfg.alpham • r.gstop)) ∧
      (cfg.sqrt (dot (S.invL S.e) (S.invL S.e)) > 10 * cfg.precision → S.invL (G p.x) = S.invL S.e + r.Gx) := by
  obtain ⟨g, e⟩ := smalbe_good h ⟨hr, ha⟩ hs
  refine ⟨(g.broke hb).1, (g.broke hb).2, fun u hu => ?_, fun hl => ?_⟩
  · obtain ⟨hB, _, hbox⟩ := sbegin_box h cfg
    obtain ⟨v, hv⟩ : ∃ v, v = u + (-1 : K) • (sbegin S cfg).1.xim := ⟨_, rfl⟩
    have hv' : (sbegin S cfg).1.B.Has v := by
      refine (hbox v).2 ?_
      rw [hv, add_assoc, ← add_smul, neg_add_cancel, zero_smul, add_zero]
      exact hu
    have hvi := reduced_vi (inner_valid h ⟨hr, ha⟩ hB { x0 := 0, mu := r.mu, bCtmu := ctmu S (sbegin S cfg).1.b r.mu, M := 0, Lag0 := none, iterations := 0 }) (x := r.x) g.has hv'
    have hst := g.stop hb
    change 0 ≤ dot ((applyA S cfg.rho r.x + (-1 : K) • ctmu S (sbegin S cfg).1.b r.mu) +
      (-1 : K) • reducedGradient (sbegin S cfg).1.B (applyA S cfg.rho r.x + (-1 : K) • ctmu S (sbegin S cfg).1.b r.mu) r.x (cfg.alpham / 1))
      (v + (-1 : K) • r.x + (cfg.alpham / 1) • reducedGradient (sbegin S cfg).1.B (applyA S cfg.rho r.x + (-1 : K) • ctmu S (sbegin S cfg).1.b r.mu) r.x (cfg.alpham / 1)) at hvi
    rw [← hst, div_one] at hvi
    have hgr := gradient_homogenized h cfg.rho r.x (sbegin S cfg).1.xim _ r.mu (sbegin_rhs h cfg)
    have hN := mul_nonneg (le_of_lt h.norm) hvi
    rw [← smul_dot, smul_add, hgr, ← g.Gx] at hN
    refine le_of_le_of_eq hN ?_
    rw [e, hv]
    refine Finset.sum_congr rfl fun i _ => ?_
    simp only [sfinish, Pi.add_apply, Pi.sub_apply, Pi.smul_apply, smul_eq_mul]
    ring
  · rw [e, sfinish_equality h cfg r g.Gx, if_pos hl, add_comm]

/-- **C74.** When both tested vectors are zero, the result is the solution: it satisfies the bounds and the equality constraint, minimises the quadratic function among all such multipliers, and the
amplitudes of the kernels are the Lagrange multipliers of the equality constraint. The load of the kernels has to be zero or to exceed ten times the precision. -/
theorem C74_solution_partial (S : SProblem ι κ K) {G : (ι → K) → κ → K} {Gt : (κ → K) → ι → K} (h : Consistent S G Gt) (cfg : SConfig K) (hr : 0 < cfg.rho) (ha : 0 < cfg.alpham) (fuel : Nat)
    (r : SResult ι κ K) (p : SReport ι κ K) (hs : smalbe S cfg fuel = some (r, p)) (hb : r.broke = true) (hg : r.gstop = 0) (hx : r.Gx = 0)
    (he : S.e = 0 ∨ cfg.sqrt (dot (S.invL S.e) (S.invL S.e)) > 10 * cfg.precision) :
    S.B.Has p.x ∧ G p.x = S.e ∧ (∀ u, S.B.Has u → 0 ≤ dot (S.F p.x - S.d + Gt p.rbm) (u - p.x)) ∧ ∀ u, S.B.Has u → G u = S.e → cost S.F S.d p.x ≤ cost S.F S.d u := by
  have hf := C74_feasible S h cfg hr ha fuel r p hs
  have hG : G p.x = S.e := by
    obtain ⟨g, e⟩ := smalbe_good h ⟨hr, ha⟩ hs
    apply h.injective
    have := sfinish_equality h cfg r g.Gx
    rw [e, this, hx, zero_add]
    split
    · rfl
    · rename_i hn
      rcases he with he | he
      · rw [he, invL_zero h]
      · exact absurd he hn
  have hvi : ∀ u, S.B.Has u → 0 ≤ dot (S.F p.x - S.d + Gt p.rbm) (u - p.x) := by
    intro u hu
    have := (C74_result_partial S h cfg hr ha fuel r p hs hb).2.2.1 u hu
    rw [hg, hx, h.linear.map_zero, h.F.linear.map_zero, (P_linear h).map_zero] at this
    simpa using this
  refine ⟨hf, hG, hvi, fun u hu hGu => ?_⟩
  have h1 := hvi u hu
  have e1 : u - p.x = u + (-1 : K) • p.x := by
    rw [neg_smul, one_smul, sub_eq_add_neg]
  have h2 : dot (Gt p.rbm) (u - p.x) = 0 := by
    rw [dot_comm, h.adjoint, e1, h.Glinear.map_add, h.Glinear.map_smul, hGu, hG, neg_smul, one_smul, add_neg_cancel]
    simp [dot]
  rw [add_dot, h2, add_zero] at h1
  have h3 := cost_line h.F S.d p.x (u + (-1 : K) • p.x) 1
  have h4 := h.Fpos (u + (-1 : K) • p.x)
  have e2 : u = p.x + (1 : K) • (u + (-1 : K) • p.x) := by
    rw [one_smul, neg_smul, one_smul]
    abel
  rw [← e2] at h3
  rw [h3, ← e1, dot_comm (u - p.x)]
  rw [← e1] at h4
  have e3 : S.F p.x - S.d = S.F p.x + (-1 : K) • S.d := by rw [neg_smul, one_smul, sub_eq_add_neg]
  rw [e3] at h1
  linarith

/-- **C74.** A load of the kernels that is not zero but does not exceed ten times the precision is ignored: whenever the loop ends with a zero tested violation, the equality constraint is violated. -/
theorem C74_small_load (S : SProblem ι κ K) {G : (ι → K) → κ → K} {Gt : (κ → K) → ι → K} (h : Consistent S G Gt) (cfg : SConfig K) (hr : 0 < cfg.rho) (ha : 0 < cfg.alpham) (fuel : Nat)
    (r : SResult ι κ K) (p : SReport ι κ K) (hs : smalbe S cfg fuel = some (r, p)) (hx : r.Gx = 0) (he : S.e ≠ 0) (hsmall : cfg.sqrt (dot (S.invL S.e) (S.invL S.e)) ≤ 10 * cfg.precision) :
    G p.x = 0 ∧ G p.x ≠ S.e := by
  obtain ⟨g, e⟩ := smalbe_good h ⟨hr, ha⟩ hs
  have := sfinish_equality h cfg r g.Gx
  rw [hx, zero_add, if_neg (not_lt.2 hsmall), ← e] at this
  have h1 : G p.x = 0 := h.injective _ _ (by rw [this, invL_zero h])
  exact ⟨h1, fun h2 => he (h2 ▸ h1)⟩

/-- **C74.** The report never says that the method converged, and says that the iterations were exhausted exactly when the count exceeds the limit, also after `break`. -/
theorem C74_never_converged (S : SProblem ι κ K) (cfg : SConfig K) (fuel : Nat) (r : SResult ι κ K) (p : SReport ι κ K) (hs : smalbe S cfg fuel = some (r, p)) :
    p.converged = false ∧ (p.error = true ↔ cfg.maxIterations < r.iterations) := by
  unfold smalbe at hs
  simp only [Option.bind_eq_bind, Option.bind_eq_some_iff] at hs
  obtain ⟨r', _, hs⟩ := hs
  cases hs
  exact ⟨rfl, by simp [sfinish]⟩

omit [IsStrictOrderedRing K] in
/-- The loop ends without `break` only when the count exceeds the limit. -/
theorem sloop_limit (S : SProblem ι κ K) (cfg : SConfig K) (f : SFixed ι K) (fuel : Nat) (s : SState ι κ K) (last r : SResult ι κ K) (hl : last.iterations = s.iterations)
    (hr : sloop S cfg f fuel s last = some r) : r.broke = true ∨ cfg.maxIterations < r.iterations := by
  induction fuel generalizing s last with
  | zero => cases hr
  | succ fuel ih =>
    unfold sloop at hr
    split at hr
    · simp only [Option.bind_eq_bind, Option.bind_eq_some_iff] at hr
      obtain ⟨n, hn, hr⟩ := hr
      split at hr
      · rename_i hb
        cases hr
        exact .inl hb
      · rename_i hb
        refine ih n.2 n.1 ?_ hr
        unfold sbody at hn
        simp only [Option.bind_eq_bind, Option.bind_eq_some_iff] at hn
        obtain ⟨t, _, hn⟩ := hn
        split at hn
        · cases hn
          exact absurd rfl hb
        · cases hn
          rfl
    · rename_i h
      cases hr
      right
      omega

/-- **C74.** A result without `break` is always reported as an error. The converse is false (`C74_converged_as_error`). -/
theorem C74_report_partial (S : SProblem ι κ K) (cfg : SConfig K) (fuel : Nat) (r : SResult ι κ K) (p : SReport ι κ K) (hs : smalbe S cfg fuel = some (r, p)) (hb : r.broke = false) : p.error = true := by
  refine (C74_never_converged S cfg fuel r p hs).2.2 ?_
  unfold smalbe at hs
  simp only [Option.bind_eq_bind, Option.bind_eq_some_iff] at hs
  obtain ⟨r', hl, hs⟩ := hs
  cases hs
  rcases sloop_limit S cfg _ fuel _ _ _ rfl hl with h | h
  · rw [hb] at h
    cases h
  · exact h

end Verif.Mprgp
