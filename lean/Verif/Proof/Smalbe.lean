import Verif.Model.Smalbe
import Verif.Proof.MprgpRun
/-!
The outer loop of `SMALBE`.
-/
namespace Verif.Mprgp

variable {ι κ K : Type} [Fintype ι] [Fintype κ] [Field K] [LinearOrder K] [IsStrictOrderedRing K]

/-- The operators of the projector and the dual operator: `G` with its transposed `Gt`, `invLG = inv(L) G` with orthonormal rows, `F` symmetric and positive semidefinite. -/
structure Consistent (S : SProblem ι κ K) (G : (ι → K) → κ → K) (Gt : (κ → K) → ι → K) : Prop where
  F : Quadratic S.F
  Fpos : ∀ v, 0 ≤ dot v (S.F v)
  adjoint : ∀ v w, dot v (Gt w) = dot (G v) w
  GtinvU : ∀ w, S.GtinvU w = Gt (S.invU w)
  invLG : ∀ v, S.invLG v = S.invL (G v)
  injective : ∀ v w, S.invL v = S.invL w → v = w
  Glinear : IsLinearMap K G
  linear : IsLinearMap K S.GtinvU
  linear' : IsLinearMap K S.invLG
  adjoint' : ∀ v w, dot v (S.GtinvU w) = dot (S.invLG v) w
  orthonormal : ∀ w, S.invLG (S.GtinvU w) = w
  projector : ∀ v, S.P v = v + (-1 : K) • S.GtinvU (S.invLG v)
  prec : ∀ M, S.M = some M → ∀ v, 0 ≤ dot v (M v)
  norm : 0 < S.normPFP
  proper : S.B.Proper
  zero : S.B.Has 0

variable {S : SProblem ι κ K} {G : (ι → K) → κ → K} {Gt : (κ → K) → ι → K}

theorem P_linear (h : Consistent S G Gt) : IsLinearMap K S.P where
  map_add u v := by
    rw [h.projector, h.projector, h.projector, h.linear'.map_add, h.linear.map_add, smul_add]
    abel
  map_smul c v := by
    rw [h.projector, h.projector, h.linear'.map_smul, h.linear.map_smul, smul_add, smul_comm]

theorem invL_zero (h : Consistent S G Gt) : S.invL 0 = 0 := by
  have := h.invLG 0
  rw [h.linear'.map_zero, h.Glinear.map_zero] at this
  exact this.symm

theorem P_symm (h : Consistent S G Gt) (u v : ι → K) : dot u (S.P v) = dot v (S.P u) := by
  rw [h.projector, h.projector, dot_add, dot_add, dot_smul, dot_smul, h.adjoint', h.adjoint', dot_comm u v, dot_comm (S.invLG u)]

theorem P_idem (h : Consistent S G Gt) (v : ι → K) : S.P (S.P v) = S.P v := by
  have : S.invLG (S.P v) = 0 := by
    rw [h.projector, h.linear'.map_add, h.linear'.map_smul, h.orthonormal]
    simp
  rw [h.projector (S.P v), this, h.linear.map_zero]
  simp

theorem applyA_quadratic (h : Consistent S G Gt) (rho : K) : Quadratic (applyA S rho) where
  linear :=
    { map_add := fun u v => by
        unfold applyA
        dsimp only
        rw [(P_linear h).map_add, h.F.linear.map_add, (P_linear h).map_add]
        simp only [smul_add]
        abel
      map_smul := fun c v => by
        unfold applyA
        dsimp only
        rw [(P_linear h).map_smul, h.F.linear.map_smul, (P_linear h).map_smul]
        simp only [smul_add]
        rw [smul_comm c (1 / S.normPFP), smul_comm c rho, smul_comm c (-rho)] }
  symm u v := by
    unfold applyA
    simp only [dot_add, dot_smul]
    rw [P_symm h u (S.F (S.P v)), P_symm h v (S.F (S.P u)), P_symm h u v, dot_comm u v, dot_comm (S.F (S.P v)), dot_comm (S.F (S.P u)), h.F.symm (S.P u) (S.P v)]

/-- The part outside the range of the projector. -/
theorem dot_complement (h : Consistent S G Gt) (v : ι → K) : dot v v - dot v (S.P v) = dot (S.invLG v) (S.invLG v) := by
  rw [h.projector, dot_add, dot_smul, h.adjoint']
  ring

theorem applyA_pos (h : Consistent S G Gt) {rho : K} (hr : 0 ≤ rho) (v : ι → K) : 0 ≤ dot v (applyA S rho v) := by
  unfold applyA
  simp only [dot_add, dot_smul]
  rw [P_symm h v (S.F (S.P v)), dot_comm (S.F (S.P v))]
  have h1 := mul_nonneg (one_div_nonneg.2 (le_of_lt h.norm)) (h.Fpos (S.P v))
  have h2 := mul_nonneg hr (dot_self_nonneg (S.invLG v))
  rw [← dot_complement h] at h2
  linarith

theorem applyAprec_pos (h : Consistent S G Gt) {rho : K} (hr : 0 < rho) (v : ι → K) : 0 ≤ dot v (applyAprec S rho v) := by
  unfold applyAprec
  split
  · rename_i M hM
    simp only [dot_add, dot_smul]
    rw [P_symm h v (M (S.P v)), dot_comm (M (S.P v))]
    have h1 := mul_nonneg (le_of_lt h.norm) (h.prec M hM (S.P v))
    have h2 := mul_nonneg (one_div_nonneg.2 (le_of_lt hr)) (dot_self_nonneg (S.invLG v))
    rw [← dot_complement h] at h2
    linarith
  · exact dot_self_nonneg v

/-- The settings. -/
structure SConfig.Ok (cfg : SConfig K) : Prop where
  rho : 0 < cfg.rho
  alpham : 0 < cfg.alpham

/-- The problem of every run is the one of MPRGP. -/
theorem inner_valid (h : Consistent S G Gt) {cfg : SConfig K} (hc : cfg.Ok) {f : SFixed ι K} (hB : f.B.Proper) (s : SState ι κ K) : Valid (inner S cfg f s) :=
  ⟨hB, applyA_quadratic h _, applyA_pos h (le_of_lt hc.rho), applyAprec_pos h hc.rho, by show 0 < cfg.alpham / 1; rw [div_one]; exact hc.alpham⟩

omit [Fintype ι] in
theorem shift_proper {B : Box ι K} (hB : B.Proper) (x : ι → K) : (B.shift x).Proper := by
  intro i hi
  have := hB i hi
  show (if B.bounded i then B.lb i - x i else B.lb i) ≤ if B.bounded i then B.ub i - x i else B.ub i
  have hb : B.bounded i = true := hi
  rw [if_pos hb, if_pos hb]
  linarith

omit [Fintype ι] in
theorem shift_has {B : Box ι K} (x y : ι → K) : (B.shift x).Has y ↔ B.Has (y + (1 : K) • x) := by
  have h : ∀ i, B.bounded i = true → (((B.shift x).lb i ≤ y i ∧ y i ≤ (B.shift x).ub i) ↔ (B.lb i ≤ (y + (1 : K) • x) i ∧ (y + (1 : K) • x) i ≤ B.ub i)) := by
    intro i hi
    show ((if B.bounded i then B.lb i - x i else B.lb i) ≤ y i ∧ y i ≤ if B.bounded i then B.ub i - x i else B.ub i) ↔ (B.lb i ≤ y i + 1 * x i ∧ y i + 1 * x i ≤ B.ub i)
    rw [if_pos hi, if_pos hi]
    constructor
    · rintro ⟨a, b⟩
      constructor <;> linarith
    · rintro ⟨a, b⟩
      constructor <;> linarith
  exact ⟨fun hy i hi => (h i hi).1 (hy i hi), fun hy i hi => (h i hi).2 (hy i hi)⟩

/-- The homogenization: the bounds of the homogenized multipliers are the given ones. -/
theorem sbegin_box (h : Consistent S G Gt) (cfg : SConfig K) : (sbegin S cfg).1.B.Proper ∧ (sbegin S cfg).1.B.Has (sbegin S cfg).2.x0 ∧
    ∀ y, (sbegin S cfg).1.B.Has y ↔ S.B.Has (y + (1 : K) • (sbegin S cfg).1.xim) := by
  unfold sbegin homogenize
  dsimp only
  split
  · refine ⟨shift_proper h.proper _, (shift_has _ _).2 ?_, fun y => shift_has _ _⟩
    rw [zero_add, ← add_smul, neg_add_cancel, zero_smul]
    exact h.zero
  · refine ⟨h.proper, h.zero, fun y => ?_⟩
    rw [smul_zero, add_zero]

/-- What holds for a result. -/
structure SGood (S : SProblem ι κ K) (cfg : SConfig K) (f : SFixed ι K) (r : SResult ι κ K) : Prop where
  has : f.B.Has r.x
  Gx : r.Gx = S.invLG r.x
  stop : r.broke = true → r.gstop = reducedGradient f.B (applyA S cfg.rho r.x + (-1 : K) • ctmu S f.b r.mu) r.x (cfg.alpham / 1)
  broke : r.broke = true → cfg.sqrt (dot r.gstop r.gstop) ≤ cfg.precision * f.normb ∧ cfg.sqrt (dot r.Gx r.Gx) ≤ cfg.precision * f.normb

theorem sbody_good (h : Consistent S G Gt) {cfg : SConfig K} (hc : cfg.Ok) {f : SFixed ι K} (hB : f.B.Proper) {s : SState ι κ K} (hs : f.B.Has s.x0 ∧ s.bCtmu = ctmu S f.b s.mu)
    {n : SResult ι κ K × SState ι κ K} (hn : sbody S cfg f s = some n) : SGood S cfg f n.1 ∧ f.B.Has n.2.x0 ∧ n.2.bCtmu = ctmu S f.b n.2.mu := by
  unfold sbody at hn
  simp only [Option.bind_eq_bind, Option.bind_eq_some_iff] at hn
  obtain ⟨⟨t, info⟩, ht, hn⟩ := hn
  have hv := inner_valid h hc hB s
  have hi := (mloop_inv hv cfg.toConfig _ _ (begin_inv (P := inner S cfg f s) cfg.eps hs.1) ht).1
  have hg : t.g = applyA S cfg.rho t.x + (-1 : K) • s.bCtmu := hi.gradient
  have hx : f.B.Has t.x := hi.has
  split at hn
  · rename_i hcond
    cases hn
    refine ⟨⟨hx, rfl, fun _ => ?_, fun _ => ?_⟩, hs.1, hs.2⟩
    · show reducedGradient f.B t.g t.x (cfg.alpham / 1) = _
      rw [hg, hs.2]
    · exact ⟨hcond.1, by have := hcond.2; rwa [div_one] at this⟩
  · cases hn
    exact ⟨⟨hx, rfl, fun e => Bool.noConfusion e, fun e => Bool.noConfusion e⟩, hx, rfl⟩

theorem sloop_good (h : Consistent S G Gt) {cfg : SConfig K} (hc : cfg.Ok) {f : SFixed ι K} (hB : f.B.Proper) (fuel : Nat) {s : SState ι κ K} (hs : f.B.Has s.x0 ∧ s.bCtmu = ctmu S f.b s.mu)
    {last r : SResult ι κ K} (hl : SGood S cfg f last) (hr : sloop S cfg f fuel s last = some r) : SGood S cfg f r := by
  induction fuel generalizing s last with
  | zero => cases hr
  | succ fuel ih =>
    unfold sloop at hr
    split at hr
    · simp only [Option.bind_eq_bind, Option.bind_eq_some_iff] at hr
      obtain ⟨n, hn, hr⟩ := hr
      obtain ⟨g1, g2⟩ := sbody_good h hc hB hs hn
      split at hr
      · cases hr
        exact g1
      · exact ih g2 g1 hr
    · cases hr
      exact hl

theorem smalbe_good (h : Consistent S G Gt) {cfg : SConfig K} (hc : cfg.Ok) {fuel : Nat} {r : SResult ι κ K} {p : SReport ι κ K} (hr : smalbe S cfg fuel = some (r, p)) :
    SGood S cfg (sbegin S cfg).1 r ∧ p = sfinish S cfg (sbegin S cfg).1 r := by
  unfold smalbe at hr
  simp only [Option.bind_eq_bind, Option.bind_eq_some_iff] at hr
  obtain ⟨r', hl, hr⟩ := hr
  cases hr
  obtain ⟨hB, hx, _⟩ := sbegin_box h cfg
  refine ⟨sloop_good h hc hB fuel ⟨hx, rfl⟩ ⟨restrictToBox_has hB _, rfl, fun e => Bool.noConfusion e, fun e => Bool.noConfusion e⟩ hl, rfl⟩

/-- The right-hand side and `x_im`. -/
theorem sbegin_rhs (h : Consistent S G Gt) (cfg : SConfig K) : (sbegin S cfg).1.b = (1 / S.normPFP) • S.P (S.d + (-1 : K) • S.F (sbegin S cfg).1.xim) := by
  unfold sbegin homogenize
  dsimp only
  split
  · rfl
  · rw [h.F.linear.map_zero, smul_zero, add_zero]

omit [LinearOrder K] [IsStrictOrderedRing K] [Fintype κ] in
/-- A vector is given by its scalar products. -/
theorem eq_of_dot [LinearOrder K] [IsStrictOrderedRing K] {a b : ι → K} (h : ∀ v, dot v a = dot v b) : a = b := by
  have h1 : dot (a + (-1 : K) • b) (a + (-1 : K) • b) = 0 := by
    rw [dot_add, dot_smul, h]
    ring
  have h2 := dot_self_eq_zero h1
  funext i
  have : a i + -1 * b i = 0 := congrFun h2 i
  linarith

theorem Gt_smul (h : Consistent S G Gt) (c : K) (w : κ → K) : Gt (c • w) = c • Gt w :=
  eq_of_dot fun v => by rw [h.adjoint, dot_smul, dot_smul, h.adjoint]

/-- The gradient of the problem of one run and the gradient of the Lagrange function with the amplitudes of the kernels. -/
theorem gradient_homogenized (h : Consistent S G Gt) (rho : K) (x xim b : ι → K) (mu : κ → K) (hb : b = (1 / S.normPFP) • S.P (S.d + (-1 : K) • S.F xim)) :
    S.normPFP • (applyA S rho x + (-1 : K) • ctmu S b mu) =
      (S.F (x + (1 : K) • xim) + (-1 : K) • S.d + Gt ((-1 : K) • S.invU (S.invLG (S.F (x + (1 : K) • xim) + (-1 : K) • S.d) + (-S.normPFP) • mu))) +
        ((S.normPFP * rho) • S.GtinvU (S.invLG x) + (-1 : K) • S.P (S.F (S.GtinvU (S.invLG x)))) := by
  have hN : S.normPFP ≠ 0 := ne_of_gt h.norm
  rw [Gt_smul h, ← h.GtinvU, h.linear.map_add, h.linear.map_smul]
  obtain ⟨y, hy⟩ : ∃ y, y = S.F (x + (1 : K) • xim) + (-1 : K) • S.d := ⟨_, rfl⟩
  rw [← hy]
  have e1 := h.projector y
  have e2 : S.P y = S.P (S.F x) + S.P (S.F xim) + (-1 : K) • S.P S.d := by
    rw [hy, h.F.linear.map_add, h.F.linear.map_smul, one_smul, (P_linear h).map_add, (P_linear h).map_add, (P_linear h).map_smul]
  have e3 : S.P (S.F (S.P x)) = S.P (S.F x) + (-1 : K) • S.P (S.F (S.GtinvU (S.invLG x))) := by
    rw [h.projector x, h.F.linear.map_add, h.F.linear.map_smul, (P_linear h).map_add, (P_linear h).map_smul]
  have e4 : S.P (S.d + (-1 : K) • S.F xim) = S.P S.d + (-1 : K) • S.P (S.F xim) := by
    rw [(P_linear h).map_add, (P_linear h).map_smul]
  rw [hb, e4]
  unfold applyA ctmu
  dsimp only
  rw [e3]
  have e5 := h.projector x
  funext i
  have f1 := congrFun e1 i
  have f2 := congrFun e2 i
  have f5 := congrFun e5 i
  simp only [Pi.add_apply, Pi.smul_apply, smul_eq_mul] at f1 f2 f5 ⊢
  rw [f5]
  have f6 : y i = S.P y i + S.GtinvU (S.invLG y) i := by rw [f1]; ring
  rw [f6, f2]
  field_simp
  ring

end Verif.Mprgp
