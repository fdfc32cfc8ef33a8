import Verif.Proof.OrthoRun
import Verif.Prop.OrthoPcpg
import Verif.Prop.FetiSolveExample
/-!
C71: the orthogonalized conjugate projected gradients on all processes, and what they do if the preconditions on the multipliers are not met or the solver is used again.
-/
namespace Verif.Feti

open Verif.Csx Verif.Dual Verif.Comm Verif.Mpi Finset

variable {L K : Type} [DecidableEq L] [Field K]
variable {np : Nat} {first : Nat → Nat} {nb : Nat → List Nat} {lam : Nat → List L} {doms : L → List Nat} {t : Nat} {cmap nmap nsize : Nat → List Nat} {dim kdim koff : Nat → Nat}
  {entry : L → Nat → Nat → K} {solve : Nat → List K → List K} {Rm : Nat → Nat → Nat → K} {g : Nat → L → K} {W : Nat → Nat → K} {f : Nat → Nat → K} {c : L → K} {S : (L → K) → L → K}
  {A : Nat → Process K}

/-- **C71 (restricted).** If the orthogonalized conjugate projected gradients end without a division by zero, the processes end for every schedule of the messages and every content of the allocated memory
with their parts of the multipliers, of `Bᵀ λ` and of the solution, and all with the same report.  Missing: the second call of `solve` (`C71_second_solve`), processes that own no multipliers
(`C71_no_own_multipliers`), and processes with several intervals of multipliers (`C71_last_interval_only`). -/
theorem C71_run_partial [LinearOrder K] (h : System np first nb lam doms t cmap nmap nsize dim kdim koff entry solve Rm g W f c S A) (hone : OneInterval np first lam doms A)
    {red : Nat → List K → Prog (List K) (Option (List K))} (hred : ReducesAll np red) (fresh : Nat → Nat → K) (cfg : Pcpg.Config K) (fuel : Nat)
    (st : Pcpg.OState K (allMults np lam → K)) (out : Pcpg.Info K)
    (hrun : Pcpg.osolve (dualOps (first np) (allMults np lam) dim kdim koff entry solve Rm g W f c S) cfg fuel = some (st, out))
    (O : Nat → OrthoData K) (hO : ∀ p, p < np → (O p).yFp = [] ∧ (O p).pFp = []) (m : Nat → Process.Memory K) (hm : ∀ p, p < np → MemoryOk np first lam nsize dim koff p (m p)) :
    ∃ (X r : L → K) (O' : Nat → OrthoData K), st.x = restrict _ X ∧ st.r = restrict _ r ∧
      Completes (world 0 np fun p => (A p).orun (fresh p) (red p) cfg fuel ((O p).update (fresh p) (lam p).length) (m p))
        (finished 0 np fun p => some (⟨localVectors first p (vectorOf dim (solutionOf (first np) dim kdim koff (allMults np lam) entry solve Rm g W f X r)),
          localVectors first p (vectorOf dim (timesBt (allMults np lam) entry X)), (lam p).map X, out⟩, O' p)) := by
  obtain ⟨s1, k1, e1⟩ := rhs_spec h (fun p => (m p).s) (fun p => (m p).d) (fun p hp => ⟨(hm p hp).s, (hm p hp).d⟩)
  have e2 := kernelSide_spec h (fun p => (m p).e) (fun p hp => (hm p hp).e)
  obtain ⟨s3, v3, O3, k3, e3⟩ := obegin_spec h fresh s1 (fun p => (O p).update (fresh p) (lam p).length) (fun p => (m p).l) (fun p => (m p).v) (fun p hp => ⟨k1 p hp, (hm p hp).l, (hm p hp).v⟩)
    (fun p hp => ⟨holding_resize _ _ _, holding_resize _ _ _, (hO p hp).1, (hO p hp).2⟩)
  obtain ⟨s4, v4, O4, k4, e4⟩ := oloop_spec h hone hred fresh cfg fuel _ _ s3 v3 O3 st out k3 hrun
  have e5 := reconstruct_spec h (extend _ st.x) (extend _ st.r) s4 (fun p => (m p).iKfBtL) (fun p => (m p).BtL) (fun p => (m p).Ra) (fun p => (m p).x)
    (fun p hp => ⟨(k4 p hp).1, (hm p hp).iKfBtL, (hm p hp).BtL, (hm p hp).Ra, (hm p hp).x⟩)
  refine ⟨extend _ st.x, extend _ st.r, O4, (restrict_extend _).symm, (restrict_extend _).symm, ?_⟩
  unfold Process.orun
  refine world_andThen _ e1 (world_andThen _ e2 (world_andThen _ e3 (world_andThen _ e4 ?_)))
  rw [world_congr (q := fun p => andThen ((A p).reconstruct (s4 p) ((lam p).map (extend _ st.x)) ((lam p).map (extend _ st.r)) (m p).iKfBtL (m p).BtL (m p).Ra (m p).x)
    fun u => .ret (some (⟨u.1, u.2, (lam p).map (extend _ st.x), out⟩, O4 p))) (fun p _ hp => by
      dsimp only
      rw [(k4 p hp).2.x, (k4 p hp).2.r]
      rfl)]
  exact world_andThen _ e5 (world_ret _ _ _)

/-- The iterates: the multipliers satisfy `G X = e`, `r` is the residual. -/
theorem oiterate_residual [DecidableEq K] {Kp : Nat → Nat → Nat → K} (hs : SolvesBy dim Kp solve) {nd : Nat} {all : Finset L} (hS : LinearOn all S) (hW : IsInverse (koff nd) all g W) (i : Nat)
    (st : Pcpg.OState K (all → K)) (X r : L → K) (hi : Pcpg.oiterate (dualOps nd all dim kdim koff entry solve Rm g W f c S) i = some st) (hx : st.x = restrict all X) (hr : st.r = restrict all r) :
    (∀ k, k < koff nd → timesG all g X k = -timesR nd dim kdim koff Rm f k) ∧ (∀ l ∈ all, r l = residualOf nd dim all entry solve f c X l) ∧
      st.w = restrict all (projected (koff nd) all g W (residualOf nd dim all entry solve f c X)) := by
  obtain ⟨h1, h2, h3⟩ := Pcpg.C70_residual _ (ops_linear (kdim := kdim) (koff := koff) (Rm := Rm) (g := g) (W := W) (f := f) (c := c) hs nd all hS) i _ hi
  rw [hx] at h1 h2
  have hres : ∀ l ∈ all, r l = residualOf nd dim all entry solve f c X l := by
    intro l hl
    rw [hr] at h1
    have := congrFun h1 ⟨l, hl⟩
    refine this.trans ?_
    show dualRhs nd dim entry solve f c l - timesBABt nd dim all entry solve (extend all (restrict all X)) l = _
    rw [timesBABt_congr fun l hl => extend_restrict X hl]
    rfl
  refine ⟨?_, hres, ?_⟩
  · intro k hk
    have h4 := h3 K (fun X => timesG all g (extend all X) k) (timesG_linear all k) (fun a => by
      show timesG all g (extend all (restrict all (projected (koff nd) all g W (extend all a)))) k = 0
      rw [timesG_restrict]
      exact C66_kernel hW _ hk)
    rw [hx, timesG_restrict] at h4
    rw [h4]
    show timesG all g (extend all (restrict all (timesGt (koff nd) g (timesW (koff nd) W fun k => -timesR nd dim kdim koff Rm f k)))) k = _
    rw [timesG_restrict]
    exact C66_feasible hW _ hk
  · rw [h2]
    funext l
    show projected (koff nd) all g W (extend all (restrict all (dualRhs nd dim entry solve f c) - restrict all (timesBABt nd dim all entry solve (extend all (restrict all X))))) l = projected (koff nd) all g W _ l
    refine projected_congr (fun l hl => ?_) l.2
    unfold extend
    rw [dif_pos hl]
    show dualRhs nd dim entry solve f c l - timesBABt nd dim all entry solve (extend all (restrict all X)) l = _
    rw [timesBABt_congr fun l hl => extend_restrict X hl]
    rfl

/-- **C71 (restricted).** The solution is in equilibrium with the multipliers and its jumps are the projected residual; it solves the problem if and only if this residual is zero.  Missing: as in
`C71_run_partial`. -/
theorem C71_solution_partial [LinearOrder K] {Km Kp : Nat → Nat → Nat → K} (h : System np first nb lam doms t cmap nmap nsize dim kdim koff entry solve Rm g W f c S A)
    (hone : OneInterval np first lam doms A) {red : Nat → List K → Prog (List K) (Option (List K))} (hred : ReducesAll np red)
    (hK : PseudoInverse (first np) dim kdim Km Kp Rm) (hs : SolvesBy dim Kp solve) (hg : IsCoarse dim kdim koff entry Rm g) (hW : IsInverse (koff (first np)) (allMults np lam) g W)
    (hS : LinearOn (allMults np lam) S) (fresh : Nat → Nat → K) (cfg : Pcpg.Config K) (hst : 1 ≤ cfg.maxStagnation) (fuel : Nat) (st : Pcpg.OState K (allMults np lam → K)) (out : Pcpg.Info K)
    (hrun : Pcpg.osolve (dualOps (first np) (allMults np lam) dim kdim koff entry solve Rm g W f c S) cfg fuel = some (st, out))
    (O : Nat → OrthoData K) (hO : ∀ p, p < np → (O p).yFp = [] ∧ (O p).pFp = []) (m : Nat → Process.Memory K) (hm : ∀ p, p < np → MemoryOk np first lam nsize dim koff p (m p)) :
    ∃ (X : L → K) (u : Nat → Nat → K) (w : L → K) (O' : Nat → OrthoData K), st.x = restrict _ X ∧ st.w = restrict _ w ∧
      Completes (world 0 np fun p => (A p).orun (fresh p) (red p) cfg fuel ((O p).update (fresh p) (lam p).length) (m p))
        (finished 0 np fun p => some (⟨localVectors first p (vectorOf dim u), localVectors first p (vectorOf dim (timesBt (allMults np lam) entry X)), (lam p).map X, out⟩, O' p)) ∧
      Equilibrium (first np) dim (allMults np lam) entry Km f u X ∧ (∀ l ∈ allMults np lam, timesB (first np) dim entry u l = c l + w l) ∧
      (Solves (first np) dim (allMults np lam) entry Km f c u X ↔ st.w = 0) := by
  obtain ⟨X, r, O', hx, hr, hrun'⟩ := C71_run_partial h hone hred fresh cfg fuel st out hrun O hO m hm
  have hit : ∃ i, Pcpg.oiterate (dualOps (first np) (allMults np lam) dim kdim koff entry solve Rm g W f c S) i = some st := by
    rcases Pcpg.C70_reason _ cfg hst fuel st out hrun with ⟨_, h1, _⟩ | ⟨i, _, _, _, _, h1, _⟩
    · exact ⟨0, by rw [h1]; rfl⟩
    · exact ⟨i, h1⟩
  obtain ⟨i, hi⟩ := hit
  have hn : Consecutive kdim koff := ⟨h.kernels.zero, h.kernels.step⟩
  obtain ⟨k1, k2, k3⟩ := oiterate_residual hs hS hW i st X r hi hx hr
  have heq : Equilibrium (first np) dim (allMults np lam) entry Km f (solutionOf (first np) dim kdim koff (allMults np lam) entry solve Rm g W f X r) X := C68_equilibrium hK hs hn hg X r k1
  have hj : ∀ l, timesB (first np) dim entry (solutionOf (first np) dim kdim koff (allMults np lam) entry solve Rm g W f X r) l =
      c l + projected (koff (first np)) (allMults np lam) g W (residualOf (first np) dim (allMults np lam) entry solve f c X) l := by
    intro l
    rw [solution_congr k2]
    exact C68_jump hs hn hg X l
  refine ⟨X, _, _, O', hx, k3, hrun', heq, fun l _ => hj l, ?_⟩
  rw [k3]
  constructor
  · intro hsol
    funext l
    have := hsol.constraints l l.2
    rw [hj l] at this
    exact add_eq_left.1 this
  · intro h0
    refine ⟨heq, fun l hl => ?_⟩
    rw [hj l]
    have := congrFun h0 ⟨l, hl⟩
    exact add_eq_left.2 this

/-- **C71.** In exact arithmetic some of the first iterates, at most as many as there are multipliers, are the solution of the problem: symmetric positive semidefinite matrices with known kernels,
independent constraints and a definite preconditioner. -/
theorem C71_finite [LinearOrder K] [IsStrictOrderedRing K] {nd : Nat} {all : Finset L} {Km Kp : Nat → Nat → Nat → K} (hreg : Regular nd dim kdim all entry Km Kp Rm) (hs : SolvesBy dim Kp solve)
    (hn : Consecutive kdim koff) (hg : IsCoarse dim kdim koff entry Rm g) (hW : IsInverse (koff nd) all g W) (hl : LinearOn all S) (hS : DefiniteOn all S) :
    ∃ i st, i ≤ all.card ∧ Pcpg.oiterate (dualOps nd all dim kdim koff entry solve Rm g W f c S) i = some st ∧
      ∃ X : L → K, st.x = restrict all X ∧ Solves nd dim all entry Km f c (solutionOf nd dim kdim koff all entry solve Rm g W f X (residualOf nd dim all entry solve f c X)) X := by
  have hL := ops_linear (entry := entry) (kdim := kdim) (koff := koff) (Rm := Rm) (g := g) (W := W) (f := f) (c := c) hs nd all hl
  have hSy := ops_symmetric (f := f) (c := c) hreg hs hW hS
  have hD := ops_definite (f := f) (c := c) hreg hs hn hg hW hS
  obtain ⟨i, st, h1, h2, -, -, h0⟩ := Pcpg.C70_finite _ hL hSy.half hD.F
  refine ⟨i, st, ?_, h2, extend all st.x, (restrict_extend _).symm, ?_⟩
  · refine h1.trans ((LinearMap.finrank_range_le _).trans ?_)
    rw [Module.finrank_fintype_fun_eq_card, Fintype.card_coe]
  · have h0 := h0 (fun a hne => hD.S a hne)
    obtain ⟨k1, k2, _⟩ := Pcpg.C70_residual _ hL i st h2
    obtain ⟨j1, j2, j3⟩ := oiterate_residual hs hl hW i st (extend all st.x) (extend all st.r) h2 (restrict_extend _).symm (restrict_extend _).symm
    refine C68_solves hreg.inverse hs hn hg _ j1 ?_
    intro l hl
    rw [k2, h0] at j3
    exact (congrFun j3 ⟨l, hl⟩).symm

/-! ### The all-reduce -/

/-- **C71.** The all-reduce of C19 meets the contract of `MPI_Allreduce` for vectors. -/
theorem C71_reduces {K : Type} [Field K] (t : Nat) {np : Nat} (hnp : 0 < np) : ReducesAll (K := K) np fun p v => allReduce t (· + ·) p 0 np v v := by
  intro n v
  obtain ⟨r, hlen, hr, hc⟩ := C19_allReduce t (· + ·) (fun a b c : K => add_assoc a b c) (fun a b => add_comm a b) 0 np n hnp v
  have : r = mk n fun i => ∑ p ∈ range np, v p i := by
    apply List.ext_getElem?
    intro k
    by_cases hk : k < n
    · rw [hr k hk, mk_get _ hk]
      unfold contributions
      obtain ⟨n, rfl⟩ : ∃ n, np = n + 1 := ⟨np - 1, by omega⟩
      rw [Nat.sub_zero, List.range'_succ, List.map_cons, combine, foldl_sum, Finset.sum_range_succ', add_comm]
      simp [Nat.add_comm]
    · rw [List.getElem?_eq_none (by omega), List.getElem?_eq_none (by rw [mk_length]; omega)]
  rw [← this]
  exact hc

end Verif.Feti
