import Verif.Proof.FetiSolve
import Verif.Prop.Pcpg
import Verif.Prop.Comm
/-!
C69: the FETI solver on all processes: for every schedule of the messages the processes end with their parts of the solution of the conjugate projected gradients, the solution is in equilibrium and
its jumps are the projected residual of the report.
-/
namespace Verif.Feti

open Verif.Csx Verif.Dual Verif.Comm Verif.Mpi Finset

variable {L K : Type} [DecidableEq L] [Field K]
variable {np : Nat} {first : Nat → Nat} {nb : Nat → List Nat} {lam : Nat → List L} {doms : L → List Nat} {t : Nat} {cmap nmap nsize : Nat → List Nat} {dim kdim koff : Nat → Nat}
  {entry : L → Nat → Nat → K} {solve : Nat → List K → List K} {Rm : Nat → Nat → Nat → K} {g : Nat → L → K} {W : Nat → Nat → K} {f : Nat → Nat → K} {c : L → K} {S : (L → K) → L → K}
  {A : Nat → Process K}

/-- The sizes of the vectors given to the solver on the process `p`. -/
structure MemoryOk (np : Nat) (first : Nat → Nat) (lam : Nat → List L) (nsize : Nat → List Nat) (dim koff : Nat → Nat) (p : Nat) (m : Process.Memory K) : Prop where
  s : ScratchOk np first lam nsize dim koff p m.s
  d : m.d.length = (lam p).length
  e : m.e.length = koff (first np)
  l : m.l.length = (lam p).length
  v : VectorsOk (lam p).length m.v
  iKfBtL : Sized first dim p m.iKfBtL
  BtL : Sized first dim p m.BtL
  Ra : Sized first dim p m.Ra
  x : Sized first dim p m.x

/-- **C69.** If the conjugate projected gradients end with finite numbers, the processes end for every schedule of the messages with their parts of the multipliers, of `Bᵀ λ` and of the solution, and all
with the same report. -/
theorem C69_run [LinearOrder K] (h : System np first nb lam doms t cmap nmap nsize dim kdim koff entry solve Rm g W f c S A) (cfg : Pcpg.Config K) (fuel : Nat)
    (st : Pcpg.State K (allMults np lam → K)) (out : Pcpg.Info K)
    (hrun : Pcpg.solve (dualOps (first np) (allMults np lam) dim kdim koff entry solve Rm g W f c S) cfg fuel = some (st, out)) (hp : st.p ≠ none)
    (m : Nat → Process.Memory K) (hm : ∀ p, p < np → MemoryOk np first lam nsize dim koff p (m p)) :
    ∃ X r : L → K, st.x = some (restrict _ X) ∧ st.r = some (restrict _ r) ∧
      Completes (world 0 np fun p => (A p).run cfg fuel (m p))
        (finished 0 np fun p => some ⟨localVectors first p (vectorOf dim (solutionOf (first np) dim kdim koff (allMults np lam) entry solve Rm g W f X r)),
          localVectors first p (vectorOf dim (timesBt (allMults np lam) entry X)), (lam p).map X, out⟩) := by
  obtain ⟨s1, k1, e1⟩ := rhs_spec h (fun p => (m p).s) (fun p => (m p).d) (fun p hp => ⟨(hm p hp).s, (hm p hp).d⟩)
  have e2 := kernelSide_spec h (fun p => (m p).e) (fun p hp => (hm p hp).e)
  obtain ⟨s3, v3, k3, e3⟩ := begin_spec h s1 (fun p => (m p).l) (fun p => (m p).v) (fun p hp => ⟨k1 p hp, (hm p hp).l, (hm p hp).v⟩)
  obtain ⟨n, s4, v4, hst, k4, e4⟩ := loop_spec h cfg fuel _ _ s3 v3 st out k3 hrun hp
  have e5 := reconstruct_spec h (extend _ n.x) (extend _ n.r) s4 (fun p => (m p).iKfBtL) (fun p => (m p).BtL) (fun p => (m p).Ra) (fun p => (m p).x)
    (fun p hp => ⟨(k4 p hp).1, (hm p hp).iKfBtL, (hm p hp).BtL, (hm p hp).Ra, (hm p hp).x⟩)
  refine ⟨extend _ n.x, extend _ n.r, by rw [restrict_extend, hst]; rfl, by rw [restrict_extend, hst]; rfl, ?_⟩
  unfold Process.run
  refine world_andThen _ e1 (world_andThen _ e2 (world_andThen _ e3 (world_andThen _ e4 ?_)))
  rw [world_congr (q := fun p => andThen ((A p).reconstruct (s4 p) ((lam p).map (extend _ n.x)) ((lam p).map (extend _ n.r)) (m p).iKfBtL (m p).BtL (m p).Ra (m p).x)
    fun u => .ret (some ⟨u.1, u.2, (lam p).map (extend _ n.x), out⟩)) (fun p _ hp => by
      dsimp only
      rw [(k4 p hp).2.x, (k4 p hp).2.r]
      rfl)]
  exact world_andThen _ e5 (world_ret _ _ _)

/-! ### The solution -/

theorem sumAll_linear (all : Finset L) (h : L → K) : IsLinearMap K fun X : all → K => ∑ l ∈ all, h l * extend all X l := by
  constructor
  · intro X Y
    rw [← sum_add_distrib]
    apply sum_congr rfl
    intro l _
    have := extend_add X Y 1 l
    rw [one_smul, one_mul] at this
    rw [this, mul_add]
  · intro a X
    rw [smul_eq_mul, mul_sum]
    apply sum_congr rfl
    intro l _
    have := extend_add 0 X a l
    rw [zero_add] at this
    rw [this]
    have h0 : extend all (0 : all → K) l = 0 := by unfold extend; split <;> rfl
    rw [h0]
    ring

theorem extend_linear (all : Finset L) (l : L) : IsLinearMap K fun X : all → K => extend all X l := by
  constructor
  · intro X Y
    have := extend_add X Y 1 l
    rw [one_smul, one_mul] at this
    exact this
  · intro a X
    have := extend_add 0 X a l
    rw [zero_add] at this
    rw [this]
    have h0 : extend all (0 : all → K) l = 0 := by unfold extend; split <;> rfl
    rw [h0, smul_eq_mul]
    ring

theorem sum_linear {V I : Type} [AddCommGroup V] [Module K V] (s : Finset I) (F : I → V → K) (h : ∀ i ∈ s, IsLinearMap K (F i)) : IsLinearMap K fun X => ∑ i ∈ s, F i X := by
  constructor
  · intro X Y
    rw [← sum_add_distrib]
    exact sum_congr rfl fun i hi => (h i hi).map_add X Y
  · intro a X
    rw [smul_eq_mul, mul_sum]
    exact sum_congr rfl fun i hi => (h i hi).map_smul a X

theorem scale_linear {V : Type} [AddCommGroup V] [Module K V] {F : V → K} (h : IsLinearMap K F) (a : K) : IsLinearMap K fun X => a * F X :=
  ⟨fun X Y => by rw [h.map_add, mul_add], fun b X => by rw [h.map_smul, smul_eq_mul, smul_eq_mul]; ring⟩

theorem scale_linear' {V : Type} [AddCommGroup V] [Module K V] {F : V → K} (h : IsLinearMap K F) (a : K) : IsLinearMap K fun X => F X * a :=
  ⟨fun X Y => by rw [h.map_add, add_mul], fun b X => by rw [h.map_smul, smul_eq_mul, smul_eq_mul]; ring⟩

theorem restrict_linear {V : Type} [AddCommGroup V] [Module K V] {all : Finset L} {F : V → L → K} (h : ∀ l ∈ all, IsLinearMap K fun X => F X l) : IsLinearMap K fun X => restrict all (F X) := by
  constructor
  · intro X Y
    funext l
    exact (h l l.2).map_add X Y
  · intro a X
    funext l
    exact (h l l.2).map_smul a X

theorem timesBt_linear (all : Finset L) (d i : Nat) : IsLinearMap K fun X : all → K => timesBt all entry (extend all X) d i := sumAll_linear all fun l => entry l d i

/-- An operator `B A Bᵀ` with matrices `A d` is linear. -/
theorem timesBABt_linear {Kp : Nat → Nat → Nat → K} (hs : SolvesBy dim Kp solve) (nd : Nat) (all : Finset L) (l : L) : IsLinearMap K fun X : all → K => timesBABt nd dim all entry solve (extend all X) l := by
  unfold timesBABt timesB
  apply sum_linear
  intro d _
  apply sum_linear
  intro i hi
  apply scale_linear
  have e : (fun X : all → K => valuesOf (fun d => solve d (vectorOf dim (timesBt all entry (extend all X)) d)) d i) = fun X : all → K => ∑ j ∈ range (dim d), Kp d i j * timesBt all entry (extend all X) d j := by
    funext X
    exact solve_value hs _ (mem_range.1 hi)
  rw [e]
  exact sum_linear _ _ fun j _ => scale_linear (timesBt_linear all d j) _

theorem timesG_linear (all : Finset L) (k : Nat) : IsLinearMap K fun X : all → K => timesG all g (extend all X) k := sumAll_linear all fun l => g k l

theorem projected_linear (n : Nat) (all : Finset L) (l : L) : IsLinearMap K fun X : all → K => projected n all g W (extend all X) l := by
  have h1 : IsLinearMap K fun X : all → K => coarse n all g W (extend all X) l := by
    unfold coarse timesGt
    refine sum_linear _ _ fun k _ => scale_linear ?_ _
    unfold timesW
    exact sum_linear _ _ fun j _ => scale_linear (timesG_linear all j) _
  unfold projected
  have h0 := extend_linear (K := K) all l
  exact ⟨fun X Y => by rw [h0.map_add, h1.map_add]; ring, fun a X => by rw [h0.map_smul, h1.map_smul, smul_eq_mul, smul_eq_mul, smul_eq_mul]; ring⟩

/-- The preconditioner is linear on the values at the multipliers. -/
def LinearOn (all : Finset L) (S : (L → K) → L → K) : Prop := ∀ l ∈ all, IsLinearMap K fun X : all → K => S (extend all X) l

theorem linear_none (all : Finset L) : LinearOn (K := K) all fun X => X := fun l _ => extend_linear all l

theorem linear_lumped {Km : Nat → Nat → Nat → K} (hs : SolvesBy dim Km solve) (nd : Nat) (all : Finset L) : LinearOn all (timesBABt nd dim all entry solve) := fun l _ => timesBABt_linear hs nd all l

theorem linear_dirichlet (idx : Nat → List Nat) (sc : Nat → Nat → Nat → K) (nd : Nat) (all : Finset L) : LinearOn all fun X => timesB nd dim entry (onBoundary idx sc (timesBt all entry X)) := by
  intro l _
  unfold timesB
  refine sum_linear _ _ fun d _ => sum_linear _ _ fun i _ => scale_linear ?_ _
  unfold onBoundary
  split
  · exact sum_linear _ _ fun b _ => scale_linear (timesBt_linear all d _) _
  · exact ⟨fun _ _ => (add_zero _).symm, fun _ _ => (smul_zero _).symm⟩

theorem ops_linear {Kp : Nat → Nat → Nat → K} (hs : SolvesBy dim Kp solve) (nd : Nat) (all : Finset L) (hS : LinearOn all S) : Pcpg.Linear (dualOps nd all dim kdim koff entry solve Rm g W f c S) :=
  ⟨restrict_linear fun l _ => timesBABt_linear hs nd all l, restrict_linear (F := fun X => projected (koff nd) all g W (extend all X)) fun l _ => projected_linear _ all l,
    restrict_linear (F := fun X => projected (koff nd) all g W (extend all X)) fun l _ => projected_linear _ all l, restrict_linear (F := fun X => S (extend all X)) hS⟩

theorem timesG_restrict (all : Finset L) (Y : L → K) (k : Nat) : timesG all g (extend all (restrict all Y)) k = timesG all g Y k := by
  unfold timesG
  exact sum_congr rfl fun l hl => by rw [extend_restrict Y hl]

theorem coarse_congr {n : Nat} {all : Finset L} {X Y : L → K} (h : ∀ l ∈ all, X l = Y l) (l : L) : coarse n all g W X l = coarse n all g W Y l := by
  have : timesG all g X = timesG all g Y := by
    funext k
    exact sum_congr rfl fun l hl => by rw [h l hl]
  unfold coarse
  rw [this]

theorem projected_congr {n : Nat} {all : Finset L} {X Y : L → K} (h : ∀ l ∈ all, X l = Y l) {l : L} (hl : l ∈ all) : projected n all g W X l = projected n all g W Y l := by
  unfold projected
  rw [coarse_congr h, h l hl]

theorem timesBABt_congr {nd : Nat} {all : Finset L} {X Y : L → K} (h : ∀ l ∈ all, X l = Y l) : timesBABt nd dim all entry solve X = timesBABt nd dim all entry solve Y := by
  have : timesBt all entry X = timesBt all entry Y := by
    funext d i
    exact sum_congr rfl fun l hl => by rw [h l hl]
  unfold timesBABt
  rw [this]

/-- The iterates: the multipliers satisfy `G X = e`, `r` is the residual. -/
theorem iterate_residual [DecidableEq K] {Kp : Nat → Nat → Nat → K} (hs : SolvesBy dim Kp solve) {nd : Nat} {all : Finset L} (hS : LinearOn all S) (hW : IsInverse (koff nd) all g W) (i : Nat) (X r : L → K)
    (hx : (Pcpg.iterate (dualOps nd all dim kdim koff entry solve Rm g W f c S) i).x = some (restrict all X))
    (hr : (Pcpg.iterate (dualOps nd all dim kdim koff entry solve Rm g W f c S) i).r = some (restrict all r)) :
    (∀ k, k < koff nd → timesG all g X k = -timesR nd dim kdim koff Rm f k) ∧ (∀ l ∈ all, r l = residualOf nd dim all entry solve f c X l) ∧
      (Pcpg.iterate (dualOps nd all dim kdim koff entry solve Rm g W f c S) i).w = some (restrict all (projected (koff nd) all g W (residualOf nd dim all entry solve f c X))) := by
  obtain ⟨h1, h2, h3⟩ := Pcpg.C62_residual _ (ops_linear (kdim := kdim) (koff := koff) (Rm := Rm) (g := g) (W := W) (f := f) (c := c) hs nd all hS) i _ hx
  have hres : ∀ l ∈ all, r l = residualOf nd dim all entry solve f c X l := by
    intro l hl
    rw [hr] at h1
    have := congrFun (Option.some.inj h1) ⟨l, hl⟩
    refine this.trans ?_
    show dualRhs nd dim entry solve f c l - timesBABt nd dim all entry solve (extend all (restrict all X)) l = _
    rw [timesBABt_congr fun l hl => extend_restrict X hl]
    rfl
  refine ⟨?_, hres, ?_⟩
  · intro k hk
    have h4 := h3 K (fun X => timesG all g (extend all X) k) (timesG_linear all k) (fun a => by
      show timesG all g (extend all (restrict all (projected (koff nd) all g W (extend all a)))) k = 0
      rw [timesG_restrict]
      exact C66_kernel hW _ hk)
    rw [timesG_restrict] at h4
    rw [h4]
    show timesG all g (extend all (restrict all (timesGt (koff nd) g (timesW (koff nd) W fun k => -timesR nd dim kdim koff Rm f k)))) k = _
    rw [timesG_restrict]
    exact C66_feasible hW _ hk
  · rw [h2]
    congr 1
    funext l
    show projected (koff nd) all g W (extend all (restrict all (dualRhs nd dim entry solve f c) - restrict all (timesBABt nd dim all entry solve (extend all (restrict all X))))) l = projected (koff nd) all g W _ l
    refine projected_congr (fun l hl => ?_) l.2
    unfold extend
    rw [dif_pos hl]
    show dualRhs nd dim entry solve f c l - timesBABt nd dim all entry solve (extend all (restrict all X)) l = _
    rw [timesBABt_congr fun l hl => extend_restrict X hl]
    rfl

theorem solution_congr {nd : Nat} {all : Finset L} {X r r' : L → K} (h : ∀ l ∈ all, r l = r' l) :
    solutionOf nd dim kdim koff all entry solve Rm g W f X r = solutionOf nd dim kdim koff all entry solve Rm g W f X r' := by
  have : timesG all g r = timesG all g r' := by
    funext k
    exact sum_congr rfl fun l hl => by rw [h l hl]
  funext d i
  unfold solutionOf
  rw [this]

/-- **C69.** With the coarse space of the kernels and generalised inverses of the matrices, the processes end, whenever the iterations end with finite numbers, with their parts of a solution `u` in
equilibrium with the multipliers whose jumps `B u - c` are the projected residual `w` of the report: `u` solves the problem if and only if `w` is zero. -/
theorem C69_solution [LinearOrder K] {Km Kp : Nat → Nat → Nat → K} (h : System np first nb lam doms t cmap nmap nsize dim kdim koff entry solve Rm g W f c S A)
    (hK : PseudoInverse (first np) dim kdim Km Kp Rm) (hs : SolvesBy dim Kp solve) (hg : IsCoarse dim kdim koff entry Rm g) (hW : IsInverse (koff (first np)) (allMults np lam) g W)
    (hS : LinearOn (allMults np lam) S) (cfg : Pcpg.Config K) (hst : 1 ≤ cfg.maxStagnation) (fuel : Nat) (st : Pcpg.State K (allMults np lam → K)) (out : Pcpg.Info K)
    (hrun : Pcpg.solve (dualOps (first np) (allMults np lam) dim kdim koff entry solve Rm g W f c S) cfg fuel = some (st, out)) (hp : st.p ≠ none)
    (m : Nat → Process.Memory K) (hm : ∀ p, p < np → MemoryOk np first lam nsize dim koff p (m p)) :
    ∃ (X : L → K) (u : Nat → Nat → K) (w : L → K), st.x = some (restrict _ X) ∧ st.w = some (restrict _ w) ∧
      Completes (world 0 np fun p => (A p).run cfg fuel (m p))
        (finished 0 np fun p => some ⟨localVectors first p (vectorOf dim u), localVectors first p (vectorOf dim (timesBt (allMults np lam) entry X)), (lam p).map X, out⟩) ∧
      Equilibrium (first np) dim (allMults np lam) entry Km f u X ∧ (∀ l ∈ allMults np lam, timesB (first np) dim entry u l = c l + w l) ∧
      (Solves (first np) dim (allMults np lam) entry Km f c u X ↔ st.w = some 0) := by
  obtain ⟨X, r, hx, hr, hrun'⟩ := C69_run h cfg fuel st out hrun hp m hm
  have hit : ∃ i, st = Pcpg.iterate (dualOps (first np) (allMults np lam) dim kdim koff entry solve Rm g W f c S) i := by
    rcases Pcpg.C63_reason _ cfg hst fuel st out hrun with ⟨_, h1, _⟩ | ⟨i, _, _, _, _, h1, _⟩
    · exact ⟨0, h1⟩
    · exact ⟨i, h1⟩
  obtain ⟨i, hi⟩ := hit
  have hn : Consecutive kdim koff := ⟨h.kernels.zero, h.kernels.step⟩
  rw [hi] at hx hr
  obtain ⟨k1, k2, k3⟩ := iterate_residual hs hS hW i X r hx hr
  have heq : Equilibrium (first np) dim (allMults np lam) entry Km f (solutionOf (first np) dim kdim koff (allMults np lam) entry solve Rm g W f X r) X := C68_equilibrium hK hs hn hg X r k1
  have hj : ∀ l, timesB (first np) dim entry (solutionOf (first np) dim kdim koff (allMults np lam) entry solve Rm g W f X r) l =
      c l + projected (koff (first np)) (allMults np lam) g W (residualOf (first np) dim (allMults np lam) entry solve f c X) l := by
    intro l
    rw [solution_congr k2]
    exact C68_jump hs hn hg X l
  refine ⟨X, _, _, by rw [hi, hx], by rw [hi, k3], hrun', heq, fun l _ => hj l, ?_⟩
  rw [hi, k3]
  constructor
  · intro hsol
    congr 1
    funext l
    have := hsol.constraints l l.2
    rw [hj l] at this
    exact add_eq_left.1 this
  · intro h0
    refine ⟨heq, fun l hl => ?_⟩
    rw [hj l]
    have := congrFun (Option.some.inj h0) ⟨l, hl⟩
    exact add_eq_left.2 this

/-! ### Exactness -/

section exact
variable [LinearOrder K] [IsStrictOrderedRing K]

/-- A zero of a positive semidefinite form is in the kernel. -/
theorem semidefinite_zero {n : Nat} {M : Nat → Nat → K} (hsym : ∀ i j, M i j = M j i) (hpos : ∀ v : Nat → K, 0 ≤ ∑ i ∈ range n, ∑ j ∈ range n, v i * M i j * v j) (v : Nat → K)
    (h0 : ∑ i ∈ range n, ∑ j ∈ range n, v i * M i j * v j = 0) {i : Nat} (hi : i < n) : ∑ j ∈ range n, M i j * v j = 0 := by
  obtain ⟨a, ha⟩ : ∃ a, a = ∑ j ∈ range n, M i j * v j := ⟨_, rfl⟩
  have key : ∀ s : K, 0 ≤ 2 * s * a + s * s * M i i := by
    intro s
    have h1 := hpos fun k => v k + if k = i then s else 0
    have e : ∑ k ∈ range n, ∑ j ∈ range n, (v k + if k = i then s else 0) * M k j * (v j + if j = i then s else 0) =
        ∑ k ∈ range n, ∑ j ∈ range n, v k * M k j * v j + (2 * s * a + s * s * M i i) := by
      have e1 : ∑ k ∈ range n, ∑ j ∈ range n, (if k = i then s else 0) * M k j * v j = s * a := by
        rw [sum_eq_single i, if_pos rfl, ha, mul_sum]
        · exact sum_congr rfl fun j _ => by ring
        · intro k _ hk
          exact sum_eq_zero fun j _ => by rw [if_neg hk]; ring
        · intro h; exact absurd (mem_range.2 hi) h
      have e2 : ∑ k ∈ range n, ∑ j ∈ range n, v k * M k j * (if j = i then s else 0) = s * a := by
        rw [sum_comm, ← e1]
        apply sum_congr rfl; intro k _
        apply sum_congr rfl; intro j _
        rw [hsym j k]; ring
      have e3 : ∑ k ∈ range n, ∑ j ∈ range n, (if k = i then s else 0) * M k j * (if j = i then s else 0) = s * s * M i i := by
        rw [sum_eq_single i, sum_eq_single i, if_pos rfl]
        · ring
        · intro j _ hj; rw [if_neg hj, mul_zero]
        · intro h; exact absurd (mem_range.2 hi) h
        · intro k _ hk
          exact sum_eq_zero fun j _ => by rw [if_neg hk]; ring
        · intro h; exact absurd (mem_range.2 hi) h
      have : ∑ k ∈ range n, ∑ j ∈ range n, (v k + if k = i then s else 0) * M k j * (v j + if j = i then s else 0) =
          ∑ k ∈ range n, ∑ j ∈ range n, v k * M k j * v j + ∑ k ∈ range n, ∑ j ∈ range n, (if k = i then s else 0) * M k j * v j +
          ∑ k ∈ range n, ∑ j ∈ range n, v k * M k j * (if j = i then s else 0) + ∑ k ∈ range n, ∑ j ∈ range n, (if k = i then s else 0) * M k j * (if j = i then s else 0) := by
        simp only [← sum_add_distrib]
        apply sum_congr rfl; intro k _
        apply sum_congr rfl; intro j _
        ring
      rw [this, e1, e2, e3]
      ring
    rw [e, h0, zero_add] at h1
    exact h1
  rw [← ha]
  have hb : 0 ≤ M i i := by
    have h1 := key 1
    have h2 := key (-1)
    linarith
  by_contra hne
  have hb1 : 0 < M i i + 1 := by linarith
  have h1 := key (-a / (M i i + 1))
  have h2 : 2 * (-a / (M i i + 1)) * a + -a / (M i i + 1) * (-a / (M i i + 1)) * M i i = -(a * a * (M i i + 2)) / ((M i i + 1) * (M i i + 1)) := by
    field_simp
    ring
  rw [h2] at h1
  have h3 : 0 < a * a * (M i i + 2) := mul_pos (mul_self_pos.2 hne) (by linarith)
  have h4 := div_neg_of_neg_of_pos (neg_neg_of_pos h3) (mul_pos hb1 hb1)
  linarith

/-- The matrices of a solvable problem: symmetric positive semidefinite stiffness matrices with their kernels and symmetric generalised inverses, and independent constraints. -/
structure Regular (nd : Nat) (dim kdim : Nat → Nat) (all : Finset L) (entry : L → Nat → Nat → K) (Km Kp Rm : Nat → Nat → Nat → K) : Prop where
  inverse : PseudoInverse nd dim kdim Km Kp Rm
  symm : ∀ d i j, Km d i j = Km d j i
  pos : ∀ d, d < nd → ∀ v : Nat → K, 0 ≤ ∑ i ∈ range (dim d), ∑ j ∈ range (dim d), v i * Km d i j * v j
  isymm : ∀ d i j, Kp d i j = Kp d j i
  independent : ∀ X : L → K, (∀ d, d < nd → ∀ i, i < dim d → timesBt all entry X d i = 0) → ∀ l ∈ all, X l = 0

variable {nd : Nat} {all : Finset L} {Km Kp : Nat → Nat → Nat → K}

/-- `⟨X, F Y⟩` as a sum over domains. -/
theorem form_eq (hs : SolvesBy dim Kp solve) (X Y : L → K) : ∑ l ∈ all, timesBABt nd dim all entry solve Y l * X l =
    ∑ d ∈ range nd, ∑ i ∈ range (dim d), ∑ j ∈ range (dim d), Kp d i j * timesBt all entry Y d j * timesBt all entry X d i := by
  unfold timesBABt
  rw [timesB_adjoint]
  apply sum_congr rfl; intro d _
  apply sum_congr rfl; intro i hi
  unfold valuesOf
  rw [solve_value hs _ (mem_range.1 hi), sum_mul]

omit [IsStrictOrderedRing K] [LinearOrder K] in
theorem residual_orthogonal (hn : Consecutive kdim koff) (hg : IsCoarse dim kdim koff entry Rm g) {X : L → K} (hX : ∀ k, k < koff nd → timesG all g X k = 0) {d : Nat} (hd : d < nd) {k : Nat} (hk : k < kdim d) :
    ∑ i ∈ range (dim d), Rm d k i * timesBt all entry X d i = 0 := by
  have h1 := consecutive_mono hn (show d + 1 ≤ nd from hd)
  rw [hn.2] at h1
  have h2 := hX (koff d + k) (by omega)
  have h3 : timesG all g X (koff d + k) = -∑ i ∈ range (dim d), Rm d k i * timesBt all entry X d i := by
    unfold timesG timesBt
    rw [sum_congr rfl fun l _ => by rw [hg d k hk l]]
    simp only [mul_sum, neg_mul, sum_neg_distrib, sum_mul]
    rw [sum_comm]
    congr 1
    apply sum_congr rfl; intro i _
    apply sum_congr rfl; intro l _
    ring
  rw [h3] at h2
  exact neg_eq_zero.1 h2

/-- The dual operator is definite on the multipliers with `G X = 0`. -/
theorem dual_definite (hreg : Regular nd dim kdim all entry Km Kp Rm) (hs : SolvesBy dim Kp solve) (hn : Consecutive kdim koff) (hg : IsCoarse dim kdim koff entry Rm g) {X : L → K}
    (hX : ∀ k, k < koff nd → timesG all g X k = 0) (h0 : ∑ l ∈ all, timesBABt nd dim all entry solve X l * X l = 0) : ∀ l ∈ all, X l = 0 := by
  apply hreg.independent
  rw [form_eq hs] at h0
  -- `v = K⁺ Bᵀ X` with `K v = Bᵀ X`
  have hinv : ∀ d, d < nd → ∀ i, i < dim d → ∑ j ∈ range (dim d), Km d i j * ∑ m ∈ range (dim d), Kp d j m * timesBt all entry X d m = timesBt all entry X d i := by
    intro d hd i hi
    exact hreg.inverse.inverse d hd _ (fun k hk => residual_orthogonal hn hg hX hd hk) i hi
  have hform : ∀ d, d < nd → ∑ i ∈ range (dim d), ∑ j ∈ range (dim d), Kp d i j * timesBt all entry X d j * timesBt all entry X d i =
      ∑ i ∈ range (dim d), ∑ j ∈ range (dim d), (∑ m ∈ range (dim d), Kp d i m * timesBt all entry X d m) * Km d i j * (∑ m ∈ range (dim d), Kp d j m * timesBt all entry X d m) := by
    intro d hd
    apply sum_congr rfl
    intro i hi
    rw [← sum_mul, ← hinv d hd i (mem_range.1 hi), mul_sum]
    apply sum_congr rfl
    intro j _
    ring
  have hzero : ∀ d, d < nd → ∑ i ∈ range (dim d), ∑ j ∈ range (dim d), Kp d i j * timesBt all entry X d j * timesBt all entry X d i = 0 := by
    intro d hd
    refine (sum_eq_zero_iff_of_nonneg (fun d hd => ?_)).1 h0 d (mem_range.2 hd)
    rw [hform d (mem_range.1 hd)]
    exact hreg.pos d (mem_range.1 hd) fun i => ∑ m ∈ range (dim d), Kp d i m * timesBt all entry X d m
  intro d hd i hi
  rw [← hinv d hd i hi]
  exact semidefinite_zero (hreg.symm d) (hreg.pos d hd) _ ((hform d hd).symm.trans (hzero d hd)) hi

/-- The preconditioner is symmetric and definite on the multipliers. -/
structure DefiniteOn (all : Finset L) (S : (L → K) → L → K) : Prop where
  symm : ∀ X Y : L → K, ∑ l ∈ all, S X l * Y l = ∑ l ∈ all, X l * S Y l
  definite : ∀ X : L → K, ∑ l ∈ all, S X l * X l = 0 → ∀ l ∈ all, X l = 0

theorem definite_none (all : Finset L) : DefiniteOn (K := K) all fun X => X := by
  refine ⟨fun _ _ => rfl, fun X h l hl => ?_⟩
  exact mul_self_eq_zero.1 ((sum_eq_zero_iff_of_nonneg fun l _ => mul_self_nonneg (X l)).1 h l hl)

omit [IsStrictOrderedRing K] [LinearOrder K] in
theorem restrict_dot (Y Z : L → K) : ∑ l ∈ all, extend all (restrict all Y) l * Z l = ∑ l ∈ all, Y l * Z l := sum_congr rfl fun l hl => by rw [extend_restrict Y hl]

omit [IsStrictOrderedRing K] [LinearOrder K] in
theorem extend_zero {X : all → K} (h : ∀ l ∈ all, extend all X l = 0) : X = 0 := by
  funext l
  have := h l l.2
  unfold extend at this
  rw [dif_pos l.2] at this
  exact this

theorem ops_symmetric (hreg : Regular nd dim kdim all entry Km Kp Rm) (hs : SolvesBy dim Kp solve) (hW : IsInverse (koff nd) all g W) (hS : DefiniteOn all S) :
    Pcpg.Symmetric (dualOps nd all dim kdim koff entry solve Rm g W f c S) := by
  constructor
  · intro a b v
    show ∑ l ∈ all, extend all (a + b) l * extend all v l = ∑ l ∈ all, extend all a l * extend all v l + ∑ l ∈ all, extend all b l * extend all v l
    rw [← sum_add_distrib]
    exact sum_congr rfl fun l _ => by rw [(extend_linear all l).map_add, add_mul]
  · intro x a v
    show ∑ l ∈ all, extend all (x • a) l * extend all v l = x * ∑ l ∈ all, extend all a l * extend all v l
    rw [mul_sum]
    exact sum_congr rfl fun l _ => by rw [(extend_linear all l).map_smul, smul_eq_mul, mul_assoc]
  · intro a b
    exact sum_congr rfl fun l _ => mul_comm _ _
  · intro a b
    show ∑ l ∈ all, extend all (restrict all (timesBABt nd dim all entry solve (extend all a))) l * extend all b l = ∑ l ∈ all, extend all a l * extend all (restrict all (timesBABt nd dim all entry solve (extend all b))) l
    rw [restrict_dot, sum_congr rfl fun l _ => mul_comm (extend all a l) _, restrict_dot, form_eq hs, form_eq hs]
    apply sum_congr rfl; intro d _
    rw [sum_comm]
    apply sum_congr rfl; intro i _
    apply sum_congr rfl; intro j _
    rw [hreg.isymm d j i]; ring
  · intro a b
    show ∑ l ∈ all, extend all (restrict all (S (extend all a))) l * extend all b l = ∑ l ∈ all, extend all a l * extend all (restrict all (S (extend all b))) l
    rw [restrict_dot, sum_congr rfl fun l _ => mul_comm (extend all a l) _, restrict_dot, hS.symm]
    exact sum_congr rfl fun l _ => mul_comm _ _
  · intro a b
    show ∑ l ∈ all, extend all (restrict all (projected (koff nd) all g W (extend all a))) l * extend all b l =
      ∑ l ∈ all, extend all a l * extend all (restrict all (projected (koff nd) all g W (extend all b))) l
    rw [restrict_dot, sum_congr rfl fun l _ => mul_comm (extend all a l) _, restrict_dot, C66_symmetric hW]
    exact sum_congr rfl fun l _ => mul_comm _ _
  · intro a
    funext l
    show projected (koff nd) all g W (extend all (restrict all (projected (koff nd) all g W (extend all a)))) l = projected (koff nd) all g W (extend all a) l
    rw [projected_congr (fun l hl => extend_restrict _ hl) l.2, C66_idempotent hW]

theorem ops_definite (hreg : Regular nd dim kdim all entry Km Kp Rm) (hs : SolvesBy dim Kp solve) (hn : Consecutive kdim koff) (hg : IsCoarse dim kdim koff entry Rm g)
    (hW : IsInverse (koff nd) all g W) (hS : DefiniteOn all S) : Pcpg.Definite (dualOps nd all dim kdim koff entry solve Rm g W f c S) := by
  constructor
  · intro a hne h0
    apply hne
    apply extend_zero
    have h1 : ∑ l ∈ all, timesBABt nd dim all entry solve (extend all (restrict all (projected (koff nd) all g W (extend all a)))) l *
        extend all (restrict all (projected (koff nd) all g W (extend all a))) l = 0 := by
      rw [← restrict_dot, sum_congr rfl fun l _ => mul_comm _ _]
      exact h0
    refine dual_definite hreg hs hn hg ?_ h1
    intro k hk
    show timesG all g (extend all (restrict all (projected (koff nd) all g W (extend all a)))) k = 0
    rw [timesG_restrict]
    exact C66_kernel hW _ hk
  · intro a hne h0
    apply hne
    apply extend_zero
    refine hS.definite _ ?_
    rw [← restrict_dot]
    exact h0

/-- **C69.** In exact arithmetic some of the first iterates, at most as many as there are multipliers, are the solution of the problem: symmetric positive semidefinite matrices with known kernels,
independent constraints and a definite preconditioner. -/
theorem C69_finite (hreg : Regular nd dim kdim all entry Km Kp Rm) (hs : SolvesBy dim Kp solve) (hn : Consecutive kdim koff) (hg : IsCoarse dim kdim koff entry Rm g)
    (hW : IsInverse (koff nd) all g W) (hl : LinearOn all S) (hS : DefiniteOn all S) :
    ∃ i, i ≤ all.card ∧ (∀ j, j ≤ i → (Pcpg.iterate (dualOps nd all dim kdim koff entry solve Rm g W f c S) j).p ≠ none) ∧
      ∃ X : L → K, (Pcpg.iterate (dualOps nd all dim kdim koff entry solve Rm g W f c S) i).x = some (restrict all X) ∧
        Solves nd dim all entry Km f c (solutionOf nd dim kdim koff all entry solve Rm g W f X (residualOf nd dim all entry solve f c X)) X := by
  have hL := ops_linear (entry := entry) (kdim := kdim) (koff := koff) (Rm := Rm) (g := g) (W := W) (f := f) (c := c) hs nd all hl
  have hSy := ops_symmetric (f := f) (c := c) hreg hs hW hS
  have hD := ops_definite (f := f) (c := c) hreg hs hn hg hW hS
  obtain ⟨i, h1, h2, -, x, hx, h0⟩ := Pcpg.C62_finite _ hL hSy hD
  refine ⟨i, ?_, ?_, extend all x, by rw [restrict_extend]; exact hx, ?_⟩
  · refine h1.trans ((LinearMap.finrank_range_le _).trans ?_)
    rw [Module.finrank_fintype_fun_eq_card, Fintype.card_coe]
  · intro j hj
    rw [(Pcpg.finite_of hL hSy hD i h2).2 j hj]
    simp [Pcpg.lift]
  · have hx' : (Pcpg.iterate (dualOps nd all dim kdim koff entry solve Rm g W f c S) i).x = some (restrict all (extend all x)) := by rw [restrict_extend]; exact hx
    obtain ⟨k1, k2, _⟩ := Pcpg.C62_residual _ hL i x hx
    obtain ⟨j1, j2, j3⟩ := iterate_residual hs hl hW i (extend all x) (extend all ((dualOps nd all dim kdim koff entry solve Rm g W f c S).d - (dualOps nd all dim kdim koff entry solve Rm g W f c S).F x)) hx'
      (by rw [restrict_extend]; exact k1)
    refine C68_solves hreg.inverse hs hn hg _ j1 ?_
    intro l hl
    rw [k2, h0] at j3
    exact (congrFun (Option.some.inj j3) ⟨l, hl⟩).symm

end exact

end Verif.Feti
