import Verif.Model.FetiSolve
import Verif.Prop.FetiSolution
import Verif.Proof.PcpgStop
import Mathlib.Algebra.Module.Pi
/-! Lemmas about the FETI solver on distributed data (C69). -/
namespace Verif.Feti

open Verif.Csx Verif.Dual Verif.Comm Verif.Mpi Finset

variable {L K : Type} [DecidableEq L] [Field K]

/-! ### Vectors -/

theorem addScaled_map (l : List L) (f g : L → K) (a : K) : addScaled (l.map f) a (l.map g) = some (l.map fun x => f x + a * g x) := by
  cases h : l with
  | nil => rfl
  | cons l0 ls =>
      rw [← h, mk_map_list l f l0, mk_map_list l g l0, addScaled_spec, mk_map_list l (fun x => f x + a * g x) l0]

theorem scaleVec_mk (n : Nat) (a : K) (f : Nat → K) : scaleVec a (mk n f) = some (mk n fun i => a * f i) := by
  unfold scaleVec
  rw [mk_length]
  refine (forLoop_congr _ _ _ ?_).trans (forDomains_spec n f (fun i => a * f i) (fun i v => some (a * v)) fun _ _ => rfl)
  intro i s _ hi
  rfl

theorem scaleVec_map (l : List L) (f : L → K) (a : K) : scaleVec a (l.map f) = some (l.map fun x => a * f x) := by
  cases h : l with
  | nil => rfl
  | cons l0 ls =>
      rw [← h, mk_map_list l f l0, scaleVec_mk, mk_map_list l (fun x => a * f x) l0]

/-- The values of the multipliers, zero elsewhere. -/
def extend (all : Finset L) (X : all → K) (l : L) : K := if h : l ∈ all then X ⟨l, h⟩ else 0

/-- The values at the multipliers. -/
def restrict (all : Finset L) (Y : L → K) : all → K := fun l => Y l

theorem extend_restrict {all : Finset L} (Y : L → K) {l : L} (h : l ∈ all) : extend all (restrict all Y) l = Y l := by
  unfold extend restrict
  rw [dif_pos h]

theorem restrict_extend {all : Finset L} (X : all → K) : restrict all (extend all X) = X := by
  funext l
  show extend all X l = X l
  unfold extend
  rw [dif_pos l.2]

theorem extend_add {all : Finset L} (X Y : all → K) (a : K) (l : L) : extend all (X + a • Y) l = extend all X l + a * extend all Y l := by
  unfold extend
  by_cases h : l ∈ all
  · simp only [dif_pos h, Pi.add_apply, Pi.smul_apply, smul_eq_mul]
  · simp only [dif_neg h, mul_zero, add_zero]

/-! ### Finite states -/

section finite
variable {V : Type} [AddCommGroup V] [Module K V] [DecidableEq K]

theorem iter_none (o : Pcpg.Ops K V) (s : Pcpg.State K V) (h : s.p = none) : (Pcpg.iter o s).p = none := by
  by_contra hne
  obtain ⟨z, hz⟩ := Option.ne_none_iff_exists'.1 hne
  obtain ⟨_, _, _, _, _, h3, _⟩ := Pcpg.axpy_some hz
  rw [h] at h3
  cases h3

/-- A finite direction after a step: the divisors were not zero. -/
theorem iter_divisors (o : Pcpg.Ops K V) (f : Pcpg.Fin' K V) (h : (Pcpg.iter o (Pcpg.lift o f)).p ≠ none) : o.dot f.p (o.F f.p) ≠ 0 ∧ Pcpg.rho o f.r ≠ 0 := by
  obtain ⟨z, hz⟩ := Option.ne_none_iff_exists'.1 h
  obtain ⟨y, b, _, hy, hb, _, _⟩ := Pcpg.axpy_some hz
  constructor
  · intro h0
    have : Pcpg.quot (some (Pcpg.rho o f.r)) (Pcpg.inner o (some f.p) (some (o.F f.p))) = none := by
      show (if o.dot f.p (o.F f.p) = 0 then none else _) = none
      rw [if_pos h0]
    have h1 : (Pcpg.axpy (some f.r) ((Pcpg.quot (some (Pcpg.rho o f.r)) (Pcpg.inner o (some f.p) (some (o.F f.p)))).map fun g => -g) (some (o.F f.p))) = (none : Option V) := by
      rw [this]
      rfl
    have h2 : ((((Pcpg.axpy (some f.r) ((Pcpg.quot (some (Pcpg.rho o f.r)) (Pcpg.inner o (some f.p) (some (o.F f.p)))).map fun g => -g) (some (o.F f.p))).map o.Pt).map o.S).map o.P) = some y := hy
    rw [h1] at h2
    cases h2
  · intro h0
    have : ∀ a : Option K, Pcpg.quot a (some (Pcpg.rho o f.r)) = none := by
      intro a
      cases a with
      | none => rfl
      | some a =>
        show (if Pcpg.rho o f.r = 0 then none else _) = none
        rw [if_pos h0]
    have h1 : Pcpg.quot _ (some (Pcpg.rho o f.r)) = some b := hb
    rw [this] at h1
    cases h1

end finite

theorem loop_none {V : Type} [AddCommGroup V] [Module K V] [LinearOrder K] (o : Pcpg.Ops K V) (cfg : Pcpg.Config K) (fuel : Nat) : ∀ (s : Pcpg.State K V) (info : Pcpg.Info K) (s' : Pcpg.State K V) (out : Pcpg.Info K),
    s.p = none → Pcpg.loop o cfg fuel s info = some (s', out) → s'.p = none := by
  induction fuel with
  | zero =>
    intro s info s' out h e
    unfold Pcpg.loop at e
    split at e
    · cases e; exact h
    · cases e
  | succ fuel ih =>
    intro s info s' out h e
    unfold Pcpg.loop at e
    split at e
    · cases e; exact h
    · cases hu : Pcpg.updateInfo cfg info s.yw with
      | none => rw [hu] at e; cases e
      | some i =>
        rw [hu] at e
        exact ih _ i s' out (iter_none o s h) e

/-! ### The operators on all processes -/

/-- The preconditioner of the processes and its operator on all multipliers. -/
inductive Preconditions (np : Nat) (first : Nat → Nat) (lam : Nat → List L) (dim : Nat → Nat) (entry : L → Nat → Nat → K) (G : Nat → Glue K) (pc : Nat → Preconditioner K) : ((L → K) → L → K) → Prop
  | none (h : ∀ p, p < np → pc p = .none) : Preconditions np first lam dim entry G pc fun X => X
  | lumped (apply : Nat → List K → List K) (hlen : ∀ d v, v.length = dim d → (apply d v).length = dim d) (h : ∀ p, p < np → pc p = .lumped fun j => apply (first p + j)) :
      Preconditions np first lam dim entry G pc (timesBABt (first np) dim (allMults np lam) entry apply)
  | dirichlet (idx : Nat → List Nat) (sc : Nat → Nat → Nat → K) (hidx : ∀ p, p < np → ∀ (j : Nat) (g : Csx K × List Nat), (G p)[j]? = some g → boundaryIndices g.1 = some (idx (first p + j)))
      (h : ∀ p, p < np → pc p = .dirichlet (mk (first (p + 1) - first p) fun j => idx (first p + j)) fun j => sc (first p + j)) :
      Preconditions np first lam dim entry G pc fun X => timesB (first np) dim entry (onBoundary idx sc (timesBt (allMults np lam) entry X))

/-- The contract of `MPI_Allreduce` with `MPI_SUM` for one number: it ends on all processes with the sum, for every schedule. -/
def Reduces (np : Nat) (reduce : Nat → K → Prog (List K) (Option K)) : Prop :=
  ∀ v : Nat → K, Completes (world 0 np fun p => reduce p (v p)) (finished 0 np fun _ => some (∑ p ∈ range np, v p))

/-- The data of the solver on the processes. -/
structure System (np : Nat) (first : Nat → Nat) (nb : Nat → List Nat) (lam : Nat → List L) (doms : L → List Nat) (t : Nat) (cmap nmap nsize : Nat → List Nat) (dim kdim koff : Nat → Nat)
    (entry : L → Nat → Nat → K) (solve : Nat → List K → List K) (Rm : Nat → Nat → Nat → K) (g : Nat → L → K) (W : Nat → Nat → K) (f : Nat → Nat → K) (c : L → K) (S : (L → K) → L → K)
    (A : Nat → Process K) : Prop where
  pos : 0 < np
  zero : first 0 = 0
  shared : Shared np first nb lam doms
  described : ∀ p, p < np → Describes (cmap p) (lam p) doms
  map : ∀ p, p < np → dualMapSet (decOf first nb p) (cmap p) = some (nmap p, nsize p)
  projector : Configured np first nb lam doms t (fun p => koff (first p)) nmap g W fun p => (A p).projector
  kernels : Kernels np first dim kdim koff Rm fun p => (A p).projector
  glued : Glued np first lam doms dim entry fun p => (A p).glue
  solvers : ∀ p, p < np → (A p).solve = fun j => solve (first p + j)
  solveLen : ∀ d v, v.length = dim d → (solve d v).length = dim d
  loads : ∀ p, p < np → (A p).f = localVectors first p (vectorOf dim f)
  gaps : ∀ p, p < np → (A p).c = (lam p).map c
  goffsets : ∀ p, p < np → ∀ j, j < first (p + 1) - first p → (A p).goffsets[j]? = some (koff (first p + j))
  precond : Preconditions np first lam dim entry (fun p => (A p).glue) (fun p => (A p).precond) S
  reduce : Reduces np fun p => (A p).reduce

/-- The sizes of the work vectors of the process `p`. -/
structure ScratchOk (np : Nat) (first : Nat → Nat) (lam : Nat → List L) (nsize : Nat → List Nat) (dim koff : Nat → Nat) (p : Nat) (s : Scratch K) : Prop where
  work : WorkOk (koff (first np)) (koff (first (p + 1)) - koff (first p)) (lam p).length (nsize p) s.work
  btx : Sized first dim p s.btx
  kbtx : Sized first dim p s.kbtx
  pbtx : Sized first dim p s.pbtx
  pkbtx : Sized first dim p s.pkbtx

section
variable {np : Nat} {first : Nat → Nat} {nb : Nat → List Nat} {lam : Nat → List L} {doms : L → List Nat} {t : Nat} {cmap nmap nsize : Nat → List Nat} {dim kdim koff : Nat → Nat}
  {entry : L → Nat → Nat → K} {solve : Nat → List K → List K} {Rm : Nat → Nat → Nat → K} {g : Nat → L → K} {W : Nat → Nat → K} {f : Nat → Nat → K} {c : L → K} {S : (L → K) → L → K}
  {A : Nat → Process K}

local notation "OK" => ScratchOk np first lam nsize dim koff

/-- On all processes `op` succeeds for every schedule and gives the vectors of `Op X`. -/
def Does (np : Nat) (first : Nat → Nat) (lam : Nat → List L) (nsize : Nat → List Nat) (dim koff : Nat → Nat) (op : Nat → Scratch K → List K → List K → Prog (List K) (Option (List K × Scratch K)))
    (Op : (L → K) → L → K) : Prop :=
  ∀ (X : L → K) (s : Nat → Scratch K) (y : Nat → List K), (∀ p, p < np → ScratchOk np first lam nsize dim koff p (s p) ∧ (y p).length = (lam p).length) →
    ∃ s' : Nat → Scratch K, (∀ p, p < np → ScratchOk np first lam nsize dim koff p (s' p)) ∧
      Completes (world 0 np fun p => op p (s p) ((lam p).map X) (y p)) (finished 0 np fun p => some ((lam p).map (Op X), s' p))

theorem sync_spec (h : System np first nb lam doms t cmap nmap nsize dim kdim koff entry solve Rm g W f c S A) {y z : Nat → List K} {nmap' nsize' : Nat → List Nat}
    (hm : ∀ p, p < np → dualMapSet (decOf first nb p) (cmap p) = some (nmap' p, nsize' p)) (hs : SyncTo np nb nmap' nsize' y z) (s : Nat → Scratch K) (hok : ∀ p, p < np → OK p (s p)) :
    ∃ s' : Nat → Scratch K, (∀ p, p < np → OK p (s' p)) ∧ Completes (world 0 np fun p => (A p).sync (y p) (s p)) (finished 0 np fun p => some (z p, s' p)) := by
  have e : ∀ p, p < np → nmap' p = nmap p ∧ nsize' p = nsize p := by
    intro p hp
    have := (h.map p hp).symm.trans (hm p hp)
    simp only [Option.some.injEq, Prod.mk.injEq] at this
    exact ⟨this.1.symm, this.2.symm⟩
  obtain ⟨packed, received, h1, h2, h3, h4⟩ := hs t (fun p => (s p).work.bufs.send) (fun p => (s p).work.bufs.recv) (fun p hp => by rw [(e p hp).2]; exact (hok p hp).work.bufs)
  refine ⟨fun p => { s p with work := { (s p).work with bufs := ⟨packed p, received p⟩ } }, ?_, ?_⟩
  · intro p hp
    have o := hok p hp
    refine ⟨⟨o.work.Gx, o.work.iGGtGx, o.work.Fx, o.work.mid, ?_⟩, o.btx, o.kbtx, o.pbtx, o.pkbtx⟩
    rw [← (e p hp).2]
    exact h1 p hp
  · unfold Process.sync
    refine world_andThen (fun p => (z p, ⟨packed p, received p⟩)) ?_ (world_ret _ _ _)
    unfold syncDual
    rw [world_orFail _ packed _ (fun p hp => by rw [h.projector.map p hp, ← (e p hp).1]; exact h2 p hp)]
    refine world_andThen received ?_ ?_
    · rw [world_congr (q := fun p => exchangeKnownSize t (nb p) (packed p) ((s p).work.bufs.recv)) (fun p _ hp => by rw [h.projector.tag p hp, h.projector.neighbors p hp])]
      exact h3
    · rw [world_orFail _ z _ (fun p hp => by rw [h.projector.map p hp, ← (e p hp).1]; exact h4 p hp)]
      exact world_ret _ _ _

theorem applyF_spec (h : System np first nb lam doms t cmap nmap nsize dim kdim koff entry solve Rm g W f c S A) :
    Does np first lam nsize dim koff (fun p => (A p).applyF) (timesBABt (first np) dim (allMults np lam) entry solve) := by
  intro X s y hok
  obtain ⟨nmap', nsize', hm, h1⟩ := C64_apply h.shared h.zero h.glued cmap h.described
  obtain ⟨y', btx', kbtx', h2, h3, h4⟩ := h1 solve h.solveLen X y (fun p => (s p).btx) (fun p => (s p).kbtx) (fun p hp => ⟨(hok p hp).2, (hok p hp).1.btx, (hok p hp).1.kbtx⟩)
  obtain ⟨s', h5, h6⟩ := sync_spec h hm h4 (fun p => { s p with btx := btx' p, kbtx := kbtx' p })
    (fun p hp => ⟨(hok p hp).1.work, (h3 p hp).1, (h3 p hp).2, (hok p hp).1.pbtx, (hok p hp).1.pkbtx⟩)
  refine ⟨s', h5, ?_⟩
  unfold Process.applyF
  rw [world_orFail _ _ _ (fun p hp => by rw [h.solvers p hp]; exact h2 p hp)]
  exact h6

theorem owned (h0 : first 0 = 0) (n d : Nat) (hd : d < first n) : ∃ p, p < n ∧ Owns first p d := by
  induction n with
  | zero => rw [h0] at hd; omega
  | succ n ih =>
    by_cases h1 : d < first n
    · obtain ⟨p, h2, h3⟩ := ih h1
      exact ⟨p, by omega, h3⟩
    · exact ⟨n, by omega, by unfold Owns; omega⟩

theorem applyS_spec (h : System np first nb lam doms t cmap nmap nsize dim kdim koff entry solve Rm g W f c S A) : Does np first lam nsize dim koff (fun p => (A p).applyS) S := by
  intro X s y hok
  cases h.precond with
  | none hpc =>
    refine ⟨s, fun p hp => (hok p hp).1, ?_⟩
    rw [world_congr (q := fun p => .ret (some ((lam p).map X, s p))) (fun p _ hp => by
      show (A p).applyS (s p) ((lam p).map X) (y p) = _
      unfold Process.applyS
      rw [hpc p hp]
      show orFail (memcpyTo (y p) 0 ((lam p).map X)) _ = _
      rw [memcpyTo_full _ _ (by rw [(hok p hp).2, List.length_map])]
      rfl)]
    exact world_ret _ _ _
  | lumped apply hlen hpc =>
    obtain ⟨nmap', nsize', hm, h1⟩ := C65_lumped h.shared h.zero h.glued cmap h.described
    obtain ⟨y', btx', kbtx', h2, h3, h4⟩ := h1 apply hlen X y (fun p => (s p).pbtx) (fun p => (s p).pkbtx) (fun p hp => ⟨(hok p hp).2, (hok p hp).1.pbtx, (hok p hp).1.pkbtx⟩)
    obtain ⟨s', h5, h6⟩ := sync_spec h hm h4 (fun p => { s p with pbtx := btx' p, pkbtx := kbtx' p })
      (fun p hp => ⟨(hok p hp).1.work, (hok p hp).1.btx, (hok p hp).1.kbtx, (h3 p hp).1, (h3 p hp).2⟩)
    refine ⟨s', h5, ?_⟩
    rw [world_congr (q := fun p => (A p).sync (y' p) { s p with pbtx := btx' p, pkbtx := kbtx' p }) (fun p _ hp => by
      show (A p).applyS (s p) ((lam p).map X) (y p) = _
      unfold Process.applyS
      rw [hpc p hp]
      show orFail (lumpedApply (A p).glue (fun j => apply (first p + j)) ((lam p).map X) (y p) (s p).pbtx (s p).pkbtx) _ = _
      rw [h2 p hp]
      rfl)]
    exact h6
  | dirichlet idx sc hidx hpc =>
    obtain ⟨nmap', nsize', idx', hm, h0, h7, h1⟩ := C65_dirichlet h.shared h.zero h.glued cmap h.described
    have he : ∀ p, p < np → ∀ j, j < first (p + 1) - first p → idx' (first p + j) = idx (first p + j) := by
      intro p hp j hj
      have hl := h.glued.len p hp
      have hg := List.getElem?_eq_getElem (show j < (A p).glue.length by rw [hl]; exact hj)
      have := (h7 p hp j _ hg).1.symm.trans (hidx p hp j _ hg)
      exact Option.some.inj this
    obtain ⟨y', btx', kbtx', h2, h3, h4⟩ := h1 sc X y (fun p => (s p).pbtx) (fun p => (s p).pkbtx) (fun p hp => ⟨(hok p hp).2, (hok p hp).1.pbtx, (hok p hp).1.pkbtx⟩)
    obtain ⟨s', h5, h6⟩ := sync_spec h hm h4 (fun p => { s p with pbtx := btx' p, pkbtx := kbtx' p })
      (fun p hp => ⟨(hok p hp).1.work, (hok p hp).1.btx, (hok p hp).1.kbtx, (h3 p hp).1, (h3 p hp).2⟩)
    refine ⟨s', h5, ?_⟩
    rw [world_congr (q := fun p => (A p).sync (y' p) { s p with pbtx := btx' p, pkbtx := kbtx' p }) (fun p _ hp => by
      show (A p).applyS (s p) ((lam p).map X) (y p) = _
      unfold Process.applyS
      rw [hpc p hp]
      show orFail (dirichletApply (A p).glue (mk (first (p + 1) - first p) fun j => idx (first p + j)) (fun j => sc (first p + j)) ((lam p).map X) (y p) (s p).pbtx (s p).pkbtx) _ = _
      rw [← mk_congr (he p hp), h2 p hp]
      rfl)]
    rw [finished_congr (q := fun p => some ((lam p).map (timesB (first np) dim entry (onBoundary idx' sc (timesBt (allMults np lam) entry X))), s' p)) (fun p _ _ => by
      congr 2
      apply List.map_congr_left
      intro l _
      unfold timesB
      apply sum_congr rfl
      intro d hd
      obtain ⟨q, hq, ho⟩ := owned h.zero np d (mem_range.1 hd)
      unfold Owns at ho
      have := he q hq (d - first q) (by omega)
      rw [show first q + (d - first q) = d by omega] at this
      unfold onBoundary
      rw [this])]
    exact h6

theorem synchronizes_of (h : System np first nb lam doms t cmap nmap nsize dim kdim koff entry solve Rm g W f c S A) : Synchronizes K np nb lam nmap nsize := by
  obtain ⟨nmap', nsize', hm, h1⟩ := synchronizes (R := K) h.shared cmap h.described
  have e : ∀ p, p < np → nmap' p = nmap p ∧ nsize' p = nsize p := by
    intro p hp
    have := (h.map p hp).symm.trans (hm p hp)
    simp only [Option.some.injEq, Prod.mk.injEq] at this
    exact ⟨this.1.symm, this.2.symm⟩
  intro t v b hv hb
  obtain ⟨b', h2, h3⟩ := h1 t v b hv (fun p hp => by rw [(e p hp).2]; exact hb p hp)
  refine ⟨b', fun p hp => by rw [← (e p hp).2]; exact h2 p hp, ?_⟩
  rw [world_congr (q := fun p => syncDual t (nb p) (nmap' p) ((lam p).map (v p)) (b p)) (fun p _ hp => by rw [(e p hp).1])]
  exact h3

theorem applyP_spec (h : System np first nb lam doms t cmap nmap nsize dim kdim koff entry solve Rm g W f c S A) :
    Does np first lam nsize dim koff (fun p => (A p).applyP) (projected (koff (first np)) (allMults np lam) g W) := by
  intro X s y hok
  obtain ⟨w', h1, h2⟩ := C66_apply h.shared h.pos (synchronizes_of h) h.projector X (fun p => (s p).work) y (fun p hp => ⟨(hok p hp).1.work, (hok p hp).2⟩)
  refine ⟨fun p => { s p with work := w' p }, fun p hp => ⟨h1 p hp, (hok p hp).1.btx, (hok p hp).1.kbtx, (hok p hp).1.pbtx, (hok p hp).1.pkbtx⟩, ?_⟩
  unfold Process.applyP
  exact world_andThen _ h2 (world_ret _ _ _)

theorem applyPt_spec (h : System np first nb lam doms t cmap nmap nsize dim kdim koff entry solve Rm g W f c S A) :
    Does np first lam nsize dim koff (fun p => (A p).applyPt) (projected (koff (first np)) (allMults np lam) g W) := by
  intro X s y hok
  obtain ⟨w', h1, h2⟩ := C66_applyT h.shared h.pos (synchronizes_of h) h.projector X (fun p => (s p).work) y (fun p hp => ⟨(hok p hp).1.work, (hok p hp).2⟩)
  refine ⟨fun p => { s p with work := w' p }, fun p hp => ⟨h1 p hp, (hok p hp).1.btx, (hok p hp).1.kbtx, (hok p hp).1.pbtx, (hok p hp).1.pkbtx⟩, ?_⟩
  unfold Process.applyPt
  exact world_andThen _ h2 (world_ret _ _ _)

theorem dot_spec (h : System np first nb lam doms t cmap nmap nsize dim kdim koff entry solve Rm g W f c S A) (X Y : L → K) :
    Completes (world 0 np fun p => (A p).dot ((lam p).map X) ((lam p).map Y)) (finished 0 np fun _ => some (∑ l ∈ allMults np lam, X l * Y l)) := by
  have hiv : ∀ p, ∃ iv, p < np → Intervals first p (lam p) doms iv ∧ (A p).projector.li = localIntervals iv := by
    intro p
    by_cases hp : p < np
    · obtain ⟨iv, h1⟩ := h.projector.intervals p hp
      exact ⟨iv, fun _ => h1⟩
    · exact ⟨[], fun hp' => absurd hp' hp⟩
  choose iv hiv using hiv
  obtain ⟨d, h1, h2⟩ := C61_dot h.shared iv (fun p hp => (hiv p hp).1) X Y
  unfold Process.dot
  rw [world_orFail _ d _ (fun p hp => by rw [(hiv p hp).2]; exact h1 p hp)]
  have := h.reduce d
  rw [h2] at this
  exact this

/-! ### The iterations -/

/-- The operators of the solver on the values at all multipliers. -/
def dualOps (nd : Nat) (all : Finset L) (dim kdim koff : Nat → Nat) (entry : L → Nat → Nat → K) (solve : Nat → List K → List K) (Rm : Nat → Nat → Nat → K) (g : Nat → L → K) (W : Nat → Nat → K)
    (f : Nat → Nat → K) (c : L → K) (S : (L → K) → L → K) : Pcpg.Ops K (all → K) where
  F X := restrict all (timesBABt nd dim all entry solve (extend all X))
  P X := restrict all (projected (koff nd) all g W (extend all X))
  Pt X := restrict all (projected (koff nd) all g W (extend all X))
  S X := restrict all (S (extend all X))
  d := restrict all (dualRhs nd dim entry solve f c)
  l := restrict all (timesGt (koff nd) g (timesW (koff nd) W fun k => -timesR nd dim kdim koff Rm f k))
  dot X Y := ∑ l ∈ all, extend all X l * extend all Y l

/-- The values of the process `p`. -/
def share (np : Nat) (lam : Nat → List L) (X : allMults np lam → K) (p : Nat) : List K := (lam p).map (extend (allMults np lam) X)

theorem share_length (X : allMults np lam → K) (p : Nat) : (share np lam X p).length = (lam p).length := List.length_map _

theorem share_restrict (Y : L → K) {p : Nat} (hp : p < np) : share np lam (restrict (allMults np lam) Y) p = (lam p).map Y :=
  List.map_congr_left fun _ hl => extend_restrict Y (mem_allMults.2 ⟨p, hp, hl⟩)

theorem share_add (X Y : allMults np lam → K) (a : K) (p : Nat) : addScaled (share np lam X p) a (share np lam Y p) = some (share np lam (X + a • Y) p) := by
  unfold share
  rw [addScaled_map]
  congr 1
  exact List.map_congr_left fun l _ => (extend_add X Y a l).symm

theorem share_scale (X : allMults np lam → K) (a : K) (p : Nat) : scaleVec a (share np lam X p) = some (share np lam (a • X) p) := by
  unfold share
  rw [scaleVec_map]
  congr 1
  apply List.map_congr_left
  intro l _
  have := extend_add 0 X a l
  rw [zero_add] at this
  rw [this]
  unfold extend
  by_cases h : l ∈ allMults np lam
  · simp only [dif_pos h, Pi.zero_apply, zero_add]
  · simp only [dif_neg h, zero_add]

theorem share_copy (X : allMults np lam → K) (p : Nat) (y : List K) (hy : y.length = (lam p).length) : memcpyTo y 0 (share np lam X p) = some (share np lam X p) :=
  memcpyTo_full _ _ (by rw [hy, share_length])

theorem does_share {op : Nat → Scratch K → List K → List K → Prog (List K) (Option (List K × Scratch K))} {Op : (L → K) → L → K} (hd : Does np first lam nsize dim koff op Op) (X : allMults np lam → K)
    (s : Nat → Scratch K) (y : Nat → List K) (hok : ∀ p, p < np → OK p (s p) ∧ (y p).length = (lam p).length) :
    ∃ s' : Nat → Scratch K, (∀ p, p < np → OK p (s' p)) ∧
      Completes (world 0 np fun p => op p (s p) (share np lam X p) (y p)) (finished 0 np fun p => some (share np lam (restrict _ (Op (extend _ X))) p, s' p)) := by
  obtain ⟨s', h1, h2⟩ := hd (extend _ X) s y hok
  refine ⟨s', h1, ?_⟩
  rw [finished_congr (q := fun p => some ((lam p).map (Op (extend _ X)), s' p)) (fun p _ hp => by rw [share_restrict _ hp])]
  exact h2

local notation "ops" => dualOps (first np) (allMults np lam) dim kdim koff entry solve Rm g W f c S

theorem dot_share (h : System np first nb lam doms t cmap nmap nsize dim kdim koff entry solve Rm g W f c S A) (X Y : allMults np lam → K) :
    Completes (world 0 np fun p => (A p).dot (share np lam X p) (share np lam Y p)) (finished 0 np fun _ => some ((ops).dot X Y)) := dot_spec h _ _

theorem precondition_spec (h : System np first nb lam doms t cmap nmap nsize dim kdim koff entry solve Rm g W f c S A) (r : allMults np lam → K) (s : Nat → Scratch K) (w z y : Nat → List K)
    (hok : ∀ p, p < np → OK p (s p) ∧ (w p).length = (lam p).length ∧ (z p).length = (lam p).length ∧ (y p).length = (lam p).length) :
    ∃ s' : Nat → Scratch K, (∀ p, p < np → OK p (s' p)) ∧
      Completes (world 0 np fun p => (A p).precondition (s p) (share np lam r p) (w p) (z p) (y p))
        (finished 0 np fun p => some ((share np lam ((ops).Pt r) p, share np lam ((ops).S ((ops).Pt r)) p, share np lam (Pcpg.yOf ops r) p), s' p)) := by
  obtain ⟨s1, h1, e1⟩ := does_share (applyPt_spec h) r s w (fun p hp => ⟨(hok p hp).1, (hok p hp).2.1⟩)
  obtain ⟨s2, h2, e2⟩ := does_share (applyS_spec h) ((ops).Pt r) s1 z (fun p hp => ⟨h1 p hp, (hok p hp).2.2.1⟩)
  obtain ⟨s3, h3, e3⟩ := does_share (applyP_spec h) ((ops).S ((ops).Pt r)) s2 y (fun p hp => ⟨h2 p hp, (hok p hp).2.2.2⟩)
  refine ⟨s3, h3, ?_⟩
  unfold Process.precondition
  exact world_andThen _ e1 (world_andThen _ e2 (world_andThen _ e3 (world_ret _ _ _)))

/-- The vectors of the processes between the steps. -/
structure Holds (np : Nat) (lam : Nat → List L) (o : Pcpg.Ops K (allMults np lam → K)) (n : Pcpg.Fin' K (allMults np lam → K)) (q : Nat) (v : Vectors K) : Prop where
  x : v.x = share np lam n.x q
  r : v.r = share np lam n.r q
  w : v.w = share np lam (o.Pt n.r) q
  p : v.p = share np lam n.p q
  y : v.y.length = (lam q).length
  z : v.z.length = (lam q).length
  Fp : v.Fp.length = (lam q).length

/-- The sizes of the vectors of the solver. -/
structure VectorsOk (n : Nat) (v : Vectors K) : Prop where
  x : v.x.length = n
  r : v.r.length = n
  w : v.w.length = n
  y : v.y.length = n
  z : v.z.length = n
  p : v.p.length = n
  Fp : v.Fp.length = n

theorem begin_spec (h : System np first nb lam doms t cmap nmap nsize dim kdim koff entry solve Rm g W f c S A) (s : Nat → Scratch K) (l : Nat → List K) (v : Nat → Vectors K)
    (hok : ∀ p, p < np → OK p (s p) ∧ (l p).length = (lam p).length ∧ VectorsOk (lam p).length (v p)) :
    ∃ (s' : Nat → Scratch K) (v' : Nat → Vectors K), (∀ p, p < np → OK p (s' p) ∧ Holds np lam ops (Pcpg.seq ops 0) p (v' p)) ∧
      Completes (world 0 np fun p => (A p).begin (s p) (share np lam (ops).d p) (mk (koff (first np)) fun k => -timesR (first np) dim kdim koff Rm f k) (l p) (v p))
        (finished 0 np fun p => some ((v' p, Pcpg.rho ops (Pcpg.seq ops 0).r), s' p)) := by
  obtain ⟨w1, h1, e1⟩ := C66_initial h.pos (synchronizes_of h) h.projector (fun k => -timesR (first np) dim kdim koff Rm f k) (fun p => (s p).work) l (fun p hp => ⟨(hok p hp).1.work, (hok p hp).2.1⟩)
  have e1' : Completes (world 0 np fun p => (A p).projector.applyGtinvGGt (s p).work (mk (koff (first np)) fun k => -timesR (first np) dim kdim koff Rm f k) (l p))
      (finished 0 np fun p => some (share np lam (ops).l p, w1 p)) := by
    rw [finished_congr (q := fun p => some ((lam p).map (timesGt (koff (first np)) g (timesW (koff (first np)) W fun k => -timesR (first np) dim kdim koff Rm f k)), w1 p))
      (fun p _ hp => by unfold dualOps; dsimp only; rw [share_restrict _ hp])]
    exact e1
  obtain ⟨s2, h2, e2⟩ := does_share (applyF_spec h) (ops).l (fun p => { s p with work := w1 p }) (fun p => (v p).r)
    (fun p hp => ⟨⟨h1 p hp, (hok p hp).1.btx, (hok p hp).1.kbtx, (hok p hp).1.pbtx, (hok p hp).1.pkbtx⟩, (hok p hp).2.2.r⟩)
  obtain ⟨s3, h3, e3⟩ := precondition_spec h (Pcpg.seq ops 0).r s2 (fun p => (v p).w) (fun p => (v p).z) (fun p => (v p).y)
    (fun p hp => ⟨h2 p hp, (hok p hp).2.2.w, (hok p hp).2.2.z, (hok p hp).2.2.y⟩)
  refine ⟨s3, fun p => ⟨share np lam (ops).l p, share np lam (Pcpg.seq ops 0).r p, share np lam ((ops).Pt (Pcpg.seq ops 0).r) p, share np lam (Pcpg.yOf ops (Pcpg.seq ops 0).r) p,
    share np lam ((ops).S ((ops).Pt (Pcpg.seq ops 0).r)) p, share np lam (Pcpg.yOf ops (Pcpg.seq ops 0).r) p, (v p).Fp⟩, ?_, ?_⟩
  · intro p hp
    exact ⟨h3 p hp, rfl, rfl, rfl, rfl, share_length _ _, share_length _ _, (hok p hp).2.2.Fp⟩
  · unfold Process.begin
    refine world_andThen _ e1' (world_andThen _ e2 ?_)
    rw [world_orFail _ _ _ (fun p _ => share_scale _ _ p), world_orFail _ _ _ (fun p _ => share_add _ _ _ p)]
    refine world_andThen _ e3 ?_
    rw [world_orFail _ _ _ (fun p hp => share_copy _ p _ (hok p hp).2.2.p), world_orFail _ _ _ (fun p hp => share_copy _ p _ (hok p hp).2.2.x)]
    exact world_andThen _ (dot_share h _ _) (world_ret _ _ _)

theorem step_spec [DecidableEq K] (h : System np first nb lam doms t cmap nmap nsize dim kdim koff entry solve Rm g W f c S A) (n : Pcpg.Fin' K (allMults np lam → K)) (s : Nat → Scratch K)
    (v : Nat → Vectors K) (hok : ∀ p, p < np → OK p (s p) ∧ Holds np lam ops n p (v p)) (h1 : (ops).dot n.p ((ops).F n.p) ≠ 0) (h2 : Pcpg.rho ops n.r ≠ 0) :
    ∃ (s' : Nat → Scratch K) (v' : Nat → Vectors K), (∀ p, p < np → OK p (s' p) ∧ Holds np lam ops (Pcpg.step ops n) p (v' p)) ∧
      Completes (world 0 np fun p => (A p).step (s p) (v p) (Pcpg.rho ops n.r)) (finished 0 np fun p => some ((v' p, Pcpg.rho ops (Pcpg.step ops n).r), s' p)) := by
  obtain ⟨s1, k1, e1⟩ := does_share (applyF_spec h) n.p s (fun p => (v p).Fp) (fun p hp => ⟨(hok p hp).1, (hok p hp).2.Fp⟩)
  obtain ⟨s2, k2, e2⟩ := precondition_spec h (Pcpg.step ops n).r s1 (fun p => (v p).w) (fun p => (v p).z) (fun p => (v p).y)
    (fun p hp => ⟨k1 p hp, by rw [(hok p hp).2.w, share_length], (hok p hp).2.z, (hok p hp).2.y⟩)
  refine ⟨s2, fun p => ⟨share np lam (Pcpg.step ops n).x p, share np lam (Pcpg.step ops n).r p, share np lam ((ops).Pt (Pcpg.step ops n).r) p, share np lam n.p p,
    share np lam ((ops).S ((ops).Pt (Pcpg.step ops n).r)) p, share np lam (Pcpg.step ops n).p p, share np lam ((ops).F n.p) p⟩, ?_, ?_⟩
  · intro p hp
    exact ⟨k2 p hp, rfl, rfl, rfl, rfl, share_length _ _, share_length _ _, share_length _ _⟩
  · rw [world_congr (q := fun p => (A p).step (s p) ⟨share np lam n.x p, share np lam n.r p, (v p).w, (v p).y, (v p).z, share np lam n.p p, (v p).Fp⟩ (Pcpg.rho ops n.r)) (fun p _ hp => by
      obtain ⟨hx, hr, -, hp', -⟩ := (hok p hp).2
      rw [← hx, ← hr, ← hp'])]
    unfold Process.step
    refine world_andThen _ e1 (world_andThen _ (dot_share h n.p ((ops).F n.p)) ?_)
    rw [world_orFail _ (fun _ => Pcpg.rho ops n.r / (ops).dot n.p ((ops).F n.p)) _ (fun p _ => by unfold divide; rw [if_neg h1]),
      world_orFail _ _ _ (fun p _ => share_add _ _ _ p), world_orFail _ _ _ (fun p _ => share_add _ _ _ p)]
    refine world_andThen _ e2 (world_andThen _ (dot_share h _ _) ?_)
    rw [world_orFail _ (fun _ => Pcpg.rho ops (Pcpg.step ops n).r / Pcpg.rho ops n.r) _ (fun p _ => by unfold divide; rw [if_neg h2]; rfl), world_orFail _ _ _ (fun p _ => share_add _ _ _ p)]
    exact world_ret _ _ _

theorem loop_spec [LinearOrder K] (h : System np first nb lam doms t cmap nmap nsize dim kdim koff entry solve Rm g W f c S A) (cfg : Pcpg.Config K) (fuel : Nat) :
    ∀ (n : Pcpg.Fin' K (allMults np lam → K)) (info : Pcpg.Info K) (s : Nat → Scratch K) (v : Nat → Vectors K) (st : Pcpg.State K (allMults np lam → K)) (out : Pcpg.Info K),
      (∀ p, p < np → OK p (s p) ∧ Holds np lam ops n p (v p)) → Pcpg.loop ops cfg fuel (Pcpg.lift ops n) info = some (st, out) → st.p ≠ none →
      ∃ (n' : Pcpg.Fin' K (allMults np lam → K)) (s' : Nat → Scratch K) (v' : Nat → Vectors K), st = Pcpg.lift ops n' ∧ (∀ p, p < np → OK p (s' p) ∧ Holds np lam ops n' p (v' p)) ∧
        Completes (world 0 np fun p => (A p).loop cfg fuel (s p) (v p) (Pcpg.rho ops n.r) info) (finished 0 np fun p => some ((v' p, out), s' p)) := by
  induction fuel with
  | zero =>
    intro n info s v st out hok e hp
    unfold Pcpg.loop at e
    split at e
    · rename_i hc
      cases e
      refine ⟨n, s, v, rfl, hok, ?_⟩
      unfold Process.loop
      simp only [if_pos hc]
      exact world_ret _ _ _
    · cases e
  | succ fuel ih =>
    intro n info s v st out hok e hp
    unfold Pcpg.loop at e
    split at e
    · rename_i hc
      cases e
      refine ⟨n, s, v, rfl, hok, ?_⟩
      unfold Process.loop
      simp only [if_pos hc]
      exact world_ret _ _ _
    · rename_i hc
      have hu : ∃ i, Pcpg.updateInfo cfg info (some (Pcpg.rho ops n.r)) = some i ∧ Pcpg.loop ops cfg fuel (Pcpg.iter ops (Pcpg.lift ops n)) i = some (st, out) := by
        cases hu : Pcpg.updateInfo cfg info (Pcpg.lift ops n).yw with
        | none => rw [hu] at e; cases e
        | some i => rw [hu] at e; exact ⟨i, hu, e⟩
      obtain ⟨i, hu, e⟩ := hu
      have hfin : (Pcpg.iter ops (Pcpg.lift ops n)).p ≠ none := fun h0 => hp (loop_none _ cfg fuel _ i st out h0 e)
      obtain ⟨h1, h2⟩ := iter_divisors _ n hfin
      rw [Pcpg.iter_lift _ n h1 h2] at e
      obtain ⟨s1, v1, hok1, e1⟩ := step_spec h n s v hok h1 h2
      obtain ⟨n', s', v', hn, hok', e2⟩ := ih _ i s1 v1 st out hok1 e hp
      refine ⟨n', s', v', hn, hok', ?_⟩
      unfold Process.loop
      simp only [if_neg hc]
      refine world_andThen _ e1 ?_
      rw [world_orFail _ (fun _ => i) _ (fun p _ => hu)]
      exact e2

/-! ### The right-hand sides and the solution -/

theorem rhs_spec (h : System np first nb lam doms t cmap nmap nsize dim kdim koff entry solve Rm g W f c S A) (s : Nat → Scratch K) (d : Nat → List K)
    (hok : ∀ p, p < np → OK p (s p) ∧ (d p).length = (lam p).length) :
    ∃ s' : Nat → Scratch K, (∀ p, p < np → OK p (s' p)) ∧ Completes (world 0 np fun p => (A p).rhs (s p) (d p)) (finished 0 np fun p => some (share np lam (ops).d p, s' p)) := by
  obtain ⟨nmap', nsize', hm, h1⟩ := C64_rhs h.shared h.zero h.glued cmap h.described
  obtain ⟨y', z, kbtx', h2, hk, h3, h4⟩ := h1 solve h.solveLen f c d (fun p => (s p).kbtx) (fun p hp => ⟨(hok p hp).2, (hok p hp).1.kbtx⟩)
  obtain ⟨s', h5, h6⟩ := sync_spec h hm h3 (fun p => { s p with kbtx := kbtx' p })
    (fun p hp => ⟨(hok p hp).1.work, (hok p hp).1.btx, hk p hp, (hok p hp).1.pbtx, (hok p hp).1.pkbtx⟩)
  refine ⟨s', h5, ?_⟩
  unfold Process.rhs
  rw [world_orFail _ _ _ (fun p hp => by rw [h.solvers p hp, h.loads p hp]; exact h2 p hp)]
  refine world_andThen _ h6 ?_
  rw [world_orFail _ _ _ (fun p hp => by rw [h.gaps p hp]; exact h4 p hp),
    finished_congr (q := fun p => some ((lam p).map (dualRhs (first np) dim entry solve f c), s' p)) (fun p _ hp => by unfold dualOps; dsimp only; rw [share_restrict _ hp])]
  exact world_ret _ _ _

theorem kernelSide_spec (h : System np first nb lam doms t cmap nmap nsize dim kdim koff entry solve Rm g W f c S A) (e : Nat → List K) (he : ∀ p, p < np → (e p).length = koff (first np)) :
    Completes (world 0 np fun p => (A p).kernelSide (e p)) (finished 0 np fun _ => some (mk (koff (first np)) fun k => -timesR (first np) dim kdim koff Rm f k)) := by
  have := C66_rhs h.zero h.shared.mono h.pos h.kernels t f (fun p => (A p).goffsets) h.goffsets e he
  rw [world_congr (q := fun p => orFail (kernelRhs (A p).projector.Rs (A p).goffsets (localVectors first p (vectorOf dim f)) (e p)) fun e =>
    syncKernel t p np e (koff (first p)) (koff (first (p + 1)) - koff (first p))) (fun p _ hp => by
      unfold Process.kernelSide
      rw [h.loads p hp, h.projector.tag p hp, h.projector.rank p hp, h.projector.size p hp, h.projector.roffset p hp, h.projector.rsize p hp])]
  exact this

theorem addKernels_spec (p : Nat) (u : Nat → List K) (hu : ∀ d, (u d).length = dim d) (w : Nat → Nat → K) (x : List (List K)) (hx : Sized first dim p x) :
    Process.addKernels (first (p + 1) - first p) (localVectors first p u) (localVectors first p (vectorOf dim w)) x = some (localVectors first p (vectorOf dim fun d i => (u d).getD i 0 + w d i)) := by
  unfold Process.addKernels localVectors
  rw [vectors_mk _ x hx.1]
  refine forDomains_spec _ _ _ _ ?_
  intro j hj
  simp only [Option.bind_eq_bind, mk_get _ hj, Option.bind_some]
  rw [memcpyTo_full _ _ (by rw [hu]; exact hx.2 j hj), Option.bind_some]
  have : u (first p + j) = mk (dim (first p + j)) fun i => (u (first p + j)).getD i 0 := by
    conv_lhs => rw [mk_of_length (u (first p + j)) 0, hu]
  rw [this]
  show addScaled _ 1 (mk (dim (first p + j)) (w (first p + j))) = _
  rw [addScaled_spec]
  congr 1
  apply mk_congr
  intro i hi
  rw [one_mul]

theorem reconstruct_spec (h : System np first nb lam doms t cmap nmap nsize dim kdim koff entry solve Rm g W f c S A) (X r : L → K) (s : Nat → Scratch K) (iK Bt Ra x : Nat → List (List K))
    (hok : ∀ p, p < np → OK p (s p) ∧ Sized first dim p (iK p) ∧ Sized first dim p (Bt p) ∧ Sized first dim p (Ra p) ∧ Sized first dim p (x p)) :
    Completes (world 0 np fun p => (A p).reconstruct (s p) ((lam p).map X) ((lam p).map r) (iK p) (Bt p) (Ra p) (x p))
      (finished 0 np fun p => some (localVectors first p (vectorOf dim (solutionOf (first np) dim kdim koff (allMults np lam) entry solve Rm g W f X r)),
        localVectors first p (vectorOf dim (timesBt (allMults np lam) entry X)))) := by
  obtain ⟨w', -, e1⟩ := C66_kernels h.shared h.pos h.kernels h.projector r (fun p => (s p).work) Ra (fun p hp => ⟨(hok p hp).1.work, (hok p hp).2.2.2.1⟩)
  unfold Process.reconstruct Process.transposed
  rw [world_orFail _ _ _ (fun p hp => by
    rw [h.solvers p hp, h.loads p hp]
    exact C64_primal h.shared h.glued solve hp X f _ _ _ (hok p hp).1.btx (hok p hp).1.kbtx (hok p hp).2.1),
    world_orFail _ _ _ (fun p hp => applyBtAll_global h.shared h.glued hp X _ (hok p hp).2.2.1)]
  refine world_andThen _ e1 ?_
  rw [world_orFail _ _ _ (fun p hp => by
    rw [h.glued.len p hp]
    exact addKernels_spec p _ (fun d => h.solveLen d _ (vectorOf_length _ d)) _ (x p) (hok p hp).2.2.2.2)]
  exact world_ret _ _ _

end

end Verif.Feti
