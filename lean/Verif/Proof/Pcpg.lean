import Verif.Model.Pcpg
import Mathlib.LinearAlgebra.Dimension.Finite
import Mathlib.LinearAlgebra.FiniteDimensional.Defs
import Mathlib.Tactic.FieldSimp
import Mathlib.Tactic.Ring
import Mathlib.Tactic.LinearCombination
/-!
Proofs about the conjugate projected gradients (C62, C63).
-/
namespace Verif.Pcpg

variable {K V : Type} [Field K] [AddCommGroup V] [Module K V]

/-! ### Finite iterates -/

/-- The variables of the method as numbers. -/
structure Fin' (K V : Type) where
  x : V
  r : V
  p : V

/-- The state with finite numbers. -/
def lift (o : Ops K V) (f : Fin' K V) : State K V :=
  { x := some f.x, r := some f.r, w := some (o.Pt f.r), p := some f.p, yw := some (o.dot (o.P (o.S (o.Pt f.r))) (o.Pt f.r)) }

/-- `y`. -/
def yOf (o : Ops K V) (r : V) : V := o.P (o.S (o.Pt r))

/-- `yw`. -/
def rho (o : Ops K V) (r : V) : K := o.dot (yOf o r) (o.Pt r)

/-- One step with numbers. -/
def step (o : Ops K V) (f : Fin' K V) : Fin' K V :=
  let g := rho o f.r / o.dot f.p (o.F f.p)
  let r := f.r + (-g) • o.F f.p
  { x := f.x + g • f.p, r := r, p := yOf o r + (rho o r / rho o f.r) • f.p }

theorem iter_lift [DecidableEq K] (o : Ops K V) (f : Fin' K V) (h1 : o.dot f.p (o.F f.p) ≠ 0) (h2 : rho o f.r ≠ 0) : iter o (lift o f) = lift o (step o f) := by
  have h2' : o.dot (o.P (o.S (o.Pt f.r))) (o.Pt f.r) ≠ 0 := h2
  simp [iter, lift, inner, quot, axpy, h1, h2', step, rho, yOf]

theorem start_lift (o : Ops K V) : start o = lift o ⟨o.l, (-1 : K) • o.F o.l + (1 : K) • o.d, yOf o ((-1 : K) • o.F o.l + (1 : K) • o.d)⟩ := rfl

/-- The iterates as numbers. -/
def seq (o : Ops K V) : Nat → Fin' K V
  | 0 => ⟨o.l, (-1 : K) • o.F o.l + (1 : K) • o.d, yOf o ((-1 : K) • o.F o.l + (1 : K) • o.d)⟩
  | n + 1 => step o (seq o n)

/-! ### Conjugacy -/

section
variable {o : Ops K V} (hs : Symmetric o)
include hs

theorem dot_add' (a b v : V) : o.dot v (a + b) = o.dot v a + o.dot v b := by
  rw [hs.dot_comm, hs.dot_add, hs.dot_comm a, hs.dot_comm b]

theorem dot_smul' (c : K) (a v : V) : o.dot v (c • a) = c * o.dot v a := by
  rw [hs.dot_comm, hs.dot_smul, hs.dot_comm a]

theorem dot_zero_left (v : V) : o.dot 0 v = 0 := by
  have := hs.dot_smul 0 0 v
  simpa using this

theorem y_symm (a b : V) : o.dot (yOf o a) b = o.dot a (yOf o b) := by
  unfold yOf
  rw [hs.P, hs.S, hs.dot_comm, ← hs.dot_comm (o.P _) a, hs.P, hs.dot_comm (o.S _)]

/-- `yw` is the product with the residual. -/
theorem rho_eq (r : V) : rho o r = o.dot (yOf o r) r := by
  unfold rho yOf
  rw [← hs.P, hs.idem]

end

/-- The properties of the iterate `k`. -/
structure Claims (o : Ops K V) (k : Nat) : Prop where
  conj : ∀ j, j < k → o.dot (seq o j).p (o.F (seq o k).p) = 0
  yr : ∀ j, j < k → o.dot (yOf o (seq o j).r) (seq o k).r = 0
  pr : ∀ j, j < k → o.dot (seq o j).p (seq o k).r = 0
  own : o.dot (seq o k).p (seq o k).r = rho o (seq o k).r

theorem seq_succ_r (o : Ops K V) (k : Nat) :
    (seq o (k + 1)).r = (seq o k).r + (-(rho o (seq o k).r / o.dot (seq o k).p (o.F (seq o k).p))) • o.F (seq o k).p := rfl

theorem seq_succ_p (o : Ops K V) (k : Nat) :
    (seq o (k + 1)).p = yOf o (seq o (k + 1)).r + (rho o (seq o (k + 1)).r / rho o (seq o k).r) • (seq o k).p := rfl

theorem seq_succ_x (o : Ops K V) (k : Nat) :
    (seq o (k + 1)).x = (seq o k).x + (rho o (seq o k).r / o.dot (seq o k).p (o.F (seq o k).p)) • (seq o k).p := rfl

theorem claims {o : Ops K V} (hl : Linear o) (hs : Symmetric o) (n : Nat) (hr : ∀ k, k < n → rho o (seq o k).r ≠ 0)
    (hp : ∀ k, k < n → o.dot (seq o k).p (o.F (seq o k).p) ≠ 0) : ∀ k, k ≤ n → Claims o k := by
  intro k
  induction k using Nat.strong_induction_on with
  | _ k ih =>
  intro hk
  cases k with
  | zero =>
    refine ⟨fun j hj => absurd hj (Nat.not_lt_zero j), fun j hj => absurd hj (Nat.not_lt_zero j), fun j hj => absurd hj (Nat.not_lt_zero j), ?_⟩
    rw [rho_eq hs]
    rfl
  | succ k =>
    have ck := ih k (Nat.lt_succ_self k) (by omega)
    have hrk := hr k (by omega)
    have hpk := hp k (by omega)
    have hPR : ∀ j, j < k + 1 → o.dot (seq o j).p (seq o (k + 1)).r = 0 := by
      intro j hj
      rw [seq_succ_r, dot_add' hs, dot_smul' hs]
      rcases Nat.lt_or_ge j k with h | h
      · rw [ck.pr j h, ck.conj j h]; ring
      · have : j = k := by omega
        subst this
        rw [ck.own]
        field_simp
        ring
    have hYR : ∀ j, j < k + 1 → o.dot (yOf o (seq o j).r) (seq o (k + 1)).r = 0 := by
      intro j hj
      cases j with
      | zero => exact hPR 0 hj
      | succ j =>
        have h1 := hPR (j + 1) hj
        rw [seq_succ_p, hs.dot_add, hs.dot_smul, hPR j (by omega)] at h1
        simpa using h1
    refine ⟨?_, hYR, hPR, ?_⟩
    · intro j hj
      have hFp : o.dot (seq o j).p (o.F (yOf o (seq o (k + 1)).r)) = o.dot (o.F (seq o j).p) (yOf o (seq o (k + 1)).r) := (hs.F _ _).symm
      have hgj : (rho o (seq o j).r / o.dot (seq o j).p (o.F (seq o j).p)) * o.dot (o.F (seq o j).p) (yOf o (seq o (k + 1)).r) =
          o.dot (yOf o (seq o j).r) (seq o (k + 1)).r - o.dot (yOf o (seq o (j + 1)).r) (seq o (k + 1)).r := by
        rw [y_symm hs, y_symm hs (seq o (j + 1)).r]
        rw [seq_succ_r o j, hs.dot_add, hs.dot_smul]
        ring
      rw [hYR j hj] at hgj
      have hrj := hr j (by omega)
      have hpj := hp j (by omega)
      rw [seq_succ_p, hl.F.map_add, hl.F.map_smul, dot_add' hs, dot_smul' hs, hFp]
      rcases Nat.lt_or_ge j k with h | h
      · rw [hYR (j + 1) (by omega)] at hgj
        have : o.dot (o.F (seq o j).p) (yOf o (seq o (k + 1)).r) = 0 := by
          rw [sub_zero] at hgj
          exact (mul_eq_zero.1 hgj).resolve_left (div_ne_zero hrj hpj)
        rw [this, ck.conj j h]; ring
      · have : j = k := by omega
        subst this
        rw [← rho_eq hs] at hgj
        have e : o.dot (o.F (seq o j).p) (yOf o (seq o (j + 1)).r) = -(rho o (seq o (j + 1)).r) * o.dot (seq o j).p (o.F (seq o j).p) / rho o (seq o j).r := by
          field_simp at hgj ⊢
          linear_combination hgj
        rw [e]
        field_simp
        ring
    · rw [seq_succ_p, hs.dot_add, hs.dot_smul, hPR k (Nat.lt_succ_self k), ← rho_eq hs]
      ring

/-- The residual is the true one. -/
theorem residual {o : Ops K V} (hl : Linear o) (k : Nat) : (seq o k).r = o.d - o.F (seq o k).x := by
  induction k with
  | zero => simp only [seq]; rw [neg_smul, one_smul, one_smul]; abel
  | succ k ih =>
    rw [seq_succ_r, seq_succ_x, ih, hl.F.map_add, hl.F.map_smul, neg_smul]
    abel

/-- Directions are in the range of the projector. -/
theorem direction {o : Ops K V} (hl : Linear o) (hi : ∀ a, o.P (o.P a) = o.P a) (k : Nat) : o.P (seq o k).p = (seq o k).p := by
  induction k with
  | zero => exact hi _
  | succ k ih =>
    rw [seq_succ_p, hl.P.map_add, hl.P.map_smul, ih]
    congr 1
    exact hi _

/-- Directions stay in the kernel of `G`. -/
theorem direction_kernel {W : Type} [AddCommGroup W] [Module K W] {o : Ops K V} {G : V → W} (hG : IsLinearMap K G) (hGP : ∀ a, G (o.P a) = 0) (k : Nat) : G (seq o k).p = 0 := by
  induction k with
  | zero => exact hGP _
  | succ k ih =>
    rw [seq_succ_p, hG.map_add, hG.map_smul, ih, smul_zero, add_zero]
    exact hGP _

/-- Multipliers satisfy the constraint. -/
theorem feasible {W : Type} [AddCommGroup W] [Module K W] {o : Ops K V} {G : V → W} (hG : IsLinearMap K G) (hGP : ∀ a, G (o.P a) = 0) (k : Nat) : G (seq o k).x = G o.l := by
  induction k with
  | zero => rfl
  | succ k ih => rw [seq_succ_x, hG.map_add, hG.map_smul, ih, direction_kernel hG hGP, smul_zero, add_zero]

/-- There is no more than `dim (range P)` steps with a non-zero `yw`. -/
theorem steps_le {o : Ops K V} [FiniteDimensional K V] (hs : Symmetric o) (P : V →ₗ[K] V) (hP : ∀ a, P a = o.P a) (n : Nat) (hr : ∀ k, k < n → rho o (seq o k).r ≠ 0)
    (hc : ∀ k, k < n → Claims o k) : n ≤ Module.finrank K (LinearMap.range P) := by
  have hmem : ∀ k, yOf o (seq o k).r ∈ LinearMap.range P := fun k => ⟨o.S (o.Pt (seq o k).r), hP _⟩
  have hli : LinearIndependent K (fun i : Fin n => (⟨yOf o (seq o i).r, hmem i⟩ : LinearMap.range P)) := by
    rw [Fintype.linearIndependent_iff]
    intro g hg i
    have h1 : ∑ j : Fin n, g j • yOf o (seq o j).r = 0 := by
      have := congrArg (Subtype.val) hg
      simpa using this
    have h2 : o.dot (∑ j : Fin n, g j • yOf o (seq o j).r) (seq o i).r = ∑ j : Fin n, g j * o.dot (yOf o (seq o j).r) (seq o i).r := by
      have key : ∀ s : Finset (Fin n), o.dot (∑ j ∈ s, g j • yOf o (seq o j).r) (seq o i).r = ∑ j ∈ s, g j * o.dot (yOf o (seq o j).r) (seq o i).r := by
        intro s
        induction s using Finset.induction_on with
        | empty => simp [dot_zero_left hs]
        | insert a s ha ih => rw [Finset.sum_insert ha, Finset.sum_insert ha, hs.dot_add, hs.dot_smul, ih]
      exact key _
    rw [h1, dot_zero_left hs] at h2
    have h3 : ∑ j : Fin n, g j * o.dot (yOf o (seq o j).r) (seq o i).r = g i * o.dot (yOf o (seq o i).r) (seq o i).r := by
      apply Finset.sum_eq_single
      · intro j _ hji
        rcases Nat.lt_or_ge j.1 i.1 with h | h
        · rw [(hc i i.2).yr j h, mul_zero]
        · have : i.1 < j.1 := by
            rcases Nat.lt_or_eq_of_le h with h | h
            · exact h
            · exact absurd (Fin.ext h.symm) hji
          rw [y_symm hs, hs.dot_comm, (hc j j.2).yr i this, mul_zero]
      · intro h
        exact absurd (Finset.mem_univ i) h
    rw [h3, ← rho_eq hs] at h2
    exact (mul_eq_zero.1 h2.symm).resolve_right (hr i i.2)
  simpa using hli.fintype_card_le_finrank

/-- The states are the sequence of numbers as long as no divisor is zero. -/
theorem iterate_eq [DecidableEq K] (o : Ops K V) (n : Nat) (hr : ∀ k, k < n → rho o (seq o k).r ≠ 0) (hp : ∀ k, k < n → o.dot (seq o k).p (o.F (seq o k).p) ≠ 0) :
    iterate o n = lift o (seq o n) := by
  induction n with
  | zero => exact start_lift o
  | succ n ih =>
    rw [iterate, ih (fun k hk => hr k (by omega)) (fun k hk => hp k (by omega)), iter_lift o _ (hp n (by omega)) (hr n (by omega))]
    rfl

/-- Divisors are not zero. -/
theorem divisors {o : Ops K V} (hl : Linear o) (hs : Symmetric o) (hd : Definite o) (n : Nat) (hr : ∀ k, k < n → rho o (seq o k).r ≠ 0) :
    ∀ k, k < n → o.dot (seq o k).p (o.F (seq o k).p) ≠ 0 := by
  intro k
  induction k using Nat.strong_induction_on with
  | _ k ih =>
    intro hk
    have c := claims hl hs k (fun j hj => hr j (by omega)) (fun j hj => ih j hj (by omega)) k (Nat.le_refl k)
    have hne : (seq o k).p ≠ 0 := by
      intro h
      have := c.own
      rw [h, dot_zero_left hs] at this
      exact hr k hk this.symm
    have h1 := hd.F (seq o k).p
    rw [direction hl hs.idem] at h1
    exact h1 hne

/-- There is a last step. -/
theorem last {o : Ops K V} [FiniteDimensional K V] (hl : Linear o) (hs : Symmetric o) (hd : Definite o) (P : V →ₗ[K] V) (hP : ∀ a, P a = o.P a) :
    ∃ m, m ≤ Module.finrank K (LinearMap.range P) ∧ (∀ k, k < m → rho o (seq o k).r ≠ 0) ∧ rho o (seq o m).r = 0 := by
  classical
  have hex : ∃ m, rho o (seq o m).r = 0 := by
    by_contra hno
    have hr : ∀ k, rho o (seq o k).r ≠ 0 := fun k hk => hno ⟨k, hk⟩
    have := steps_le hs P hP (Module.finrank K (LinearMap.range P) + 1) (fun k _ => hr k) (fun k _ => claims hl hs k (fun j _ => hr j) (divisors hl hs hd k fun j _ => hr j) k (Nat.le_refl k))
    omega
  have hmin : ∀ k, k < Nat.find hex → rho o (seq o k).r ≠ 0 := fun k hk => Nat.find_min hex hk
  refine ⟨Nat.find hex, ?_, hmin, Nat.find_spec hex⟩
  exact steps_le hs P hP _ hmin fun k hk => claims hl hs k (fun j hj => hmin j (by omega)) (divisors hl hs hd k fun j hj => hmin j (by omega)) k (Nat.le_refl k)

/-- A zero `yw` is a zero `w`. -/
theorem w_zero {o : Ops K V} (hs : Symmetric o) (hd : Definite o) {r : V} (h : rho o r = 0) : o.Pt r = 0 := by
  by_contra hne
  refine hd.S r hne ?_
  rw [rho_eq hs] at h
  unfold yOf at h
  rwa [hs.P] at h

/-! ### Any state -/

/-- The relations of the variables as far as these are finite. -/
structure Good (o : Ops K V) (s : State K V) : Prop where
  r : ∀ x, s.x = some x → s.r = some (o.d - o.F x)
  w : s.w = s.r.map o.Pt
  yw : s.yw = inner o ((s.w.map o.S).map o.P) s.w

theorem start_good (o : Ops K V) : Good o (start o) := by
  refine ⟨?_, rfl, rfl⟩
  intro x hx
  cases hx
  simp only [start]
  rw [neg_smul, one_smul, one_smul, neg_add_eq_sub]

theorem axpy_some {y : Option V} {a : Option K} {x : Option V} {z : V} (h : axpy y a x = some z) : ∃ y' a' x', y = some y' ∧ a = some a' ∧ x = some x' ∧ z = y' + a' • x' := by
  unfold axpy at h
  cases y <;> cases a <;> cases x <;> simp at h
  exact ⟨_, _, _, rfl, rfl, rfl, h.symm⟩

theorem iter_good [DecidableEq K] {o : Ops K V} (hl : Linear o) {s : State K V} (h : Good o s) : Good o (iter o s) := by
  refine ⟨?_, rfl, rfl⟩
  intro x hx
  obtain ⟨x', g, p', h1, h2, h3, rfl⟩ := axpy_some hx
  simp only [iter]
  rw [h.r x' h1, h2, h3]
  simp only [axpy, Option.map_some, Option.bind_eq_bind, Option.bind_some]
  rw [hl.F.map_add, hl.F.map_smul, neg_smul]
  congr 1
  abel

theorem iterate_good [DecidableEq K] {o : Ops K V} (hl : Linear o) (k : Nat) : Good o (iterate o k) := by
  induction k with
  | zero => exact start_good o
  | succ k ih => exact iter_good hl ih

theorem iterate_feasible [DecidableEq K] {W : Type} [AddCommGroup W] [Module K W] {o : Ops K V} {G : V → W} (hG : IsLinearMap K G) (hGP : ∀ a, G (o.P a) = 0) (k : Nat) :
    (∀ x, (iterate o k).x = some x → G x = G o.l) ∧ (∀ p, (iterate o k).p = some p → G p = 0) := by
  induction k with
  | zero =>
    refine ⟨?_, ?_⟩
    · intro x hx; cases hx; rfl
    · intro p hp; cases hp; exact hGP _
  | succ k ih =>
    refine ⟨?_, ?_⟩
    · intro x hx
      obtain ⟨x', g, p', h1, h2, h3, rfl⟩ := axpy_some hx
      rw [hG.map_add, hG.map_smul, ih.1 x' h1, ih.2 p' h3, smul_zero, add_zero]
    · intro p hp
      obtain ⟨y, b, p', h1, h2, h3, rfl⟩ := axpy_some hp
      rw [hG.map_add, hG.map_smul, ih.2 p' h3, smul_zero, add_zero]
      obtain ⟨z, hz, rfl⟩ := Option.map_eq_some_iff.1 h1
      exact hGP z

/-! ### Minimality -/

theorem x_span (o : Ops K V) (k : Nat) : (seq o k).x - o.l ∈ Submodule.span K {v | ∃ j, j < k ∧ v = (seq o j).p} := by
  induction k with
  | zero => simp only [seq]; rw [sub_self]; exact Submodule.zero_mem _
  | succ k ih =>
    rw [seq_succ_x, add_sub_right_comm]
    refine Submodule.add_mem _ ?_ (Submodule.smul_mem _ _ (Submodule.subset_span ⟨k, Nat.lt_succ_self k, rfl⟩))
    refine Submodule.span_mono ?_ ih
    rintro v ⟨j, hj, rfl⟩
    exact ⟨j, by omega, rfl⟩

theorem span_orth {o : Ops K V} (hs : Symmetric o) {k : Nat} (c : Claims o k) {z : V} (hz : z ∈ Submodule.span K {v | ∃ j, j < k ∧ v = (seq o j).p}) : o.dot z (seq o k).r = 0 := by
  induction hz using Submodule.span_induction with
  | mem v hv => obtain ⟨j, hj, rfl⟩ := hv; exact c.pr j hj
  | zero => exact dot_zero_left hs _
  | add a b _ _ ha hb => rw [hs.dot_add, ha, hb, add_zero]
  | smul a b _ hb => rw [hs.dot_smul, hb, mul_zero]

end Verif.Pcpg
