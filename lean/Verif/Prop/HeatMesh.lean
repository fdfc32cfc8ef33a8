import Verif.Prop.ConductionKernel
import Verif.Prop.Pattern
import Verif.Prop.Chunks
/-!
C80: the matrix of the heat conduction of a domain (the sum of the element matrices that `C46` puts into the pattern).
-/
namespace Verif.Fem

open Verif.Pattern

section
variable {K : Type} [Field K]

theorem list_sum_mul {ι : Type} (l : List ι) (f : ι → K) (a : K) : (l.map f).sum * a = (l.map fun x => f x * a).sum := by
  induction l with
  | nil => simp
  | cons x l ih => simp only [List.map_cons, List.sum_cons, add_mul, ih]

theorem mul_sum_list {ι : Type} (l : List ι) (a : K) (f : ι → K) : a * (l.map f).sum = (l.map fun x => a * f x).sum := by
  rw [mul_comm, list_sum_mul]
  congr 1
  exact List.map_congr_left fun x _ => mul_comm _ _

theorem sum_comm_list {ι : Type} (l : List ι) (s : Finset Nat) (f : Nat → ι → K) : ∑ a ∈ s, (l.map (f a)).sum = (l.map fun x => ∑ a ∈ s, f a x).sum := by
  induction l with
  | nil => simp
  | cons x l ih => simp only [List.map_cons, List.sum_cons, Finset.sum_add_distrib, ih]

/-- The degree of freedom of row `r` of element `s`. -/
def dofOf (m : Nat → Nat) (dofs : Nat) (I : Interval K) (s r : Nat) : Nat := (elementDofs m dofs (I.2.1.getD s [])).getD r 0

/-- The form of an interval: the sum of the forms of its elements. -/
def intervalForm (m : Nat → Nat) (dofs : Nat) (I : Interval K) (S T : Nat → K) : K :=
  ∑ s ∈ Finset.range I.2.1.length, ∑ r ∈ Finset.range (dofs * I.1), ∑ c ∈ Finset.range (dofs * I.1), S (dofOf m dofs I s r) * I.2.2 s r c * T (dofOf m dofs I s c)

theorem sum_pick {size : Nat} {a b : Nat} (ha : a < size) (hb : b < size) (S T : Nat → K) (x : K) :
    ∑ i ∈ Finset.range size, ∑ j ∈ Finset.range size, S i * (if a = i ∧ b = j then x else 0) * T j = S a * x * T b := by
  have e : ∀ i ∈ Finset.range size, ∑ j ∈ Finset.range size, S i * (if a = i ∧ b = j then x else 0) * T j = if a = i then S i * x * T b else 0 := by
    intro i _
    by_cases h : a = i
    · simp only [h, true_and, if_true, mul_ite, mul_zero, ite_mul, zero_mul]
      rw [Finset.sum_ite_eq (Finset.range size) b, if_pos (Finset.mem_range.2 hb)]
    · simp [h]
  rw [Finset.sum_congr rfl e, Finset.sum_ite_eq (Finset.range size) a, if_pos (Finset.mem_range.2 ha)]

/-- The form of the assembled matrix is the sum of the forms of the elements. -/
theorem assembled_form {m : Nat → Nat} {dofs size : Nat} {Is : List (Interval K)}
    (hlt : ∀ I ∈ Is, ∀ s < I.2.1.length, ∀ r < dofs * I.1, dofOf m dofs I s r < size) (S T : Nat → K) :
    ∑ i ∈ Finset.range size, ∑ j ∈ Finset.range size, S i * assembled m dofs Is i j * T j = (Is.map fun I => intervalForm m dofs I S T).sum := by
  simp only [assembled, mul_sum_list, list_sum_mul]
  have e1 : ∀ i ∈ Finset.range size, ∑ j ∈ Finset.range size, (Is.map fun I => S i * (∑ s ∈ Finset.range I.2.1.length, ∑ r ∈ Finset.range (dofs * I.1),
      ∑ c ∈ Finset.range (dofs * I.1), if (elementDofs m dofs (I.2.1.getD s [])).getD r 0 = i ∧ (elementDofs m dofs (I.2.1.getD s [])).getD c 0 = j then
        I.2.2 s r c else 0) * T j).sum = (Is.map fun I => ∑ j ∈ Finset.range size, S i * (∑ s ∈ Finset.range I.2.1.length, ∑ r ∈ Finset.range (dofs * I.1),
      ∑ c ∈ Finset.range (dofs * I.1), if (elementDofs m dofs (I.2.1.getD s [])).getD r 0 = i ∧ (elementDofs m dofs (I.2.1.getD s [])).getD c 0 = j then
        I.2.2 s r c else 0) * T j).sum := fun i _ => sum_comm_list _ _ _
  rw [Finset.sum_congr rfl e1, sum_comm_list]
  congr 1
  refine List.map_congr_left fun I hI => ?_
  simp only [Finset.mul_sum, Finset.sum_mul]
  have e2 : ∀ i ∈ Finset.range size, (∑ j ∈ Finset.range size, ∑ s ∈ Finset.range I.2.1.length, ∑ r ∈ Finset.range (dofs * I.1),
      ∑ c ∈ Finset.range (dofs * I.1), S i * (if (elementDofs m dofs (I.2.1.getD s [])).getD r 0 = i ∧ (elementDofs m dofs (I.2.1.getD s [])).getD c 0 = j then
        I.2.2 s r c else 0) * T j) = ∑ s ∈ Finset.range I.2.1.length, ∑ r ∈ Finset.range (dofs * I.1),
      ∑ c ∈ Finset.range (dofs * I.1), ∑ j ∈ Finset.range size, S i * (if (elementDofs m dofs (I.2.1.getD s [])).getD r 0 = i ∧
        (elementDofs m dofs (I.2.1.getD s [])).getD c 0 = j then I.2.2 s r c else 0) * T j := by
    intro i _
    rw [Finset.sum_comm]
    refine Finset.sum_congr rfl fun s _ => ?_
    rw [Finset.sum_comm]
    refine Finset.sum_congr rfl fun r _ => ?_
    rw [Finset.sum_comm]
  rw [Finset.sum_congr rfl e2, Finset.sum_comm]
  unfold intervalForm
  refine Finset.sum_congr rfl fun s hs => ?_
  rw [Finset.sum_comm]
  refine Finset.sum_congr rfl fun r hr => ?_
  rw [Finset.sum_comm]
  refine Finset.sum_congr rfl fun c hc => ?_
  exact sum_pick (hlt I hI s (Finset.mem_range.1 hs) r (Finset.mem_range.1 hr)) (hlt I hI s (Finset.mem_range.1 hs) c (Finset.mem_range.1 hc)) S T _

end

/-- The matrix `B` is computed by the kernel for an element that conducts. -/
structure Conducting (c : Code) (gps : Nat) (B : Nat → Nat → ℝ) : Prop where
  dim : edim c = 2 ∨ edim c = 3
  sees : SeesAll c gps
  kernel : ∃ (m : Material ℝ) (thickness old : Nat → ℝ) (coords : Nat → Nat → ℝ) (A : List ℝ) (pts : List (List ℝ × ℝ)),
    elementConductivity Real.sqrt c gps m thickness old coords = some A ∧ (∀ r < nodes c, ∀ k < nodes c, B r k = entry A (r * nodes c + k)) ∧
    m.model ≠ .anisotropic ∧ rulePoints Real.sqrt c gps = some pts ∧
    (∀ p ∈ pts, ∀ v : Fin (edim c) → ℝ, v ≠ 0 → 0 < ∑ i, ∑ j, v i * m.tensor (edim c) p.1 i j * v j) ∧
    (∀ p ∈ pts, 0 < thickAt c gps thickness p.1) ∧ ∀ p ∈ pts, 0 < detAt c gps coords p.1

/-- All elements of the domain conduct, and their nodes have indices below `size`. -/
structure HeatDomain (m : Nat → Nat) (size : Nat) (Is : List (Interval ℝ)) : Prop where
  bound : ∀ I ∈ Is, ∀ s < I.2.1.length, ∀ r < I.1, dofOf m 1 I s r < size
  elements : ∀ I ∈ Is, ∃ c gps, I.1 = nodes c ∧ ∀ s < I.2.1.length, Conducting c gps (I.2.2 s)

theorem Conducting.form {c : Code} {gps : Nat} {B : Nat → Nat → ℝ} (h : Conducting c gps B) (T : Nat → ℝ) :
    0 ≤ ∑ a ∈ Finset.range (nodes c), ∑ b ∈ Finset.range (nodes c), T a * B a b * T b ∧
    (∑ a ∈ Finset.range (nodes c), ∑ b ∈ Finset.range (nodes c), T a * B a b * T b = 0 ↔ ∀ n < nodes c, T n = T 0) ∧
    (∀ a < nodes c, ∑ b ∈ Finset.range (nodes c), B a b = 0) ∧ ∀ a < nodes c, ∀ b < nodes c, B a b = B b a := by
  obtain ⟨m, thickness, old, coords, A, pts, hA, hB, hm, hp, hC, ht, hJ⟩ := h.kernel
  have e : ∑ a ∈ Finset.range (nodes c), ∑ b ∈ Finset.range (nodes c), T a * B a b * T b =
      ∑ a ∈ Finset.range (nodes c), ∑ b ∈ Finset.range (nodes c), T a * entry A (a * nodes c + b) * T b :=
    Finset.sum_congr rfl fun a ha => Finset.sum_congr rfl fun b hb => by rw [hB a (Finset.mem_range.1 ha) b (Finset.mem_range.1 hb)]
  refine ⟨?_, ?_, fun a ha => ?_, fun a ha b hb => ?_⟩
  · rw [e]
    refine C79_dissipation h.dim hA hp (fun p hpp v => ?_) (fun p hpp => (ht p hpp).le) hJ T
    by_cases hv : v = 0
    · rw [hv]; simp
    · exact (hC p hpp v hv).le
  · rw [e]
    exact C79_kernel h.dim h.sees hA hp hC ht hJ T
  · rw [Finset.sum_congr rfl fun b hb => hB a ha b (Finset.mem_range.1 hb)]
    exact C79_constants h.dim hA a ha
  · rw [hB a ha b hb, hB b hb a ha]
    exact C79_symmetric h.dim hm hA a b ha hb

/-- Two nodes of a common element. -/
def Together (m : Nat → Nat) (Is : List (Interval ℝ)) (i j : Nat) : Prop :=
  ∃ I ∈ Is, ∃ s < I.2.1.length, ∃ r < I.1, ∃ c < I.1, dofOf m 1 I s r = i ∧ dofOf m 1 I s c = j

variable {m : Nat → Nat} {size : Nat} {Is : List (Interval ℝ)}

theorem intervalForm_one (I : Interval ℝ) (S T : Nat → ℝ) : intervalForm m 1 I S T =
    ∑ s ∈ Finset.range I.2.1.length, ∑ r ∈ Finset.range I.1, ∑ c ∈ Finset.range I.1, S (dofOf m 1 I s r) * I.2.2 s r c * T (dofOf m 1 I s c) := by
  simp only [intervalForm, one_mul]

/-- The assembled matrix is symmetric. -/
theorem C80_symmetric (h : HeatDomain m size Is) (i j : Nat) : assembled m 1 Is i j = assembled m 1 Is j i := by
  unfold assembled
  congr 1
  refine List.map_congr_left fun I hI => Finset.sum_congr rfl fun s hs => ?_
  rw [Finset.sum_comm]
  obtain ⟨c, gps, hN, hel⟩ := h.elements I hI
  refine Finset.sum_congr rfl fun r hr => Finset.sum_congr rfl fun k hk => ?_
  rw [one_mul, hN] at hr hk
  rw [((hel s (Finset.mem_range.1 hs)).form 0).2.2.2 k (Finset.mem_range.1 hk) r (Finset.mem_range.1 hr)]
  simp only [and_comm]

theorem interval_nonneg (h : HeatDomain m size Is) {I : Interval ℝ} (hI : I ∈ Is) (T : Nat → ℝ) : 0 ≤ intervalForm m 1 I T T := by
  obtain ⟨c, gps, hN, hel⟩ := h.elements I hI
  rw [intervalForm_one]
  refine Finset.sum_nonneg fun s hs => ?_
  rw [hN]
  exact ((hel s (Finset.mem_range.1 hs)).form fun r => T (dofOf m 1 I s r)).1

theorem HeatDomain.bound' (h : HeatDomain m size Is) : ∀ I ∈ Is, ∀ s < I.2.1.length, ∀ r < 1 * I.1, dofOf m 1 I s r < size := by
  intro I hI s hs r hr
  exact h.bound I hI s hs r (by omega)

/-- The assembled matrix is positive semidefinite. -/
theorem C80_dissipation (h : HeatDomain m size Is) (T : Nat → ℝ) :
    0 ≤ ∑ i ∈ Finset.range size, ∑ j ∈ Finset.range size, T i * assembled m 1 Is i j * T j := by
  rw [assembled_form h.bound']
  refine List.sum_nonneg fun x hx => ?_
  obtain ⟨I, hI, rfl⟩ := List.mem_map.1 hx
  exact interval_nonneg h hI T

/-- The energy vanishes exactly for the temperatures that are constant on every connected part of the domain: one constant for a connected domain,
as the regularization and the kernels of FETI assume. -/
theorem C80_kernel (h : HeatDomain m size Is) (T : Nat → ℝ) :
    ∑ i ∈ Finset.range size, ∑ j ∈ Finset.range size, T i * assembled m 1 Is i j * T j = 0 ↔
      ∀ i j, Relation.ReflTransGen (Together m Is) i j → T i = T j := by
  rw [assembled_form h.bound']
  constructor
  · intro hz i j hij
    have hstep : ∀ i j, Together m Is i j → T i = T j := by
      rintro i j ⟨I, hI, s, hs, r, hr, k, hk, rfl, rfl⟩
      have hI0 : intervalForm m 1 I T T = 0 := by
        refine le_antisymm ?_ (interval_nonneg h hI T)
        rw [← hz]
        exact List.single_le_sum (fun x hx => by obtain ⟨J, hJ, rfl⟩ := List.mem_map.1 hx; exact interval_nonneg h hJ T) _ (List.mem_map.2 ⟨I, hI, rfl⟩)
      obtain ⟨c, gps, hN, hel⟩ := h.elements I hI
      rw [intervalForm_one, hN] at hI0
      rw [hN] at hr hk
      have h0 := (Finset.sum_eq_zero_iff_of_nonneg fun s hs => ((hel s (Finset.mem_range.1 hs)).form fun r => T (dofOf m 1 I s r)).1).1 hI0 s (Finset.mem_range.2 hs)
      have h1 := ((hel s hs).form fun r => T (dofOf m 1 I s r)).2.1.1 h0
      rw [h1 r hr, h1 k hk]
    induction hij with
    | refl => rfl
    | tail _ h1 ih => rw [ih, hstep _ _ h1]
  · intro hT
    refine List.sum_eq_zero fun x hx => ?_
    obtain ⟨I, hI, rfl⟩ := List.mem_map.1 hx
    obtain ⟨c, gps, hN, hel⟩ := h.elements I hI
    rw [intervalForm_one, hN]
    refine Finset.sum_eq_zero fun s hs => ?_
    have hs' := Finset.mem_range.1 hs
    refine ((hel s hs').form fun r => T (dofOf m 1 I s r)).2.1.2 fun n hn => ?_
    exact hT _ _ (Relation.ReflTransGen.single ⟨I, hI, s, hs', n, by omega, 0, by omega, rfl, rfl⟩)

/-- No heat is created: whatever the temperatures, the heat of all nodes is zero. -/
theorem C80_conservation (h : HeatDomain m size Is) (T : Nat → ℝ) : ∑ i ∈ Finset.range size, ∑ j ∈ Finset.range size, assembled m 1 Is i j * T j = 0 := by
  have := assembled_form h.bound' (fun _ => 1) T
  simp only [one_mul] at this
  rw [this]
  refine List.sum_eq_zero fun x hx => ?_
  obtain ⟨I, hI, rfl⟩ := List.mem_map.1 hx
  obtain ⟨c, gps, hN, hel⟩ := h.elements I hI
  rw [intervalForm_one, hN]
  refine Finset.sum_eq_zero fun s hs => ?_
  rw [Finset.sum_comm]
  refine Finset.sum_eq_zero fun k hk => ?_
  obtain ⟨-, -, hrow, hsym⟩ := (hel s (Finset.mem_range.1 hs)).form T
  simp only [one_mul]
  rw [← Finset.sum_mul, Finset.sum_congr rfl fun r hr => hsym r (Finset.mem_range.1 hr) k (Finset.mem_range.1 hk), hrow k (Finset.mem_range.1 hk), zero_mul]

/-- With a prescribed temperature in every connected part (a set of nodes that every node is connected to), the reduced problem has at most one solution. -/
theorem C80_dirichlet (h : HeatDomain m size Is) (D : Nat → Prop) (hD : ∀ i < size, ∃ j, D j ∧ Relation.ReflTransGen (Together m Is) i j)
    (T T' f : Nat → ℝ) (hfix : ∀ i, D i → T i = T' i) (hT : ∀ i < size, ¬ D i → ∑ j ∈ Finset.range size, assembled m 1 Is i j * T j = f i)
    (hT' : ∀ i < size, ¬ D i → ∑ j ∈ Finset.range size, assembled m 1 Is i j * T' j = f i) : ∀ i < size, T i = T' i := by
  have hz : ∑ i ∈ Finset.range size, ∑ j ∈ Finset.range size, (T i - T' i) * assembled m 1 Is i j * (T j - T' j) = 0 := by
    refine Finset.sum_eq_zero fun i hi => ?_
    by_cases hDi : D i
    · rw [hfix i hDi, sub_self]
      simp
    · have e1 := hT i (Finset.mem_range.1 hi) hDi
      have e2 := hT' i (Finset.mem_range.1 hi) hDi
      have e : ∀ j ∈ Finset.range size, (T i - T' i) * assembled m 1 Is i j * (T j - T' j) =
          (T i - T' i) * (assembled m 1 Is i j * T j) - (T i - T' i) * (assembled m 1 Is i j * T' j) := fun j _ => by ring
      rw [Finset.sum_congr rfl e, Finset.sum_sub_distrib, ← Finset.mul_sum, ← Finset.mul_sum, e1, e2, sub_self]
  have hk := (C80_kernel h fun i => T i - T' i).1 hz
  intro i hi
  obtain ⟨j, hj, hij⟩ := hD i hi
  have := hk i j hij
  rw [hfix j hj, sub_self] at this
  exact sub_eq_zero.1 this

/-- The convection `htc (T_ext - T)` reaches only the right-hand side (`htc T_ext`, op.externalheat.h:40); nothing is added to the matrix
(heattransfer.cpp:289-296, the boundary kernel has no filler for the matrix). So a body cooled or heated only by convection has no solution: whatever the
elements and the temperatures are, the equations cannot be satisfied unless `htc T_ext` is zero. -/
theorem C80_convection_wrong (h : HeatDomain m size Is) (ndim : Nat) (c : Code) (gps : Nat) (coords : Nat → Nat → ℝ) (area : ℝ) (hpos : 0 < area)
    (ha : boundaryArea Real.sqrt ndim c gps coords = some area) (htc ext : ℝ) (hhtc : 0 < htc) (hext : 0 < ext) (ids : Nat → Nat)
    (hids : ∀ n < nodes c, ids n < size) :
    ∃ g, boundaryLoad Real.sqrt ndim c gps ⟨0, 0, htc, ext, 0, 1⟩ coords = some g ∧
      ¬ ∃ T : Nat → ℝ, ∀ i < size, ∑ j ∈ Finset.range size, assembled m 1 Is i j * T j = ∑ n ∈ Finset.range (nodes c), if ids n = i then entry g n else 0 := by
  obtain ⟨g, hg, hl, hs⟩ := C78_load ndim c gps ⟨0, 0, htc, ext, 0, 1⟩ coords area ha
  refine ⟨g, hg, ?_⟩
  rintro ⟨T, hT⟩
  have h1 := C80_conservation h T
  rw [Finset.sum_congr rfl fun i hi => hT i (Finset.mem_range.1 hi), Finset.sum_comm] at h1
  have e : ∀ n ∈ Finset.range (nodes c), (∑ i ∈ Finset.range size, if ids n = i then entry g n else 0) = entry g n := by
    intro n hn
    rw [Finset.sum_ite_eq (Finset.range size), if_pos (Finset.mem_range.2 (hids n (Finset.mem_range.1 hn)))]
  rw [Finset.sum_congr rfl e] at h1
  have hsum : ∑ n ∈ Finset.range (nodes c), entry g n = g.sum := by
    rw [← hl]
    clear hg hs e h1 hT hl
    induction g with
    | nil => simp
    | cons x g ih =>
      rw [List.length_cons, Finset.sum_range_succ', List.sum_cons, ← ih]
      simp [entry, add_comm]
  rw [hsum, hs] at h1
  simp only [HeatLoad.q, zero_mul, zero_add, mul_one] at h1
  have : 0 < htc * ext * area := mul_pos (mul_pos hhtc hext) hpos
  linarith

end Verif.Fem
