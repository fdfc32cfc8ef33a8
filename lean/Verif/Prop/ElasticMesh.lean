import Verif.Prop.ElasticThickness
import Verif.Prop.HeatMesh
/-!
C83: the stiffness matrix of a domain (the sum of the element matrices that `C46` puts into the pattern).
-/
namespace Verif.Fem

open Verif.Pattern

/-- The matrix `B` is computed by the kernel for the element with the nodes `e`, whose coordinates are `X`, from a stable material. -/
structure ElasticElement (X : Nat → Nat → ℝ) (c : Code) (gps : Nat) (e : List Nat) (B : Nat → Nat → ℝ) : Prop where
  length : e.length = nodes c
  kernel : ∃ (pi : ℝ) (m : Elastic ℝ) (u : Nat → Nat → ℝ) (A : List ℝ) (pts : List (List ℝ × ℝ)),
    elementElasticity Real.sqrt pi c gps m u (fun n i => X (e.getD n 0) i) = some A ∧
    (∀ r < edim c * nodes c, ∀ k < edim c * nodes c, B r k = entry A (r * (edim c * nodes c) + k)) ∧
    (edim c = 2 → m.behaviour ≠ .axisymmetric) ∧ rulePoints Real.sqrt c gps = some pts ∧
    (∀ p ∈ pts, m.stable (edim c) p.1) ∧ ∀ p ∈ pts, 0 < detAt c gps (fun n i => X (e.getD n 0) i) p.1

/-- All elements of the domain are elastic elements of the dimension `d`, and their degrees of freedom have indices below `size`. -/
structure ElasticDomain (d : Nat) (X : Nat → Nat → ℝ) (m : Nat → Nat) (size : Nat) (Is : List (Interval ℝ)) : Prop where
  dim : d = 2 ∨ d = 3
  bound : ∀ I ∈ Is, ∀ s < I.2.1.length, ∀ r < d * I.1, dofOf m d I s r < size
  elements : ∀ I ∈ Is, ∃ c gps, edim c = d ∧ I.1 = nodes c ∧ ∀ s < I.2.1.length, ElasticElement X c gps (I.2.1.getD s []) (I.2.2 s)

/-- A rigid motion of the nodes: a translation and an antisymmetric gradient. -/
def RigidOn (d : Nat) (X : Nat → Nat → ℝ) (m : Nat → Nat) (S : Nat → Prop) (U : Nat → ℝ) (a : Nat → ℝ) (w : Matrix (Fin d) (Fin d) ℝ) : Prop :=
  ∀ n, S n → ∀ j : Fin d, U (m (n * d + j)) = a j + ∑ i, w j i * X n i

/-- The node `n` is a node of an element of the domain. -/
def NodeOf (Is : List (Interval ℝ)) (n : Nat) : Prop := ∃ I ∈ Is, ∃ s < I.2.1.length, n ∈ I.2.1.getD s []

variable {d : Nat} {X : Nat → Nat → ℝ} {m : Nat → Nat} {size : Nat} {Is : List (Interval ℝ)}

theorem elementDofs_at (m : Nat → Nat) (e : List Nat) {j n : Nat} (hj : j < d) (hn : n < e.length) :
    (elementDofs m d e).getD (j * e.length + n) 0 = m (e.getD n 0 * d + j) := by
  have h := elementDofs_get m hj (show e[n]? = some (e.getD n 0) by simp [hn])
  rw [List.getD_eq_getElem?_getD, h]
  rfl

/-- What is known about the matrix of an element. -/
theorem ElasticElement.form {c : Code} {gps : Nat} {e : List Nat} {B : Nat → Nat → ℝ} (h : ElasticElement X c gps e B) (hd : edim c = 2 ∨ edim c = 3) (U : Nat → ℝ) :
    0 ≤ ∑ a ∈ Finset.range (edim c * nodes c), ∑ b ∈ Finset.range (edim c * nodes c), U a * B a b * U b ∧
    (∀ a < edim c * nodes c, ∀ b < edim c * nodes c, B a b = B b a) ∧
    (Rigid (edim c) (nodes c) (fun n i => X (e.getD n 0) i) U → ∀ a < edim c * nodes c, ∑ b ∈ Finset.range (edim c * nodes c), B a b * U b = 0) ∧
    (∑ a ∈ Finset.range (edim c * nodes c), ∑ b ∈ Finset.range (edim c * nodes c), U a * B a b * U b = 0 ↔
      ∀ pts, rulePoints Real.sqrt c gps = some pts → ∀ p ∈ pts, strainAt c gps (fun n i => X (e.getD n 0) i) U p.1 = 0) ∧
    (c = .triangle3 ∨ c = .tetra4 ∨ c = .square4 → SeesAll c gps →
      ∑ a ∈ Finset.range (edim c * nodes c), ∑ b ∈ Finset.range (edim c * nodes c), U a * B a b * U b = 0 →
        Rigid (edim c) (nodes c) (fun n i => X (e.getD n 0) i) U) := by
  obtain ⟨pi, mat, u, A, pts, hA, hB, hb, hp, hm, hJ⟩ := h.kernel
  have e : ∑ a ∈ Finset.range (edim c * nodes c), ∑ b ∈ Finset.range (edim c * nodes c), U a * B a b * U b = formOf (edim c * nodes c) A U U :=
    Finset.sum_congr rfl fun a ha => Finset.sum_congr rfl fun b hb => by rw [hB a (Finset.mem_range.1 ha) b (Finset.mem_range.1 hb)]
  rw [e]
  refine ⟨C81_energy_nonneg hd hb hA hp hm hJ U, fun a ha b hb' => ?_, fun hU a ha => ?_, ?_, fun hc hs hz => (C81_rigid_only_partial hc hb hs hA hp hm hJ U).1 hz⟩
  · rw [hB a ha b hb', hB b hb' a ha]
    exact C81_symmetric hd hb hA a b ha hb'
  · rw [Finset.sum_congr rfl fun b hb => by rw [hB a ha b (Finset.mem_range.1 hb)]]
    exact C81_rigid hd hb hA hU a ha
  · rw [C81_kernel hd hb hA hp hm hJ]
    constructor
    · intro hz pts' hp'
      rw [hp] at hp'
      obtain rfl := Option.some.inj hp'
      exact hz
    · intro hz
      exact hz pts hp

/-- The energy of an element of a domain. -/
def elementEnergy (m : Nat → Nat) (d : Nat) (I : Interval ℝ) (s : Nat) (U : Nat → ℝ) : ℝ :=
  ∑ r ∈ Finset.range (d * I.1), ∑ k ∈ Finset.range (d * I.1), U (dofOf m d I s r) * I.2.2 s r k * U (dofOf m d I s k)

theorem elementEnergy_nonneg (h : ElasticDomain d X m size Is) {I : Interval ℝ} (hI : I ∈ Is) {s : Nat} (hs : s < I.2.1.length) (U : Nat → ℝ) :
    0 ≤ elementEnergy m d I s U := by
  obtain ⟨c, gps, rfl, hN, hel⟩ := h.elements I hI
  unfold elementEnergy
  rw [hN]
  exact ((hel s hs).form h.dim fun r => U (dofOf m (edim c) I s r)).1

theorem interval_energy (I : Interval ℝ) (U : Nat → ℝ) : intervalForm m d I U U = ∑ s ∈ Finset.range I.2.1.length, elementEnergy m d I s U := rfl

theorem interval_energy_nonneg (h : ElasticDomain d X m size Is) {I : Interval ℝ} (hI : I ∈ Is) (U : Nat → ℝ) : 0 ≤ intervalForm m d I U U := by
  rw [interval_energy]
  exact Finset.sum_nonneg fun s hs => elementEnergy_nonneg h hI (Finset.mem_range.1 hs) U

/-- The assembled matrix is symmetric. -/
theorem C83_symmetric (h : ElasticDomain d X m size Is) (i j : Nat) : assembled m d Is i j = assembled m d Is j i := by
  unfold assembled
  congr 1
  refine List.map_congr_left fun I hI => Finset.sum_congr rfl fun s hs => ?_
  rw [Finset.sum_comm]
  obtain ⟨c, gps, rfl, hN, hel⟩ := h.elements I hI
  refine Finset.sum_congr rfl fun r hr => Finset.sum_congr rfl fun k hk => ?_
  rw [hN] at hr hk
  rw [((hel s (Finset.mem_range.1 hs)).form h.dim 0).2.1 k (Finset.mem_range.1 hk) r (Finset.mem_range.1 hr)]
  simp only [and_comm]

/-- The assembled matrix is positive semidefinite. -/
theorem C83_energy_nonneg (h : ElasticDomain d X m size Is) (U : Nat → ℝ) :
    0 ≤ ∑ i ∈ Finset.range size, ∑ j ∈ Finset.range size, U i * assembled m d Is i j * U j := by
  rw [assembled_form h.bound]
  refine List.sum_nonneg fun x hx => ?_
  obtain ⟨I, hI, rfl⟩ := List.mem_map.1 hx
  exact interval_energy_nonneg h hI U

theorem energy_zero_iff (h : ElasticDomain d X m size Is) (U : Nat → ℝ) :
    ∑ i ∈ Finset.range size, ∑ j ∈ Finset.range size, U i * assembled m d Is i j * U j = 0 ↔ ∀ I ∈ Is, ∀ s < I.2.1.length, elementEnergy m d I s U = 0 := by
  rw [assembled_form h.bound]
  constructor
  · intro hz I hI s hs
    have hI0 : intervalForm m d I U U = 0 := by
      refine le_antisymm ?_ (interval_energy_nonneg h hI U)
      rw [← hz]
      exact List.single_le_sum (fun x hx => by obtain ⟨J, hJ, rfl⟩ := List.mem_map.1 hx; exact interval_energy_nonneg h hJ U) _ (List.mem_map.2 ⟨I, hI, rfl⟩)
    rw [interval_energy] at hI0
    exact (Finset.sum_eq_zero_iff_of_nonneg fun s hs => elementEnergy_nonneg h hI (Finset.mem_range.1 hs) U).1 hI0 s (Finset.mem_range.2 hs)
  · intro hz
    refine List.sum_eq_zero fun x hx => ?_
    obtain ⟨I, hI, rfl⟩ := List.mem_map.1 hx
    rw [interval_energy]
    exact Finset.sum_eq_zero fun s hs => hz I hI s (Finset.mem_range.1 hs)

/-- The energy vanishes exactly for the displacements without strain in all points of all elements. -/
theorem C83_kernel (h : ElasticDomain d X m size Is) (U : Nat → ℝ) :
    ∑ i ∈ Finset.range size, ∑ j ∈ Finset.range size, U i * assembled m d Is i j * U j = 0 ↔
      ∀ I ∈ Is, ∀ c gps, edim c = d → I.1 = nodes c → ∀ s < I.2.1.length, ElasticElement X c gps (I.2.1.getD s []) (I.2.2 s) →
        ∀ pts, rulePoints Real.sqrt c gps = some pts → ∀ p ∈ pts, strainAt c gps (fun n i => X ((I.2.1.getD s []).getD n 0) i) (fun r => U (dofOf m d I s r)) p.1 = 0 := by
  rw [energy_zero_iff h]
  constructor
  · intro hz I hI c gps hc hN s hs hel
    have h0 := hz I hI s hs
    subst hc
    rw [elementEnergy, hN] at h0
    exact (hel.form h.dim fun r => U (dofOf m (edim c) I s r)).2.2.2.1.1 h0
  · intro hz I hI s hs
    obtain ⟨c, gps, hc, hN, hel⟩ := h.elements I hI
    have h0 := hz I hI c gps hc hN s hs (hel s hs)
    subst hc
    rw [elementEnergy, hN]
    exact ((hel s hs).form h.dim fun r => U (dofOf m (edim c) I s r)).2.2.2.1.2 h0

/-- The rigid motion of a domain is one of each of its elements. -/
theorem local_rigid {c : Code} {gps : Nat} {I : Interval ℝ} {s : Nat} (hN : I.1 = nodes c) (hel : ElasticElement X c gps (I.2.1.getD s []) (I.2.2 s))
    {S : Nat → Prop} (hS : ∀ n ∈ I.2.1.getD s [], S n) {U a : Nat → ℝ} {w : Matrix (Fin (edim c)) (Fin (edim c)) ℝ} (hw : w.transpose = -w) (hU : RigidOn (edim c) X m S U a w) :
    Rigid (edim c) (nodes c) (fun n i => X ((I.2.1.getD s []).getD n 0) i) fun r => U (dofOf m (edim c) I s r) := by
  refine ⟨a, w, hw, fun j n hn => ?_⟩
  have hl := hel.length
  have e : dofOf m (edim c) I s (j * nodes c + n) = m ((I.2.1.getD s []).getD n 0 * edim c + j) := by
    unfold dofOf
    rw [← hl]
    exact elementDofs_at m _ j.isLt (by omega)
  dsimp only
  rw [e]
  refine hU _ (hS _ ?_) j
  have mem : ∀ (l : List Nat) (k : Nat), k < l.length → l.getD k 0 ∈ l := fun l k hk => by
    rw [List.getD_eq_getElem?_getD, List.getElem?_eq_getElem hk, Option.getD_some]
    exact List.getElem_mem hk
  exact mem _ _ (by omega)

/-- The rigid motions of a domain need no forces, whatever its elements and materials are. -/
theorem C83_rigid (h : ElasticDomain d X m size Is) {U a : Nat → ℝ} {w : Matrix (Fin d) (Fin d) ℝ} (hw : w.transpose = -w) (hU : RigidOn d X m (NodeOf Is) U a w)
    (i : Nat) (hi : i < size) : ∑ j ∈ Finset.range size, assembled m d Is i j * U j = 0 := by
  have e := assembled_form h.bound (fun k => if k = i then 1 else 0) U
  have e2 : ∑ k ∈ Finset.range size, ∑ j ∈ Finset.range size, (if k = i then (1 : ℝ) else 0) * assembled m d Is k j * U j =
      ∑ j ∈ Finset.range size, assembled m d Is i j * U j := by
    rw [Finset.sum_eq_single i]
    · simp
    · intro k _ hk; simp [hk]
    · intro hn; exact absurd (Finset.mem_range.2 hi) hn
  rw [← e2, e]
  refine List.sum_eq_zero fun x hx => ?_
  obtain ⟨I, hI, rfl⟩ := List.mem_map.1 hx
  obtain ⟨c, gps, rfl, hN, hel⟩ := h.elements I hI
  unfold intervalForm
  refine Finset.sum_eq_zero fun s hs => ?_
  have hs := Finset.mem_range.1 hs
  have hr := local_rigid (m := m) hN (hel s hs) (S := NodeOf Is) (fun n hn => ⟨I, hI, s, hs, hn⟩) hw hU
  refine Finset.sum_eq_zero fun r hr' => ?_
  rw [hN] at hr' ⊢
  have := ((hel s hs).form h.dim fun r => U (dofOf m (edim c) I s r)).2.2.1 hr r (Finset.mem_range.1 hr')
  simp only [mul_assoc, ← Finset.mul_sum]
  rw [this, mul_zero]

/-! ### Bodies that hold together -/

/-- The nodes fix every rotation: no rotation but zero leaves the distances of the nodes as they are. -/
def Fixes (d : Nat) (X : Nat → Nat → ℝ) (S : Nat → Prop) : Prop :=
  ∀ w : Matrix (Fin d) (Fin d) ℝ, w.transpose = -w → (∀ p q, S p → S q → ∀ j, ∑ i, w j i * (X p i - X q i) = 0) → w = 0

/-- In a plane two different nodes fix the rotations. -/
theorem fixes_two {S : Nat → Prop} {p q : Nat} (hp : S p) (hq : S q) (h : X p 0 ≠ X q 0 ∨ X p 1 ≠ X q 1) : Fixes 2 X S := by
  intro w hw hz
  have e : ∀ i j : Fin 2, w j i = - w i j := fun i j => congrFun (congrFun hw i) j
  have e00 : w 0 0 = 0 := by linarith [e 0 0]
  have e11 : w 1 1 = 0 := by linarith [e 1 1]
  have z0 := hz p q hp hq 0
  have z1 := hz p q hp hq 1
  rw [Fin.sum_univ_two] at z0 z1
  rw [e00] at z0
  rw [e11, e 0 1] at z1
  simp only [Fin.val_zero, Fin.val_one, zero_mul, zero_add, add_zero, neg_mul, neg_eq_zero] at z0 z1
  have e01 : w 0 1 = 0 := by
    rcases h with h | h
    · exact (mul_eq_zero.1 z1).resolve_right (sub_ne_zero.2 h)
    · exact (mul_eq_zero.1 z0).resolve_right (sub_ne_zero.2 h)
  ext i j
  fin_cases i <;> fin_cases j
  · exact e00
  · exact e01
  · change w 1 0 = 0; rw [e 0 1, e01, neg_zero]
  · exact e11

/-- In space three nodes that are not on a line fix the rotations. -/
theorem fixes_three {S : Nat → Prop} {p q r : Nat} (hp : S p) (hq : S q) (hr : S r)
    (h : (X q 1 - X p 1) * (X r 2 - X p 2) - (X q 2 - X p 2) * (X r 1 - X p 1) ≠ 0 ∨
      (X q 2 - X p 2) * (X r 0 - X p 0) - (X q 0 - X p 0) * (X r 2 - X p 2) ≠ 0 ∨
      (X q 0 - X p 0) * (X r 1 - X p 1) - (X q 1 - X p 1) * (X r 0 - X p 0) ≠ 0) : Fixes 3 X S := by
  intro w hw hz
  have e : ∀ i j : Fin 3, w j i = - w i j := fun i j => congrFun (congrFun hw i) j
  have e00 : w 0 0 = 0 := by linarith [e 0 0]
  have e11 : w 1 1 = 0 := by linarith [e 1 1]
  have e22 : w 2 2 = 0 := by linarith [e 2 2]
  have a0 := hz q p hq hp 0
  have a1 := hz q p hq hp 1
  have a2 := hz q p hq hp 2
  have b0 := hz r p hr hp 0
  have b1 := hz r p hr hp 1
  have b2 := hz r p hr hp 2
  rw [Fin.sum_univ_three] at a0 a1 a2 b0 b1 b2
  rw [e00] at a0 b0
  rw [e11, e 0 1] at a1 b1
  rw [e22, e 0 2, e 1 2] at a2 b2
  simp only [Fin.val_zero, Fin.val_one, Fin.val_two, zero_mul, zero_add, add_zero] at a0 a1 a2 b0 b1 b2
  obtain ⟨x, hx⟩ : ∃ x, w 0 1 = x := ⟨_, rfl⟩
  obtain ⟨y, hy⟩ : ∃ y, w 0 2 = y := ⟨_, rfl⟩
  obtain ⟨z, hz'⟩ : ∃ z, w 1 2 = z := ⟨_, rfl⟩
  rw [hx, hy] at a0 b0
  rw [hx, hz'] at a1 b1
  rw [hy, hz'] at a2 b2
  generalize X q 0 - X p 0 = q0 at *
  generalize X q 1 - X p 1 = q1 at *
  generalize X q 2 - X p 2 = q2 at *
  generalize X r 0 - X p 0 = r0 at *
  generalize X r 1 - X p 1 = r1 at *
  generalize X r 2 - X p 2 = r2 at *
  have key : x = 0 ∧ y = 0 ∧ z = 0 := by
    rcases h with h | h | h
    · have hx0 : x = 0 := by
        have : x * (q1 * r2 - q2 * r1) = 0 := by linear_combination r2 * a0 - q2 * b0
        exact (mul_eq_zero.1 this).resolve_right h
      have hy0 : y = 0 := by
        have : y * (q1 * r2 - q2 * r1) = 0 := by linear_combination q1 * b0 - r1 * a0
        exact (mul_eq_zero.1 this).resolve_right h
      have hz0 : z = 0 := by
        subst hx0 hy0
        have : z * (q1 * r2 - q2 * r1) = 0 := by linear_combination q1 * b1 - r1 * a1
        exact (mul_eq_zero.1 this).resolve_right h
      exact ⟨hx0, hy0, hz0⟩
    · have hx0 : x = 0 := by
        have : x * (q2 * r0 - q0 * r2) = 0 := by linear_combination r2 * a1 - q2 * b1
        exact (mul_eq_zero.1 this).resolve_right h
      have hz0 : z = 0 := by
        have : z * (q2 * r0 - q0 * r2) = 0 := by linear_combination r0 * a1 - q0 * b1
        exact (mul_eq_zero.1 this).resolve_right h
      have hy0 : y = 0 := by
        subst hx0 hz0
        have : y * (q2 * r0 - q0 * r2) = 0 := by linear_combination r0 * a0 - q0 * b0
        exact (mul_eq_zero.1 this).resolve_right h
      exact ⟨hx0, hy0, hz0⟩
    · have hy0 : y = 0 := by
        have : y * (q0 * r1 - q1 * r0) = 0 := by linear_combination -r1 * a2 + q1 * b2
        exact (mul_eq_zero.1 this).resolve_right h
      have hz0 : z = 0 := by
        have : z * (q0 * r1 - q1 * r0) = 0 := by linear_combination r0 * a2 - q0 * b2
        exact (mul_eq_zero.1 this).resolve_right h
      have hx0 : x = 0 := by
        subst hy0 hz0
        have : x * (q0 * r1 - q1 * r0) = 0 := by linear_combination q0 * b0 - r0 * a0
        exact (mul_eq_zero.1 this).resolve_right h
      exact ⟨hx0, hy0, hz0⟩
  obtain ⟨rfl, rfl, rfl⟩ := key
  ext i j
  fin_cases i <;> fin_cases j
  · exact e00
  · exact hx
  · exact hy
  · change w 1 0 = 0; rw [e 0 1, hx, neg_zero]
  · exact e11
  · exact hz'
  · change w 2 0 = 0; rw [e 0 2, hy, neg_zero]
  · change w 2 1 = 0; rw [e 1 2, hz', neg_zero]
  · exact e22

/-- Two elements hold together: their common nodes fix the rotations and there is a common node. -/
def Holds (d : Nat) (X : Nat → Nat → ℝ) (e e' : List Nat) : Prop := (∃ n, n ∈ e ∧ n ∈ e') ∧ Fixes d X fun n => n ∈ e ∧ n ∈ e'

/-- The node lists of the elements of a domain. -/
def elementsOf (Is : List (Interval ℝ)) (e : List Nat) : Prop := ∃ I ∈ Is, ∃ s < I.2.1.length, e = I.2.1.getD s []

theorem holds_same {e e' : List Nat} (h : Holds d X e e') {U a a' : Nat → ℝ} {w w' : Matrix (Fin d) (Fin d) ℝ} (hw : w.transpose = -w) (hw' : w'.transpose = -w')
    (hU : RigidOn d X m (· ∈ e) U a w) (hU' : RigidOn d X m (· ∈ e') U a' w') : w = w' ∧ ∀ j : Fin d, a j = a' j := by
  obtain ⟨⟨n, hn, hn'⟩, hfix⟩ := h
  have key : w - w' = 0 := by
    refine hfix _ (by rw [Matrix.transpose_sub, hw, hw']; abel) fun p q hp hq j => ?_
    have e1 := hU p hp.1 j
    have e2 := hU' p hp.2 j
    have e3 := hU q hq.1 j
    have e4 := hU' q hq.2 j
    simp only [Matrix.sub_apply, sub_mul, mul_sub, Finset.sum_sub_distrib]
    linarith
  have hww : w = w' := sub_eq_zero.1 key
  refine ⟨hww, fun j => ?_⟩
  have e1 := hU n hn j
  have e2 := hU' n hn' j
  rw [hww] at e1
  linarith

/-- The displacements of a body without energy are exactly its rigid motions, if its elements are triangles, squares or tetrahedra and it holds together: all elements
are connected by steps over common nodes that fix the rotations (an edge in a plane, three nodes of a face in space). Missing for the full statement: the other elements. -/
theorem C83_rigid_only_partial (h : ElasticDomain d X m size Is)
    (hc : ∀ I ∈ Is, ∃ c gps, (c = .triangle3 ∨ c = .tetra4 ∨ c = .square4) ∧ SeesAll c gps ∧ edim c = d ∧ I.1 = nodes c ∧
      ∀ s < I.2.1.length, ElasticElement X c gps (I.2.1.getD s []) (I.2.2 s))
    {e₀ : List Nat} (h₀ : elementsOf Is e₀) (hcon : ∀ e, elementsOf Is e → Relation.ReflTransGen (fun e e' => elementsOf Is e ∧ elementsOf Is e' ∧ Holds d X e e') e₀ e)
    (U : Nat → ℝ) : ∑ i ∈ Finset.range size, ∑ j ∈ Finset.range size, U i * assembled m d Is i j * U j = 0 ↔
      ∃ (a : Nat → ℝ) (w : Matrix (Fin d) (Fin d) ℝ), w.transpose = -w ∧ RigidOn d X m (NodeOf Is) U a w := by
  rw [energy_zero_iff h]
  constructor
  · intro hz
    have each : ∀ e, elementsOf Is e → ∃ (a : Nat → ℝ) (w : Matrix (Fin d) (Fin d) ℝ), w.transpose = -w ∧ RigidOn d X m (· ∈ e) U a w := by
      rintro e ⟨I, hI, s, hs, rfl⟩
      obtain ⟨c, gps, ht, hsee, rfl, hN, hel⟩ := hc I hI
      have h0 := hz I hI s hs
      rw [elementEnergy, hN] at h0
      obtain ⟨a, w, hw, hU⟩ := ((hel s hs).form h.dim fun r => U (dofOf m (edim c) I s r)).2.2.2.2 ht hsee h0
      refine ⟨a, w, hw, fun n hn j => ?_⟩
      obtain ⟨k, hk, rfl⟩ := List.getElem_of_mem hn
      have hl := (hel s hs).length
      have := hU j k (by omega)
      have e : dofOf m (edim c) I s (j * nodes c + k) = m ((I.2.1.getD s []).getD k 0 * edim c + j) := by
        unfold dofOf
        rw [← hl]
        exact elementDofs_at m _ j.isLt hk
      dsimp only at this
      rw [e, List.getD_eq_getElem?_getD, List.getElem?_eq_getElem hk, Option.getD_some] at this
      exact this
    obtain ⟨a, w, hw, hU⟩ := each e₀ h₀
    have all : ∀ e, elementsOf Is e → RigidOn d X m (· ∈ e) U a w := by
      intro e he
      have := hcon e he
      clear he
      induction this with
      | refl => exact hU
      | tail _ h1 ih =>
        obtain ⟨a', w', hw', hU'⟩ := each _ h1.2.1
        obtain ⟨ew, ea⟩ := holds_same h1.2.2 hw hw' ih hU'
        intro n hn j
        rw [hU' n hn j, ew, ea j]
    refine ⟨a, w, hw, ?_⟩
    rintro n ⟨I, hI, s, hs, hn⟩ j
    exact all _ ⟨I, hI, s, hs, rfl⟩ n hn j
  · rintro ⟨a, w, hw, hU⟩ I hI s hs
    obtain ⟨c, gps, rfl, hN, hel⟩ := h.elements I hI
    have hr := local_rigid (m := m) hN (hel s hs) (S := NodeOf Is) (fun n hn => ⟨I, hI, s, hs, hn⟩) hw hU
    unfold elementEnergy
    rw [hN]
    refine Finset.sum_eq_zero fun r hr' => ?_
    have := ((hel s hs).form h.dim fun r => U (dofOf m (edim c) I s r)).2.2.1 hr r (Finset.mem_range.1 hr')
    simp only [mul_assoc, ← Finset.mul_sum]
    rw [this, mul_zero]

/-- With supports that stop every rigid motion, the reduced problem has at most one solution. -/
theorem C83_supports_partial (h : ElasticDomain d X m size Is)
    (hc : ∀ I ∈ Is, ∃ c gps, (c = .triangle3 ∨ c = .tetra4 ∨ c = .square4) ∧ SeesAll c gps ∧ edim c = d ∧ I.1 = nodes c ∧
      ∀ s < I.2.1.length, ElasticElement X c gps (I.2.1.getD s []) (I.2.2 s))
    {e₀ : List Nat} (h₀ : elementsOf Is e₀) (hcon : ∀ e, elementsOf Is e → Relation.ReflTransGen (fun e e' => elementsOf Is e ∧ elementsOf Is e' ∧ Holds d X e e') e₀ e)
    (D : Nat → Prop) (p : Nat) (hp : NodeOf Is p) (hDp : ∀ j < d, D (m (p * d + j))) (hfix : Fixes d X fun n => NodeOf Is n ∧ ∀ j < d, D (m (n * d + j)))
    (hall : ∀ i < size, ∃ n, NodeOf Is n ∧ ∃ j : Fin d, i = m (n * d + j)) (u u' f : Nat → ℝ) (hD : ∀ i, D i → u i = u' i)
    (hu : ∀ i < size, ¬ D i → ∑ j ∈ Finset.range size, assembled m d Is i j * u j = f i)
    (hu' : ∀ i < size, ¬ D i → ∑ j ∈ Finset.range size, assembled m d Is i j * u' j = f i) : ∀ i < size, u i = u' i := by
  have hz : ∑ i ∈ Finset.range size, ∑ j ∈ Finset.range size, (u i - u' i) * assembled m d Is i j * (u j - u' j) = 0 := by
    refine Finset.sum_eq_zero fun i hi => ?_
    by_cases hDi : D i
    · rw [hD i hDi, sub_self]
      simp
    · have e1 := hu i (Finset.mem_range.1 hi) hDi
      have e2 := hu' i (Finset.mem_range.1 hi) hDi
      have e : ∀ j ∈ Finset.range size, (u i - u' i) * assembled m d Is i j * (u j - u' j) =
          (u i - u' i) * (assembled m d Is i j * u j) - (u i - u' i) * (assembled m d Is i j * u' j) := fun j _ => by ring
      rw [Finset.sum_congr rfl e, Finset.sum_sub_distrib, ← Finset.mul_sum, ← Finset.mul_sum, e1, e2, sub_self]
  obtain ⟨a, w, hw, hU⟩ := (C83_rigid_only_partial h hc h₀ hcon fun i => u i - u' i).1 hz
  have hw0 : w = 0 := by
    refine hfix w hw fun q r hq hr j => ?_
    have e1 := hU q hq.1 j
    have e2 := hU r hr.1 j
    dsimp only at e1 e2
    rw [hD _ (hq.2 j j.isLt), sub_self] at e1
    rw [hD _ (hr.2 j j.isLt), sub_self] at e2
    simp only [mul_sub, Finset.sum_sub_distrib]
    linarith
  have ha : ∀ j : Fin d, a j = 0 := by
    intro j
    have e1 := hU p hp j
    dsimp only at e1
    rw [hD _ (hDp j j.isLt), sub_self, hw0] at e1
    simpa using e1.symm
  intro i hi
  obtain ⟨n, hn, j, rfl⟩ := hall i hi
  have e1 := hU n hn j
  dsimp only at e1
  rw [ha j, hw0] at e1
  simp only [Matrix.zero_apply, zero_mul, Finset.sum_const_zero, add_zero] at e1
  linarith

/-- The nodes of two squares side by side. -/
noncomputable def twoSquares : Nat → Nat → ℝ := fun n i => match n, i with | 1, 0 => 1 | 2, 0 => 1 | 2, 1 => 1 | 3, 1 => 1 | 4, 0 => 2 | 5, 0 => 2 | 5, 1 => 1 | _, _ => 0

/-- Two squares side by side meet the hypotheses of the domains. -/
theorem twoSquares_domain : ∃ B : Nat → Nat → Nat → ℝ, ElasticDomain 2 twoSquares id 12 [(4, [[0, 1, 2, 3], [1, 4, 5, 2]], B)] ∧
    (∀ I ∈ ([(4, [[0, 1, 2, 3], [1, 4, 5, 2]], B)] : List (Interval ℝ)), ∃ c gps, (c = .triangle3 ∨ c = .tetra4 ∨ c = .square4) ∧ SeesAll c gps ∧ edim c = 2 ∧ I.1 = nodes c ∧
      ∀ s < I.2.1.length, ElasticElement twoSquares c gps (I.2.1.getD s []) (I.2.2 s)) ∧
    elementsOf [(4, [[0, 1, 2, 3], [1, 4, 5, 2]], B)] [0, 1, 2, 3] ∧
    ∀ e, elementsOf [(4, [[0, 1, 2, 3], [1, 4, 5, 2]], B)] e → Relation.ReflTransGen (fun e e' => elementsOf [(4, [[0, 1, 2, 3], [1, 4, 5, 2]], B)] e ∧
      elementsOf [(4, [[0, 1, 2, 3], [1, 4, 5, 2]], B)] e' ∧ Holds 2 twoSquares e e') [0, 1, 2, 3] e := by
  obtain ⟨X, hX'⟩ : ∃ X : Nat → Nat → ℝ, X = twoSquares := ⟨_, rfl⟩
  rw [← hX']
  unfold twoSquares at hX'
  have hX := hX'
  obtain ⟨pts, hp⟩ : ∃ pts, rulePoints Real.sqrt .square4 4 = some pts := ⟨_, rfl⟩
  have hb : edim .square4 = 2 → (steel .planeStress).behaviour ≠ .axisymmetric := fun _ => by simp [steel]
  have det : ∀ e, e = [0, 1, 2, 3] ∨ e = [1, 4, 5, 2] → ∀ r s : ℝ, detAt .square4 4 (fun n i => X (e.getD n 0) i) [r, s] = 1 / 4 := by
    intro e he r s
    obtain ⟨tab, ht, -⟩ := (C75_basis .square4 4).defined [r, s] rfl
    rw [detAt_eq (by decide) ht]
    rw [setAt_degraded rfl] at ht
    simp [degradedTerms, degrade, nOrder, terms4x2, nodes, edim, addTerm, wr] at ht
    subst ht
    rcases he with rfl | rfl
    · simp [detOf, det22, jacobian2, List.range_succ, slopeOf, edim, nodes, hX]
      ring
    · simp [detOf, det22, jacobian2, List.range_succ, slopeOf, edim, nodes, hX]
      ring
  have hdet : ∀ e, e = [0, 1, 2, 3] ∨ e = [1, 4, 5, 2] → ∀ p ∈ pts, detAt .square4 4 (fun n i => X (e.getD n 0) i) p.1 = 1 / 4 := by
    intro e he p hpp
    obtain ⟨r, s, e'⟩ := List.length_eq_two.1 (rule_length hp p hpp)
    rw [e', det e he]
  have mat : ∀ e, e = [0, 1, 2, 3] ∨ e = [1, 4, 5, 2] → ∃ A, elementElasticity Real.sqrt Real.pi .square4 4 (steel .planeStress) (fun _ _ => 0) (fun n i => X (e.getD n 0) i) = some A :=
    fun e he => (C81_defined (c := .square4) (.inl rfl) hb hp Real.pi (fun _ _ => 0) _).2 fun p hpp => ⟨by rw [hdet e he p hpp]; norm_num, steel_defined _ _ _⟩
  obtain ⟨A, hA⟩ := mat _ (.inl rfl)
  obtain ⟨B, hB⟩ := mat _ (.inr rfl)
  have el : ∀ s < 2, ElasticElement X .square4 4 (([[0, 1, 2, 3], [1, 4, 5, 2]] : List (List Nat)).getD s []) (fun r k => if s = 0 then entry A (r * 8 + k) else entry B (r * 8 + k)) := by
    intro s hs
    interval_cases s
    · exact ⟨rfl, Real.pi, steel .planeStress, _, A, pts, hA, fun r _ k _ => rfl, hb, hp, fun p _ => steel_stable _ _ _,
        fun p hpp => by rw [show ([[0, 1, 2, 3], [1, 4, 5, 2]] : List (List Nat)).getD 0 [] = [0, 1, 2, 3] from rfl, hdet _ (.inl rfl) p hpp]; norm_num⟩
    · exact ⟨rfl, Real.pi, steel .planeStress, _, B, pts, hB, fun r _ k _ => rfl, hb, hp, fun p _ => steel_stable _ _ _,
        fun p hpp => by rw [show ([[0, 1, 2, 3], [1, 4, 5, 2]] : List (List Nat)).getD 1 [] = [1, 4, 5, 2] from rfl, hdet _ (.inr rfl) p hpp]; norm_num⟩
  have hdom : ElasticDomain 2 X id 12 [((4, [[0, 1, 2, 3], [1, 4, 5, 2]], fun s r k => if s = 0 then entry A (r * 8 + k) else entry B (r * 8 + k)) : Interval ℝ)] := by
    refine ⟨.inl rfl, ?_, ?_⟩
    · intro I hI s hs r hr
      obtain rfl := List.mem_singleton.1 hI
      change s < 2 at hs
      change r < 8 at hr
      interval_cases s <;> interval_cases r <;> simp [dofOf, elementDofs, List.range_succ]
    · intro I hI
      obtain rfl := List.mem_singleton.1 hI
      exact ⟨.square4, 4, rfl, rfl, el⟩
  refine ⟨_, hdom, ?_, ⟨_, List.mem_singleton.2 rfl, 0, by norm_num, rfl⟩, ?_⟩
  · intro I hI
    obtain rfl := List.mem_singleton.1 hI
    exact ⟨.square4, 4, .inr (.inr rfl), (C79_points (.square4, 4) (by simp)).1, rfl, rfl, el⟩
  · rintro e ⟨I, hI, s, hs, rfl⟩
    obtain rfl := List.mem_singleton.1 hI
    change s < 2 at hs
    interval_cases s
    · exact .refl
    · refine .single ⟨⟨_, List.mem_singleton.2 rfl, 0, by norm_num, rfl⟩, ⟨_, List.mem_singleton.2 rfl, 1, by norm_num, rfl⟩, ⟨1, by simp, by simp⟩, ?_⟩
      exact fixes_two (p := 1) (q := 2) ⟨by simp, by simp⟩ ⟨by simp, by simp⟩ (.inr (by simp [hX]))

/-- The body of two squares without energy moves as a rigid body. -/
example : ∃ Is : List (Interval ℝ), ElasticDomain 2 twoSquares id 12 Is ∧
    ∀ U : Nat → ℝ, ∑ i ∈ Finset.range 12, ∑ j ∈ Finset.range 12, U i * assembled id 2 Is i j * U j = 0 ↔
      ∃ (a : Nat → ℝ) (w : Matrix (Fin 2) (Fin 2) ℝ), w.transpose = -w ∧ RigidOn 2 twoSquares id (NodeOf Is) U a w := by
  obtain ⟨B, h, hc, h₀, hcon⟩ := twoSquares_domain
  exact ⟨_, h, fun U => C83_rigid_only_partial h hc h₀ hcon U⟩

end Verif.Fem
