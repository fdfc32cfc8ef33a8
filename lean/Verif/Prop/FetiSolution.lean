import Verif.Spec.FetiSolution
import Verif.Prop.Projector
import Verif.Prop.CoarseProduct
import Mathlib.Algebra.Order.BigOperators.Ring.Finset
import Mathlib.Algebra.Order.Ring.Defs
import Mathlib.Tactic.Linarith
import Mathlib.Tactic.LinearCombination
/-!
C68: the reconstructed solution satisfies the equilibrium of all domains for all multipliers with `G X = e`, and the jumps `B u - c` are the projected residual.
-/
namespace Verif.Feti

open Verif.Dual Finset

variable {L R : Type} [DecidableEq L] [CommRing R]
variable {nd : Nat} {dim kdim koff : Nat → Nat} {all : Finset L} {entry : L → Nat → Nat → R} {Km Kp Rm : Nat → Nat → Nat → R} {solve : Nat → List R → List R} {g : Nat → L → R} {W : Nat → Nat → R}
  {f : Nat → Nat → R} {c : L → R}

theorem consecutive_mono (h : Consecutive kdim koff) {a b : Nat} (hab : a ≤ b) : koff a ≤ koff b := by
  induction b with
  | zero => rw [Nat.le_zero.1 hab]
  | succ b ih =>
      rcases Nat.lt_or_eq_of_le hab with h1 | h1
      · have := ih (by omega)
        rw [h.2]; omega
      · rw [h1]

theorem consecutive_get (h : Consecutive kdim koff) {N k : Nat} (hk : k < koff N) : ∃ d r, d < N ∧ r < kdim d ∧ k = koff d + r := by
  induction N with
  | zero => rw [h.1] at hk; omega
  | succ N ih =>
      by_cases h1 : k < koff N
      · obtain ⟨d, r, h2, h3, h4⟩ := ih h1
        exact ⟨d, r, by omega, h3, h4⟩
      · rw [h.2] at hk
        exact ⟨N, k - koff N, by omega, by omega, by omega⟩

theorem timesR_number (h : Consecutive kdim koff) {d r : Nat} (hd : d < nd) (hr : r < kdim d) (f : Nat → Nat → R) :
    timesR nd dim kdim koff Rm f (koff d + r) = ∑ i ∈ range (dim d), Rm d r i * f d i := by
  unfold timesR
  rw [sum_eq_single d, sum_eq_single r, if_pos rfl]
  · intro r' _ h
    rw [if_neg (by omega)]
  · intro h
    exact absurd (mem_range.2 hr) h
  · intro d' _ hne
    apply sum_eq_zero
    intro r' hr'
    have := mem_range.1 hr'
    rw [if_neg]
    intro e
    rcases Nat.lt_or_gt_of_ne hne with h2 | h2
    · have h1 := consecutive_mono h (show d' + 1 ≤ d from h2)
      rw [h.2] at h1
      omega
    · have h1 := consecutive_mono h (show d + 1 ≤ d' from h2)
      rw [h.2] at h1
      omega
  · intro h
    exact absurd (mem_range.2 hd) h

theorem timesGt_domains (h : Consecutive kdim koff) (z : Nat → R) (l : L) : timesGt (koff nd) g z l = ∑ d ∈ range nd, ∑ r ∈ range (kdim d), g (koff d + r) l * z (koff d + r) := by
  unfold timesGt
  rw [← sum_parts h.1 (fun d => by rw [h.2]; omega) (fun k => g k l * z k) nd]
  apply sum_congr rfl
  intro d _
  rw [h.2, Nat.add_sub_cancel_left]

omit [CommRing R] in
theorem vectorOf_len [CommRing R] (v : Nat → Nat → R) (d : Nat) : (vectorOf dim v d).length = dim d := by
  unfold vectorOf; simp

theorem solve_value (hs : SolvesBy dim Kp solve) (v : Nat → Nat → R) {d i : Nat} (hi : i < dim d) : (solve d (vectorOf dim v d)).getD i 0 = ∑ j ∈ range (dim d), Kp d i j * v d j := by
  rw [hs d _ (vectorOf_len v d), List.getD_eq_getElem?_getD, List.getElem?_map, List.getElem?_range hi]
  show ∑ j ∈ range (dim d), Kp d i j * (vectorOf dim v d).getD j 0 = _
  apply sum_congr rfl
  intro j hj
  unfold vectorOf
  rw [List.getD_eq_getElem?_getD, List.getElem?_map, List.getElem?_range (mem_range.1 hj)]
  rfl

/-- **C68.** For all multipliers with `G X = e`, `e = -R f`, the solution satisfies the equilibrium of every domain, whatever `r` is used for the kernel part. -/
theorem C68_equilibrium (hK : PseudoInverse nd dim kdim Km Kp Rm) (hs : SolvesBy dim Kp solve) (hn : Consecutive kdim koff) (hg : IsCoarse dim kdim koff entry Rm g) (X r : L → R)
    (hX : ∀ k, k < koff nd → timesG all g X k = -timesR nd dim kdim koff Rm f k) :
    Equilibrium nd dim all entry Km f (solutionOf nd dim kdim koff all entry solve Rm g W f X r) X := by
  intro d hd i hi
  have horth : ∀ k, k < kdim d → ∑ i ∈ range (dim d), Rm d k i * (f d i - timesBt all entry X d i) = 0 := by
    intro k hk
    have h1 := consecutive_mono hn (show d + 1 ≤ nd from hd)
    rw [hn.2] at h1
    have h2 := hX (koff d + k) (by omega)
    rw [timesR_number hn hd hk] at h2
    have h3 : timesG all g X (koff d + k) = -∑ i ∈ range (dim d), Rm d k i * timesBt all entry X d i := by
      unfold timesG timesBt
      rw [sum_congr rfl fun l _ => by rw [hg d k hk l]]
      simp only [mul_sum, neg_mul, sum_neg_distrib, sum_mul]
      rw [sum_comm]
      congr 1
      apply sum_congr rfl; intro i _
      apply sum_congr rfl; intro l _
      ring
    rw [h3] at h2
    simp only [mul_sub, sum_sub_distrib]
    linear_combination h2
  have h1 := hK.inverse d hd (fun i => f d i - timesBt all entry X d i) horth i hi
  have h2 : ∑ j ∈ range (dim d), Km d i j * timesRt kdim koff Rm (timesW (koff nd) W (timesG all g r)) d j = 0 := by
    unfold timesRt
    simp only [mul_sum]
    rw [sum_comm]
    apply sum_eq_zero
    intro k hk
    have := hK.kernel d hd k (mem_range.1 hk) i hi
    rw [show ∑ j ∈ range (dim d), Km d i j * (Rm d k j * timesW (koff nd) W (timesG all g r) (koff d + k)) =
      (∑ j ∈ range (dim d), Km d i j * Rm d k j) * timesW (koff nd) W (timesG all g r) (koff d + k) by
        rw [sum_mul]; exact sum_congr rfl fun j _ => by ring, this, zero_mul]
  unfold solutionOf
  simp only [mul_add, sum_add_distrib]
  rw [h2, add_zero]
  have h3 : ∑ j ∈ range (dim d), Km d i j * (solve d (vectorOf dim (fun d i => f d i - timesBt all entry X d i) d)).getD j 0 =
      ∑ j ∈ range (dim d), Km d i j * ∑ m ∈ range (dim d), Kp d j m * (f d m - timesBt all entry X d m) := by
    apply sum_congr rfl
    intro j hj
    rw [solve_value hs _ (mem_range.1 hj)]
  rw [h3, h1]
  ring

/-- **C68.** The jumps of the solution with the kernel part of the residual are the projected residual: `B u - c = P (d - F X)`. -/
theorem C68_jump (hs : SolvesBy dim Kp solve) (hn : Consecutive kdim koff) (hg : IsCoarse dim kdim koff entry Rm g) (X : L → R) (l : L) :
    timesB nd dim entry (solutionOf nd dim kdim koff all entry solve Rm g W f X (residualOf nd dim all entry solve f c X)) l =
      c l + projected (koff nd) all g W (residualOf nd dim all entry solve f c X) l := by
  obtain ⟨r, hr⟩ : ∃ r, r = residualOf nd dim all entry solve f c X := ⟨_, rfl⟩
  rw [← hr]
  have h1 : timesB nd dim entry (fun d i => timesRt kdim koff Rm (timesW (koff nd) W (timesG all g r)) d i) l = -coarse (koff nd) all g W r l := by
    unfold coarse
    rw [timesGt_domains hn]
    unfold timesB timesRt
    rw [← sum_neg_distrib]
    apply sum_congr rfl
    intro d _
    simp only [mul_sum]
    rw [sum_comm, ← sum_neg_distrib]
    apply sum_congr rfl
    intro k hk
    rw [hg d k (mem_range.1 hk) l, neg_mul, neg_neg, sum_mul]
    exact sum_congr rfl fun i _ => by ring
  have h2 : timesB nd dim entry (fun d i => (solve d (vectorOf dim (fun d i => f d i - timesBt all entry X d i) d)).getD i 0) l = r l + c l := by
    rw [hr]
    unfold residualOf dualRhs timesBABt timesB valuesOf
    rw [sub_right_comm, sub_add_cancel, ← sum_sub_distrib]
    apply sum_congr rfl
    intro d _
    rw [← sum_sub_distrib]
    apply sum_congr rfl
    intro i hi
    dsimp only
    rw [solve_value hs _ (mem_range.1 hi), solve_value hs _ (mem_range.1 hi), solve_value hs _ (mem_range.1 hi), ← mul_sub, ← sum_sub_distrib]
    congr 1
    exact sum_congr rfl fun j _ => by ring
  have h3 : timesB nd dim entry (solutionOf nd dim kdim koff all entry solve Rm g W f X r) l =
      timesB nd dim entry (fun d i => (solve d (vectorOf dim (fun d i => f d i - timesBt all entry X d i) d)).getD i 0) l +
      timesB nd dim entry (fun d i => timesRt kdim koff Rm (timesW (koff nd) W (timesG all g r)) d i) l := by
    unfold timesB solutionOf
    rw [← sum_add_distrib]
    apply sum_congr rfl; intro d _
    rw [← sum_add_distrib]
    exact sum_congr rfl fun i _ => by ring
  rw [h3, h1, h2]
  unfold projected
  ring

/-- **C68.** If the projected residual is zero and `G X = e`, the reconstructed solution solves the problem. -/
theorem C68_solves (hK : PseudoInverse nd dim kdim Km Kp Rm) (hs : SolvesBy dim Kp solve) (hn : Consecutive kdim koff) (hg : IsCoarse dim kdim koff entry Rm g) (X : L → R)
    (hX : ∀ k, k < koff nd → timesG all g X k = -timesR nd dim kdim koff Rm f k)
    (hr : ∀ l ∈ all, projected (koff nd) all g W (residualOf nd dim all entry solve f c X) l = 0) :
    Solves nd dim all entry Km f c (solutionOf nd dim kdim koff all entry solve Rm g W f X (residualOf nd dim all entry solve f c X)) X :=
  ⟨C68_equilibrium hK hs hn hg X _ hX, fun l hl => by rw [C68_jump hs hn hg X l, hr l hl, add_zero]⟩

section minimal
variable {F : Type} [Field F] [LinearOrder F] [IsStrictOrderedRing F]
variable {entry : L → Nat → Nat → F} {Km : Nat → Nat → Nat → F} {f : Nat → Nat → F} {c : L → F}

/-- The energy `½ uᵀ K u - fᵀ u`, twice. -/
def energy2 (nd : Nat) (dim : Nat → Nat) (Km : Nat → Nat → Nat → F) (f u : Nat → Nat → F) : F :=
  ∑ d ∈ range nd, (∑ i ∈ range (dim d), ∑ j ∈ range (dim d), u d i * Km d i j * u d j - 2 * ∑ i ∈ range (dim d), f d i * u d i)

/-- **C68.** For symmetric positive semidefinite matrices a solution minimises the energy among all vectors that satisfy the constraints. -/
theorem C68_minimises (hsym : ∀ d i j, Km d i j = Km d j i) (hpos : ∀ d, d < nd → ∀ v : Nat → F, 0 ≤ ∑ i ∈ range (dim d), ∑ j ∈ range (dim d), v i * Km d i j * v j) {u : Nat → Nat → F} {X : L → F}
    (hu : Solves nd dim all entry Km f c u X) (v : Nat → Nat → F) (hv : ∀ l ∈ all, timesB nd dim entry v l = c l) : energy2 nd dim Km f u ≤ energy2 nd dim Km f v := by
  have hlag : ∑ d ∈ range nd, ∑ i ∈ range (dim d), (v d i - u d i) * timesBt all entry X d i = 0 := by
    have : ∑ d ∈ range nd, ∑ i ∈ range (dim d), (v d i - u d i) * timesBt all entry X d i = ∑ l ∈ all, (timesB nd dim entry v l - timesB nd dim entry u l) * X l := by
      unfold timesBt timesB
      simp only [mul_sum, sum_mul, ← sum_sub_distrib]
      rw [sum_comm (s := all)]
      apply sum_congr rfl; intro d _
      rw [sum_comm (s := all)]
      apply sum_congr rfl; intro i _
      apply sum_congr rfl; intro l _
      ring
    rw [this]
    exact sum_eq_zero fun l hl => by rw [hv l hl, hu.constraints l hl, sub_self, zero_mul]
  have key : energy2 nd dim Km f v - energy2 nd dim Km f u = ∑ d ∈ range nd, ∑ i ∈ range (dim d), ∑ j ∈ range (dim d), (v d i - u d i) * Km d i j * (v d j - u d j) -
      2 * ∑ d ∈ range nd, ∑ i ∈ range (dim d), (v d i - u d i) * timesBt all entry X d i := by
    unfold energy2
    rw [mul_sum, ← sum_sub_distrib, ← sum_sub_distrib]
    apply sum_congr rfl
    intro d hd
    have h1 : ∑ i ∈ range (dim d), ∑ j ∈ range (dim d), (v d i - u d i) * Km d i j * u d j = ∑ i ∈ range (dim d), (v d i - u d i) * (f d i - timesBt all entry X d i) := by
      apply sum_congr rfl
      intro i hi
      have h0 : f d i - timesBt all entry X d i = ∑ j ∈ range (dim d), Km d i j * u d j := by rw [← hu.equilibrium d (mem_range.1 hd) i (mem_range.1 hi)]; ring
      rw [h0, mul_sum]
      exact sum_congr rfl fun j _ => by ring
    have h2 : ∑ i ∈ range (dim d), ∑ j ∈ range (dim d), u d i * Km d i j * (v d j - u d j) = ∑ i ∈ range (dim d), ∑ j ∈ range (dim d), (v d i - u d i) * Km d i j * u d j := by
      rw [sum_comm]
      apply sum_congr rfl; intro i _
      apply sum_congr rfl; intro j _
      rw [hsym d j i]; ring
    have h3 : ∑ i ∈ range (dim d), ∑ j ∈ range (dim d), v d i * Km d i j * v d j = ∑ i ∈ range (dim d), ∑ j ∈ range (dim d), (v d i - u d i) * Km d i j * (v d j - u d j) +
        ∑ i ∈ range (dim d), ∑ j ∈ range (dim d), (v d i - u d i) * Km d i j * u d j + ∑ i ∈ range (dim d), ∑ j ∈ range (dim d), u d i * Km d i j * (v d j - u d j) +
        ∑ i ∈ range (dim d), ∑ j ∈ range (dim d), u d i * Km d i j * u d j := by
      simp only [← sum_add_distrib]
      apply sum_congr rfl; intro i _
      apply sum_congr rfl; intro j _
      ring
    have h4 : ∑ i ∈ range (dim d), (v d i - u d i) * (f d i - timesBt all entry X d i) =
        ∑ i ∈ range (dim d), f d i * v d i - ∑ i ∈ range (dim d), f d i * u d i - ∑ i ∈ range (dim d), (v d i - u d i) * timesBt all entry X d i := by
      simp only [← sum_sub_distrib]
      exact sum_congr rfl fun i _ => by ring
    rw [h3, h2, h1, h4]
    ring
  have : 0 ≤ ∑ d ∈ range nd, ∑ i ∈ range (dim d), ∑ j ∈ range (dim d), (v d i - u d i) * Km d i j * (v d j - u d j) :=
    sum_nonneg fun d hd => hpos d (mem_range.1 hd) fun i => v d i - u d i
  rw [hlag, mul_zero, sub_zero] at key
  linarith

end minimal

/-! A bar of two domains with two points each, fixed at its left end (multiplier 0) and glued (multiplier 1), pulled at its right end. -/

def barEntry (l d i : Nat) : ℚ := if l = 0 then if d = 0 ∧ i = 0 then 1 else 0 else if d = 0 ∧ i = 1 then 1 else if d = 1 ∧ i = 0 then -1 else 0
def barK (_ i j : Nat) : ℚ := if i = j then 1 else -1
def barKp (_ i j : Nat) : ℚ := if i = 0 ∧ j = 0 then 1 else 0
def barR (_ _ _ : Nat) : ℚ := 1
def barSolve (_ : Nat) (v : List ℚ) : List ℚ := (List.range 2).map fun i => ∑ j ∈ range 2, barKp 0 i j * v.getD j 0
def barG (k l : Nat) : ℚ := -∑ i ∈ range 2, barR k 0 i * barEntry l k i
def barW (i j : Nat) : ℚ := if i = 1 ∧ j = 1 then 2 else 1
def barF (d i : Nat) : ℚ := if d = 1 ∧ i = 1 then 1 else 0
def barX (l : Nat) : ℚ := if l = 0 then 1 else -1

theorem bar_pseudo : PseudoInverse 2 (fun _ => 2) (fun _ => 1) barK barKp barR := by
  constructor
  · intro d hd k hk i hi
    obtain rfl | rfl : i = 0 ∨ i = 1 := by omega
    all_goals norm_num [barK, barR, sum_range_succ]
  · intro d hd b hb i hi
    have := hb 0 (by omega)
    simp [barR, sum_range_succ] at this
    obtain rfl | rfl : i = 0 ∨ i = 1 := by omega
    all_goals norm_num [barK, barKp, sum_range_succ]
    linarith

theorem bar_solves : SolvesBy (fun _ => 2) barKp barSolve := fun _ _ _ => rfl
theorem bar_consecutive : Consecutive (fun _ => 1) (fun d => d) := ⟨rfl, fun _ => rfl⟩
theorem bar_coarse : IsCoarse (fun _ => 2) (fun _ => 1) (fun d => d) barEntry barR barG := by
  intro d kr hk l
  rw [Nat.lt_one_iff.1 hk]
  rfl

def barSolution : Nat → Nat → ℚ := solutionOf 2 (fun _ => 2) (fun _ => 1) (fun d => d) {0, 1} barEntry barSolve barR barG barW barF barX
  (residualOf 2 (fun _ => 2) {0, 1} barEntry barSolve barF (fun _ => 0) barX)

example : ((List.range 2).map fun d => (List.range 2).map fun i => barSolution d i) = [[0, 1], [1, 2]] := by decide +kernel

theorem bar_solution : Solves 2 (fun _ => 2) {0, 1} barEntry barK barF (fun _ => 0) barSolution barX :=
  C68_solves bar_pseudo bar_solves bar_consecutive bar_coarse barX (by decide +kernel) (by decide +kernel)

example (v : Nat → Nat → ℚ) (hv : ∀ l ∈ ({0, 1} : Finset Nat), timesB 2 (fun _ => 2) barEntry v l = 0) : energy2 2 (fun _ => 2) barK barF barSolution ≤ energy2 2 (fun _ => 2) barK barF v :=
  C68_minimises (fun d i j => by unfold barK; simp [eq_comm])
    (fun d _ v => by
      simp [barK, sum_range_succ]
      nlinarith [sq_nonneg (v 0 - v 1)]) bar_solution v hv

/-- Without `G X = e` the equilibrium of a floating domain fails. -/
example : ¬Equilibrium 2 (fun _ => 2) {0, 1} barEntry barK barF (solutionOf 2 (fun _ => 2) (fun _ => 1) (fun d => d) {0, 1} barEntry barSolve barR barG barW barF (fun _ => 0) (fun _ => 0)) (fun _ => 0) := by
  intro h
  have := h 1 (by decide) 1 (by decide)
  revert this
  decide +kernel

end Verif.Feti
