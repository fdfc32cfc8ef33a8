import Verif.Prop.Quadrature
import Verif.Proof.BasisFamily
import Mathlib.LinearAlgebra.Matrix.Determinant.Basic
import Mathlib.Algebra.MvPolynomial.CommRing
/-!
The degrees of the derivatives of the basis functions and of the determinant.
-/
namespace Verif.Fem

/-- Three degrees. -/
abbrev Deg := ℕ × ℕ × ℕ

/-- The degrees of a monomial if the variable `i` has the degrees `W i`. -/
def degOf {d : Nat} (W : Fin d → Deg) (m : Fin d →₀ ℕ) : Deg := ∑ i, m i • W i

/-- On points of the dimension `d`, the function is a polynomial of degrees at most `D`. -/
def Poly {d : Nat} (W : Fin d → Deg) (D : Deg) (f : List ℝ → ℝ) : Prop :=
  ∃ P : MvPolynomial (Fin d) ℝ, (∀ m ∈ P.support, degOf W m ≤ D) ∧ ∀ p : List ℝ, p.length = d → f p = polyAt P p

variable {d : Nat} {W : Fin d → Deg} {D D' : Deg} {f g : List ℝ → ℝ}

theorem Poly.mono (h : Poly W D f) (hD : D ≤ D') : Poly W D' f := by
  obtain ⟨P, h1, h2⟩ := h
  exact ⟨P, fun m hm => (h1 m hm).trans hD, h2⟩

theorem Poly.const (a : ℝ) : Poly W 0 fun _ => a := by
  refine ⟨MvPolynomial.C a, fun m hm => ?_, fun p _ => by simp [polyAt]⟩
  rw [MvPolynomial.mem_support_iff, MvPolynomial.coeff_C] at hm
  have : m = 0 := by
    by_contra h
    rw [if_neg (Ne.symm h)] at hm
    exact hm rfl
  subst this
  simp [degOf]

theorem Poly.coord (k : Nat) (hk : k < d) : Poly W (W ⟨k, hk⟩) fun p => p.getD k 0 := by
  refine ⟨MvPolynomial.X ⟨k, hk⟩, fun m hm => ?_, fun p _ => by simp [polyAt]⟩
  rw [MvPolynomial.support_X, Finset.mem_singleton] at hm
  subst hm
  simp only [degOf]
  rw [Finset.sum_eq_single ⟨k, hk⟩]
  · simp
  · intro i _ hi
    rw [Finsupp.single_eq_of_ne hi, zero_smul]
  · simp

theorem Poly.add (hf : Poly W D f) (hg : Poly W D' g) : Poly W (D ⊔ D') fun p => f p + g p := by
  obtain ⟨P, h1, h2⟩ := hf
  obtain ⟨Q, h3, h4⟩ := hg
  classical
  refine ⟨P + Q, fun m hm => ?_, fun p hp => by simp only [h2 p hp, h4 p hp, polyAt, map_add]⟩
  rcases Finset.mem_union.1 (MvPolynomial.support_add hm) with h | h
  · exact (h1 m h).trans le_sup_left
  · exact (h3 m h).trans le_sup_right

theorem degOf_add (m n : Fin d →₀ ℕ) : degOf W (m + n) = degOf W m + degOf W n := by
  simp only [degOf, Finsupp.add_apply, add_smul, Finset.sum_add_distrib]

theorem Poly.mul (hf : Poly W D f) (hg : Poly W D' g) : Poly W (D + D') fun p => f p * g p := by
  obtain ⟨P, h1, h2⟩ := hf
  obtain ⟨Q, h3, h4⟩ := hg
  classical
  refine ⟨P * Q, fun m hm => ?_, fun p hp => by simp only [h2 p hp, h4 p hp, polyAt, map_mul]⟩
  obtain ⟨a, ha, b, hb, rfl⟩ := Finset.mem_add.1 (MvPolynomial.support_mul P Q hm)
  rw [degOf_add]
  exact ⟨Nat.add_le_add (h1 a ha).1 (h3 b hb).1, Nat.add_le_add (h1 a ha).2.1 (h3 b hb).2.1, Nat.add_le_add (h1 a ha).2.2 (h3 b hb).2.2⟩

theorem Poly.neg (hf : Poly W D f) : Poly W D fun p => -f p := by
  obtain ⟨P, h1, h2⟩ := hf
  exact ⟨-P, fun m hm => h1 m (by rwa [MvPolynomial.support_neg] at hm), fun p hp => by simp only [h2 p hp, polyAt, map_neg]⟩

theorem Poly.sub (hf : Poly W D f) (hg : Poly W D' g) : Poly W (D ⊔ D') fun p => f p - g p := by
  simpa only [sub_eq_add_neg] using hf.add hg.neg

theorem Poly.divc (hf : Poly W D f) (a : ℝ) : Poly W D fun p => f p / a := by
  have := hf.mul (Poly.const a⁻¹)
  simpa only [div_eq_mul_inv, add_zero] using this

theorem Poly.pow (hf : Poly W D f) (k : Nat) : Poly W (k • D) fun p => f p ^ k := by
  induction k with
  | zero => simpa using Poly.const 1
  | succ k ih => simpa only [pow_succ, succ_nsmul] using ih.mul hf

theorem Poly.sum {ι : Type} (S : Finset ι) (F : ι → List ℝ → ℝ) (h : ∀ i ∈ S, Poly W D (F i)) : Poly W D fun p => ∑ i ∈ S, F i p := by
  classical
  induction S using Finset.induction_on with
  | empty => simpa using (Poly.const 0).mono (D' := D) ⟨Nat.zero_le _, Nat.zero_le _, Nat.zero_le _⟩
  | insert a S ha ih =>
    have := (h a (Finset.mem_insert_self a S)).add (ih fun i hi => h i (Finset.mem_insert_of_mem hi))
    simpa only [Finset.sum_insert ha, sup_idem] using this

theorem Poly.prod {ι : Type} (S : Finset ι) (F : ι → List ℝ → ℝ) (E : ι → Deg) (h : ∀ i ∈ S, Poly W (E i) (F i)) :
    Poly W (∑ i ∈ S, E i) fun p => ∏ i ∈ S, F i p := by
  classical
  induction S using Finset.induction_on with
  | empty => simpa using Poly.const 1
  | insert a S ha ih =>
    have := (h a (Finset.mem_insert_self a S)).mul (ih fun i hi => h i (Finset.mem_insert_of_mem hi))
    simpa only [Finset.prod_insert ha, Finset.sum_insert ha] using this

theorem Poly.det (M : List ℝ → Matrix (Fin d) (Fin d) ℝ) (E : Fin d → Deg) (h : ∀ i j, Poly W (E j) fun p => M p i j) :
    Poly W (∑ j, E j) fun p => (M p).det := by
  simp only [Matrix.det_apply']
  refine Poly.sum _ _ fun σ _ => ?_
  have := (Poly.const (W := W) (((Equiv.Perm.sign σ : ℤˣ) : ℤ) : ℝ)).mul (Poly.prod Finset.univ (fun i p => M p (σ i) i) E fun i _ => h (σ i) i)
  simpa only [zero_add] using this

/-- The degrees of an expression in the coordinates. -/
macro "poly" : tactic => `(tactic| repeat' first
  | exact Poly.const _ | exact Poly.coord 0 (by decide) | exact Poly.coord 1 (by decide) | exact Poly.coord 2 (by decide)
  | apply Poly.divc | apply Poly.neg | apply Poly.mul | apply Poly.add | apply Poly.sub | apply Poly.pow)

/-! ### The degrees of the tables -/

/-- The degree in each coordinate. -/
def each : (d : Nat) → Fin d → Deg
  | _, ⟨0, _⟩ => (1, 0, 0)
  | _, ⟨1, _⟩ => (0, 1, 0)
  | _, _ => (0, 0, 1)

/-- The total degree. -/
def total (d : Nat) : Fin d → Deg := fun _ => (1, 0, 0)

/-- The total degree in the first two coordinates and the degree in the third one. -/
def layered : Fin 3 → Deg
  | ⟨2, _⟩ => (0, 1, 0)
  | _ => (1, 0, 0)

set_option hygiene false in
/-- All entries of a table. -/
macro "table " t:ident : tactic => `(tactic| (
  interval_cases n <;> (
    simp only [slopeOf, $t:ident, List.getElem?_cons_zero, List.getElem?_cons_succ, Option.bind_some, Option.getD_some]
    refine Poly.mono (by poly) ?_
    decide)))

theorem terms4x2_degree0 (n : Nat) (hn : n < 4) : Poly (each 2) (0, 1, 0) fun p => slopeOf (terms4x2 (p.getD 0 0) (p.getD 1 0)) n 0 := by table terms4x2
theorem terms4x2_degree1 (n : Nat) (hn : n < 4) : Poly (each 2) (1, 0, 0) fun p => slopeOf (terms4x2 (p.getD 0 0) (p.getD 1 0)) n 1 := by table terms4x2
theorem terms8x2_degree0 (n : Nat) (hn : n < 8) : Poly (each 2) (1, 2, 0) fun p => slopeOf (terms8x2 (p.getD 0 0) (p.getD 1 0)) n 0 := by table terms8x2
theorem terms8x2_degree1 (n : Nat) (hn : n < 8) : Poly (each 2) (2, 1, 0) fun p => slopeOf (terms8x2 (p.getD 0 0) (p.getD 1 0)) n 1 := by table terms8x2
theorem terms8x3_degree0 (n : Nat) (hn : n < 8) : Poly (each 3) (0, 1, 1) fun p => slopeOf (terms8x3 (p.getD 0 0) (p.getD 1 0) (p.getD 2 0)) n 0 := by table terms8x3
theorem terms8x3_degree1 (n : Nat) (hn : n < 8) : Poly (each 3) (1, 0, 1) fun p => slopeOf (terms8x3 (p.getD 0 0) (p.getD 1 0) (p.getD 2 0)) n 1 := by table terms8x3
theorem terms8x3_degree2 (n : Nat) (hn : n < 8) : Poly (each 3) (1, 1, 0) fun p => slopeOf (terms8x3 (p.getD 0 0) (p.getD 1 0) (p.getD 2 0)) n 2 := by table terms8x3
theorem terms20x3_degree0 (n : Nat) (hn : n < 20) : Poly (each 3) (1, 2, 2) fun p => slopeOf (terms20x3 (p.getD 0 0) (p.getD 1 0) (p.getD 2 0)) n 0 := by table terms20x3
theorem terms20x3_degree1 (n : Nat) (hn : n < 20) : Poly (each 3) (2, 1, 2) fun p => slopeOf (terms20x3 (p.getD 0 0) (p.getD 1 0) (p.getD 2 0)) n 1 := by table terms20x3
theorem terms20x3_degree2 (n : Nat) (hn : n < 20) : Poly (each 3) (2, 2, 1) fun p => slopeOf (terms20x3 (p.getD 0 0) (p.getD 1 0) (p.getD 2 0)) n 2 := by table terms20x3
theorem setTriangle3_degree0 (n : Nat) (hn : n < 3) : Poly (total 2) (0, 0, 0) fun p => slopeOf (setTriangle3 (p.getD 0 0) (p.getD 1 0)) n 0 := by table setTriangle3
theorem setTriangle3_degree1 (n : Nat) (hn : n < 3) : Poly (total 2) (0, 0, 0) fun p => slopeOf (setTriangle3 (p.getD 0 0) (p.getD 1 0)) n 1 := by table setTriangle3
theorem setTriangle6_degree0 (n : Nat) (hn : n < 6) : Poly (total 2) (1, 0, 0) fun p => slopeOf (setTriangle6 (p.getD 0 0) (p.getD 1 0)) n 0 := by table setTriangle6
theorem setTriangle6_degree1 (n : Nat) (hn : n < 6) : Poly (total 2) (1, 0, 0) fun p => slopeOf (setTriangle6 (p.getD 0 0) (p.getD 1 0)) n 1 := by table setTriangle6
theorem setTetra4_degree0 (n : Nat) (hn : n < 4) : Poly (total 3) (0, 0, 0) fun p => slopeOf (setTetra4 (p.getD 0 0) (p.getD 1 0) (p.getD 2 0)) n 0 := by table setTetra4
theorem setTetra4_degree1 (n : Nat) (hn : n < 4) : Poly (total 3) (0, 0, 0) fun p => slopeOf (setTetra4 (p.getD 0 0) (p.getD 1 0) (p.getD 2 0)) n 1 := by table setTetra4
theorem setTetra4_degree2 (n : Nat) (hn : n < 4) : Poly (total 3) (0, 0, 0) fun p => slopeOf (setTetra4 (p.getD 0 0) (p.getD 1 0) (p.getD 2 0)) n 2 := by table setTetra4
theorem setTetra10_degree0 (n : Nat) (hn : n < 10) : Poly (total 3) (1, 0, 0) fun p => slopeOf (setTetra10 (p.getD 0 0) (p.getD 1 0) (p.getD 2 0)) n 0 := by table setTetra10
theorem setTetra10_degree1 (n : Nat) (hn : n < 10) : Poly (total 3) (1, 0, 0) fun p => slopeOf (setTetra10 (p.getD 0 0) (p.getD 1 0) (p.getD 2 0)) n 1 := by table setTetra10
theorem setTetra10_degree2 (n : Nat) (hn : n < 10) : Poly (total 3) (1, 0, 0) fun p => slopeOf (setTetra10 (p.getD 0 0) (p.getD 1 0) (p.getD 2 0)) n 2 := by table setTetra10
theorem setPrisma6_degree0 (n : Nat) (hn : n < 6) : Poly layered (0, 1, 0) fun p => slopeOf (setPrisma6 (p.getD 0 0) (p.getD 1 0) (p.getD 2 0)) n 0 := by table setPrisma6
theorem setPrisma6_degree1 (n : Nat) (hn : n < 6) : Poly layered (0, 1, 0) fun p => slopeOf (setPrisma6 (p.getD 0 0) (p.getD 1 0) (p.getD 2 0)) n 1 := by table setPrisma6
theorem setPrisma6_degree2 (n : Nat) (hn : n < 6) : Poly layered (1, 0, 0) fun p => slopeOf (setPrisma6 (p.getD 0 0) (p.getD 1 0) (p.getD 2 0)) n 2 := by table setPrisma6

end Verif.Fem
