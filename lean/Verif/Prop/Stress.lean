import Verif.Model.Stress
import Verif.Prop.ElementResults
import Verif.Prop.Gluing
import Verif.Prop.BaseFunctions
import Mathlib.LinearAlgebra.Matrix.NonsingularInverse
import Mathlib.LinearAlgebra.Matrix.Trace
import Mathlib.Analysis.Real.Sqrt
import Mathlib.Tactic.Linarith
import Mathlib.Analysis.Matrix.Spectrum
import Mathlib.Data.Fin.Tuple.Sort
import Mathlib.Tactic.IntervalCases
/-! C101: the stresses and strains of elements and nodes. -/
namespace Verif.Stress

open Verif.Csx Verif.Results

/-! ### The von Mises values -/

/-- What LAPACK returns for a symmetric matrix: the values of a diagonal form. -/
def IsEig (n : Nat) (A : Matrix (Fin n) (Fin n) ℝ) (e : Fin n → ℝ) : Prop := ∃ Q : Matrix (Fin n) (Fin n) ℝ, Q * Q.transpose = 1 ∧ A = Q * Matrix.diagonal e * Q.transpose

theorem trace_conj {n : Nat} {Q D : Matrix (Fin n) (Fin n) ℝ} (hQ : Q * Q.transpose = 1) : (Q * D * Q.transpose).trace = D.trace := by
  rw [Matrix.trace_mul_comm, ← Matrix.mul_assoc, mul_eq_one_comm.1 hQ, Matrix.one_mul]

theorem IsEig.sums {n : Nat} {A : Matrix (Fin n) (Fin n) ℝ} {e : Fin n → ℝ} (h : IsEig n A e) : A.trace = ∑ i, e i ∧ (A * A).trace = ∑ i, e i ^ 2 := by
  obtain ⟨Q, hQ, rfl⟩ := h
  constructor
  · rw [trace_conj hQ, Matrix.trace_diagonal]
  · have : Q * Matrix.diagonal e * Q.transpose * (Q * Matrix.diagonal e * Q.transpose) = Q * (Matrix.diagonal e * Matrix.diagonal e) * Q.transpose := by
      have h2 : Q.transpose * Q = 1 := mul_eq_one_comm.1 hQ
      calc Q * Matrix.diagonal e * Q.transpose * (Q * Matrix.diagonal e * Q.transpose)
          = Q * Matrix.diagonal e * (Q.transpose * Q) * Matrix.diagonal e * Q.transpose := by simp only [Matrix.mul_assoc]
        _ = Q * (Matrix.diagonal e * Matrix.diagonal e) * Q.transpose := by rw [h2, Matrix.mul_one]; simp only [Matrix.mul_assoc]
    rw [this, trace_conj hQ, Matrix.diagonal_mul_diagonal, Matrix.trace_diagonal]
    exact Finset.sum_congr rfl fun i _ => (pow_two _).symm

/-- The matrix stored row by row. -/
def matrixOf (n : Nat) (A : Nat → ℝ) : Matrix (Fin n) (Fin n) ℝ := fun i j => A (i * n + j)

/-- The eigenvalues in ascending order for the matrices given to LAPACK. -/
def EigOk (n : Nat) (eig : (Nat → ℝ) → Nat → ℝ) : Prop := ∀ A, (matrixOf n A).transpose = matrixOf n A → IsEig n (matrixOf n A) (fun i => eig A i) ∧ ∀ i j : Fin n, i ≤ j → eig A i ≤ eig A j

theorem mises_components {eig : (Nat → ℝ) → Nat → ℝ} (h : EigOk 3 eig) (A : Nat → ℝ) (hA : (matrixOf 3 A).transpose = matrixOf 3 A) :
    eig A 0 + eig A 1 + eig A 2 = A 0 + A 4 + A 8 ∧
      mises3 Real.sqrt (eigDesc3 eig A) = Real.sqrt (((A 0 - A 4) ^ 2 + (A 4 - A 8) ^ 2 + (A 8 - A 0) ^ 2) / 2 + 3 * (A 1 ^ 2 + A 5 ^ 2 + A 2 ^ 2)) := by
  obtain ⟨s1, s2⟩ := (h A hA).1.sums
  have c1 : A 3 = A 1 := congrFun (congrFun hA 0) 1
  have c2 : A 6 = A 2 := congrFun (congrFun hA 0) 2
  have c5 : A 7 = A 5 := congrFun (congrFun hA 1) 2
  have t1 : (matrixOf 3 A).trace = A 0 + A 4 + A 8 := by
    rw [Matrix.trace_fin_three]
    rfl
  have t2 : (matrixOf 3 A * matrixOf 3 A).trace = A 0 ^ 2 + A 4 ^ 2 + A 8 ^ 2 + 2 * (A 1 ^ 2 + A 5 ^ 2 + A 2 ^ 2) := by
    rw [Matrix.trace_fin_three]
    simp only [Matrix.mul_apply, Fin.sum_univ_three]
    show A 0 * A 0 + A 1 * A 3 + A 2 * A 6 + (A 3 * A 1 + A 4 * A 4 + A 5 * A 7) + (A 6 * A 2 + A 7 * A 5 + A 8 * A 8) = _
    rw [c1, c2, c5]
    ring
  rw [t1, Fin.sum_univ_three] at s1
  rw [t2, Fin.sum_univ_three] at s2
  change _ = eig A 0 + eig A 1 + eig A 2 at s1
  change _ = eig A 0 ^ 2 + eig A 1 ^ 2 + eig A 2 ^ 2 at s2
  refine ⟨s1.symm, ?_⟩
  unfold mises3
  congr 1
  show 1 / 2 * ((eig A 2 - eig A 1) * (eig A 2 - eig A 1) + (eig A 1 - eig A 0) * (eig A 1 - eig A 0) + (eig A 0 - eig A 2) * (eig A 0 - eig A 2)) = _
  generalize eig A 0 = a at *
  generalize eig A 1 = b at *
  generalize eig A 2 = c at *
  have : (A 0 + A 4 + A 8) ^ 2 = (a + b + c) ^ 2 := by rw [s1]
  linarith

/-- The principal stresses are in descending order and sum up to the trace, the components are those of the material; in space the von Mises stress is the square root of `3 J₂`, expressed by the components. -/
theorem C101_mises {eig : (Nat → ℝ) → Nat → ℝ} (h : EigOk 3 eig) (v : Nat → ℝ) :
    let e := eigDesc3 eig (tensor3 v)
    e 1 ≤ e 0 ∧ e 2 ≤ e 1 ∧ e 0 + e 1 + e 2 = v 0 + v 1 + v 2 ∧ (∀ d < 6, component3 (tensor3 v) d = v d) ∧
      mises3 Real.sqrt e = Real.sqrt (((v 0 - v 1) ^ 2 + (v 1 - v 2) ^ 2 + (v 2 - v 0) ^ 2) / 2 + 3 * (v 3 ^ 2 + v 4 ^ 2 + v 5 ^ 2)) := by
  intro e
  have hsym : (matrixOf 3 (tensor3 v)).transpose = matrixOf 3 (tensor3 v) := by
    ext i j
    fin_cases i <;> fin_cases j <;> rfl
  obtain ⟨m1, m2⟩ := mises_components h (tensor3 v) hsym
  refine ⟨(h _ hsym).2 1 2 (by decide), (h _ hsym).2 0 1 (by decide), ?_, ?_, m2⟩
  · show eig (tensor3 v) 2 + eig (tensor3 v) 1 + eig (tensor3 v) 0 = _
    change _ = v 0 + v 1 + v 2 at m1
    rw [← m1]
    ring
  · intro d hd
    interval_cases d <;> rfl

/-- The strain is the one of Green, `(C - I) / 2`; in space the equivalent strain is expressed by its components. -/
theorem C101_strain {eig : (Nat → ℝ) → Nat → ℝ} (h : EigOk 3 eig) (C : Nat → ℝ) (hC : (matrixOf 3 C).transpose = matrixOf 3 C) :
    let E := strain3 C
    matrixOf 3 E = (1 / 2 : ℝ) • (matrixOf 3 C - 1) ∧
    mises3 Real.sqrt (eigDesc3 eig E) = Real.sqrt (((E 0 - E 4) ^ 2 + (E 4 - E 8) ^ 2 + (E 8 - E 0) ^ 2) / 2 + 3 * (E 1 ^ 2 + E 5 ^ 2 + E 2 ^ 2)) := by
  intro E
  have hE : matrixOf 3 E = (1 / 2 : ℝ) • (matrixOf 3 C - 1) := by
    ext i j
    fin_cases i <;> fin_cases j <;> simp [E, matrixOf, strain3] <;> ring
  refine ⟨hE, (mises_components h E ?_).2⟩
  rw [hE, Matrix.transpose_smul, Matrix.transpose_sub, hC, Matrix.transpose_one]

/-- The six results of a point in space: principal stresses, components of the stress, von Mises stress, and the same for the strain; the equivalent strain is divided by `1 + ν`, and the lengths are those of the arrays. -/
theorem C101_results {eig : (Nat → ℝ) → Nat → ℝ} (h : EigOk 3 eig) (v C : Nat → ℝ) (hC : (matrixOf 3 C).transpose = matrixOf 3 C) (nu : ℝ) :
    ∃ p c m q g f, pointResults Real.sqrt eig 3 v C nu = [p, c, m, q, g, f] ∧ widths 3 = [3, 6, 1, 3, 6, 1] ∧
      (p 1 ≤ p 0 ∧ p 2 ≤ p 1 ∧ IsEig 3 !![v 0, v 3, v 5; v 3, v 1, v 4; v 5, v 4, v 2] ![p 2, p 1, p 0]) ∧ (∀ d < 6, c d = v d) ∧
      m 0 = Real.sqrt (((v 0 - v 1) ^ 2 + (v 1 - v 2) ^ 2 + (v 2 - v 0) ^ 2) / 2 + 3 * (v 3 ^ 2 + v 4 ^ 2 + v 5 ^ 2)) ∧
      (q 1 ≤ q 0 ∧ q 2 ≤ q 1 ∧ IsEig 3 ((1 / 2 : ℝ) • (matrixOf 3 C - 1)) ![q 2, q 1, q 0]) ∧
      (g 0 = (C 0 - 1) / 2 ∧ g 1 = (C 4 - 1) / 2 ∧ g 2 = (C 8 - 1) / 2 ∧ g 3 = C 1 / 2 ∧ g 4 = C 5 / 2 ∧ g 5 = C 2 / 2) ∧
      f 0 = Real.sqrt (((g 0 - g 1) ^ 2 + (g 1 - g 2) ^ 2 + (g 2 - g 0) ^ 2) / 2 + 3 * (g 3 ^ 2 + g 4 ^ 2 + g 5 ^ 2)) / (1 + nu) := by
  have hsym : (matrixOf 3 (tensor3 v)).transpose = matrixOf 3 (tensor3 v) := by
    ext i j
    fin_cases i <;> fin_cases j <;> rfl
  obtain ⟨a1, a2, -, a4, a5⟩ := C101_mises h v
  obtain ⟨b1, b2⟩ := C101_strain h C hC
  have hE : (matrixOf 3 (strain3 C)).transpose = matrixOf 3 (strain3 C) := by rw [b1, Matrix.transpose_smul, Matrix.transpose_sub, hC, Matrix.transpose_one]
  refine ⟨_, _, _, _, _, _, rfl, rfl, ⟨a1, a2, ?_⟩, a4, a5, ⟨(h _ hE).2 1 2 (by decide), (h _ hE).2 0 1 (by decide), ?_⟩, ?_, ?_⟩
  · have e1 : !![v 0, v 3, v 5; v 3, v 1, v 4; v 5, v 4, v 2] = matrixOf 3 (tensor3 v) := by
      ext i j
      fin_cases i <;> fin_cases j <;> rfl
    have e2 : ![eigDesc3 eig (tensor3 v) 2, eigDesc3 eig (tensor3 v) 1, eigDesc3 eig (tensor3 v) 0] = fun i : Fin 3 => eig (tensor3 v) i := by
      ext i
      fin_cases i <;> rfl
    rw [e1, e2]
    exact (h _ hsym).1
  · have e2 : ![eigDesc3 eig (strain3 C) 2, eigDesc3 eig (strain3 C) 1, eigDesc3 eig (strain3 C) 0] = fun i : Fin 3 => eig (strain3 C) i := by
      ext i
      fin_cases i <;> rfl
    rw [← b1, e2]
    exact (h _ hE).1
  · refine ⟨?_, ?_, ?_, ?_, ?_, ?_⟩ <;> simp [component3, strain3] <;> ring
  · show mises3 Real.sqrt (eigDesc3 eig (strain3 C)) / (1 + nu) = _
    rw [b2]
    rfl

/-- The six results of a point in the plane; what the two von Mises values are is said by `C101_plane_wrong`. -/
theorem C101_plane {eig : (Nat → ℝ) → Nat → ℝ} (h : EigOk 2 eig) (v C : Nat → ℝ) (hC : C 1 = C 2) (nu : ℝ) :
    ∃ p c m q g f, pointResults Real.sqrt eig 2 v C nu = [p, c, m, q, g, f] ∧ widths 2 = [2, 3, 1, 2, 3, 1] ∧
      (p 1 ≤ p 0 ∧ IsEig 2 !![v 0, v 2; v 2, v 1] ![p 1, p 0]) ∧ (∀ d < 3, c d = v d) ∧ m 0 = Real.sqrt ((p 0 - p 1) ^ 2 / 2) ∧
      (q 1 ≤ q 0 ∧ IsEig 2 !![(C 0 - 1) / 2, C 1 / 2; C 2 / 2, (C 3 - 1) / 2] ![q 1, q 0]) ∧
      (g 0 = (C 0 - 1) / 2 ∧ g 1 = (C 3 - 1) / 2 ∧ g 2 = C 1 / 2) ∧ f 0 = Real.sqrt ((q 0 - q 1) ^ 2 / 2) / (1 + nu) := by
  have hS : matrixOf 2 (tensor2 v) = !![v 0, v 2; v 2, v 1] := by
    ext i j
    fin_cases i <;> fin_cases j <;> rfl
  have hE : matrixOf 2 (strain2 C) = !![(C 0 - 1) / 2, C 1 / 2; C 2 / 2, (C 3 - 1) / 2] := by
    ext i j
    fin_cases i <;> fin_cases j <;> simp [matrixOf, strain2] <;> ring
  have sS : (matrixOf 2 (tensor2 v)).transpose = matrixOf 2 (tensor2 v) := by
    ext i j
    fin_cases i <;> fin_cases j <;> rfl
  have sE : (matrixOf 2 (strain2 C)).transpose = matrixOf 2 (strain2 C) := by
    rw [hE]
    ext i j
    fin_cases i <;> fin_cases j <;> simp [hC]
  have rev : ∀ A, ![eigDesc2 eig A 1, eigDesc2 eig A 0] = fun i : Fin 2 => eig A i := by
    intro A
    ext i
    fin_cases i <;> rfl
  refine ⟨_, _, _, _, _, _, rfl, rfl, ⟨(h _ sS).2 0 1 (by decide), ?_⟩, ?_, ?_, ⟨(h _ sE).2 0 1 (by decide), ?_⟩, ?_, ?_⟩
  · rw [← hS, rev]
    exact (h _ sS).1
  · intro d hd
    interval_cases d <;> rfl
  · show Real.sqrt _ = _
    congr 1
    ring
  · rw [← hE, rev]
    exact (h _ sE).1
  · refine ⟨?_, ?_, ?_⟩ <;> simp [component2, strain2] <;> ring
  · show Real.sqrt _ / _ = _
    congr 2
    ring

/-- The von Mises stress of the plane stress with the given components. -/
noncomputable def planeMises (v : Nat → ℝ) : ℝ := Real.sqrt (v 0 ^ 2 - v 0 * v 1 + v 1 ^ 2 + 3 * v 2 ^ 2)

/-- In the plane the code forgets the third principal stress: the value is that of the plane stress only if there is no stress at all, and too small otherwise. -/
theorem C101_plane_wrong {eig : (Nat → ℝ) → Nat → ℝ} (h : EigOk 2 eig) (v : Nat → ℝ) :
    mises2 Real.sqrt (eigDesc2 eig (tensor2 v)) ≤ planeMises v ∧ (mises2 Real.sqrt (eigDesc2 eig (tensor2 v)) = planeMises v ↔ v 0 = 0 ∧ v 1 = 0 ∧ v 2 = 0) := by
  obtain ⟨h1, h2⟩ := h (tensor2 v) (by
    ext i j
    fin_cases i <;> fin_cases j <;> rfl)
  obtain ⟨s1, s2⟩ := h1.sums
  have t1 : (matrixOf 2 (tensor2 v)).trace = v 0 + v 1 := by
    rw [Matrix.trace_fin_two]
    rfl
  have t2 : (matrixOf 2 (tensor2 v) * matrixOf 2 (tensor2 v)).trace = v 0 ^ 2 + v 1 ^ 2 + 2 * v 2 ^ 2 := by
    rw [Matrix.trace_fin_two]
    simp only [Matrix.mul_apply, Fin.sum_univ_two]
    show v 0 * v 0 + v 2 * v 2 + (v 2 * v 2 + v 1 * v 1) = _
    ring
  rw [t1, Fin.sum_univ_two] at s1
  rw [t2, Fin.sum_univ_two] at s2
  change _ = eig (tensor2 v) 0 + eig (tensor2 v) 1 at s1
  change _ = eig (tensor2 v) 0 ^ 2 + eig (tensor2 v) 1 ^ 2 at s2
  have e : mises2 Real.sqrt (eigDesc2 eig (tensor2 v)) = Real.sqrt ((v 0 - v 1) ^ 2 / 2 + 2 * v 2 ^ 2) := by
    unfold mises2
    congr 1
    show 1 / 2 * ((eig (tensor2 v) 1 - eig (tensor2 v) 0) * (eig (tensor2 v) 1 - eig (tensor2 v) 0)) = _
    generalize eig (tensor2 v) 0 = a at *
    generalize eig (tensor2 v) 1 = b at *
    have : (v 0 + v 1) ^ 2 = (a + b) ^ 2 := by rw [s1]
    linarith
  rw [e, planeMises]
  have hpos : (v 0 - v 1) ^ 2 / 2 + 2 * v 2 ^ 2 ≤ v 0 ^ 2 - v 0 * v 1 + v 1 ^ 2 + 3 * v 2 ^ 2 := by nlinarith [sq_nonneg (v 0), sq_nonneg (v 1), sq_nonneg (v 2)]
  refine ⟨Real.sqrt_le_sqrt hpos, ?_, ?_⟩
  · intro heq
    have hsq := (Real.sqrt_inj (by positivity) (le_trans (by positivity) hpos)).1 heq
    have hz : v 0 ^ 2 + v 1 ^ 2 + 2 * v 2 ^ 2 = 0 := by linarith
    have a0 := sq_nonneg (v 0)
    have a1 := sq_nonneg (v 1)
    have a2 := sq_nonneg (v 2)
    exact ⟨pow_eq_zero_iff (two_ne_zero) |>.1 (by linarith), pow_eq_zero_iff (two_ne_zero) |>.1 (by linarith), pow_eq_zero_iff (two_ne_zero) |>.1 (by linarith)⟩
  · rintro ⟨h0, h1, h2⟩
    rw [h0, h1, h2]
    norm_num

/-- A bar under tension: `1 / √2` of the stress instead of the stress. -/
example {eig : (Nat → ℝ) → Nat → ℝ} (h : EigOk 2 eig) : mises2 Real.sqrt (eigDesc2 eig (tensor2 fun i => if i = 0 then 2 else 0)) ≠ planeMises fun i => if i = 0 then 2 else 0 := by
  intro e
  have := (C101_plane_wrong h _).2.1 e
  simp at this

/-- There are such eigenvalues. -/
theorem eig_exists (n : Nat) : ∃ eig, EigOk n eig := by
  classical
  have key : ∀ A : Nat → ℝ, ∃ f : Nat → ℝ, (matrixOf n A).transpose = matrixOf n A → IsEig n (matrixOf n A) (fun i => f i) ∧ ∀ i j : Fin n, i ≤ j → f i ≤ f j := by
    intro A
    by_cases hA : (matrixOf n A).transpose = matrixOf n A
    · have hH : (matrixOf n A).IsHermitian := by
        rw [Matrix.IsHermitian, Matrix.conjTranspose_eq_transpose_of_trivial]
        exact hA
      let e := hH.eigenvalues
      let σ := Tuple.sort e
      let U : Matrix (Fin n) (Fin n) ℝ := hH.eigenvectorUnitary
      have hU : U * U.transpose = 1 := by
        have := Matrix.mem_unitaryGroup_iff.1 hH.eigenvectorUnitary.2
        rwa [Matrix.star_eq_conjTranspose, Matrix.conjTranspose_eq_transpose_of_trivial] at this
      have hS : matrixOf n A = U * Matrix.diagonal e * U.transpose := by
        have := hH.spectral_theorem
        simpa [Unitary.conjStarAlgAut_apply, Matrix.star_eq_conjTranspose, Matrix.conjTranspose_eq_transpose_of_trivial, Function.comp_def] using this
      refine ⟨fun i => if hi : i < n then e (σ ⟨i, hi⟩) else 0, fun _ => ⟨⟨U.submatrix id σ, ?_, ?_⟩, ?_⟩⟩
      · rw [← hU]
        ext i j
        simp only [Matrix.mul_apply, Matrix.transpose_apply, Matrix.submatrix_apply, id_eq]
        exact Equiv.sum_comp σ fun k => U i k * U j k
      · rw [hS]
        ext i j
        simp only [Matrix.mul_apply, Matrix.transpose_apply, Matrix.submatrix_apply, id_eq, Matrix.diagonal_apply, mul_ite, mul_zero, Finset.sum_ite_eq', Finset.mem_univ, if_true, Fin.is_lt, dite_true, Fin.eta]
        exact (Equiv.sum_comp σ fun k => U i k * e k * U j k).symm
      · intro i j hij
        simp only [Fin.is_lt, dite_true, Fin.eta]
        exact Tuple.monotone_sort e hij
    · exact ⟨fun _ => 0, fun h => absurd h hA⟩
  choose eig h using key
  exact ⟨eig, h⟩

/-! ### The arrays of the elements -/

section
variable {K : Type} [Field K]

theorem addLane_spec (width ptr e : Nat) (r : K) (v : Nat → K) (X : Nat → K) (out : List K) (h : ∀ d < width, out[ptr + width * e + d]? = some (X d)) :
    ∃ w, addLane width ptr e r v out = some w ∧ w.length = out.length ∧ (∀ d < width, w[ptr + width * e + d]? = some (X d + r * v d))
      ∧ ∀ k, k < ptr + width * e ∨ ptr + width * e + width ≤ k → w[k]? = out[k]? := by
  unfold addLane
  obtain ⟨w, e1, e2, e3, e4, e5⟩ := forLoop_inv (Nat.zero_le width) out (fun d out => Verif.Feti.addAt out (ptr + width * e + d) (r * v d))
    (fun i w => w.length = out.length ∧ (∀ d < i, w[ptr + width * e + d]? = some (X d + r * v d)) ∧ (∀ d, i ≤ d → d < width → w[ptr + width * e + d]? = some (X d))
      ∧ ∀ k, k < ptr + width * e ∨ ptr + width * e + width ≤ k → w[k]? = out[k]?)
    ⟨rfl, fun d hd => absurd hd (Nat.not_lt_zero d), fun d _ hd => h d hd, fun _ _ => rfl⟩ (by
      rintro i _ hi w ⟨w1, w2, w3, w4⟩
      have hv := w3 i le_rfl hi
      have hlt : ptr + width * e + i < w.length := (List.getElem?_eq_some_iff.1 hv).1
      have hget : w[ptr + width * e + i] = X i := (List.getElem?_eq_some_iff.1 hv).2
      refine ⟨_, Verif.Feti.addAt_some hlt, by rw [List.length_set, w1], ?_, ?_, ?_⟩
      · intro d hd
        rw [getElem?_set' _ _ _ _ hlt]
        by_cases hdi : d = i
        · subst hdi
          rw [if_pos rfl, hget]
        · rw [if_neg (by omega)]
          exact w2 d (by omega)
      · intro d hd hdw
        rw [getElem?_set' _ _ _ _ hlt, if_neg (by omega)]
        exact w3 d (by omega) hdw
      · intro k hk
        rw [getElem?_set' _ _ _ _ hlt, if_neg (by omega)]
        exact w4 k hk)
  exact ⟨w, e1, e2, e3, e5⟩

theorem addPoint_spec (width ptr n : Nat) (r : K) (v X : Nat → Nat → K) (out : List K) (h : ∀ e < n, ∀ d < width, out[ptr + width * e + d]? = some (X e d)) :
    ∃ w, addPoint width ptr n r v out = some w ∧ w.length = out.length ∧ (∀ e < n, ∀ d < width, w[ptr + width * e + d]? = some (X e d + r * v e d))
      ∧ ∀ k, k < ptr ∨ ptr + width * n ≤ k → w[k]? = out[k]? := by
  unfold addPoint
  obtain ⟨w, e1, e2, e3, e4, e5⟩ := forLoop_inv (Nat.zero_le n) out (fun e out => addLane width ptr e r (v e) out)
    (fun i w => w.length = out.length ∧ (∀ e < i, ∀ d < width, w[ptr + width * e + d]? = some (X e d + r * v e d)) ∧ (∀ e, i ≤ e → e < n → ∀ d < width, w[ptr + width * e + d]? = some (X e d))
      ∧ ∀ k, k < ptr ∨ ptr + width * n ≤ k → w[k]? = out[k]?)
    ⟨rfl, fun e he => absurd he (Nat.not_lt_zero e), fun e _ he => h e he, fun _ _ => rfl⟩ (by
      rintro i _ hi w ⟨w1, w2, w3, w4⟩
      obtain ⟨w', f1, f2, f3, f4⟩ := addLane_spec width ptr i r (v i) (X i) w (w3 i le_rfl hi)
      refine ⟨w', f1, f2.trans w1, ?_, ?_, ?_⟩
      · intro e he d hd
        by_cases hei : e = i
        · subst hei
          exact f3 d hd
        · have : width * (e + 1) ≤ width * i := Nat.mul_le_mul_left _ (by omega)
          rw [Nat.mul_succ] at this
          rw [f4 _ (by omega)]
          exact w2 e (by omega) d hd
      · intro e he hen d hd
        have : width * (i + 1) ≤ width * e := Nat.mul_le_mul_left _ (by omega)
        rw [Nat.mul_succ] at this
        rw [f4 _ (by omega)]
        exact w3 e (by omega) hen d hd
      · intro k hk
        have : width * (i + 1) ≤ width * n := Nat.mul_le_mul_left _ hi
        rw [Nat.mul_succ] at this
        rw [f4 k (by omega)]
        exact w4 k hk)
  exact ⟨w, e1, e2, e3, e5⟩

theorem stressChunk_spec (width size n gps : Nat) (v : Nat → Nat → Nat → K) (ptr : Nat) (out : List K) (h : ptr + width * n ≤ out.length) :
    ∃ w, stressChunk width size n gps v (ptr, out) = some (ptr + size * width, w) ∧ w.length = out.length
      ∧ (∀ e < n, ∀ d < width, w[ptr + width * e + d]? = some (∑ p ∈ Finset.range gps, 1 / (gps : K) * v p e d)) ∧ ∀ k, k < ptr ∨ ptr + width * n ≤ k → w[k]? = out[k]? := by
  obtain ⟨z, z1, z2, z3, z4⟩ := storeLanes_spec width ptr n (fun _ _ => (0 : K)) out h
  obtain ⟨w, e1, e2, e3, e4⟩ := forLoop_inv (Nat.zero_le gps) z (fun p out => addPoint width ptr n (1 / (gps : K)) (v p) out)
    (fun i w => w.length = out.length ∧ (∀ e < n, ∀ d < width, w[ptr + width * e + d]? = some (∑ p ∈ Finset.range i, 1 / (gps : K) * v p e d)) ∧ ∀ k, k < ptr ∨ ptr + width * n ≤ k → w[k]? = out[k]?)
    ⟨z2, fun e he d hd => by rw [Finset.sum_range_zero]; exact z3 e d he hd, z4⟩ (by
      rintro i _ hi w ⟨w1, w2, w3⟩
      obtain ⟨w', f1, f2, f3, f4⟩ := addPoint_spec width ptr n (1 / (gps : K)) (v i) (fun e d => ∑ p ∈ Finset.range i, 1 / (gps : K) * v p e d) w w2
      refine ⟨w', f1, f2.trans w1, ?_, fun k hk => (f4 k hk).trans (w3 k hk)⟩
      intro e he d hd
      rw [Finset.sum_range_succ]
      exact f3 e he d hd)
  refine ⟨w, ?_, e2, e3, e4⟩
  unfold stressChunk
  dsimp only
  rw [z1]
  show (forLoop 0 gps z fun p out => addPoint width ptr n (1 / (gps : K)) (v p) out).bind _ = _
  rw [e1]
  rfl

/-- The elements of the first `c` chunks. -/
def doneOf (elements size c : Nat) : Nat := min elements (c * size)

theorem stressInterval_spec {width size gps total : Nat} (hs : 0 < size) (I : Interval K) (hin : I.begin + I.elements ≤ total) (out : List K) (hout : out.length = width * total) :
    ∃ w, stressInterval width size gps I out = some w ∧ w.length = out.length
      ∧ (∀ e d, e < I.elements → d < width → w[width * (I.begin + e) + d]? = some (∑ p ∈ Finset.range gps, 1 / (gps : K) * I.value p e d))
      ∧ ∀ e d, d < width → e < I.begin ∨ I.begin + I.elements ≤ e → w[width * e + d]? = out[width * e + d]? := by
  have hdm := Nat.div_add_mod I.elements size
  have hlt := Nat.mod_lt I.elements hs
  rw [Nat.mul_comm] at hdm
  generalize hch : (I.elements / size + if I.elements % size ≠ 0 then 1 else 0) = chunks
  have hc1 : ∀ c < chunks, c * size < I.elements := by
    intro c hc
    rw [← hch] at hc
    by_cases hr : I.elements % size = 0
    · rw [if_neg (by simpa using hr)] at hc
      have : (c + 1) * size ≤ I.elements / size * size := Nat.mul_le_mul_right _ (by omega)
      rw [Nat.succ_mul] at this
      omega
    · rw [if_pos hr] at hc
      have : c * size ≤ I.elements / size * size := Nat.mul_le_mul_right _ (by omega)
      omega
  have hc2 : I.elements ≤ chunks * size := by
    rw [← hch]
    by_cases hr : I.elements % size = 0
    · rw [if_neg (by simpa using hr), Nat.add_zero]
      omega
    · rw [if_pos hr, Nat.succ_mul]
      omega
  obtain ⟨st, e0, e1, e2, e3, e4⟩ := forLoop_inv (Nat.zero_le chunks) (width * I.begin, out) (fun c st => stressChunk width size (min size (I.elements - c * size)) gps (fun p s => I.value p (c * size + s)) st)
    (fun c st => st.1 = width * I.begin + c * (size * width) ∧ st.2.length = out.length
      ∧ (∀ e d, e < doneOf I.elements size c → d < width → st.2[width * (I.begin + e) + d]? = some (∑ p ∈ Finset.range gps, 1 / (gps : K) * I.value p e d))
      ∧ ∀ k, k < width * I.begin ∨ width * (I.begin + doneOf I.elements size c) ≤ k → st.2[k]? = out[k]?)
    ⟨by rw [Nat.zero_mul, Nat.add_zero], rfl, fun e _ he => absurd he (by unfold doneOf; rw [Nat.zero_mul]; omega), fun _ _ => rfl⟩ (by
      rintro c _ hc ⟨ptr, w⟩ ⟨rfl, w1, w2, w3⟩
      dsimp only at w1 w2 w3
      have hcs := hc1 c hc
      have hdone : doneOf I.elements size c = c * size := by unfold doneOf; omega
      have hdone' : doneOf I.elements size (c + 1) = c * size + min size (I.elements - c * size) := by unfold doneOf; rw [Nat.succ_mul]; omega
      have hptr : width * I.begin + c * (size * width) = width * (I.begin + c * size) := by rw [Nat.mul_add, Nat.mul_comm width (c * size), Nat.mul_assoc]
      rw [hdone] at w2 w3
      generalize hn : min size (I.elements - c * size) = n at *
      have hend : width * (I.begin + c * size) + width * n ≤ width * total := by
        rw [← Nat.mul_add]
        exact Nat.mul_le_mul_left _ (by omega)
      obtain ⟨w', f1, f2, f3, f4⟩ := stressChunk_spec width size n gps (fun p s => I.value p (c * size + s)) (width * (I.begin + c * size)) w (by rw [w1, hout]; exact hend)
      rw [hptr]
      refine ⟨_, f1, ?_, f2.trans w1, ?_, ?_⟩
      · dsimp only
        rw [← hptr, Nat.succ_mul, ← Nat.add_assoc]
      · intro e d he hd
        rw [hdone'] at he
        dsimp only
        by_cases hec : e < c * size
        · have : width * (I.begin + e + 1) ≤ width * (I.begin + c * size) := Nat.mul_le_mul_left _ (by omega)
          rw [Nat.mul_succ] at this
          rw [f4 _ (by omega)]
          exact w2 e d hec hd
        · have := f3 (e - c * size) (by omega) d hd
          rw [← Nat.mul_add, show I.begin + c * size + (e - c * size) = I.begin + e by omega, show c * size + (e - c * size) = e by omega] at this
          exact this
      · intro k hk
        rw [hdone', ← Nat.add_assoc, Nat.mul_add width (I.begin + c * size)] at hk
        have h0 : width * I.begin ≤ width * (I.begin + c * size) := Nat.mul_le_mul_left _ (Nat.le_add_right _ _)
        dsimp only
        rw [f4 k (by omega)]
        exact w3 k (by omega))
  have hd : doneOf I.elements size chunks = I.elements := by unfold doneOf; omega
  rw [hd] at e3 e4
  refine ⟨st.2, ?_, e2, e3, ?_⟩
  · unfold stressInterval
    dsimp only
    rw [hch, e0]
    rfl
  · intro e d hd he
    apply e4
    rcases he with he | he
    · left
      have : width * (e + 1) ≤ width * I.begin := Nat.mul_le_mul_left _ he
      rw [Nat.mul_succ] at this
      omega
    · right
      exact Nat.le_trans (Nat.mul_le_mul_left _ he) (Nat.le_add_right _ _)

/-- In contrast to the gradients and fluxes (C99), the results are stored right for all numbers of elements and lanes, in any order of the intervals: every element gets the mean over its points, and nothing else is
changed. -/
theorem C101_store {width size gps total : Nat} (hs : 0 < size) (Is : List (Interval K)) (out : List K) (hout : out.length = width * total) (hin : ∀ I ∈ Is, I.begin + I.elements ≤ total)
    (dis : Is.Pairwise fun I J => I.begin + I.elements ≤ J.begin ∨ J.begin + J.elements ≤ I.begin) :
    ∃ w, stressAll width size gps Is out = some w ∧ w.length = out.length
      ∧ (∀ I ∈ Is, ∀ e d, e < I.elements → d < width → w[width * (I.begin + e) + d]? = some ((∑ p ∈ Finset.range gps, I.value p e d) / gps))
      ∧ ∀ e d, d < width → (∀ I ∈ Is, e < I.begin ∨ I.begin + I.elements ≤ e) → w[width * e + d]? = out[width * e + d]? := by
  unfold stressAll
  induction Is generalizing out with
  | nil => exact ⟨out, rfl, rfl, fun I hI => absurd hI (by simp), fun _ _ _ _ => rfl⟩
  | cons I Is ih =>
    rw [List.pairwise_cons] at dis
    obtain ⟨w, e1, e2, e3, e4⟩ := stressInterval_spec (gps := gps) hs I (hin I List.mem_cons_self) out hout
    obtain ⟨w', f1, f2, f3, f4⟩ := ih w (e2.trans hout) (fun J hJ => hin J (List.mem_cons_of_mem _ hJ)) dis.2
    refine ⟨w', ?_, f2.trans e2, ?_, ?_⟩
    · rw [List.foldlM_cons, e1]
      exact f1
    · intro J hJ e d he hd
      rcases List.mem_cons.1 hJ with rfl | hJ
      · rw [f4 _ d hd, e3 e d he hd, ← Finset.mul_sum, one_div_mul_eq_div]
        intro M hM
        have := dis.1 M hM
        omega
      · exact f3 J hJ e d he hd
    · intro e d hd h
      rw [f4 e d hd fun J hJ => h J (List.mem_cons_of_mem _ hJ)]
      exact e4 e d hd (h I List.mem_cons_self)

/-! ### The averages of the nodes -/

/-- The values of a result in a node, one for every element with the node. -/
def valuesAt (visits : List (Visit K)) (n d : Nat) : List K := (visits.filter fun x => x.node = n).map fun x => x.value d

/-- The arithmetic mean. -/
def mean (l : List K) : K := l.sum / l.length

theorem total_ones (l : List Nat) (n : Nat) : Verif.Feti.total (l.map fun k => (k, (1 : K))) n = l.count n := by
  induction l with
  | nil => simp [Verif.Feti.total]
  | cons a l ih =>
    rw [List.map_cons, Verif.Feti.total_cons, ih, List.count_cons]
    by_cases h : a = n
    · simp [h, add_comm]
    · simp [h]

theorem multiplicity_spec (nodes : Nat) (elements : List (List Nat)) (h : ∀ e ∈ elements, ∀ n ∈ e, n < nodes) :
    ∃ m : List K, multiplicity nodes elements = some m ∧ m.length = nodes ∧ ∀ n < nodes, m[n]? = some (1 / ((elements.flatten.count n : Nat) : K)) := by
  have he : (elements.foldlM (fun m e => e.foldlM (fun m n => Verif.Feti.addAt m n (1 : K)) m) (List.replicate nodes 0)) =
      Verif.Feti.runOps (elements.flatMap fun e => e.map fun k => (k, (1 : K))) (List.replicate nodes 0) := by
    rw [← Verif.Feti.foldlM_runOps]
    congr 1
    funext m e
    unfold Verif.Feti.runOps
    rw [List.foldlM_map]
  obtain ⟨w, e1, e2, e3⟩ := Verif.Feti.runOps_spec (elements.flatMap fun e => e.map fun k => (k, (1 : K))) (List.replicate nodes 0) (by
    intro op hop
    obtain ⟨e, he, hop⟩ := List.mem_flatMap.1 hop
    obtain ⟨k, hk, rfl⟩ := List.mem_map.1 hop
    rw [List.length_replicate]
    exact h e he k hk)
  rw [List.length_replicate] at e2 e3
  refine ⟨w.map fun x => 1 / x, ?_, by rw [List.length_map, e2], ?_⟩
  · unfold multiplicity
    rw [he, e1]
    rfl
  · intro n hn
    have hz : (List.replicate nodes (0 : K)).getD n 0 = 0 := by
      rw [List.getD_eq_getElem?_getD, List.getElem?_replicate, if_pos hn]
      rfl
    have ht : Verif.Feti.total (elements.flatMap fun e => e.map fun k => (k, (1 : K))) n = ((elements.flatten.count n : Nat) : K) := by
      rw [← total_ones, List.map_flatten, List.flatMap_def]
    rw [List.getElem?_map, e3 n hn, hz, zero_add, ht]
    rfl

theorem addNode_ops (width node : Nat) (scale : K) (v : Nat → K) (avg : List K) :
    addNode width node scale v avg = Verif.Feti.runOps ((List.range width).map fun d => (width * node + d, scale * v d)) avg := by
  unfold addNode Verif.Feti.runOps
  rw [Verif.Csx.forLoop_range, List.foldlM_map]

theorem total_row (width node : Nat) (f : Nat → K) {n d : Nat} (hd : d < width) :
    Verif.Feti.total ((List.range width).map fun d => (width * node + d, f d)) (width * n + d) = if node = n then f d else 0 := by
  have aux : ∀ m, Verif.Feti.total ((List.range m).map fun d => (width * node + d, f d)) (width * n + d) = if width * n + d < width * node + m ∧ width * node ≤ width * n + d then f (width * n + d - width * node) else 0 := by
    intro m
    induction m with
    | zero => rw [if_neg (by omega)]; rfl
    | succ m ih =>
      rw [List.range_succ, List.map_append, Verif.Feti.total_append, ih, List.map_singleton, Verif.Feti.total_cons, Verif.Feti.total_nil, add_zero]
      by_cases h : width * node + m = width * n + d
      · rw [if_neg (by omega), if_pos h, if_pos (by omega), zero_add, ← h, Nat.add_sub_cancel_left]
      · rw [if_neg h, add_zero]
        by_cases h2 : width * n + d < width * node + m ∧ width * node ≤ width * n + d
        · rw [if_pos h2, if_pos (by omega)]
        · rw [if_neg h2, if_neg (by omega)]
  rw [aux width]
  by_cases h : node = n
  · subst h
    rw [if_pos (by omega), if_pos rfl, Nat.add_sub_cancel_left]
  · rw [if_neg h, if_neg]
    rcases Nat.lt_or_gt_of_ne h with h | h
    · have : width * (node + 1) ≤ width * n := Nat.mul_le_mul_left _ h
      rw [Nat.mul_succ] at this
      omega
    · have : width * (n + 1) ≤ width * node := Nat.mul_le_mul_left _ h
      rw [Nat.mul_succ] at this
      omega

theorem foldlM_congr {A σ : Type} {f g : σ → A → Option σ} : ∀ (l : List A) (s : σ), (∀ a ∈ l, ∀ s, f s a = g s a) → l.foldlM f s = l.foldlM g s := by
  intro l
  induction l with
  | nil => intros; rfl
  | cons a l ih =>
    intro s h
    rw [List.foldlM_cons, List.foldlM_cons, h a List.mem_cons_self]
    congr 1
    funext s
    exact ih s fun a ha => h a (List.mem_cons_of_mem _ ha)

/-- Every node gets the arithmetic mean of the values in the elements with the node, in any order of the elements, if the additions are made one after another. -/
theorem C101_average_partial (width nodes : Nat) (elements : List (List Nat)) (h : ∀ e ∈ elements, ∀ n ∈ e, n < nodes) (visits : List (Visit K)) (hv : (visits.map (·.node)).Perm elements.flatten) :
    ∃ m w, multiplicity nodes elements = some m ∧ averages width nodes m visits = some w ∧ w.length = width * nodes ∧
      ∀ n < nodes, ∀ d < width, w[width * n + d]? = some (mean (valuesAt visits n d)) := by
  obtain ⟨m, m1, m2, m3⟩ := multiplicity_spec (K := K) nodes elements h
  have hin : ∀ x ∈ visits, x.node < nodes := by
    intro x hx
    obtain ⟨e, he, hn⟩ := List.mem_flatten.1 (hv.mem_iff.1 (List.mem_map_of_mem hx))
    exact h e he _ hn
  let F : Visit K → List (Nat × K) := fun x => (List.range width).map fun d => (width * x.node + d, 1 / ((elements.flatten.count x.node : Nat) : K) * x.value d)
  have he : averages width nodes m visits = Verif.Feti.runOps (visits.flatMap F) (List.replicate (width * nodes) 0) := by
    rw [← Verif.Feti.foldlM_runOps]
    apply foldlM_congr
    intro x hx avg
    rw [m3 _ (hin x hx)]
    exact addNode_ops _ _ _ _ _
  obtain ⟨w, e1, e2, e3⟩ := Verif.Feti.runOps_spec (visits.flatMap F) (List.replicate (width * nodes) (0 : K)) (by
    intro op hop
    obtain ⟨x, hx, hop⟩ := List.mem_flatMap.1 hop
    obtain ⟨d, hd, rfl⟩ := List.mem_map.1 hop
    have : width * (x.node + 1) ≤ width * nodes := Nat.mul_le_mul_left _ (hin x hx)
    rw [Nat.mul_succ] at this
    rw [List.length_replicate]
    have := List.mem_range.1 hd
    dsimp only
    omega)
  rw [List.length_replicate] at e2 e3
  refine ⟨m, w, m1, he.trans e1, e2, ?_⟩
  intro n hn d hd
  have hlt : width * n + d < width * nodes := by
    have : width * (n + 1) ≤ width * nodes := Nat.mul_le_mul_left _ hn
    rw [Nat.mul_succ] at this
    omega
  have hz : (List.replicate (width * nodes) (0 : K)).getD (width * n + d) 0 = 0 := by
    rw [List.getD_eq_getElem?_getD, List.getElem?_replicate, if_pos hlt]
    rfl
  rw [e3 _ hlt, hz, zero_add, Verif.Feti.total_flatMap]
  have hlen : (valuesAt visits n d).length = elements.flatten.count n := by
    rw [← hv.count_eq]
    unfold valuesAt
    rw [List.length_map, List.count, List.countP_map, List.countP_eq_length_filter]
    congr 2
  unfold mean
  rw [hlen]
  congr 1
  unfold valuesAt
  clear e1 e2 e3 he hv hin hlen
  generalize hc : elements.flatten.count n = c
  induction visits with
  | nil => simp
  | cons x visits ih =>
    rw [List.map_cons, List.sum_cons, ih, total_row width x.node (fun d => 1 / ((elements.flatten.count x.node : Nat) : K) * x.value d) hd]
    by_cases hx : x.node = n
    · rw [if_pos hx, List.filter_cons_of_pos (by simpa using hx), List.map_cons, List.sum_cons, add_div, hx, hc, one_div_mul_eq_div]
    · rw [if_neg hx, List.filter_cons_of_neg (by simpa using hx), zero_add]

end

/-- The steps of two threads: the lists of the threads are merged. -/
inductive Merge {A : Type} : List A → List A → List A → Prop
  | nil : Merge [] [] []
  | left {a x y z} : Merge x y z → Merge (a :: x) y (a :: z)
  | right {a x y z} : Merge x y z → Merge x (a :: y) (a :: z)

/-- Two domains processed by two threads have an interface node in common.  The additions to its average are not synchronised: there is an execution after which the contribution of one of the threads is missing, hence the
average is not the mean for any values of the elements except zero. -/
theorem C101_race (x y : ℚ) (hx : x ≠ 0) : ∃ steps m r, Merge (addition 0 0 (1 / 2 * x)) (addition 1 0 (1 / 2 * y)) steps ∧
    steps.foldlM step ([0], fun _ => 0) = some (m, r) ∧ m ≠ [mean [x, y]] := by
  refine ⟨[.load 0 0, .load 1 0, .store 0 0 (1 / 2 * x), .store 1 0 (1 / 2 * y)], [1 / 2 * y], fun t' => if t' = 1 then 0 else if t' = 0 then 0 else 0,
    .left (.right (.left (.right .nil))), ?_, ?_⟩
  · simp [step, wr]
  · intro h
    have : 1 / 2 * y = (x + (y + 0)) / 2 := by simpa [mean] using h
    apply hx
    linarith

/-- One after another there is nothing missing. -/
theorem race_sequential (x y : ℚ) : ∃ r, (addition 0 0 (1 / 2 * x) ++ addition 1 0 (1 / 2 * y)).foldlM step ([0], fun _ => 0) = some ([mean [x, y]], r) := by
  refine ⟨fun t' => if t' = 1 then 1 / 2 * x else if t' = 0 then 0 else 0, ?_⟩
  have : 1 / 2 * x + 1 / 2 * y = mean [x, y] := by
    simp only [mean, List.sum_cons, List.sum_nil, List.length_cons, List.length_nil]
    push_cast
    ring
  simp [step, wr, addition, ← this]

/-! ### Cases -/

/-- Two intervals with three and two elements, two lanes and two points. -/
example : ∃ w, stressAll (K := ℚ) 3 2 2 [⟨2, 3, fun p e d => p + 2 * e + 10 * d⟩, ⟨0, 2, fun p e d => p * e + d⟩] (List.replicate 15 7) = some w ∧ w.length = 15
    ∧ w[3 * (2 + 2) + 1]? = some (((0 : ℚ) + 2 * 2 + 10 * 1 + (1 + 2 * 2 + 10 * 1)) / 2) := by
  obtain ⟨w, e1, e2, e3, _⟩ := C101_store (K := ℚ) (width := 3) (size := 2) (gps := 2) (total := 5) (by decide)
    [⟨2, 3, fun p e d => p + 2 * e + 10 * d⟩, ⟨0, 2, fun p e d => p * e + d⟩] (List.replicate 15 7) rfl (by simp) (by simp)
  refine ⟨w, e1, e2, ?_⟩
  have := e3 _ List.mem_cons_self 2 1 (by decide) (by decide)
  simpa [Finset.sum_range_succ] using this

/-- Two triangles with a common edge: the nodes of the edge get the means of two values. -/
example : ∃ m w, multiplicity (K := ℚ) 4 [[0, 1, 2], [1, 3, 2]] = some m ∧
    averages 1 4 m [⟨0, fun _ => 6⟩, ⟨1, fun _ => 4⟩, ⟨2, fun _ => 2⟩, ⟨1, fun _ => 8⟩, ⟨3, fun _ => 1⟩, ⟨2, fun _ => 10⟩] = some w ∧ w[1 * 1 + 0]? = some 6 := by
  obtain ⟨m, w, e1, e2, _, e4⟩ := C101_average_partial (K := ℚ) 1 4 [[0, 1, 2], [1, 3, 2]] (by decide)
    [⟨0, fun _ => 6⟩, ⟨1, fun _ => 4⟩, ⟨2, fun _ => 2⟩, ⟨1, fun _ => 8⟩, ⟨3, fun _ => 1⟩, ⟨2, fun _ => 10⟩] (by decide)
  refine ⟨m, w, e1, e2, ?_⟩
  rw [e4 1 (by decide) 0 (by decide)]
  norm_num [mean, valuesAt, List.filter]

end Verif.Stress
