import Verif.Model.Advection
import Verif.Prop.ConductionForm
import Verif.Prop.Quadrature
import Mathlib.Algebra.Order.Field.Rat
import Mathlib.Algebra.Field.Rat
/-! C100: the transport of heat by a moving medium. -/
namespace Verif.Advection

open Verif.Fem

variable {K : Type} [Field K] [LinearOrder K] [IsStrictOrderedRing K]

/-! ### What is wanted -/

/-- The flux of heat capacity in a point. -/
def Flow.flux (fl : Flow K) (p : List K) (i : Nat) : K := fl.density p * fl.capacity p * fl.velocity p i

/-- The norm of the flux. -/
def speed (sqrt : K → K) (dim : Nat) (fl : Flow K) (p : List K) : K := sqrt (∑ i : Fin dim, fl.flux p i ^ 2)

/-- The derivative of the nodal values along the flux. -/
def along (c : Code) (gps : Nat) (fl : Flow K) (coords : Nat → Nat → K) (S : Nat → K) (p : List K) : K := ∑ i : Fin (edim c), fl.flux p i * gradientAt c gps coords S p i

/-- The derivative of a function of the element along the flux. -/
def slopeAlong (c : Code) (gps : Nat) (fl : Flow K) (coords : Nat → Nat → K) (p : List K) (n : Nat) : K := ∑ i : Fin (edim c), fl.flux p i * (geometryAt c gps coords p).dND n i

/-- The size of the element along the flux. -/
def width (sqrt : K → K) (c : Code) (gps : Nat) (fl : Flow K) (coords : Nat → Nat → K) (p : List K) : K :=
  2 * speed sqrt (edim c) fl p / sqrt (∑ n ∈ Finset.range (nodes c), slopeAlong c gps fl coords p n ^ 2)

/-- The Péclet number of the element. -/
def peclet (sqrt : K → K) (c : Code) (gps : Nat) (fl : Flow K) (coords : Nat → Nat → K) (k : K) (p : List K) : K := speed sqrt (edim c) fl p * width sqrt c gps fl coords p / (2 * k)

/-- The parameter of the test functions along the flux (`h / (2 |u|) (1 - 1 / Pe)` for `1 < Pe`, zero otherwise). -/
def upwind (sqrt : K → K) (c : Code) (gps : Nat) (fl : Flow K) (coords : Nat → Nat → K) (k : K) (p : List K) : K :=
  width sqrt c gps fl coords p / (2 * speed sqrt (edim c) fl p) * max 0 (1 - 1 / peclet sqrt c gps fl coords k p)

/-- The nodal values in a point. -/
def valueAt (c : Code) (gps : Nat) (S : Nat → K) (p : List K) : K := ∑ n ∈ Finset.range (nodes c), S n * valueOf (tabAt c gps p) n

/-- `∫ t (S + τ u·∇S) u·∇T` by the quadrature of the element. -/
def transportForm (sqrt : K → K) (c : Code) (gps : Nat) (fl : Flow K) (k : List K → K) (t : List K → K) (coords : Nat → Nat → K) (pts : List (List K × K)) (S T : Nat → K) : K :=
  (pts.map fun p => t p.1 * (geometryAt c gps coords p.1).det * p.2 * (valueAt c gps S p.1 + upwind sqrt c gps fl coords (k p.1) p.1 * along c gps fl coords S p.1) * along c gps fl coords T p.1).sum

/-- `∫ t ∇S · (C + δ I) ∇T` by the quadrature of the element. -/
def diffusionForm (c : Code) (gps : Nat) (C : (p : List K) → Matrix (Fin (edim c)) (Fin (edim c)) K) (δ : List K → K) (t : List K → K) (coords : Nat → Nat → K) (pts : List (List K × K)) (S T : Nat → K) : K :=
  (pts.map fun p => t p.1 * (geometryAt c gps coords p.1).det * p.2 *
    ∑ i, ∑ j, gradientAt c gps coords S p.1 i * (C p.1 i j + if i = j then δ p.1 else 0) * gradientAt c gps coords T p.1 j).sum

/-! ### The kernel -/

theorem guardedRecip_eq {x : K} (hx : 0 ≤ x) : guardedRecip x = 1 / x := by
  unfold guardedRecip
  rcases hx.eq_or_lt with rfl | h
  · simp
  · rw [if_pos h]

theorem streamline_eq (sqrt : K → K) (hs : ∀ x, 0 ≤ sqrt x) (sigma usq besq k : K) :
    (streamline sqrt sigma usq besq k).1 = (2 * sqrt usq / sqrt besq) / (2 * sqrt usq) * max 0 (1 - 1 / (sqrt usq * (2 * sqrt usq / sqrt besq) / (2 * k)))
    ∧ (streamline sqrt sigma usq besq k).2 = sigma * (2 * sqrt usq / sqrt besq) * sqrt usq := by
  unfold streamline
  simp only [guardedRecip_eq (hs usq), guardedRecip_eq (hs besq)]
  generalize sqrt usq = a
  generalize sqrt besq = b
  refine ⟨?_, by ring⟩
  by_cases ha : a = 0
  · subst ha
    simp
  · by_cases hb : b = 0
    · subst hb
      simp
    · have e : 2 * k * (b * (1 / 2) * (1 / a)) * (1 / a) = 1 / (a * (2 * a / b) / (2 * k)) := by
        by_cases hk : k = 0
        · subst hk
          simp
        · field_simp
      rw [e]
      field_simp

/-- The places of the diagonal in the array of the conductivity. -/
def diagonalAt (dim i : Nat) : Prop := if dim = 2 then i = 0 ∨ i = 3 else i = 0 ∨ i = 4 ∨ i = 8

instance (dim i : Nat) : Decidable (diagonalAt dim i) := by unfold diagonalAt; infer_instance

theorem advection_spec {d : Nat} (hd : d = 2 ∨ d = 3) (sqrt : K → K) (sigma : K) (N : Nat) (det w : K) (val : Nat → K) (v : Nat → K) (rho cap : K) (dND : Nat → Nat → K) (A : List K) (cond : Nat → K) (hA : A.length = N * N) :
    let u : Nat → K := fun i => rho * cap * v i
    let b : Nat → K := fun n => ∑ i : Fin d, u i * dND n i
    let f := streamline sqrt sigma (∑ i : Fin d, u i ^ 2) (∑ n ∈ Finset.range N, b n ^ 2) (cond 0)
    (d = 3 → f.1 = 0) → ∃ B, advection d sqrt sigma N det w val v rho cap dND (A, cond) = some (B, fun i => if diagonalAt d i then cond i + f.2 else cond i) ∧ B.length = N * N ∧
      ∀ a < N, ∀ m < N, entry B (a * N + m) = entry A (a * N + m) + det * w * (val a + f.1 * b a) * b m := by
  rcases hd with rfl | rfl
  · intro u b f _
    have hb : ∀ n, v 0 * rho * cap * dND n 0 + v 1 * rho * cap * dND n 1 = b n := by
      intro n
      simp only [b, u, Fin.sum_univ_two]
      simp
      ring
    have h1 : v 0 * rho * cap * (v 0 * rho * cap) + v 1 * rho * cap * (v 1 * rho * cap) = ∑ i : Fin 2, u i ^ 2 := by
      simp only [u, Fin.sum_univ_two]
      simp
      ring
    have h2 : (List.range N).foldl (fun s n => s + b n * b n) 0 = ∑ n ∈ Finset.range N, b n ^ 2 := by
      have := foldl_sum (S := K) (fun s n => s + b n * b n) id (fun n => b n * b n) (fun s n => rfl) N 0
      simpa [pow_two] using this
    obtain ⟨B, e1, e2, e3⟩ := addFull_spec N (fun n m => det * w * (val n + f.1 * b n) * b m) hA
    refine ⟨B, ?_, e2, e3⟩
    simp only [advection, advection2, hb, h1, h2]
    show (addFull N (fun n m => det * w * (val n + f.1 * b n) * b m) A).bind _ = _
    rw [e1]
    simp only [diagonalAt, if_true]
    rfl
  · intro u b f h0
    have hb : ∀ n, v 0 * rho * cap * dND n 0 + v 1 * rho * cap * dND n 1 + v 2 * rho * cap * dND n 2 = b n := by
      intro n
      simp only [b, u, Fin.sum_univ_three]
      simp
      ring
    have h1 : v 0 * rho * cap * (v 0 * rho * cap) + v 1 * rho * cap * (v 1 * rho * cap) + v 2 * rho * cap * (v 2 * rho * cap) = ∑ i : Fin 3, u i ^ 2 := by
      simp only [u, Fin.sum_univ_three]
      simp
      ring
    have h2 : (List.range N).foldl (fun s n => s + b n * b n) 0 = ∑ n ∈ Finset.range N, b n ^ 2 := by
      have := foldl_sum (S := K) (fun s n => s + b n * b n) id (fun n => b n * b n) (fun s n => rfl) N 0
      simpa [pow_two] using this
    obtain ⟨B, e1, e2, e3⟩ := addFull_spec N (fun n m => det * w * (val n + f.1 * b n) * b m) hA
    refine ⟨B, ?_, e2, e3⟩
    simp only [advection, advection3, hb, h1, h2]
    have hf : f.1 = 0 := h0 rfl
    have e4 : ∀ X : Nat → K, (fun n m => det * w * (val n + f.1 * X n) * b m) = fun n m => det * w * (val n + f.1 * b n) * b m := by
      intro X
      funext n m
      rw [hf, zero_mul, zero_mul]
    show (addFull N (fun n m => det * w * (val n + f.1 * (v 0 * rho * cap * dND (n * 2 / 3) (n * 2 % 3) + v 1 * rho * cap * dND n 1 + v 2 * rho * cap * dND n 2)) * b m) A).bind _ = _
    rw [e4, e1]
    simp only [diagonalAt, show ¬ (3 = 2) by decide, if_false]
    rfl

theorem tensor_shift {d : Nat} (hd : d = 2 ∨ d = 3) (model : Conduct) (c : Nat → K) (δ : K) (i j : Fin d) :
    tensorOf d model (fun k => if diagonalAt d k then c k + δ else c k) i j = tensorOf d model c i j + if i = j then δ else 0 := by
  rcases hd with rfl | rfl
  · rw [tensor_table2, tensor_table2]
    cases model <;> fin_cases i <;> fin_cases j <;> simp [diagonalAt]
  · rw [tensor_table3, tensor_table3]
    cases model <;> fin_cases i <;> fin_cases j <;> simp [diagonalAt]

theorem tensor_zero {d : Nat} (hd : d = 2 ∨ d = 3) (model : Conduct) (c : Nat → K) : tensorOf d model c ⟨0, by omega⟩ ⟨0, by omega⟩ = c 0 := by
  rcases hd with rfl | rfl
  · rw [tensor_table2]
    cases model <;> rfl
  · rw [tensor_table3]
    cases model <;> rfl

/-! ### One point -/

/-- The conductivity used in a point if the array contains `old`. -/
def before (c : Code) (active : Bool) (m : Material K) (old : Nat → K) (p : List K) : Nat → K :=
  if active then conductivity (edim c) m.rotated m.model (m.ecf p) (m.cossin p) old else old

/-- The added conductivity in a point. -/
def added (sqrt : K → K) (c : Code) (gps : Nat) (sigma : K) (fl : Flow K) (coords : Nat → Nat → K) (p : List K) : K := sigma * width sqrt c gps fl coords p * speed sqrt (edim c) fl p

theorem transportPoint_spec {sqrt : K → K} (hs : ∀ x, 0 ≤ sqrt x) {c : Code} {gps : Nat} (hd : edim c = 2 ∨ edim c = 3) (sigma : K) (active : Bool) (m : Material K) (fl : Flow K) (thickness : Nat → K) (coords : Nat → Nat → K)
    (A : List K) (old : Nat → K) (hA : A.length = nodes c * nodes c) (p : List K × K) {tab : List (K × List K)} {g : Geometry K} (ht : setAt c gps p.1 = some tab)
    (hg : integrate (edim c) (nodes c) (slopeOf tab) coords = some g) (h3 : edim c = 3 → upwind sqrt c gps fl coords (before c active m old p.1 0) p.1 = 0) :
    ∃ B, transportPoint sqrt c gps sigma active m fl thickness coords (A, old) p =
        some (B, fun i => if diagonalAt (edim c) i then before c active m old p.1 i + added sqrt c gps sigma fl coords p.1 else before c active m old p.1 i) ∧ B.length = nodes c * nodes c ∧
      ∀ a < nodes c, ∀ b < nodes c, entry B (a * nodes c + b) = entry A (a * nodes c + b)
        + ((geometryAt c gps coords p.1).det * p.2 * (valueOf (tabAt c gps p.1) a + upwind sqrt c gps fl coords (before c active m old p.1 0) p.1 * slopeAlong c gps fl coords p.1 a) * slopeAlong c gps fl coords p.1 b
          + thickAt c gps thickness p.1 * (geometryAt c gps coords p.1).det * p.2 * ∑ i : Fin (edim c), ∑ j : Fin (edim c),
            (geometryAt c gps coords p.1).dND a i * (tensorOf (edim c) m.matrixModel (before c active m old p.1) i j + if i = j then added sqrt c gps sigma fl coords p.1 else 0) * (geometryAt c gps coords p.1).dND b j) := by
  have e1 : tabAt c gps p.1 = tab := by simp [tabAt, ht]
  have e2 : geometryAt c gps coords p.1 = g := by simp [geometryAt, e1, hg]
  have hf := streamline_eq sqrt hs sigma (∑ i : Fin (edim c), fl.flux p.1 i ^ 2) (∑ n ∈ Finset.range (nodes c), slopeAlong c gps fl coords p.1 n ^ 2) (before c active m old p.1 0)
  have hf1 : (streamline sqrt sigma (∑ i : Fin (edim c), fl.flux p.1 i ^ 2) (∑ n ∈ Finset.range (nodes c), slopeAlong c gps fl coords p.1 n ^ 2) (before c active m old p.1 0)).1 = upwind sqrt c gps fl coords (before c active m old p.1 0) p.1 := hf.1
  have hf2 : (streamline sqrt sigma (∑ i : Fin (edim c), fl.flux p.1 i ^ 2) (∑ n ∈ Finset.range (nodes c), slopeAlong c gps fl coords p.1 n ^ 2) (before c active m old p.1 0)).2 = added sqrt c gps sigma fl coords p.1 := hf.2
  have hadv := advection_spec hd sqrt sigma (nodes c) g.det p.2 (valueOf tab) (fl.velocity p.1) (fl.density p.1) (fl.capacity p.1) g.dND A (before c active m old p.1) hA
  have hsl : ∀ n, slopeAlong c gps fl coords p.1 n = ∑ i : Fin (edim c), fl.density p.1 * fl.capacity p.1 * fl.velocity p.1 i * g.dND n i := by
    intro n
    rw [slopeAlong, e2]
    rfl
  dsimp only at hadv
  simp only [← hsl] at hadv
  have hadv' := hadv (by intro h; exact hf1.trans (h3 h))
  obtain ⟨B, b1, b2, b3⟩ := hadv'
  obtain ⟨C, c1, c2, c3⟩ := matrixConductivity_spec hd m.matrixModel (nodes c) (thicknessAt (nodes c) tab thickness) g.det p.2
    (fun i => if diagonalAt (edim c) i then before c active m old p.1 i + added sqrt c gps sigma fl coords p.1 else before c active m old p.1 i) g.dND b2
  refine ⟨C, ?_, c2, ?_⟩
  · unfold transportPoint
    simp only [ht, hg, Option.bind_eq_bind, Option.bind_some]
    show (advection (edim c) sqrt sigma (nodes c) g.det p.2 (valueOf tab) (fl.velocity p.1) (fl.density p.1) (fl.capacity p.1) g.dND (A, before c active m old p.1)).bind _ = _
    rw [b1]
    have hf2' := hf2
    change (streamline sqrt sigma (∑ i : Fin (edim c), (fl.density p.1 * fl.capacity p.1 * fl.velocity p.1 i) ^ 2) (∑ n ∈ Finset.range (nodes c), slopeAlong c gps fl coords p.1 n ^ 2) (before c active m old p.1 0)).2 = _ at hf2'
    simp only [hf2', Option.bind_some, c1]
    rfl
  · intro a ha b hb
    rw [c3 a ha b hb, b3 a ha b hb, e1, e2]
    have hf1' := hf1
    change (streamline sqrt sigma (∑ i : Fin (edim c), (fl.density p.1 * fl.capacity p.1 * fl.velocity p.1 i) ^ 2) (∑ n ∈ Finset.range (nodes c), slopeAlong c gps fl coords p.1 n ^ 2) (before c active m old p.1 0)).1 = _ at hf1'
    rw [hf1', add_assoc]
    simp only [tensor_shift hd]
    rw [thickAt, e1, thicknessAt_eq]

/-! ### The element -/

/-- The content of the array gives the tensor of the material in every point. -/
def Good (c : Code) (active : Bool) (m : Material K) (cond : Nat → K) : Prop := ∀ p, tensorOf (edim c) m.matrixModel (before c active m cond p) = m.tensor (edim c) p

theorem good_zero {c : Code} (hd : edim c = 2 ∨ edim c = 3) {active : Bool} {m : Material K} {cond : Nat → K} (h : Good c active m cond) (p : List K) :
    before c active m cond p 0 = m.tensor (edim c) p ⟨0, by omega⟩ ⟨0, by omega⟩ := by
  rw [← h p, tensor_zero hd]

/-- The integrand of the entries. -/
def pointEntry (sqrt : K → K) (c : Code) (gps : Nat) (sigma : K) (m : Material K) (fl : Flow K) (thickness : Nat → K) (coords : Nat → Nat → K) (k : List K → K) (p : List K × K) (a b : Nat) : K :=
  (geometryAt c gps coords p.1).det * p.2 * (valueOf (tabAt c gps p.1) a + upwind sqrt c gps fl coords (k p.1) p.1 * slopeAlong c gps fl coords p.1 a) * slopeAlong c gps fl coords p.1 b
    + thickAt c gps thickness p.1 * (geometryAt c gps coords p.1).det * p.2 * ∑ i : Fin (edim c), ∑ j : Fin (edim c),
      (geometryAt c gps coords p.1).dND a i * (m.tensor (edim c) p.1 i j + if i = j then added sqrt c gps sigma fl coords p.1 else 0) * (geometryAt c gps coords p.1).dND b j

theorem transportLoop {sqrt : K → K} (hs : ∀ x, 0 ≤ sqrt x) {c : Code} {gps : Nat} (hd : edim c = 2 ∨ edim c = 3) {sigma : K} {active : Bool} {m : Material K} (fl : Flow K) (thickness : Nat → K) (coords : Nat → Nat → K)
    (hstep : ∀ (cond : Nat → K) (δ : K) (p : List K), (active = true ∨ δ = 0) → Good c active m cond → Good c active m (fun i => if diagonalAt (edim c) i then before c active m cond p i + δ else before c active m cond p i))
    (hact : active = true ∨ sigma = 0) (k : List K → K) (hk : ∀ p, k p = m.tensor (edim c) p ⟨0, by omega⟩ ⟨0, by omega⟩) : ∀ (pts : List (List K × K)) (A : List K) (cond : Nat → K),
    A.length = nodes c * nodes c → Good c active m cond → (edim c = 3 → ∀ p ∈ pts, upwind sqrt c gps fl coords (k p.1) p.1 = 0) →
    ∀ r, pts.foldlM (transportPoint sqrt c gps sigma active m fl thickness coords) (A, cond) = some r →
      ∀ a < nodes c, ∀ b < nodes c, entry r.1 (a * nodes c + b) = entry A (a * nodes c + b) + (pts.map fun p => pointEntry sqrt c gps sigma m fl thickness coords k p a b).sum := by
  intro pts
  induction pts with
  | nil =>
    intro A cond _ _ _ r h a _ b _
    obtain rfl : (A, cond) = r := by simpa using h
    simp
  | cons p pts ih =>
    intro A cond hA hgood h3 r h a ha b hb
    rw [List.foldlM_cons] at h
    cases ht : setAt c gps p.1 with
    | none => simp [transportPoint, ht] at h
    | some tab =>
      cases hg : integrate (edim c) (nodes c) (slopeOf tab) coords with
      | none => simp [transportPoint, ht, hg] at h
      | some g =>
        have hk0 : before c active m cond p.1 0 = k p.1 := by rw [hk, good_zero hd hgood]
        obtain ⟨B, b1, b2, b3⟩ := transportPoint_spec hs hd sigma active m fl thickness coords A cond hA p ht hg (by
          intro h
          rw [hk0]
          exact h3 h p List.mem_cons_self)
        rw [b1] at h
        have hδ : active = true ∨ added sqrt c gps sigma fl coords p.1 = 0 := by
          rcases hact with h | h
          · exact Or.inl h
          · right
            rw [added, h, zero_mul, zero_mul]
        rw [ih B _ b2 (hstep cond _ p.1 hδ hgood) (fun h q hq => h3 h q (List.mem_cons_of_mem _ hq)) r h a ha b hb, b3 a ha b hb, hk0, hgood p.1, List.map_cons, List.sum_cons, add_assoc]
        rfl

theorem good_step {c : Code} (hd : edim c = 2 ∨ edim c = 3) (active : Bool) (m : Material K) (cond : Nat → K) (δ : K) (p : List K) (hδ : active = true ∨ δ = 0) (h : Good c active m cond) :
    Good c active m (fun i => if diagonalAt (edim c) i then before c active m cond p i + δ else before c active m cond p i) := by
  intro q
  cases active with
  | true =>
    unfold before
    rw [if_pos rfl]
    exact conductivity_spec hd m q _
  | false =>
    have hδ : δ = 0 := by simpa using hδ
    subst hδ
    have := h q
    simp only [before, add_zero, ite_self] at this ⊢
    exact this

theorem good_start {c : Code} (hd : edim c = 2 ∨ edim c = 3) {active : Bool} {m : Material K} {cond : Nat → K} (h : active = true ∨ ∀ p, tensorOf (edim c) m.matrixModel cond = m.tensor (edim c) p) : Good c active m cond := by
  intro p
  cases active with
  | true =>
    unfold before
    rw [if_pos rfl]
    exact conductivity_spec hd m p _
  | false => simpa [before] using (by simpa using h : ∀ p, tensorOf (edim c) m.matrixModel cond = m.tensor (edim c) p) p

theorem form_product (N : Nat) (S T v β : Nat → K) (D τ : K) : ∑ a ∈ Finset.range N, ∑ b ∈ Finset.range N, S a * (D * (v a + τ * β a) * β b) * T b =
    D * (∑ a ∈ Finset.range N, S a * v a + τ * ∑ a ∈ Finset.range N, S a * β a) * ∑ b ∈ Finset.range N, T b * β b := by
  rw [Finset.mul_sum (f := fun a => S a * β a), ← Finset.sum_add_distrib, mul_assoc, Finset.sum_mul_sum, Finset.mul_sum]
  simp only [Finset.mul_sum]
  exact Finset.sum_congr rfl fun a _ => Finset.sum_congr rfl fun b _ => by ring

theorem form_tensor (N d : Nat) (S T : Nat → K) (g : Nat → Nat → K) (M : Fin d → Fin d → K) (t : K) :
    ∑ a ∈ Finset.range N, ∑ b ∈ Finset.range N, S a * (t * ∑ i : Fin d, ∑ j : Fin d, g a i * M i j * g b j) * T b =
    t * ∑ i : Fin d, ∑ j : Fin d, (∑ a ∈ Finset.range N, S a * g a i) * M i j * ∑ b ∈ Finset.range N, T b * g b j := by
  have h : ∀ i j : Fin d, (∑ a ∈ Finset.range N, S a * g a i) * M i j * ∑ b ∈ Finset.range N, T b * g b j = ∑ a ∈ Finset.range N, ∑ b ∈ Finset.range N, S a * g a i * M i j * (T b * g b j) := by
    intro i j
    rw [Finset.sum_mul, Finset.sum_mul_sum]
  simp only [h]
  rw [Finset.mul_sum]
  simp only [Finset.mul_sum, Finset.sum_mul]
  simp only [Finset.sum_comm (s := Finset.range N) (t := Finset.univ)]
  exact Finset.sum_congr rfl fun i _ => Finset.sum_congr rfl fun j _ => Finset.sum_congr rfl fun a _ => Finset.sum_congr rfl fun b _ => by ring

theorem pointForm (sqrt : K → K) (c : Code) (gps : Nat) (sigma : K) (m : Material K) (fl : Flow K) (thickness : Nat → K) (coords : Nat → Nat → K) (k : List K → K) (p : List K × K) (S T : Nat → K) :
    ∑ a ∈ Finset.range (nodes c), ∑ b ∈ Finset.range (nodes c), S a * pointEntry sqrt c gps sigma m fl thickness coords k p a b * T b =
      1 * (geometryAt c gps coords p.1).det * p.2 * (valueAt c gps S p.1 + upwind sqrt c gps fl coords (k p.1) p.1 * along c gps fl coords S p.1) * along c gps fl coords T p.1
      + thickAt c gps thickness p.1 * (geometryAt c gps coords p.1).det * p.2 *
        ∑ i, ∑ j, gradientAt c gps coords S p.1 i * (m.tensor (edim c) p.1 i j + if i = j then added sqrt c gps sigma fl coords p.1 else 0) * gradientAt c gps coords T p.1 j := by
  have hal : ∀ S : Nat → K, along c gps fl coords S p.1 = ∑ a ∈ Finset.range (nodes c), S a * slopeAlong c gps fl coords p.1 a := by
    intro S
    simp only [along, slopeAlong, gradientAt, Finset.mul_sum]
    rw [Finset.sum_comm]
    exact Finset.sum_congr rfl fun a _ => Finset.sum_congr rfl fun i _ => by ring
  have hsplit : ∀ a b, S a * pointEntry sqrt c gps sigma m fl thickness coords k p a b * T b =
      S a * ((geometryAt c gps coords p.1).det * p.2 * (valueOf (tabAt c gps p.1) a + upwind sqrt c gps fl coords (k p.1) p.1 * slopeAlong c gps fl coords p.1 a) * slopeAlong c gps fl coords p.1 b) * T b
      + S a * (thickAt c gps thickness p.1 * (geometryAt c gps coords p.1).det * p.2 * ∑ i : Fin (edim c), ∑ j : Fin (edim c),
        (geometryAt c gps coords p.1).dND a i * (m.tensor (edim c) p.1 i j + if i = j then added sqrt c gps sigma fl coords p.1 else 0) * (geometryAt c gps coords p.1).dND b j) * T b := by
    intro a b
    rw [pointEntry, mul_add, add_mul]
  simp only [hsplit, Finset.sum_add_distrib]
  rw [form_product, form_tensor (nodes c) (edim c) S T (geometryAt c gps coords p.1).dND (fun i j => m.tensor (edim c) p.1 i j + if i = j then added sqrt c gps sigma fl coords p.1 else 0), hal S, hal T, one_mul]
  rfl

theorem elementTransport_points {sqrt : K → K} {c : Code} {gps : Nat} {sigma : K} {active : Bool} {m : Material K} {fl : Flow K} {thickness : Nat → K} {coords : Nat → Nat → K} {cond : Nat → K} {r : List K × (Nat → K)}
    (h : elementTransport sqrt c gps sigma active m fl thickness coords cond = some r) : ∃ pts, rulePoints sqrt c gps = some pts
      ∧ pts.foldlM (transportPoint sqrt c gps sigma active m fl thickness coords) (List.replicate (nodes c * nodes c) 0, cond) = some r := by
  unfold elementTransport at h
  simpa only [Option.bind_eq_bind, Option.bind_eq_some_iff] using h

/-- The matrix of an element is the quadrature of `∫ t ∇S · (C + σ h |u| I) ∇T + ∫ (S + τ u·∇S) u·∇T` with the parameter `τ` of the streamline upwind method: for all elements, points, models of the material
and flows, if the material is computed in every point or `σ = 0`, and in space if there is no upwinding (`Pe ≤ 1`).

Missing: the thickness in the second integral (`C100_thickness`), the upwinding in space (`C100_space_wrong`), and `σ` with constant materials (`C100_accumulates`). -/
theorem C100_form_partial {sqrt : K → K} (hs : ∀ x, 0 ≤ sqrt x) {c : Code} {gps : Nat} (hd : edim c = 2 ∨ edim c = 3) {sigma : K} {active : Bool} {m : Material K} {fl : Flow K} {thickness : Nat → K} {coords : Nat → Nat → K}
    {cond : Nat → K} {r : List K × (Nat → K)} (h : elementTransport sqrt c gps sigma active m fl thickness coords cond = some r)
    (hact : active = true ∨ sigma = 0 ∧ ∀ p, tensorOf (edim c) m.matrixModel cond = m.tensor (edim c) p)
    (k : List K → K) (hk : ∀ p, k p = m.tensor (edim c) p ⟨0, by omega⟩ ⟨0, by omega⟩)
    (h3 : edim c = 3 → ∀ pts, rulePoints sqrt c gps = some pts → ∀ p ∈ pts, upwind sqrt c gps fl coords (k p.1) p.1 = 0) :
    ∃ pts, rulePoints sqrt c gps = some pts ∧ ∀ S T : Nat → K, ∑ a ∈ Finset.range (nodes c), ∑ b ∈ Finset.range (nodes c), S a * entry r.1 (a * nodes c + b) * T b =
      transportForm sqrt c gps fl k (fun _ => 1) coords pts S T
      + diffusionForm c gps (m.tensor (edim c)) (fun p => sigma * width sqrt c gps fl coords p * speed sqrt (edim c) fl p) (thickAt c gps thickness) coords pts S T := by
  obtain ⟨pts, hp, hr⟩ := elementTransport_points h
  refine ⟨pts, hp, fun S T => ?_⟩
  have hact' : active = true ∨ sigma = 0 := hact.imp id And.left
  have hgood : Good c active m cond := good_start hd (hact.imp id And.right)
  have hent := transportLoop hs hd fl thickness coords (good_step hd active m) hact' k hk pts _ cond (by simp) hgood (fun e => h3 e pts hp) r hr
  have e : ∀ a ∈ Finset.range (nodes c), ∑ b ∈ Finset.range (nodes c), S a * entry r.1 (a * nodes c + b) * T b =
      (pts.map fun p => ∑ b ∈ Finset.range (nodes c), S a * pointEntry sqrt c gps sigma m fl thickness coords k p a b * T b).sum := by
    intro a ha
    rw [← sum_list_comm]
    refine Finset.sum_congr rfl fun b hb => ?_
    rw [hent a (Finset.mem_range.1 ha) b (Finset.mem_range.1 hb), entry_replicate, zero_add, mul_comm (S a), mul_assoc, mul_comm, mul_list_sum]
    congr 1
    refine List.map_congr_left fun p _ => ?_
    ring
  rw [Finset.sum_congr rfl e, sum_list_comm, transportForm, diffusionForm, ← List.sum_map_add]
  congr 1
  refine List.map_congr_left fun p _ => ?_
  exact pointForm sqrt c gps sigma m fl thickness coords k p S T

/-- The transport is not multiplied with the thickness: another thickness changes the conduction only. -/
theorem C100_thickness {sqrt : K → K} (hs : ∀ x, 0 ≤ sqrt x) {c : Code} {gps : Nat} (hd : edim c = 2) {sigma : K} {m : Material K} {fl : Flow K} {t t' : Nat → K} {coords : Nat → Nat → K}
    {cond cond' : Nat → K} {r r' : List K × (Nat → K)} (h : elementTransport sqrt c gps sigma true m fl t coords cond = some r) (h' : elementTransport sqrt c gps sigma true m fl t' coords cond' = some r') :
    ∃ pts, rulePoints sqrt c gps = some pts ∧ ∀ S T : Nat → K, ∑ a ∈ Finset.range (nodes c), ∑ b ∈ Finset.range (nodes c), S a * (entry r.1 (a * nodes c + b) - entry r'.1 (a * nodes c + b)) * T b =
      diffusionForm c gps (m.tensor (edim c)) (fun p => sigma * width sqrt c gps fl coords p * speed sqrt (edim c) fl p) (fun p => thickAt c gps t p - thickAt c gps t' p) coords pts S T := by
  obtain ⟨pts, hp, e⟩ := C100_form_partial hs (Or.inl hd) h (Or.inl rfl) _ (fun _ => rfl) (fun h3 => absurd h3 (by omega))
  obtain ⟨pts', hp', e'⟩ := C100_form_partial hs (Or.inl hd) h' (Or.inl rfl) _ (fun _ => rfl) (fun h3 => absurd h3 (by omega))
  obtain rfl : pts = pts' := Option.some.inj (hp.symm.trans hp')
  refine ⟨pts, hp, fun S T => ?_⟩
  simp only [mul_sub, sub_mul, Finset.sum_sub_distrib]
  rw [e S T, e' S T, add_sub_add_left_eq_sub]
  unfold diffusionForm
  generalize pts = l
  induction l with
  | nil => simp
  | cons p l ih =>
    simp only [List.map_cons, List.sum_cons] at ih ⊢
    rw [← ih]
    ring

/-! ### Constant materials -/

theorem advection_conductivity {d : Nat} (hd : d = 2 ∨ d = 3) (sqrt : K → K) (sigma : K) (N : Nat) (det w : K) (val : Nat → K) (v : Nat → K) (rho cap : K) (dND : Nat → Nat → K) (x y : List K × (Nat → K))
    (h : advection d sqrt sigma N det w val v rho cap dND x = some y) :
    y.2 = fun i => if diagonalAt d i then x.2 i + (streamline sqrt sigma (∑ i : Fin d, (rho * cap * v i) ^ 2) (∑ n ∈ Finset.range N, (∑ i : Fin d, rho * cap * v i * dND n i) ^ 2) (x.2 0)).2 else x.2 i := by
  rcases hd with rfl | rfl
  · simp only [advection, advection2, Option.bind_eq_bind, Option.bind_eq_some_iff, Option.pure_def, Option.some.injEq] at h
    obtain ⟨B, _, rfl⟩ := h
    have hb : ∀ n, v 0 * rho * cap * dND n 0 + v 1 * rho * cap * dND n 1 = ∑ i : Fin 2, rho * cap * v i * dND n i := by
      intro n
      simp only [Fin.sum_univ_two]
      simp
      ring
    have h1 : v 0 * rho * cap * (v 0 * rho * cap) + v 1 * rho * cap * (v 1 * rho * cap) = ∑ i : Fin 2, (rho * cap * v i) ^ 2 := by
      simp only [Fin.sum_univ_two]
      simp
      ring
    have h2 : ∀ b : Nat → K, (List.range N).foldl (fun s n => s + b n * b n) 0 = ∑ n ∈ Finset.range N, b n ^ 2 := by
      intro b
      have := foldl_sum (S := K) (fun s n => s + b n * b n) id (fun n => b n * b n) (fun s n => rfl) N 0
      simpa [pow_two] using this
    simp only [hb, h1, h2, diagonalAt, if_true]
  · simp only [advection, advection3, Option.bind_eq_bind, Option.bind_eq_some_iff, Option.pure_def, Option.some.injEq] at h
    obtain ⟨B, _, rfl⟩ := h
    have hb : ∀ n, v 0 * rho * cap * dND n 0 + v 1 * rho * cap * dND n 1 + v 2 * rho * cap * dND n 2 = ∑ i : Fin 3, rho * cap * v i * dND n i := by
      intro n
      simp only [Fin.sum_univ_three]
      simp
      ring
    have h1 : v 0 * rho * cap * (v 0 * rho * cap) + v 1 * rho * cap * (v 1 * rho * cap) + v 2 * rho * cap * (v 2 * rho * cap) = ∑ i : Fin 3, (rho * cap * v i) ^ 2 := by
      simp only [Fin.sum_univ_three]
      simp
      ring
    have h2 : ∀ b : Nat → K, (List.range N).foldl (fun s n => s + b n * b n) 0 = ∑ n ∈ Finset.range N, b n ^ 2 := by
      intro b
      have := foldl_sum (S := K) (fun s n => s + b n * b n) id (fun n => b n * b n) (fun s n => rfl) N 0
      simpa [pow_two] using this
    simp only [hb, h1, h2, diagonalAt, show ¬ (3 = 2) by decide, if_false]

theorem point_conductivity {sqrt : K → K} (hs : ∀ x, 0 ≤ sqrt x) {c : Code} {gps : Nat} (hd : edim c = 2 ∨ edim c = 3) {sigma : K} {m : Material K} {fl : Flow K} {thickness : Nat → K} {coords : Nat → Nat → K}
    {x y : List K × (Nat → K)} {p : List K × K} (h : transportPoint sqrt c gps sigma false m fl thickness coords x p = some y) :
    y.2 = fun i => if diagonalAt (edim c) i then x.2 i + added sqrt c gps sigma fl coords p.1 else x.2 i := by
  unfold transportPoint at h
  simp only [Option.bind_eq_bind, Option.bind_eq_some_iff, Option.pure_def, Option.some.injEq] at h
  obtain ⟨tab, ht, g, hg, z, hz, B, _, rfl⟩ := h
  have e1 : tabAt c gps p.1 = tab := by simp [tabAt, ht]
  have e2 : geometryAt c gps coords p.1 = g := by simp [geometryAt, e1, hg]
  have := advection_conductivity hd sqrt sigma _ _ _ _ _ _ _ _ _ _ hz
  dsimp only at this ⊢
  rw [this]
  have hf := (streamline_eq sqrt hs sigma (∑ i : Fin (edim c), fl.flux p.1 i ^ 2) (∑ n ∈ Finset.range (nodes c), slopeAlong c gps fl coords p.1 n ^ 2) (x.2 0)).2
  have hsl : ∀ n, slopeAlong c gps fl coords p.1 n = ∑ i : Fin (edim c), fl.density p.1 * fl.capacity p.1 * fl.velocity p.1 i * g.dND n i := by
    intro n
    rw [slopeAlong, e2]
    rfl
  simp only [hsl] at hf
  funext i
  unfold added width speed
  simp only [hsl]
  simp only [Bool.false_eq_true, if_false]
  rw [← hf]
  rfl

/-- With a constant material and `σ ≠ 0` the added conductivity stays in the array: after an element the sum over its points has been added, which the following elements start with. -/
theorem C100_accumulates {sqrt : K → K} (hs : ∀ x, 0 ≤ sqrt x) {c : Code} {gps : Nat} (hd : edim c = 2 ∨ edim c = 3) {sigma : K} {m : Material K} {fl : Flow K} {thickness cond : Nat → K}
    {elements : List (Nat → Nat → K)} {r : List (List K) × (Nat → K)} (h : transportAll sqrt c gps sigma false m fl thickness cond elements = some r) (pts : List (List K × K)) (hp : rulePoints sqrt c gps = some pts) :
    r.2 = fun i => if diagonalAt (edim c) i then
      cond i + (elements.map fun coords => (pts.map fun p => sigma * width sqrt c gps fl coords p.1 * speed sqrt (edim c) fl p.1).sum).sum else cond i := by
  have loop : ∀ (coords : Nat → Nat → K) (pts : List (List K × K)) (x y : List K × (Nat → K)), pts.foldlM (transportPoint sqrt c gps sigma false m fl thickness coords) x = some y →
      y.2 = fun i => if diagonalAt (edim c) i then x.2 i + (pts.map fun p => added sqrt c gps sigma fl coords p.1).sum else x.2 i := by
    intro coords pts
    induction pts with
    | nil =>
      intro x y h
      obtain rfl : x = y := by simpa using h
      funext i
      simp
    | cons p pts ih =>
      intro x y h
      rw [List.foldlM_cons] at h
      obtain ⟨z, hz, h⟩ := Option.bind_eq_some_iff.1 h
      rw [ih z y h, point_conductivity hs hd hz]
      funext i
      by_cases hi : diagonalAt (edim c) i
      · simp only [hi, if_true, List.map_cons, List.sum_cons, add_assoc]
      · simp only [hi, if_false]
  have all : ∀ (elements : List (Nat → Nat → K)) (l : List (List K)) (cond : Nat → K), elements.foldlM (fun (x : List (List K) × (Nat → K)) coords => do
      let y ← elementTransport sqrt c gps sigma false m fl thickness coords x.2
      pure (x.1 ++ [y.1], y.2)) (l, cond) = some r → r.2 = fun i => if diagonalAt (edim c) i then
      cond i + (elements.map fun coords => (pts.map fun p => added sqrt c gps sigma fl coords p.1).sum).sum else cond i := by
    intro elements
    induction elements with
    | nil =>
      intro l cond h
      obtain rfl : (l, cond) = r := by simpa using h
      funext i
      simp
    | cons coords elements ih =>
      intro l cond h
      rw [List.foldlM_cons] at h
      obtain ⟨z, hz, h⟩ := Option.bind_eq_some_iff.1 h
      simp only [Option.bind_eq_bind, Option.bind_eq_some_iff, Option.pure_def, Option.some.injEq] at hz
      obtain ⟨y, hy, rfl⟩ := hz
      obtain ⟨pts', hp', hy⟩ := elementTransport_points hy
      obtain rfl : pts = pts' := Option.some.inj (hp.symm.trans hp')
      rw [ih _ _ h, loop coords pts _ y hy]
      funext i
      by_cases hi : diagonalAt (edim c) i
      · simp only [hi, if_true, List.map_cons, List.sum_cons, add_assoc]
      · simp only [hi, if_false]
  exact all elements [] cond h

/-! ### The upwinding in space -/

/-- What the kernel adds in space. -/
theorem advection3_spec (sqrt : K → K) (sigma : K) (N : Nat) (det w : K) (val : Nat → K) (v : Nat → K) (rho cap : K) (dND : Nat → Nat → K) (A : List K) (cond : Nat → K) (hA : A.length = N * N) :
    let u : Nat → K := fun i => v i * rho * cap
    let b : Nat → K := fun n => u 0 * dND n 0 + u 1 * dND n 1 + u 2 * dND n 2
    let f := streamline sqrt sigma (u 0 * u 0 + u 1 * u 1 + u 2 * u 2) ((List.range N).foldl (fun s n => s + b n * b n) 0) (cond 0)
    ∃ y, advection 3 sqrt sigma N det w val v rho cap dND (A, cond) = some y ∧
      ∀ a < N, ∀ m < N, entry y.1 (a * N + m) = entry A (a * N + m) + det * w * (val a + f.1 * (u 0 * dND ((a * 2) / 3) ((a * 2) % 3) + u 1 * dND a 1 + u 2 * dND a 2)) * b m := by
  intro u b f
  obtain ⟨B, h1, h2, h3⟩ := addFull_spec N (fun n m => det * w * (val n + f.1 * (u 0 * dND ((n * 2) / 3) ((n * 2) % 3) + u 1 * dND n 1 + u 2 * dND n 2)) * b m) hA
  refine ⟨(B, fun i => if i = 0 ∨ i = 4 ∨ i = 8 then cond i + f.2 else cond i), ?_, h3⟩
  show (addFull N (fun n m => det * w * (val n + f.1 * (u 0 * dND ((n * 2) / 3) ((n * 2) % 3) + u 1 * dND n 1 + u 2 * dND n 2)) * b m) A).bind _ = _
  rw [h1]
  rfl

/-- The gradients of the functions of the tetrahedron with the corners `0, e₁, e₂, e₃`. -/
def cornerSlopes (n d : Nat) : ℚ := (([[-1, -1, -1], [1, 0, 0], [0, 1, 0], [0, 0, 1]] : List (List ℚ)).getD n []).getD d 0

/-- The flow along the first axis. -/
def firstAxis (i : Nat) : ℚ := if i = 0 then 1 else 0

/-- The flow along the first axis without conductivity: the entry of the second node with itself should be larger than the one without upwinding (`1 / 4`), but the wrong index makes it smaller. -/
theorem C100_space_wrong (sqrt : ℚ → ℚ) (hs : ∀ x, 0 < x → 0 < sqrt x) : ∃ y, advection 3 sqrt 0 4 1 1 (fun _ => 1 / 4) firstAxis 1 1 cornerSlopes (List.replicate 16 0, fun _ => 0) = some y
    ∧ (∑ i : Fin 3, firstAxis i * cornerSlopes 1 i) = 1 ∧ entry y.1 (1 * 4 + 1) < 1 / 4 := by
  obtain ⟨y, h1, h2⟩ := advection3_spec sqrt 0 4 1 1 (fun _ => 1 / 4) firstAxis 1 1 cornerSlopes (List.replicate 16 0) (fun _ => 0) rfl
  refine ⟨y, h1, by decide +kernel, ?_⟩
  rw [h2 1 (by decide) 1 (by decide), entry_replicate]
  have e0 : firstAxis 0 = 1 := rfl
  have e1 : firstAxis 1 = 0 := rfl
  have e2 : firstAxis 2 = 0 := rfl
  have e3 : cornerSlopes (1 * 2 / 3) (1 * 2 % 3) = -1 := by decide +kernel
  have e4 : cornerSlopes 1 0 = 1 := by decide +kernel
  have hb : (List.range 4).foldl (fun (s : ℚ) n => s + cornerSlopes n 0 * cornerSlopes n 0) 0 = 2 := by decide +kernel
  simp only [e0, e1, e2, e3, e4, mul_one, one_mul, zero_mul, mul_zero, add_zero, zero_add, hb]
  have hf : 0 < (streamline sqrt 0 1 2 0).1 := by
    have h1 := hs 1 (by norm_num)
    have h2 := hs 2 (by norm_num)
    unfold streamline
    simp only [guardedRecip, if_pos h1, if_pos h2, mul_zero, zero_mul, sub_zero]
    have : max (0 : ℚ) 1 = 1 := by decide +kernel
    rw [this]
    positivity
  linarith

/-! ### Cases -/

/-- The triangle (0, 0), (1, 0), (0, 1) in one point with the flow (3, 4): the norms are 5 and `√74`, with a root that is close for these two numbers. -/
def someRoot (x : ℚ) : ℚ := if x = 25 then 5 else if x = 74 then 43 / 5 else 1

example (x : ℚ) : 0 ≤ someRoot x := by
  unfold someRoot
  split
  · norm_num
  · split <;> norm_num

/-- The hypotheses of the theorems hold: an element with a flow has a matrix. -/
example : (elementTransport someRoot .triangle3 6 (1 / 10) true ⟨.isotropic, false, fun _ _ => 1, fun _ _ => 0⟩ ⟨fun _ i => if i = 0 then 3 else 4, fun _ => 1, fun _ => 1⟩ (fun _ => 1)
    (fun n d => (([[0, 0], [1, 0], [0, 1]] : List (List ℚ)).getD n []).getD d 0) (fun _ => 0)).isSome = true := by
  decide +kernel

/-- Two equal elements with a constant material have different conductivities and different matrices. -/
example : (transportAll someRoot .triangle3 6 (1 / 10) false ⟨.isotropic, false, fun _ _ => 1, fun _ _ => 0⟩ ⟨fun _ i => if i = 0 then 3 else 4, fun _ => 1, fun _ => 1⟩ (fun _ => 1) (fun _ => 1)
    [fun n d => (([[0, 0], [1, 0], [0, 1]] : List (List ℚ)).getD n []).getD d 0, fun n d => (([[0, 0], [1, 0], [0, 1]] : List (List ℚ)).getD n []).getD d 0]).map (fun r => decide (r.1[0]? = r.1[1]?)) = some false := by
  decide +kernel

end Verif.Advection
