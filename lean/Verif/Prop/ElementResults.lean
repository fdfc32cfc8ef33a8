import Verif.Model.ElementResults
import Verif.Prop.ConductionForm
import Verif.Prop.Quadrature
import Verif.Proof.CsxConvert
import Verif.Proof.Gluing
/-! C99: the temperature gradient and the heat flux of the elements and their storage. -/
namespace Verif.Results

open Verif.Fem Verif.Csx

section
variable {K : Type} [Field K] [DecidableEq K]

theorem gradientPoint_eq (nodes : Nat) (dND : Nat → Nat → K) (T g : Nat → K) (d : Nat) : gradientPoint nodes dND T g d = g d + ∑ n ∈ Finset.range nodes, T n * dND n d := by
  unfold gradientPoint
  have := foldl_sum (S := Nat → K) (fun g n d => g d + dND n d * T n) (fun g => g d) (fun n => dND n d * T n) (fun s n => rfl) nodes g
  rw [this]
  congr 1
  exact Finset.sum_congr rfl fun n _ => mul_comm _ _

theorem gradientLoop {c : Code} {gps : Nat} (T : Nat → K) (coords : Nat → Nat → K) : ∀ (pts : List (List K × K)) (s : Nat → K) (r : Nat → K),
    pts.foldlM (m := Option) (fun s p => do
      let tab ← setAt c gps p.1
      let g ← integrate (edim c) (nodes c) (slopeOf tab) coords
      pure (gradientPoint (nodes c) g.dND T s)) s = some r →
    ∀ i : Fin (edim c), r i = s i + (pts.map fun p => gradientAt c gps coords T p.1 i).sum := by
  intro pts
  induction pts with
  | nil =>
    intro s r h i
    obtain rfl : s = r := by simpa using h
    simp
  | cons p pts ih =>
    intro s r h i
    rw [List.foldlM_cons] at h
    cases ht : setAt c gps p.1 with
    | none => simp [ht] at h
    | some tab =>
      cases hg : integrate (edim c) (nodes c) (slopeOf tab) coords with
      | none => simp [ht, hg] at h
      | some g =>
        simp only [ht, hg, Option.bind_eq_bind, Option.bind_some, Option.pure_def] at h
        rw [ih _ r h i, gradientPoint_eq, List.map_cons, List.sum_cons, add_assoc]
        have e1 : tabAt c gps p.1 = tab := by simp [tabAt, ht]
        have e2 : geometryAt c gps coords p.1 = g := by simp [geometryAt, e1, hg]
        unfold gradientAt
        rw [e2]

/-- The gradient of an element is the mean of the gradients in the integration points. -/
theorem C99_gradient {sqrt : K → K} {c : Code} {gps : Nat} {T : Nat → K} {coords : Nat → Nat → K} {r : Nat → K} (h : elementGradient sqrt c gps T coords = some r) :
    ∃ pts, rulePoints sqrt c gps = some pts ∧ ∀ i : Fin (edim c), r i = (pts.map fun p => gradientAt c gps coords T p.1 i).sum / gps := by
  unfold elementGradient at h
  simp only [Option.bind_eq_bind, Option.bind_eq_some_iff, Option.pure_def, Option.some.injEq] at h
  obtain ⟨pts, hp, s, hs, rfl⟩ := h
  refine ⟨pts, hp, fun i => ?_⟩
  dsimp only
  rw [gradientLoop T coords pts (fun _ => 0) s (by simpa using hs) i, zero_add, mul_one_div]

theorem fluxPoint_eq {dim : Nat} (hd : dim = 2 ∨ dim = 3) (model : Conduct) (nodes : Nat) (dND : Nat → Nat → K) (T c f : Nat → K) (i : Fin dim) :
    fluxPoint dim model nodes dND T c f i = f i + ∑ j : Fin dim, tensorOf dim model c i j * ∑ n ∈ Finset.range nodes, T n * dND n j := by
  have hg : ∀ j, gradientPoint nodes dND T (fun _ => 0) j = ∑ n ∈ Finset.range nodes, T n * dND n j := fun j => by rw [gradientPoint_eq, zero_add]
  rcases hd with rfl | rfl
  · show fluxPoint2 model nodes dND T c f i = _
    rw [tensor_table2, Fin.sum_univ_two]
    unfold fluxPoint2
    cases model <;> fin_cases i <;> simp [hg] <;> ring
  · show fluxPoint3 model nodes dND T c f i = _
    rw [tensor_table3, Fin.sum_univ_three]
    unfold fluxPoint3
    cases model <;> fin_cases i <;> simp [hg] <;> ring

theorem fluxLoop {c : Code} {gps : Nat} (hd : edim c = 2 ∨ edim c = 3) (m : Material K) (T : Nat → K) (coords : Nat → Nat → K) : ∀ (pts : List (List K × K)) (s r : (Nat → K) × (Nat → K)),
    pts.foldlM (m := Option) (fun x p => do
      let tab ← setAt c gps p.1
      let g ← integrate (edim c) (nodes c) (slopeOf tab) coords
      let cond := conductivity (edim c) m.rotated m.model (m.ecf p.1) (m.cossin p.1) x.2
      pure (fluxPoint (edim c) m.matrixModel (nodes c) g.dND T cond x.1, cond)) s = some r →
    ∀ i : Fin (edim c), r.1 i = s.1 i + (pts.map fun p => ∑ j, m.tensor (edim c) p.1 i j * gradientAt c gps coords T p.1 j).sum := by
  intro pts
  induction pts with
  | nil =>
    intro s r h i
    obtain rfl : s = r := by simpa using h
    simp
  | cons p pts ih =>
    intro s r h i
    rw [List.foldlM_cons] at h
    cases ht : setAt c gps p.1 with
    | none => simp [ht] at h
    | some tab =>
      cases hg : integrate (edim c) (nodes c) (slopeOf tab) coords with
      | none => simp [ht, hg] at h
      | some g =>
        simp only [ht, hg, Option.bind_eq_bind, Option.bind_some, Option.pure_def] at h
        have e1 : tabAt c gps p.1 = tab := by simp [tabAt, ht]
        have e2 : geometryAt c gps coords p.1 = g := by simp [geometryAt, e1, hg]
        rw [ih _ r h i, List.map_cons, List.sum_cons]
        dsimp only
        rw [fluxPoint_eq hd, conductivity_spec hd, add_assoc]
        unfold gradientAt
        rw [e2]

/-- The flux of an element is the mean of the products of the tensor of the turned material with the gradient in the integration points. -/
theorem C99_flux {sqrt : K → K} {c : Code} {gps : Nat} (hd : edim c = 2 ∨ edim c = 3) {m : Material K} {T old : Nat → K} {coords : Nat → Nat → K} {r : Nat → K}
    (h : elementFlux sqrt c gps m T old coords = some r) :
    ∃ pts, rulePoints sqrt c gps = some pts ∧ ∀ i : Fin (edim c), r i = (pts.map fun p => ∑ j, m.tensor (edim c) p.1 i j * gradientAt c gps coords T p.1 j).sum / gps := by
  unfold elementFlux at h
  simp only [Option.bind_eq_bind, Option.bind_eq_some_iff, Option.pure_def, Option.some.injEq] at h
  obtain ⟨pts, hp, s, hs, rfl⟩ := h
  refine ⟨pts, hp, fun i => ?_⟩
  show s.1 i * (1 / (gps : K)) = _
  rw [fluxLoop hd m T coords pts ((fun _ => 0), old) s (by simpa using hs) i, zero_add, mul_one_div]

end

theorem sum_const {A : Type} (l : List A) (f : A → ℝ) (x : ℝ) (h : ∀ a ∈ l, f a = x) : (l.map f).sum = l.length * x := by
  rw [List.map_congr_left h]
  simp

/-- Temperatures that are linear in the coordinates have their exact gradient in every element, whatever its shape, and a constant material their exact flux. -/
theorem C99_linear {c : Code} {gps : Nat} (hd : edim c = 2 ∨ edim c = 3) (hgps : 0 < gps) {m : Material ℝ} {T old : Nat → ℝ} {coords : Nat → Nat → ℝ} {r f : Nat → ℝ}
    (h : elementGradient Real.sqrt c gps T coords = some r) (hf : elementFlux Real.sqrt c gps m T old coords = some f)
    (a : ℝ) (b : Fin (edim c) → ℝ) (hT : ∀ n < nodes c, T n = a + ∑ i, b i * coords n i) (C : Matrix (Fin (edim c)) (Fin (edim c)) ℝ) (hC : ∀ p, m.tensor (edim c) p = C) :
    (∀ i : Fin (edim c), r i = b i) ∧ ∀ i : Fin (edim c), f i = ∑ j, C i j * b j := by
  obtain ⟨pts, hp, hr⟩ := C99_gradient h
  obtain ⟨pts', hp', hr'⟩ := C99_flux hd hf
  obtain rfl : pts = pts' := Option.some.inj (hp.symm.trans hp')
  have hlen := C77_count c gps pts hp
  have hreg : ∀ p ∈ pts, ∃ tab g, setAt c gps p.1 = some tab ∧ integrate (edim c) (nodes c) (slopeOf tab) coords = some g := by
    unfold elementGradient at h
    simp only [Option.bind_eq_bind, Option.bind_eq_some_iff, Option.pure_def, Option.some.injEq] at h
    obtain ⟨q, hq, s, hs, h'⟩ := h
    clear h'
    obtain rfl : pts = q := Option.some.inj (hp.symm.trans hq)
    clear hr hr' hq hp hp' hlen
    revert s
    generalize (fun _ => 0 : Nat → ℝ) = z
    induction pts generalizing z with
    | nil => intro s _ p hp; cases hp
    | cons p pts ih =>
      intro s hs q hq
      rw [List.foldlM_cons] at hs
      cases ht : setAt c gps p.1 with
      | none => simp [ht] at hs
      | some tab =>
        cases hg : integrate (edim c) (nodes c) (slopeOf tab) coords with
        | none => simp [ht, hg] at hs
        | some g =>
          rcases List.mem_cons.1 hq with rfl | hq
          · exact ⟨tab, g, ht, hg⟩
          · simp only [ht, hg, Option.bind_eq_bind, Option.bind_some] at hs
            exact ih _ s hs q hq
  have hgrad : ∀ p ∈ pts, ∀ i, gradientAt c gps coords T p.1 i = b i := by
    intro p hpp i
    obtain ⟨tab, g, ht, hg⟩ := hreg p hpp
    have e1 : tabAt c gps p.1 = tab := by simp [tabAt, ht]
    have e2 : geometryAt c gps coords p.1 = g := by simp [geometryAt, e1, hg]
    unfold gradientAt
    rw [e2]
    exact C76_linear c gps coords p.1 tab (rule_length hp p hpp) ht g hg a b T hT i
  have hne : (gps : ℝ) ≠ 0 := by exact_mod_cast Nat.pos_iff_ne_zero.1 hgps
  constructor
  · intro i
    rw [hr i, sum_const pts _ (b i) (fun p hpp => hgrad p hpp i), hlen]
    field_simp
  · intro i
    rw [hr' i, sum_const pts _ (∑ j, C i j * b j) (fun p hpp => by
      rw [hC]
      exact Finset.sum_congr rfl fun j _ => by rw [hgrad p hpp j]), hlen]
    field_simp

/-! ### The array of the results -/

section
variable {V : Type}

theorem storeLane_spec (dim ptr s : Nat) (v : Nat → V) (out : List V) (h : ptr + dim * s + dim ≤ out.length) :
    ∃ w, storeLane dim ptr s v out = some w ∧ w.length = out.length ∧ (∀ d, d < dim → w[ptr + dim * s + d]? = some (v d))
      ∧ ∀ k, k < ptr + dim * s ∨ ptr + dim * s + dim ≤ k → w[k]? = out[k]? := by
  unfold storeLane
  obtain ⟨w, e, e1, e2, e3⟩ := forLoop_inv (Nat.zero_le dim) out (fun d out => wr out (ptr + dim * s + d) (v d))
    (fun i w => w.length = out.length ∧ (∀ d, d < i → w[ptr + dim * s + d]? = some (v d)) ∧ ∀ k, k < ptr + dim * s ∨ ptr + dim * s + i ≤ k → w[k]? = out[k]?)
    ⟨rfl, fun d hd => absurd hd (Nat.not_lt_zero d), fun _ _ => rfl⟩ (by
      rintro i _ hi w ⟨w1, w2, w3⟩
      refine ⟨_, wr_eq_some (by omega), by rw [List.length_set, w1], ?_, ?_⟩
      · intro d hd
        rw [getElem?_set' _ _ _ _ (by omega)]
        by_cases hdi : d = i
        · subst hdi
          rw [if_pos rfl]
        · rw [if_neg (by omega)]
          exact w2 d (by omega)
      · intro k hk
        rw [getElem?_set' _ _ _ _ (by omega), if_neg (by omega)]
        exact w3 k (by omega))
  exact ⟨w, e, e1, e2, e3⟩

theorem storeLanes_spec (dim ptr n : Nat) (lanes : Nat → Nat → V) (out : List V) (h : ptr + dim * n ≤ out.length) :
    ∃ w, forLoop 0 n out (fun s out => storeLane dim ptr s (lanes s) out) = some w ∧ w.length = out.length ∧ (∀ s d, s < n → d < dim → w[ptr + dim * s + d]? = some (lanes s d))
      ∧ ∀ k, k < ptr ∨ ptr + dim * n ≤ k → w[k]? = out[k]? := by
  obtain ⟨w, e, e1, e2, e3⟩ := forLoop_inv (Nat.zero_le n) out (fun s out => storeLane dim ptr s (lanes s) out)
    (fun i w => w.length = out.length ∧ (∀ s d, s < i → d < dim → w[ptr + dim * s + d]? = some (lanes s d)) ∧ ∀ k, k < ptr ∨ ptr + dim * i ≤ k → w[k]? = out[k]?)
    ⟨rfl, fun s _ hs => absurd hs (Nat.not_lt_zero s), fun _ _ => rfl⟩ (by
      rintro i _ hi w ⟨w1, w2, w3⟩
      have hmul : dim * (i + 1) ≤ dim * n := Nat.mul_le_mul_left _ hi
      rw [Nat.mul_succ] at hmul
      obtain ⟨w', f1, f2, f3, f4⟩ := storeLane_spec dim ptr i (lanes i) w (by omega)
      refine ⟨w', f1, f2.trans w1, ?_, ?_⟩
      · intro s d hs hd
        by_cases hsi : s = i
        · subst hsi
          exact f3 d hd
        · have : dim * (s + 1) ≤ dim * i := Nat.mul_le_mul_left _ (by omega)
          rw [Nat.mul_succ] at this
          rw [f4 _ (by omega)]
          exact w2 s d (by omega) hd
      · intro k hk
        rw [Nat.mul_succ] at hk
        rw [f4 k (by omega)]
        exact w3 k (by omega))
  exact ⟨w, e, e1, e2, e3⟩

theorem storeChunk_spec {dim size : Nat} (hdim : 0 < dim) (lanes : Nat → Nat → V) (ptr : Nat) (out : List V) (h : ptr + dim * size ≤ out.length) :
    ∃ w, storeChunk dim size lanes (ptr, out) = some (ptr + dim * size, w) ∧ w.length = out.length ∧ (∀ s d, s < size → d < dim → w[ptr + dim * s + d]? = some (lanes s d))
      ∧ ∀ k, k < ptr ∨ ptr + dim * size ≤ k → w[k]? = out[k]? := by
  obtain ⟨w, e, e1, e2, e3⟩ := storeLanes_spec dim ptr size lanes out h
  have hn : (if ptr ≤ out.length then min size (out.length - ptr) else size) = size := by
    have : 1 * size ≤ dim * size := Nat.mul_le_mul_right _ hdim
    rw [if_pos (by omega)]
    omega
  refine ⟨w, ?_, e1, e2, e3⟩
  unfold storeChunk
  dsimp only
  rw [hn, e]
  rfl

theorem chunksLoop {dim size : Nat} (hdim : 0 < dim) (I : Interval V) (out : List V) (n : Nat) (h : dim * (I.begin + n * size) ≤ out.length) :
    ∃ w, forLoop 0 n (dim * I.begin, out) (fun c st => storeChunk dim size (fun s => I.value (c * size + s)) st) = some (dim * (I.begin + n * size), w) ∧ w.length = out.length
      ∧ (∀ e d, e < n * size → d < dim → w[dim * (I.begin + e) + d]? = some (I.value e d)) ∧ ∀ k, k < dim * I.begin ∨ dim * (I.begin + n * size) ≤ k → w[k]? = out[k]? := by
  obtain ⟨st, e, e0, e1, e2, e3⟩ := forLoop_inv (Nat.zero_le n) (dim * I.begin, out) (fun c st => storeChunk dim size (fun s => I.value (c * size + s)) st)
    (fun i st => st.1 = dim * (I.begin + i * size) ∧ st.2.length = out.length ∧ (∀ e d, e < i * size → d < dim → st.2[dim * (I.begin + e) + d]? = some (I.value e d))
      ∧ ∀ k, k < dim * I.begin ∨ dim * (I.begin + i * size) ≤ k → st.2[k]? = out[k]?)
    ⟨by rw [Nat.zero_mul, Nat.add_zero], rfl, fun e _ he => absurd he (by rw [Nat.zero_mul]; exact Nat.not_lt_zero e), fun _ _ => rfl⟩ (by
      rintro i _ hi ⟨ptr, w⟩ ⟨rfl, w1, w2, w3⟩
      dsimp only at w1 w2 w3
      have hmul : dim * (I.begin + (i + 1) * size) ≤ dim * (I.begin + n * size) := Nat.mul_le_mul_left _ (Nat.add_le_add_left (Nat.mul_le_mul_right _ hi) _)
      have hnext : dim * (I.begin + (i + 1) * size) = dim * (I.begin + i * size) + dim * size := by
        rw [Nat.succ_mul, ← Nat.add_assoc, Nat.mul_add dim (I.begin + i * size)]
      rw [hnext] at hmul
      obtain ⟨w', f1, f2, f3, f4⟩ := storeChunk_spec (size := size) hdim (fun s => I.value (i * size + s)) (dim * (I.begin + i * size)) w (by omega)
      refine ⟨_, f1, hnext.symm, f2.trans w1, ?_, ?_⟩
      · intro e d he hd
        dsimp only
        by_cases hei : e < i * size
        · have : dim * (I.begin + e + 1) ≤ dim * (I.begin + i * size) := Nat.mul_le_mul_left _ (by omega)
          rw [Nat.mul_succ] at this
          rw [f4 _ (by omega)]
          exact w2 e d hei hd
        · rw [Nat.succ_mul] at he
          have := f3 (e - i * size) d (by omega) hd
          rw [show i * size + (e - i * size) = e by omega, ← Nat.mul_add, show I.begin + i * size + (e - i * size) = I.begin + e by omega] at this
          exact this
      · intro k hk
        have h0 : dim * I.begin ≤ dim * (I.begin + i * size) := Nat.mul_le_mul_left _ (Nat.le_add_right _ _)
        dsimp only
        rw [hnext] at hk
        rw [f4 k (by omega)]
        exact w3 k (by omega))
  obtain ⟨ptr, w⟩ := st
  dsimp only at e0 e1 e2 e3
  subst e0
  exact ⟨w, e, e1, e2, e3⟩

/-- The values of an interval with a whole number of chunks are stored at its elements and nowhere else. -/
theorem storeInterval_spec {dim size total : Nat} (hdim : 0 < dim) (I : Interval V) (hm : size ∣ I.elements) (hin : I.begin + I.elements ≤ total) (out : List V) (hout : out.length = dim * total) :
    ∃ w, storeInterval dim size I out = some w ∧ w.length = out.length ∧ (∀ e d, e < I.elements → d < dim → w[dim * (I.begin + e) + d]? = some (I.value e d))
      ∧ ∀ e d, d < dim → e < I.begin ∨ I.begin + I.elements ≤ e → w[dim * e + d]? = out[dim * e + d]? := by
  have hc : I.chunks size * size = I.elements := by
    unfold Interval.chunks
    rw [Nat.mod_eq_zero_of_dvd hm, if_neg (by simp), Nat.add_zero]
    exact Nat.div_mul_cancel hm
  obtain ⟨w, e, e1, e2, e3⟩ := chunksLoop (size := size) hdim I out (I.chunks size) (by rw [hc, hout]; exact Nat.mul_le_mul_left _ hin)
  rw [hc] at e2 e3
  refine ⟨w, ?_, e1, e2, ?_⟩
  · unfold storeInterval
    rw [e]
    rfl
  · intro e d hd he
    apply e3
    rcases he with he | he
    · left
      have : dim * (e + 1) ≤ dim * I.begin := Nat.mul_le_mul_left _ he
      rw [Nat.mul_succ] at this
      omega
    · right
      exact Nat.le_trans (Nat.mul_le_mul_left _ he) (Nat.le_add_right _ _)

/-- What is wanted: after the stores, in whatever order, every element has its own values, and nothing else is changed. -/
def C99_goal (dim size : Nat) : Prop := ∀ (V : Type) (total : Nat) (Is : List (Interval V)) (out : List V), out.length = dim * total → (∀ I ∈ Is, I.begin + I.elements ≤ total) →
  Is.Pairwise (fun I J => I.begin + I.elements ≤ J.begin ∨ J.begin + J.elements ≤ I.begin) →
  ∃ w, storeAll dim size Is out = some w ∧ w.length = out.length ∧ (∀ I ∈ Is, ∀ e d, e < I.elements → d < dim → w[dim * (I.begin + e) + d]? = some (I.value e d))
    ∧ ∀ e d, d < dim → (∀ I ∈ Is, e < I.begin ∨ I.begin + I.elements ≤ e) → w[dim * e + d]? = out[dim * e + d]?

/-- It holds if the numbers of elements of the intervals are multiples of the number of lanes. -/
theorem C99_store_partial {dim size total : Nat} (hdim : 0 < dim) (Is : List (Interval V)) (out : List V) (hout : out.length = dim * total)
    (hin : ∀ I ∈ Is, I.begin + I.elements ≤ total) (hm : ∀ I ∈ Is, size ∣ I.elements)
    (dis : Is.Pairwise fun I J => I.begin + I.elements ≤ J.begin ∨ J.begin + J.elements ≤ I.begin) :
    ∃ w, storeAll dim size Is out = some w ∧ w.length = out.length ∧ (∀ I ∈ Is, ∀ e d, e < I.elements → d < dim → w[dim * (I.begin + e) + d]? = some (I.value e d))
      ∧ ∀ e d, d < dim → (∀ I ∈ Is, e < I.begin ∨ I.begin + I.elements ≤ e) → w[dim * e + d]? = out[dim * e + d]? := by
  unfold storeAll
  induction Is generalizing out with
  | nil => exact ⟨out, rfl, rfl, fun I hI => absurd hI (by simp), fun _ _ _ _ => rfl⟩
  | cons I Is ih =>
    rw [List.pairwise_cons] at dis
    obtain ⟨w, e1, e2, e3, e4⟩ := storeInterval_spec hdim I (hm I List.mem_cons_self) (hin I List.mem_cons_self) out hout
    obtain ⟨w', f1, f2, f3, f4⟩ := ih w (e2.trans hout) (fun J hJ => hin J (List.mem_cons_of_mem _ hJ)) (fun J hJ => hm J (List.mem_cons_of_mem _ hJ)) dis.2
    refine ⟨w', ?_, f2.trans e2, ?_, ?_⟩
    · rw [List.foldlM_cons, e1]
      exact f1
    · intro J hJ e d he hd
      rcases List.mem_cons.1 hJ with rfl | hJ
      · rw [f4 _ d hd, e3 e d he hd]
        intro M hM
        have := dis.1 M hM
        omega
      · exact f3 J hJ e d he hd
    · intro e d hd h
      rw [f4 e d hd fun J hJ => h J (List.mem_cons_of_mem _ hJ)]
      exact e4 e d hd (h I List.mem_cons_self)

theorem forLoop_fails {S : Type} (n k : Nat) (s s' : S) (f : Nat → S → Option S) (hk : k < n) (h1 : forLoop 0 k s f = some s') (h2 : f k s' = none) : forLoop 0 n s f = none := by
  rw [Verif.Csx.forLoop_range] at h1 ⊢
  obtain ⟨m, rfl⟩ : ∃ m, n = (k + 1) + m := ⟨n - (k + 1), by omega⟩
  rw [List.range_add, List.foldlM_append, List.range_succ, List.foldlM_append, h1]
  simp [h2]

/-- The last interval of the mesh with a rest of elements: the values of more lanes than elements are left are stored, beyond the end of the array. -/
theorem C99_overrun {dim size total : Nat} (hdim : 2 ≤ dim) (I : Interval V) (hr : I.elements % size ≠ 0) (hs : 0 < size) (hend : I.begin + I.elements = total) (out : List V) (hout : out.length = dim * total) :
    storeInterval dim size I out = none := by
  have hdm := Nat.div_add_mod I.elements size
  have hlt := Nat.mod_lt I.elements hs
  rw [Nat.mul_comm] at hdm
  generalize hq : I.elements / size = q at hdm
  generalize hR : I.elements % size = r at hdm hlt hr
  have hbound : dim * (I.begin + q * size) ≤ out.length := by
    rw [hout, ← hend]
    exact Nat.mul_le_mul_left _ (by omega)
  have hlen : out.length = dim * (I.begin + q * size) + dim * r := by
    rw [hout, ← hend, ← Nat.mul_add]
    congr 1
    omega
  obtain ⟨w, e, e1, e2, e3⟩ := chunksLoop (size := size) (by omega) I out q hbound
  unfold storeInterval
  have hch : I.chunks size = q + 1 := by
    unfold Interval.chunks
    rw [hR, if_pos hr, hq]
  rw [hch, forLoop_fails (q + 1) q _ _ _ (by omega) e]
  · rfl
  · unfold storeChunk
    dsimp only
    have h2r : 2 * r ≤ dim * r := Nat.mul_le_mul_right _ hdim
    obtain ⟨w', f1, f2, _⟩ := storeLanes_spec dim (dim * (I.begin + q * size)) r (fun s => I.value (q * size + s)) w (by rw [e1, hlen])
    rw [if_pos (by rw [e1]; exact hbound), e1, forLoop_fails _ r w w' _ (by omega) f1]
    · rfl
    · unfold storeLane
      rw [forLoop_lt _ _ (by omega)]
      have : wr w' (dim * (I.begin + q * size) + dim * r + 0) (I.value (q * size + r) 0) = none := by
        unfold wr
        rw [if_neg (by omega)]
      rw [this]
      rfl

end

/-- It does not hold in general: a mesh with a single element overruns the array for every number of lanes greater than one … -/
theorem C99_store_wrong (dim size : Nat) (hdim : 2 ≤ dim) (hs : 2 ≤ size) : ¬ C99_goal dim size := by
  intro h
  obtain ⟨w, hw, _⟩ := h Nat 1 [⟨0, 1, fun _ _ => 0⟩] (List.replicate (dim * 1) 0) (by simp) (by simp) (by simp)
  have := C99_overrun (dim := dim) (size := size) (total := 1) hdim (⟨0, 1, fun _ _ => 0⟩ : Interval Nat) (by show 1 % size ≠ 0; rw [Nat.mod_eq_of_lt (by omega)]; omega) (by omega) rfl
    (List.replicate (dim * 1) 0) (by simp)
  unfold storeAll at hw
  rw [List.foldlM_cons, this] at hw
  cases hw

/-- … and, also if nothing is written beyond the array, the rest of the lanes goes to the first elements of the next interval, which has been finished if it belongs to a faster thread. -/
theorem C99_threads : storeAll 2 2 [(⟨1, 2, fun e d => 10 + 2 * e + d⟩ : Interval Nat), ⟨0, 1, fun e d => if e = 0 then 50 + d else 99⟩] [0, 0, 0, 0, 0, 0] = some [50, 51, 99, 99, 12, 13]
    ∧ storeAll 2 2 [(⟨0, 1, fun e d => if e = 0 then 50 + d else 99⟩ : Interval Nat), ⟨1, 2, fun e d => 10 + 2 * e + d⟩] [0, 0, 0, 0, 0, 0] = some [50, 51, 10, 11, 12, 13] := by
  decide

/-! ### Cases -/

/-- Two intervals with two and four elements in vectors of two lanes, in any order. -/
example : storeAll 2 2 [(⟨2, 4, fun e d => 10 * e + d⟩ : Interval Nat), ⟨0, 2, fun e d => 70 + 10 * e + d⟩] (List.replicate 12 0) = some [70, 71, 80, 81, 0, 1, 10, 11, 20, 21, 30, 31] := by decide

/-- The triangle (0, 0), (1, 0), (0, 1) with the temperatures 1 + 2 x + 3 y. -/
example : (elementGradient (K := ℚ) (fun x => x) .triangle3 6 (fun n => [1, 3, 4].getD n 0) fun n d => ([[0, 0], [1, 0], [0, 1]].getD n []).getD d 0).map (fun r => (r 0, r 1)) = some (2, 3) := by
  decide +kernel

end Verif.Results
