import Verif.Model.ElementLoop
import Verif.Proof.PolyDegree
import Verif.Prop.Integration
/-!
The determinant of an element is a polynomial, and the loop over the integration points is the sum of its rule.
-/
namespace Verif.Fem

/-- The stored derivative of node `n` in column `j` (zero where the table is undefined). -/
def slopeIn {K : Type} [Zero K] (f : List K → Option (List (K × List K))) (n j : Nat) (p : List K) : K :=
  (f p).elim 0 fun tab => slopeOf tab n j

/-- The determinant of the Jacobian in a point of the reference element. -/
noncomputable def detAt (c : Code) (gps : Nat) (coords : Nat → Nat → ℝ) (p : List ℝ) : ℝ :=
  (Matrix.of fun i j : Fin (edim c) => ∑ n ∈ Finset.range (nodes c), slopeIn (setAt c gps) n j p * coords n i).det

theorem detOf_eq {K : Type} [Field K] {d : Nat} (hd : d = 2 ∨ d = 3) (nodes : Nat) (dN coords : Nat → Nat → K) :
    detOf d nodes dN coords = (jacobian d nodes dN coords).det := by
  rcases hd with rfl | rfl
  · rw [detOf, jacobian2_eq, det22, Matrix.det_fin_two]
  · rw [detOf, jacobian3_eq, det33, Matrix.det_fin_three]
    ring

/-- The variables counted together. -/
def weights (c : Code) (gps : Nat) : Fin (edim c) → Deg :=
  match c, gps with
  | .triangle3, 6 => total 2
  | .triangle6, 6 => total 2
  | .tetra4, 4 => total 3
  | .tetra10, 15 => total 3
  | .prisma6, 9 => layered
  | c, _ => each (edim c)

/-- The order of the Gauss rule needed for the determinant. -/
def neededOrder : Code → Nat
  | .triangle3 | .square4 => 1
  | .triangle6 | .square8 => 2
  | .tetra4 | .pyramid5 | .prisma6 | .hexa8 => 2
  | _ => 3

/-- The degrees of column `j` of the derivatives of a degraded element. -/
def columnDegree : Code → Nat → Deg
  | .triangle3, 0 | .square4, 0 => (0, 1, 0)
  | .triangle3, _ | .square4, _ => (1, 0, 0)
  | .triangle6, 0 | .square8, 0 => (1, 2, 0)
  | .triangle6, _ | .square8, _ => (2, 1, 0)
  | .tetra4, 0 | .pyramid5, 0 | .prisma6, 0 | .hexa8, 0 => (0, 1, 1)
  | .tetra4, 1 | .pyramid5, 1 | .prisma6, 1 | .hexa8, 1 => (1, 0, 1)
  | .tetra4, _ | .pyramid5, _ | .prisma6, _ | .hexa8, _ => (1, 1, 0)
  | _, 0 => (1, 2, 2)
  | _, 1 => (2, 1, 2)
  | _, _ => (2, 2, 1)

theorem degraded_slope {c : Code} {gps : Nat} (h : isExplicit c gps = false) {D : Deg} {j : Nat} (hj : j < edim c)
    (hD : ∀ k < (nOrder c).length, Poly (each (edim c)) D fun p => slopeIn (degradedTerms c) k j p) (n : Nat) :
    Poly (each (edim c)) D fun p => slopeIn (setAt c gps) n j p := by
  have hsum : Poly (each (edim c)) D fun p => ∑ k ∈ Finset.range (nOrder c).length, if (nOrder c).getD k 0 = n then slopeIn (degradedTerms c) k j p else 0 := by
    refine Poly.sum _ _ fun k hk => ?_
    by_cases hn : (nOrder c).getD k 0 = n
    · simp only [hn, if_true]; exact hD k (Finset.mem_range.1 hk)
    · simp only [hn, if_false]; exact (Poly.const 0).mono ⟨Nat.zero_le _, Nat.zero_le _, Nat.zero_le _⟩
  obtain ⟨P, h1, h2⟩ := hsum
  refine ⟨P, h1, fun p hp => ?_⟩
  rw [← h2 p hp]
  obtain ⟨terms, ht, hl, hr⟩ := (degradedTerms_basis c).defined p hp
  obtain ⟨tab, e1, _, _, _, e2⟩ := degrade_eq (nodes := nodes c) (dim := edim c) (order := nOrder c) hl.symm (nOrder_lt c) hr
  change slopeIn (setAt c gps) n j p = _
  rw [setAt_degraded h]
  simp only [slopeIn, ht, Option.bind_some, e1, Option.elim_some]
  rw [e2 n j hj, hl]

theorem poly_congr {d : Nat} {W : Fin d → Deg} {D : Deg} {f g : List ℝ → ℝ} (h : Poly W D f) (e : ∀ p, p.length = d → g p = f p) : Poly W D g := by
  obtain ⟨P, h1, h2⟩ := h
  exact ⟨P, h1, fun p hp => (e p hp).trans (h2 p hp)⟩

set_option hygiene false in
macro "same2" : tactic => `(tactic| (
  intro p hp
  obtain ⟨r, s, rfl⟩ := List.length_eq_two.1 hp
  rfl))

set_option hygiene false in
macro "same3" : tactic => `(tactic| (
  intro p hp
  obtain ⟨r, s, t, rfl⟩ := List.length_eq_three.1 hp
  rfl))

theorem terms_degree (c : Code) (hd : 2 ≤ edim c) (j : Nat) (hj : j < edim c) (k : Nat) (hk : k < (nOrder c).length) :
    Poly (each (edim c)) (columnDegree c j) fun p => slopeIn (degradedTerms c) k j p := by
  cases c
  case line2 => exact absurd hd (by decide)
  case line3 => exact absurd hd (by decide)
  case triangle3 =>
    change j < 2 at hj; interval_cases j
    · exact poly_congr (terms4x2_degree0 k hk) (by same2)
    · exact poly_congr (terms4x2_degree1 k hk) (by same2)
  case square4 =>
    change j < 2 at hj; interval_cases j
    · exact poly_congr (terms4x2_degree0 k hk) (by same2)
    · exact poly_congr (terms4x2_degree1 k hk) (by same2)
  case triangle6 =>
    change j < 2 at hj; interval_cases j
    · exact poly_congr (terms8x2_degree0 k hk) (by same2)
    · exact poly_congr (terms8x2_degree1 k hk) (by same2)
  case square8 =>
    change j < 2 at hj; interval_cases j
    · exact poly_congr (terms8x2_degree0 k hk) (by same2)
    · exact poly_congr (terms8x2_degree1 k hk) (by same2)
  all_goals
    change j < 3 at hj
    interval_cases j
    · first
        | exact poly_congr (terms8x3_degree0 k hk) (by same3)
        | exact poly_congr (terms20x3_degree0 k hk) (by same3)
    · first
        | exact poly_congr (terms8x3_degree1 k hk) (by same3)
        | exact poly_congr (terms20x3_degree1 k hk) (by same3)
    · first
        | exact poly_congr (terms8x3_degree2 k hk) (by same3)
        | exact poly_congr (terms20x3_degree2 k hk) (by same3)

/-- The elements whose rule has the degree of the determinant. -/
def exactVolume (c : Code) (gps : Nat) : Prop :=
  match c, gps with
  | .triangle3, 6 | .triangle6, 6 | .tetra4, 4 | .tetra10, 15 | .prisma6, 9 => True
  | .pyramid13, 14 | .prisma15, 9 => False
  | c, gps => 2 ≤ edim c ∧ ∀ order, getOrder (edim c) gps = some order → neededOrder c ≤ order

theorem det_poly {c : Code} {gps : Nat} (coords : Nat → Nat → ℝ) (W : Fin (edim c) → Deg) (E : Fin (edim c) → Deg)
    (h : ∀ (j : Fin (edim c)), ∀ n < nodes c, Poly W (E j) fun p => slopeIn (setAt c gps) n j p) :
    Poly W (∑ j, E j) (detAt c gps coords) := by
  refine Poly.det (fun p => Matrix.of fun i j : Fin (edim c) => ∑ n ∈ Finset.range (nodes c), slopeIn (setAt c gps) n j p * coords n i) E fun i j => ?_
  simp only [Matrix.of_apply]
  refine Poly.sum _ _ fun n hn => ?_
  have := (h j n (Finset.mem_range.1 hn)).mul (Poly.const (coords n i))
  simpa only [add_zero] using this

theorem fst_degOf {d : Nat} (W : Fin d → Deg) (m : Fin d →₀ ℕ) : (degOf W m).1 = ∑ i, m i * (W i).1 := by
  rw [degOf, Prod.fst_sum]
  rfl

theorem snd_degOf {d : Nat} (W : Fin d → Deg) (m : Fin d →₀ ℕ) : (degOf W m).2.1 = ∑ i, m i * (W i).2.1 := by
  rw [degOf, Prod.snd_sum, Prod.fst_sum]
  rfl

theorem trd_degOf {d : Nat} (W : Fin d → Deg) (m : Fin d →₀ ℕ) : (degOf W m).2.2 = ∑ i, m i * (W i).2.2 := by
  rw [degOf, Prod.snd_sum, Prod.snd_sum]
  rfl

theorem expOf_each {d : Nat} (hd : d = 2 ∨ d = 3) (m : Fin d →₀ ℕ) {D : Deg} {q : Nat} (h : degOf (each d) m ≤ D) (hq : D ≤ (q, q, q)) (k : Nat) (hk : k < d) :
    expOf m k ≤ q := by
  have h1 : (degOf (each d) m).1 ≤ q := (h.trans hq).1
  have h2 : (degOf (each d) m).2.1 ≤ q := (h.trans hq).2.1
  have h3 : (degOf (each d) m).2.2 ≤ q := (h.trans hq).2.2
  rw [fst_degOf] at h1
  rw [snd_degOf] at h2
  rw [trd_degOf] at h3
  rcases hd with rfl | rfl
  · rw [Fin.sum_univ_two] at h1 h2
    change m 0 * 1 + m 1 * 0 ≤ q at h1
    change m 0 * 0 + m 1 * 1 ≤ q at h2
    interval_cases k
    · change m 0 ≤ q; omega
    · change m 1 ≤ q; omega
  · rw [Fin.sum_univ_three] at h1 h2 h3
    change m 0 * 1 + m 1 * 0 + m 2 * 0 ≤ q at h1
    change m 0 * 0 + m 1 * 1 + m 2 * 0 ≤ q at h2
    change m 0 * 0 + m 1 * 0 + m 2 * 1 ≤ q at h3
    interval_cases k
    · change m 0 ≤ q; omega
    · change m 1 ≤ q; omega
    · change m 2 ≤ q; omega

theorem expOf_total2 (m : Fin 2 →₀ ℕ) {D : Deg} (h : degOf (total 2) m ≤ D) : expOf m 0 + expOf m 1 ≤ D.1 := by
  have := h.1
  rw [fst_degOf, Fin.sum_univ_two] at this
  change m 0 * 1 + m 1 * 1 ≤ _ at this
  change m 0 + m 1 ≤ _
  omega

theorem expOf_total3 (m : Fin 3 →₀ ℕ) {D : Deg} (h : degOf (total 3) m ≤ D) : expOf m 0 + expOf m 1 + expOf m 2 ≤ D.1 := by
  have := h.1
  rw [fst_degOf, Fin.sum_univ_three] at this
  change m 0 * 1 + m 1 * 1 + m 2 * 1 ≤ _ at this
  change m 0 + m 1 + m 2 ≤ _
  omega

theorem expOf_layered (m : Fin 3 →₀ ℕ) {D : Deg} (h : degOf layered m ≤ D) : expOf m 0 + expOf m 1 ≤ D.1 ∧ expOf m 2 ≤ D.2.1 := by
  have h1 := h.1
  have h2 := h.2.1
  rw [fst_degOf, Fin.sum_univ_three] at h1
  rw [snd_degOf, Fin.sum_univ_three] at h2
  change m 0 * 1 + m 1 * 1 + m 2 * 0 ≤ _ at h1
  change m 0 * 0 + m 1 * 0 + m 2 * 1 ≤ _ at h2
  change m 0 + m 1 ≤ _ ∧ m 2 ≤ _
  omega

/-- The determinant is a polynomial the rule of the element integrates. -/
theorem det_admits (c : Code) (gps : Nat) (h : exactVolume c gps) (coords : Nat → Nat → ℝ) :
    ∃ P : MvPolynomial (Fin (edim c)) ℝ, (∀ m ∈ P.support, admits c gps (expOf m)) ∧ ∀ p : List ℝ, p.length = edim c → detAt c gps coords p = polyAt P p := by
  unfold exactVolume at h
  split at h
  · obtain ⟨P, h1, h2⟩ := det_poly (c := .triangle3) (gps := 6) coords (total 2) (fun _ => 0) (by
      intro j n hn
      change n < 3 at hn
      fin_cases j
      · exact poly_congr (setTriangle3_degree0 n hn) (by same2)
      · exact poly_congr (setTriangle3_degree1 n hn) (by same2))
    exact ⟨P, fun m hm => (expOf_total2 m (h1 m hm)).trans (by decide), h2⟩
  · obtain ⟨P, h1, h2⟩ := det_poly (c := .triangle6) (gps := 6) coords (total 2) (fun _ => (1, 0, 0)) (by
      intro j n hn
      change n < 6 at hn
      fin_cases j
      · exact poly_congr (setTriangle6_degree0 n hn) (by same2)
      · exact poly_congr (setTriangle6_degree1 n hn) (by same2))
    exact ⟨P, fun m hm => (expOf_total2 m (h1 m hm)).trans (by decide), h2⟩
  · obtain ⟨P, h1, h2⟩ := det_poly (c := .tetra4) (gps := 4) coords (total 3) (fun _ => 0) (by
      intro j n hn
      change n < 4 at hn
      fin_cases j
      · exact poly_congr (setTetra4_degree0 n hn) (by same3)
      · exact poly_congr (setTetra4_degree1 n hn) (by same3)
      · exact poly_congr (setTetra4_degree2 n hn) (by same3))
    exact ⟨P, fun m hm => (expOf_total3 m (h1 m hm)).trans (by decide), h2⟩
  · obtain ⟨P, h1, h2⟩ := det_poly (c := .tetra10) (gps := 15) coords (total 3) (fun _ => (1, 0, 0)) (by
      intro j n hn
      change n < 10 at hn
      fin_cases j
      · exact poly_congr (setTetra10_degree0 n hn) (by same3)
      · exact poly_congr (setTetra10_degree1 n hn) (by same3)
      · exact poly_congr (setTetra10_degree2 n hn) (by same3))
    exact ⟨P, fun m hm => (expOf_total3 m (h1 m hm)).trans (by decide), h2⟩
  · obtain ⟨P, h1, h2⟩ := det_poly (c := .prisma6) (gps := 9) coords layered (fun j => if j.1 = 2 then (1, 0, 0) else (0, 1, 0)) (by
      intro j n hn
      change n < 6 at hn
      fin_cases j
      · exact poly_congr (setPrisma6_degree0 n hn) (by same3)
      · exact poly_congr (setPrisma6_degree1 n hn) (by same3)
      · exact poly_congr (setPrisma6_degree2 n hn) (by same3))
    exact ⟨P, fun m hm => ⟨(expOf_layered m (h1 m hm)).1.trans (by decide), (expOf_layered m (h1 m hm)).2.trans (by decide)⟩, h2⟩
  · exact h.elim
  · exact h.elim
  · rename_i g1 g2 g3 g4 g5 g6 g7
    have he : isExplicit c gps = false := by
      unfold isExplicit
      split <;> simp_all
    obtain ⟨hd, ho⟩ := h
    have hd' : edim c = 2 ∨ edim c = 3 := by cases c <;> simp_all [edim]
    obtain ⟨P, h1, h2⟩ := det_poly (c := c) (gps := gps) coords (each (edim c)) (fun j => columnDegree c j) (by
      intro j n _
      exact degraded_slope he j.isLt (fun k hk => terms_degree c hd j j.isLt k hk) n)
    refine ⟨P, fun m hm => ?_, h2⟩
    have hA : ∀ order, getOrder (edim c) gps = some order → ∀ k < edim c, expOf m k < 2 * order := by
      intro order h k hk
      have hn := ho order h
      have hb : (∑ j : Fin (edim c), columnDegree c j) ≤ ((2 * neededOrder c - 1 : ℕ), (2 * neededOrder c - 1 : ℕ), (2 * neededOrder c - 1 : ℕ)) := by
        clear hn h hm h1 h2 P m ho he g1 g2 g3 g4 g5 g6 g7 hk
        cases c <;> first | exact absurd hd (by decide) | decide
      have := expOf_each hd' m (h1 m hm) hb k hk
      have : 0 < neededOrder c := by cases c <;> decide
      omega
    unfold admits
    split <;> simp_all

theorem detAt_eq {c : Code} {gps : Nat} {p : List ℝ} {tab : List (ℝ × List ℝ)} (hd : edim c = 2 ∨ edim c = 3) (h : setAt c gps p = some tab)
    (coords : Nat → Nat → ℝ) : detAt c gps coords p = detOf (edim c) (nodes c) (slopeOf tab) coords := by
  rw [detOf_eq hd, detAt]
  simp only [slopeIn, h, Option.elim_some]
  rfl

/-- The loop is the sum of the rule. -/
theorem elementVolume_eq {c : Code} {gps : Nat} {coords : Nat → Nat → ℝ} {v : ℝ} (hd : edim c = 2 ∨ edim c = 3)
    (h : elementVolume Real.sqrt c gps coords = some v) :
    ∃ pts, rulePoints Real.sqrt c gps = some pts ∧ v = ruleSum pts (detAt c gps coords) := by
  unfold elementVolume at h
  simp only [Option.bind_eq_bind, Option.bind_eq_some_iff] at h
  obtain ⟨pts, hp, h⟩ := h
  refine ⟨pts, hp, ?_⟩
  clear hp
  have key : ∀ (pts : List (List ℝ × ℝ)) (v0 v : ℝ), pts.foldlM (fun volume p => do
      let tab ← setAt c gps p.1
      pure (volume + detOf (edim c) (nodes c) (slopeOf tab) coords * p.2)) v0 = some v → v = v0 + ruleSum pts (detAt c gps coords) := by
    intro pts
    induction pts with
    | nil => intro v0 v h; cases h; simp [ruleSum]
    | cons p pts ih =>
      intro v0 v h
      rw [List.foldlM_cons] at h
      simp only [Option.bind_eq_bind, Option.bind_eq_some_iff, Option.pure_def, Option.some.injEq] at h
      obtain ⟨_, ⟨tab, ht, rfl⟩, h⟩ := h
      rw [ih _ _ h]
      have e := detAt_eq hd ht coords
      simp only [ruleSum, List.map_cons, List.sum_cons, e]
      ring
  simpa using key pts 0 v h

theorem Shape.integral_congr (D : Shape) {f g : List ℝ → ℝ} (h : ∀ p : List ℝ, p.length = D.dim → f p = g p) : D.integral f = D.integral g := by
  cases D
  · simp only [Shape.integral, h [_] rfl]
  · simp only [Shape.integral, h [_, _] rfl]
  · simp only [Shape.integral, h [_, _, _] rfl]
  · simp only [Shape.integral, h [_, _] rfl]
  · simp only [Shape.integral, h [_, _, _] rfl]
  · simp only [Shape.integral, h [_, _, _] rfl]

theorem rule_length {c : Code} {gps : Nat} {pts : List (List ℝ × ℝ)} (h : rulePoints Real.sqrt c gps = some pts) : ∀ p ∈ pts, p.1.length = edim c := by
  unfold rulePoints at h
  split at h
  · obtain rfl := Option.some.inj h; simp [ruleTriangle3, edim]
  · obtain rfl := Option.some.inj h; simp [ruleTriangle6, edim]
  · obtain rfl := Option.some.inj h; simp [ruleTetra4, edim]
  · obtain rfl := Option.some.inj h; simp [ruleTetra10, edim]
  · obtain rfl := Option.some.inj h; simp [rulePyramid13, edim]
  · obtain rfl := Option.some.inj h; simp [rulePrisma6, edim]
  · obtain rfl := Option.some.inj h; simp [rulePrisma15, edim]
  · simp only [Option.bind_eq_bind, Option.bind_eq_some_iff, Option.pure_def, Option.some.injEq] at h
    obtain ⟨order, ho, rule, hr, rfl⟩ := h
    have hd : edim c = 1 ∨ edim c = 2 ∨ edim c = 3 := by cases c <;> decide
    intro p hp
    rcases hd with hd | hd | hd <;> rw [hd] at hp ⊢ <;> simp only [tensor, List.mem_map, List.mem_flatMap] at hp
    · obtain ⟨r, -, rfl⟩ := hp; rfl
    · obtain ⟨r, -, s, -, rfl⟩ := hp; rfl
    · obtain ⟨r, -, s, -, t, -, rfl⟩ := hp; rfl

theorem exactVolume_dim {c : Code} {gps : Nat} (h : exactVolume c gps) : edim c = 2 ∨ edim c = 3 := by
  unfold exactVolume at h
  split at h
  any_goals decide
  · have := h.1
    cases c <;> simp_all [edim]

end Verif.Fem
