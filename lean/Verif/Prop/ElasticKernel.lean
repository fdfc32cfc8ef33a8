import Verif.Prop.ElasticForm
import Verif.Prop.HeatExample
import Mathlib.LinearAlgebra.Matrix.NonsingularInverse
/-!
C81: the displacements of an element without energy, and bodies of revolution.
-/
namespace Verif.Fem

variable {c : Code} {gps : Nat} {m : Elastic ℝ} {pi : ℝ} {u coords : Nat → Nat → ℝ} {A : List ℝ} {pts : List (List ℝ × ℝ)}

/-- The gradient of a displacement, as a chain of derivatives. -/
theorem gradAt_chain {tab : List (ℝ × List ℝ)} {p : List ℝ} (hg : integrate (edim c) (nodes c) (slopeOf tab) coords = some (geometryAt c gps coords p)) (U : Nat → ℝ)
    (j k : Fin (edim c)) :
    ∑ i, gradAt c gps coords U p j i * jacobian (edim c) (nodes c) (slopeOf tab) coords i k = ∑ n ∈ Finset.range (nodes c), U (j * nodes c + n) * slopeOf tab n k :=
  (integrate_spec hg).gradient (fun n => U (j * nodes c + n)) k

/-- A displacement without strain whose gradient is the same in all points is a rigid motion. -/
theorem rigid_of_constant (hd : edim c = 2 ∨ edim c = 3) (hs : SeesAll c gps) (hp : rulePoints Real.sqrt c gps = some pts)
    (hreg : ∀ p ∈ pts, ∃ tab, setAt c gps p.1 = some tab ∧ integrate (edim c) (nodes c) (slopeOf tab) coords = some (geometryAt c gps coords p.1))
    {U : Nat → ℝ} {w : Matrix (Fin (edim c)) (Fin (edim c)) ℝ} (hw : w.transpose = -w) (hU : ∀ p ∈ pts, gradAt c gps coords U p.1 = w) :
    Rigid (edim c) (nodes c) coords U := by
  refine ⟨fun j => if h : j < edim c then U (j * nodes c + 0) - ∑ i, w ⟨j, h⟩ i * coords 0 i else 0, w, hw, fun j n hn => ?_⟩
  have key := slopes_kernel hd hs hp (fun n => U (j * nodes c + n) - ∑ i, w j i * coords n i) (fun p hpp tab ht k hk => by
    obtain ⟨tab', ht', hg⟩ := hreg p hpp
    rw [ht] at ht'
    obtain rfl := Option.some.inj ht'
    have e := gradAt_chain hg U j ⟨k, hk⟩
    rw [hU p hpp] at e
    simp only [sub_mul, Finset.sum_sub_distrib, ← e]
    simp only [jacobian, Finset.mul_sum, Finset.sum_mul]
    rw [Finset.sum_comm, sub_eq_zero]
    exact Finset.sum_congr rfl fun n _ => Finset.sum_congr rfl fun i _ => by ring) n hn
  dsimp only at key ⊢
  rw [dif_pos j.isLt]
  linarith

theorem strain_zero_iff {G : Matrix (Fin (edim c)) (Fin (edim c)) ℝ} : strainOf 1 G = 0 ↔ G.transpose = -G := by
  rw [strainOf, Matrix.transpose_one, one_mul, mul_one]
  constructor
  · intro h
    have h2 := (smul_eq_zero.1 h).resolve_left (by norm_num)
    exact eq_neg_of_add_eq_zero_right h2
  · intro h
    rw [h, add_neg_cancel, smul_zero]

/-- Every displacement of the corners of a triangle or a tetrahedron is linear. -/
theorem simplex_linear (hc : c = .triangle3 ∨ c = .tetra4) {p : List ℝ} (hl : p.length = edim c) (hJ : detAt c gps coords p ≠ 0) (f : Nat → ℝ) :
    ∃ (a : ℝ) (b : Fin (edim c) → ℝ), ∀ n < nodes c, f n = a + ∑ i, b i * coords n i := by
  have solve : ∀ (d : Nat) (M : Matrix (Fin d) (Fin d) ℝ) (v : Fin d → ℝ), M.det ≠ 0 → ∃ b : Fin d → ℝ, ∀ k, ∑ i, b i * M k i = v k := by
    intro d M v hM
    refine ⟨M⁻¹.mulVec v, fun k => ?_⟩
    have e := congrFun (show M.mulVec (M⁻¹.mulVec v) = v by
      rw [Matrix.mulVec_mulVec, Matrix.mul_nonsing_inv _ (isUnit_iff_ne_zero.2 hM), Matrix.one_mulVec]) k
    rw [← e, Matrix.mulVec, dotProduct]
    exact Finset.sum_congr rfl fun i _ => mul_comm _ _
  rcases hc with rfl | rfl
  · obtain ⟨r, s, rfl⟩ := List.length_eq_two.1 hl
    have hD : (coords 1 0 - coords 0 0) * (coords 2 1 - coords 0 1) - (coords 2 0 - coords 0 0) * (coords 1 1 - coords 0 1) ≠ 0 := by
      intro h0
      refine hJ ?_
      by_cases h6 : gps = 6
      · subst h6; rw [triangle3_det6, h0]
      · rw [triangle3_det gps h6, h0, zero_mul]
    obtain ⟨b, hb⟩ := solve 2 (Matrix.of fun k i => coords (k + 1) i - coords 0 i) (fun k => f (k + 1) - f 0) (by
      rw [Matrix.det_fin_two]
      simp only [Matrix.of_apply, Fin.val_zero, Fin.val_one, zero_add]
      intro h; apply hD; linarith)
    have b0 := hb 0
    have b1 := hb 1
    simp only [Matrix.of_apply, Fin.sum_univ_two, Fin.val_zero, Fin.val_one, zero_add] at b0 b1
    refine ⟨f 0 - (b 0 * coords 0 0 + b 1 * coords 0 1), b, fun n hn => ?_⟩
    change n < 3 at hn
    change f n = f 0 - (b 0 * coords 0 0 + b 1 * coords 0 1) + ∑ i : Fin 2, b i * coords n i
    rw [Fin.sum_univ_two]
    simp only [Fin.val_zero, Fin.val_one]
    interval_cases n
    · ring
    · linarith
    · norm_num at b1; linarith
  · obtain ⟨r, s, t, rfl⟩ := List.length_eq_three.1 hl
    have hD : tripleProduct coords ≠ 0 := by
      intro h0
      refine hJ ?_
      by_cases h4 : gps = 4
      · subst h4; rw [tetra4_det4, h0]
      · rw [tetra4_det gps h4, h0, zero_mul]
    obtain ⟨b, hb⟩ := solve 3 (Matrix.of fun k i => coords (k + 1) i - coords 0 i) (fun k => f (k + 1) - f 0) (by
      rw [Matrix.det_fin_three]
      simp only [Matrix.of_apply, Fin.val_zero, Fin.val_one, Fin.val_two, zero_add]
      intro h; apply hD; unfold tripleProduct; norm_num at h ⊢; linarith)
    have b0 := hb 0
    have b1 := hb 1
    have b2 := hb 2
    simp only [Matrix.of_apply, Fin.sum_univ_three, Fin.val_zero, Fin.val_one, Fin.val_two, zero_add] at b0 b1 b2
    refine ⟨f 0 - (b 0 * coords 0 0 + b 1 * coords 0 1 + b 2 * coords 0 2), b, fun n hn => ?_⟩
    change n < 4 at hn
    change f n = f 0 - (b 0 * coords 0 0 + b 1 * coords 0 1 + b 2 * coords 0 2) + ∑ i : Fin 3, b i * coords n i
    rw [Fin.sum_univ_three]
    simp only [Fin.val_zero, Fin.val_one, Fin.val_two]
    interval_cases n
    · ring
    · linarith
    · norm_num at b1; linarith
    · norm_num at b2; linarith

theorem simplex_rigid (hc : c = .triangle3 ∨ c = .tetra4) {p : List ℝ} (hl : p.length = edim c) {tab : List (ℝ × List ℝ)} (ht : setAt c gps p = some tab)
    (hg : integrate (edim c) (nodes c) (slopeOf tab) coords = some (geometryAt c gps coords p)) (hJ : detAt c gps coords p ≠ 0) {U : Nat → ℝ}
    (hU : strainAt c gps coords U p = 0) : Rigid (edim c) (nodes c) coords U := by
  choose a b hab using fun j : Fin (edim c) => simplex_linear hc hl hJ fun n => U (j * nodes c + n)
  have e := gradAt_linear hl ht hg (fun j => if h : j < edim c then a ⟨j, h⟩ else 0) (Matrix.of b) U fun j n hn => by
    rw [hab j n hn, dif_pos j.isLt]; rfl
  rw [strainAt, e, strain_zero_iff] at hU
  refine ⟨fun j => if h : j < edim c then a ⟨j, h⟩ else 0, Matrix.of b, hU, fun j n hn => ?_⟩
  dsimp only
  rw [hab j n hn, dif_pos j.isLt]; rfl

/-- The derivatives of the functions of the square by a coordinate do not depend on this coordinate. -/
theorem square4_slopes (r s : ℝ) : ∃ tab, setAt .square4 gps [r, s] = some tab ∧ ∀ n < 4,
    slopeOf tab n 0 = (1 / 4) * (if n = 1 ∨ n = 2 then 1 else -1) * (if n < 2 then 1 - s else 1 + s) ∧
    slopeOf tab n 1 = (1 / 4) * (if n = 1 ∨ n = 2 then 1 + r else 1 - r) * (if n < 2 then -1 else 1) := by
  obtain ⟨tab, ht, -⟩ := (C75_basis .square4 gps).defined [r, s] rfl
  refine ⟨tab, ht, fun n hn => ?_⟩
  rw [setAt_degraded (by unfold isExplicit; split <;> simp_all)] at ht
  simp [degradedTerms, degrade, nOrder, terms4x2, nodes, edim, addTerm, wr] at ht
  subst ht
  interval_cases n <;> simp [slopeOf] <;> ring

/-- The turn of two points of a square with a common coordinate is the same: both turn the same tangent into the same slope. -/
theorem turn_eq {x y a b v w : ℝ} (hxy : x ≠ 0 ∨ y ≠ 0) (h1 : v * y = a) (h2 : -v * x = b) (h3 : w * y = a) (h4 : -w * x = b) : v = w := by
  rcases hxy with h | h
  · have : v * x = w * x := by linarith
    exact mul_right_cancel₀ h this
  · have : v * y = w * y := by linarith
    exact mul_right_cancel₀ h this

/-- What a point of the square without strain says about its turn. -/
theorem square4_turn {r s : ℝ} (hJ : detAt .square4 gps coords [r, s] ≠ 0) {U : Nat → ℝ} (hU : strainAt .square4 gps coords U [r, s] = 0) :
    ∃ w : ℝ, gradAt .square4 gps coords U [r, s] = (!![0, w; -w, 0] : Matrix (Fin 2) (Fin 2) ℝ) ∧
      ∃ tab, setAt .square4 gps [r, s] = some tab ∧ (jacobian 2 4 (slopeOf tab) coords).det ≠ 0 ∧
      ∀ k : Fin 2, w * jacobian 2 4 (slopeOf tab) coords 1 k = ∑ n ∈ Finset.range 4, U n * slopeOf tab n k ∧
        -w * jacobian 2 4 (slopeOf tab) coords 0 k = ∑ n ∈ Finset.range 4, U (4 + n) * slopeOf tab n k := by
  obtain ⟨tab, ht, -⟩ := square4_slopes (gps := gps) r s
  have hg := (point_geometry (c := .square4) (.inl rfl) ht hJ).1
  have ch : ∀ j k : Fin 2, ∑ i : Fin 2, (gradAt .square4 gps coords U [r, s] : Matrix (Fin 2) (Fin 2) ℝ) j i * jacobian 2 4 (slopeOf tab) coords i k =
    ∑ n ∈ Finset.range 4, U (j * 4 + n) * slopeOf tab n k := gradAt_chain hg U
  rw [strainAt, strain_zero_iff] at hU
  have hU' : ∀ i j : Fin 2, (gradAt .square4 gps coords U [r, s] : Matrix (Fin 2) (Fin 2) ℝ) j i = - (gradAt .square4 gps coords U [r, s] : Matrix (Fin 2) (Fin 2) ℝ) i j :=
    fun i j => congrFun (congrFun hU i) j
  have hdet : (jacobian 2 4 (slopeOf tab) coords).det ≠ 0 := by
    have := (integrate_spec hg).det_ne
    rw [(integrate_spec hg).det_eq] at this
    exact this
  obtain ⟨G, hG⟩ : ∃ G : Matrix (Fin 2) (Fin 2) ℝ, gradAt .square4 gps coords U [r, s] = G := ⟨_, rfl⟩
  rw [hG] at ch hU' ⊢
  have g0 : G 0 0 = 0 := by have := hU' 0 0; linarith
  have g1 : G 1 1 = 0 := by have := hU' 1 1; linarith
  refine ⟨G 0 1, ?_, tab, ht, hdet, fun k => ⟨?_, ?_⟩⟩
  · ext i j
    fin_cases i <;> fin_cases j
    · exact g0
    · rfl
    · exact hU' 0 1
    · exact g1
  · have := ch 0 k
    rw [Fin.sum_univ_two, g0] at this
    simpa using this
  · have := ch 1 k
    rw [Fin.sum_univ_two, g1, hU' 0 1] at this
    simpa using this

theorem square4_rigid (hs : SeesAll .square4 gps) (hp : rulePoints Real.sqrt .square4 gps = some pts) (hJ : ∀ p ∈ pts, detAt .square4 gps coords p.1 ≠ 0)
    {U : Nat → ℝ} (hU : ∀ p ∈ pts, strainAt .square4 gps coords U p.1 = 0) : Rigid 2 4 coords U := by
  have hp0 := hp
  unfold rulePoints at hp0
  simp only [Option.bind_eq_bind, Option.bind_eq_some_iff, Option.pure_def, Option.some.injEq] at hp0
  obtain ⟨order, -, rule, hr, rfl⟩ := hp0
  have mem : ∀ {x y : ℝ × ℝ}, x ∈ rule → y ∈ rule → (([x.1, y.1], x.2 * y.2) : List ℝ × ℝ) ∈ tensor rule 2 := by
    intro x y hx hy
    simp only [tensor, List.mem_flatMap, List.mem_map]
    exact ⟨x, hx, y, hy, rfl⟩
  have hJ' : ∀ {x y : ℝ × ℝ}, x ∈ rule → y ∈ rule → detAt .square4 gps coords [x.1, y.1] ≠ 0 := fun {x y} hx hy => hJ ([x.1, y.1], x.2 * y.2) (mem hx hy)
  have hU' : ∀ {x y : ℝ × ℝ}, x ∈ rule → y ∈ rule → strainAt .square4 gps coords U [x.1, y.1] = 0 := fun {x y} hx hy => hU ([x.1, y.1], x.2 * y.2) (mem hx hy)
  have same0 : ∀ {x x' y : ℝ × ℝ}, x ∈ rule → x' ∈ rule → y ∈ rule → gradAt .square4 gps coords U [x.1, y.1] = gradAt .square4 gps coords U [x'.1, y.1] := by
    intro x x' y hx hx' hy
    obtain ⟨w, e, tab, ht, hdet, hk⟩ := square4_turn (hJ' hx hy) (hU' hx hy)
    obtain ⟨w', e', tab', ht', -, hk'⟩ := square4_turn (hJ' hx' hy) (hU' hx' hy)
    obtain ⟨t, h1, h2⟩ := square4_slopes (gps := gps) x.1 y.1
    obtain ⟨t', h1', h2'⟩ := square4_slopes (gps := gps) x'.1 y.1
    rw [ht] at h1; obtain rfl := Option.some.inj h1
    rw [ht'] at h1'; obtain rfl := Option.some.inj h1'
    have hsl : ∀ n ∈ Finset.range 4, slopeOf tab' n 0 = slopeOf tab n 0 := fun n hn => by
      rw [(h2' n (Finset.mem_range.1 hn)).1, (h2 n (Finset.mem_range.1 hn)).1]
    have hj : ∀ i : Fin 2, jacobian 2 4 (slopeOf tab') coords i 0 = jacobian 2 4 (slopeOf tab) coords i 0 := fun i =>
      Finset.sum_congr rfl fun n hn => by rw [show ((0 : Fin 2) : Nat) = 0 from rfl, hsl n hn]
    have k1 := hk 0
    have k2 := hk' 0
    rw [hj, hj] at k2
    have s1 : ∀ f : Nat → ℝ, ∑ n ∈ Finset.range 4, f n * slopeOf tab' n (0 : Fin 2) = ∑ n ∈ Finset.range 4, f n * slopeOf tab n (0 : Fin 2) := fun f =>
      Finset.sum_congr rfl fun n hn => by rw [show ((0 : Fin 2) : Nat) = 0 from rfl, hsl n hn]
    rw [s1 U, s1 fun n => U (4 + n)] at k2
    have hw : w = w' := turn_eq (x := jacobian 2 4 (slopeOf tab) coords 0 0) (y := jacobian 2 4 (slopeOf tab) coords 1 0) (by
      by_contra h
      push Not at h
      apply hdet
      rw [Matrix.det_fin_two, h.1, h.2]; ring) k1.1 k1.2 k2.1 k2.2
    rw [e, e', hw]
  have same1 : ∀ {x y y' : ℝ × ℝ}, x ∈ rule → y ∈ rule → y' ∈ rule → gradAt .square4 gps coords U [x.1, y.1] = gradAt .square4 gps coords U [x.1, y'.1] := by
    intro x y y' hx hy hy'
    obtain ⟨w, e, tab, ht, hdet, hk⟩ := square4_turn (hJ' hx hy) (hU' hx hy)
    obtain ⟨w', e', tab', ht', -, hk'⟩ := square4_turn (hJ' hx hy') (hU' hx hy')
    obtain ⟨t, h1, h2⟩ := square4_slopes (gps := gps) x.1 y.1
    obtain ⟨t', h1', h2'⟩ := square4_slopes (gps := gps) x.1 y'.1
    rw [ht] at h1; obtain rfl := Option.some.inj h1
    rw [ht'] at h1'; obtain rfl := Option.some.inj h1'
    have hsl : ∀ n ∈ Finset.range 4, slopeOf tab' n 1 = slopeOf tab n 1 := fun n hn => by
      rw [(h2' n (Finset.mem_range.1 hn)).2, (h2 n (Finset.mem_range.1 hn)).2]
    have hj : ∀ i : Fin 2, jacobian 2 4 (slopeOf tab') coords i 1 = jacobian 2 4 (slopeOf tab) coords i 1 := fun i =>
      Finset.sum_congr rfl fun n hn => by rw [show ((1 : Fin 2) : Nat) = 1 from rfl, hsl n hn]
    have k1 := hk 1
    have k2 := hk' 1
    rw [hj, hj] at k2
    have s1 : ∀ f : Nat → ℝ, ∑ n ∈ Finset.range 4, f n * slopeOf tab' n (1 : Fin 2) = ∑ n ∈ Finset.range 4, f n * slopeOf tab n (1 : Fin 2) := fun f =>
      Finset.sum_congr rfl fun n hn => by rw [show ((1 : Fin 2) : Nat) = 1 from rfl, hsl n hn]
    rw [s1 U, s1 fun n => U (4 + n)] at k2
    have hw : w = w' := turn_eq (x := jacobian 2 4 (slopeOf tab) coords 0 1) (y := jacobian 2 4 (slopeOf tab) coords 1 1) (by
      by_contra h
      push Not at h
      apply hdet
      rw [Matrix.det_fin_two, h.1, h.2]; ring) k1.1 k1.2 k2.1 k2.2
    rw [e, e', hw]
  rcases List.eq_nil_or_concat rule with h0 | ⟨l, z, h0⟩
  · exfalso
    unfold gauss at hr
    split at hr <;> simp_all
  · have hz : z ∈ rule := by rw [h0]; simp
    obtain ⟨w, e, -⟩ := square4_turn (hJ' hz hz) (hU' hz hz)
    have hw : (gradAt .square4 gps coords U [z.1, z.1]).transpose = - gradAt .square4 gps coords U [z.1, z.1] := strain_zero_iff.1 (hU' hz hz)
    refine rigid_of_constant (c := .square4) (.inl rfl) hs hp (fun p hpp => ?_) hw fun p hpp => ?_
    · obtain ⟨tab, ht⟩ := point_table hp hpp
      exact ⟨tab, ht, (point_geometry (c := .square4) (.inl rfl) ht (hJ p hpp)).1⟩
    · simp only [edim, tensor, List.mem_flatMap, List.mem_map] at hpp
      obtain ⟨x, hx, y, hy, rfl⟩ := hpp
      exact (same0 hx hz hy).trans (same1 hz hy hz)

/-- The displacements of triangles, squares and tetrahedra without energy are exactly the rigid motions, for all shapes that are not turned over and all stable
materials. Missing for the full statement (all elements): the other elements, where a rule with few points can leave strains unseen. -/
theorem C81_rigid_only_partial (hc : c = .triangle3 ∨ c = .tetra4 ∨ c = .square4) (hb : edim c = 2 → m.behaviour ≠ .axisymmetric) (hs : SeesAll c gps)
    (h : elementElasticity Real.sqrt pi c gps m u coords = some A) (hp : rulePoints Real.sqrt c gps = some pts)
    (hm : ∀ p ∈ pts, m.stable (edim c) p.1) (hJ : ∀ p ∈ pts, 0 < detAt c gps coords p.1) (U : Nat → ℝ) :
    formOf (edim c * nodes c) A U U = 0 ↔ Rigid (edim c) (nodes c) coords U := by
  have hd : edim c = 2 ∨ edim c = 3 := by rcases hc with rfl | rfl | rfl <;> simp [edim]
  rw [C81_kernel hd hb h hp hm hJ]
  refine ⟨fun hz => ?_, fun hU => strain_rigid hd hb h hp hU⟩
  have simplex : c = .triangle3 ∨ c = .tetra4 → Rigid (edim c) (nodes c) coords U := by
    intro hc
    obtain ⟨p, hpp⟩ : ∃ p, p ∈ pts := by
      refine List.exists_mem_of_ne_nil _ fun h0 => ?_
      subst h0
      have := slopes_kernel hd hs hp (fun n => n) (by simp) 1 (by rcases hc with rfl | rfl <;> simp [nodes])
      norm_num at this
    obtain ⟨⟨tab, ht, hg⟩, -, hn, -⟩ := elasticity_regular hd hb h hp p hpp
    exact simplex_rigid hc (rule_length hp p hpp) ht hg hn (hz p hpp)
  rcases hc with hc | hc | rfl
  · exact simplex (.inl hc)
  · exact simplex (.inr hc)
  · exact square4_rigid hs hp (fun p hpp => (hJ p hpp).ne') hz

end Verif.Fem
