import Verif.Proof.ElasticPoint
/-!
The contributions of an integration point for large displacements.
-/
namespace Verif.Fem

section
variable {K : Type} [Field K]

theorem formOf_blocks (d N : Nat) (A : List K) (U V : Nat → K) : formOf (d * N) A U V =
    ∑ j ∈ Finset.range d, ∑ n ∈ Finset.range N, ∑ l ∈ Finset.range d, ∑ m ∈ Finset.range N,
      U (j * N + n) * entry A ((j * N + n) * (d * N) + (l * N + m)) * V (l * N + m) := by
  unfold formOf
  rw [sum_blocks]
  refine Finset.sum_congr rfl fun j _ => Finset.sum_congr rfl fun n _ => ?_
  rw [sum_blocks]

theorem addBlocks_form (d N : Nat) {KS A : List K} (hK : KS.length = N * N) (hA : A.length = d * N * (d * N)) :
    ∃ B, addBlocks d N KS A = some B ∧ B.length = d * N * (d * N) ∧ ∀ U V, formOf (d * N) B U V = formOf (d * N) A U V +
      ∑ j ∈ Finset.range d, ∑ n ∈ Finset.range N, ∑ m ∈ Finset.range N, U (j * N + n) * entry KS (n * N + m) * V (j * N + m) := by
  obtain ⟨B, h1, h2, h3⟩ := addBlocks_spec d N hK hA
  refine ⟨B, h1, h2, fun U V => ?_⟩
  rw [formOf_blocks, formOf_blocks, ← Finset.sum_add_distrib]
  refine Finset.sum_congr rfl fun j hj => ?_
  rw [← Finset.sum_add_distrib]
  refine Finset.sum_congr rfl fun n hn => ?_
  have e : ∀ l ∈ Finset.range d, ∑ m ∈ Finset.range N, U (j * N + n) * entry B ((j * N + n) * (d * N) + (l * N + m)) * V (l * N + m) =
      ∑ m ∈ Finset.range N, U (j * N + n) * entry A ((j * N + n) * (d * N) + (l * N + m)) * V (l * N + m) +
      if l = j then ∑ m ∈ Finset.range N, U (j * N + n) * entry KS (n * N + m) * V (j * N + m) else 0 := by
    intro l hl
    have e1 : ∀ m ∈ Finset.range N, U (j * N + n) * entry B ((j * N + n) * (d * N) + (l * N + m)) * V (l * N + m) =
      U (j * N + n) * entry A ((j * N + n) * (d * N) + (l * N + m)) * V (l * N + m) + U (j * N + n) * (if j = l then entry KS (n * N + m) else 0) * V (l * N + m) := by
      intro m hm
      rw [h3 j (Finset.mem_range.1 hj) n (Finset.mem_range.1 hn) l (Finset.mem_range.1 hl) m (Finset.mem_range.1 hm)]
      ring
    rw [Finset.sum_congr rfl e1, Finset.sum_add_distrib]
    congr 1
    by_cases h : j = l
    · subst h; simp
    · simp [h, Ne.symm h]
  rw [Finset.sum_congr rfl e, Finset.sum_add_distrib]
  congr 1
  rw [Finset.sum_ite_eq' (Finset.range d) j, if_pos hj]

/-- The part of the tangent from the stress. -/
theorem stressBlocks (d N : Nat) (S : Nat → K) (dND : Nat → Nat → K) (scale : K) {KS : List K}
    (h : ∀ a < N, ∀ b < N, entry KS (a * N + b) = scale * ∑ k ∈ Finset.range d, (∑ i ∈ Finset.range d, dND a i * S (i * d + k)) * dND b k) (U V : Nat → K) :
    ∑ j ∈ Finset.range d, ∑ n ∈ Finset.range N, ∑ m ∈ Finset.range N, U (j * N + n) * entry KS (n * N + m) * V (j * N + m) =
      scale * ∑ j ∈ Finset.range d, ∑ k ∈ Finset.range d, (∑ i ∈ Finset.range d, gradOf N dND U j i * S (i * d + k)) * gradOf N dND V j k := by
  rw [Finset.mul_sum]
  refine Finset.sum_congr rfl fun j _ => ?_
  have e : ∀ n ∈ Finset.range N, ∑ m ∈ Finset.range N, U (j * N + n) * entry KS (n * N + m) * V (j * N + m) =
      ∑ m ∈ Finset.range N, U (j * N + n) * (scale * ∑ k ∈ Finset.range d, (∑ i ∈ Finset.range d, dND n i * S (i * d + k)) * dND m k) * V (j * N + m) := by
    intro n hn
    refine Finset.sum_congr rfl fun m hm => ?_
    rw [h n (Finset.mem_range.1 hn) m (Finset.mem_range.1 hm)]
  rw [Finset.sum_congr rfl e]
  simp only [gradOf, Finset.sum_mul, Finset.mul_sum]
  rw [Finset.sum_comm]
  simp only [Finset.sum_comm (s := Finset.range N) (t := Finset.range d)]
  refine Finset.sum_congr rfl fun k _ => ?_
  refine Finset.sum_congr rfl fun i _ => Finset.sum_congr rfl fun m _ => Finset.sum_congr rfl fun n _ => ?_
  ring

theorem deformation_entry {d : Nat} (N : Nat) (u : Nat → K) (dND : Nat → Nat → K) (j i : Nat) (hi : i < d) :
    deformation d N (fun n j => u (j * N + n)) dND (j * d + i) = unitF j i + gradOf N dND u j i := by
  have h1 : (j * d + i) / d = j := by rw [mul_comm, Nat.mul_add_div (by omega), Nat.div_eq_of_lt hi, add_zero]
  have h2 : (j * d + i) % d = i := by rw [mul_comm, Nat.mul_add_mod, Nat.mod_eq_of_lt hi]
  simp only [deformation, h1, h2, sumLoop_eq, unitF, gradOf]

theorem cauchyGreen_entry {d : Nat} (F : Nat → K) (j i : Nat) (hi : i < d) :
    cauchyGreen d F (j * d + i) = ∑ k ∈ Finset.range d, F (k * d + j) * F (k * d + i) := by
  have h1 : (j * d + i) / d = j := by rw [mul_comm, Nat.mul_add_div (by omega), Nat.div_eq_of_lt hi, add_zero]
  have h2 : (j * d + i) % d = i := by rw [mul_comm, Nat.mul_add_mod, Nat.mod_eq_of_lt hi]
  simp only [cauchyGreen, multAtBEntry, h1, h2, sumLoop_eq, zero_add, one_mul]

end

section
variable {K : Type} [Field K] [DecidableEq K] [CharZero K]

/-- The matrix of an array that is stored row by row. -/
def matOf (d : Nat) (F : Nat → K) : Matrix (Fin d) (Fin d) K := Matrix.of fun i j : Fin d => F (i * d + j)

/-- The stress in a plane is the law of the strain. -/
theorem stress2_spec {b : Behaviour} (hb : b ≠ .axisymmetric) {ex mi : K} {C : Nat → K} (h : kirchhoff2 b ex mi = some C) (F : Nat → K) :
    matOf 2 (voigt3ToMatrix22 (stress2 C (cauchyGreen 2 F))) = hooke (lameLambda 2 b ex mi) (lameMu ex mi) (greenStrain (matOf 2 F)) := by
  have hl := fun x y => kirchhoff2_law hb h x y
  have l0 := hl (fun i => if i = 0 then 1 else 0)
  have l1 := hl (fun i => if i = 1 then 1 else 0)
  have l2 := hl (fun i => if i = 2 then 1 else 0)
  simp [Finset.sum_range_succ] at l0 l1 l2
  obtain ⟨y, hy⟩ : ∃ y : Nat → K, y = fun i => if i = 0 then 1 / 2 * (cauchyGreen 2 F 0 - 1) else if i = 1 then 1 / 2 * (cauchyGreen 2 F 3 - 1) else cauchyGreen 2 F 1 := ⟨_, rfl⟩
  have y0 : y 0 = 1 / 2 * (cauchyGreen 2 F 0 - 1) := by simp [hy]
  have y1 : y 1 = 1 / 2 * (cauchyGreen 2 F 3 - 1) := by simp [hy]
  have y2 : y 2 = cauchyGreen 2 F 1 := by simp [hy]
  replace l0 := l0 y
  replace l1 := l1 y
  replace l2 := l2 y
  clear hy
  have c0 := cauchyGreen_entry (d := 2) F 0 0 (by omega)
  have c1 := cauchyGreen_entry (d := 2) F 0 1 (by omega)
  have c3 := cauchyGreen_entry (d := 2) F 1 1 (by omega)
  norm_num [Finset.sum_range_succ] at c0 c1 c3
  rw [c0] at y0
  rw [c3] at y1
  rw [c1] at y2
  rw [y0, y1, y2] at l0 l1 l2
  ext i j
  fin_cases i <;> fin_cases j <;>
    simp [matOf, voigt3ToMatrix22, stress2, multAB1, sumLoop_eq, Finset.sum_range_succ, hooke, greenStrain, Matrix.trace, Fin.sum_univ_two, Matrix.mul_apply,
      c0, c1, c3]
  · linear_combination l0
  · linear_combination l2
  · linear_combination l2
  · linear_combination l1

omit [DecidableEq K] in
/-- The stress in space is the law of the strain. -/
theorem stress3_spec (lambda mu : K) (F : Nat → K) :
    matOf 3 (voigt6ToMatrix33 (stress3 lambda mu (cauchyGreen 3 F))) = hooke lambda mu (greenStrain (matOf 3 F)) := by
  have c0 := cauchyGreen_entry (d := 3) F 0 0 (by omega)
  have c1 := cauchyGreen_entry (d := 3) F 0 1 (by omega)
  have c2 := cauchyGreen_entry (d := 3) F 0 2 (by omega)
  have c4 := cauchyGreen_entry (d := 3) F 1 1 (by omega)
  have c5 := cauchyGreen_entry (d := 3) F 1 2 (by omega)
  have c8 := cauchyGreen_entry (d := 3) F 2 2 (by omega)
  norm_num [Finset.sum_range_succ] at c0 c1 c2 c4 c5 c8
  ext i j
  fin_cases i <;> fin_cases j <;>
    simp [matOf, voigt6ToMatrix33, stress3, hooke, greenStrain, Matrix.trace, Fin.sum_univ_three, Matrix.mul_apply, c0, c1, c2, c4, c5, c8] <;> ring

omit [DecidableEq K] in
theorem work2 (S : Nat → K) (F G : Nat → Nat → K) :
    ∑ k ∈ Finset.range 3, S k * voigt2 F G k =
      contract (matOf 2 (voigt3ToMatrix22 S)) (strainOf (Matrix.of fun i j : Fin 2 => F i j) (Matrix.of fun i j : Fin 2 => G i j)) := by
  simp only [contract, strainOf, matOf, Fin.sum_univ_two, Matrix.add_apply, Matrix.smul_apply, Matrix.mul_apply, Matrix.transpose_apply,
    smul_eq_mul, Matrix.of_apply, voigt2, Finset.sum_range_succ, Finset.sum_range_zero]
  simp [voigt3ToMatrix22]
  ring

omit [DecidableEq K] in
theorem work3 (S : Nat → K) (F G : Nat → Nat → K) :
    ∑ k ∈ Finset.range 6, S k * voigt3 F G k =
      contract (matOf 3 (voigt6ToMatrix33 S)) (strainOf (Matrix.of fun i j : Fin 3 => F i j) (Matrix.of fun i j : Fin 3 => G i j)) := by
  simp only [contract, strainOf, matOf, Fin.sum_univ_three, Matrix.add_apply, Matrix.smul_apply, Matrix.mul_apply, Matrix.transpose_apply,
    smul_eq_mul, Matrix.of_apply, voigt3, Finset.sum_range_succ, Finset.sum_range_zero]
  simp [voigt6ToMatrix33]
  ring

omit [DecidableEq K] [CharZero K] in
theorem stressPart (d : Nat) (S : Nat → K) (G H : Nat → Nat → K) :
    ∑ j ∈ Finset.range d, ∑ k ∈ Finset.range d, (∑ i ∈ Finset.range d, G j i * S (i * d + k)) * H j k =
      contract ((Matrix.of fun i j : Fin d => G i j) * matOf d S) (Matrix.of fun i j : Fin d => H i j) := by
  simp only [contract, Matrix.mul_apply, Matrix.of_apply, matOf]
  rw [Finset.sum_range]
  refine Finset.sum_congr rfl fun j _ => ?_
  rw [Finset.sum_range]
  refine Finset.sum_congr rfl fun k _ => ?_
  rw [Finset.sum_range]

/-- The contribution of a point for large displacements. -/
theorem matrixElasticityLarge_spec {d : Nat} (hd : d = 2 ∨ d = 3) {b : Behaviour} (hb : d = 2 → b ≠ .axisymmetric) {ex mi : K} {N : Nat} (u : Nat → K)
    {dND : Nat → Nat → K} {s : (Nat → K) × (Nat → K)} (t det w : K) {F : Nat → K} (hF : F = deformation d N (fun n j => u (j * N + n)) dND)
    (hs : kirchhoff d b ex mi (cauchyGreen d F) = some s)
    {x : List K × List K} (hA : x.1.length = d * N * (d * N)) (hf : x.2.length = d * N) :
    ∃ y, matrixElasticityLarge d b N t det w F s.1 s.2 dND x = some y ∧ y.1.length = d * N * (d * N) ∧ y.2.length = d * N ∧
      let f := 1 + displacementGradient d N dND u
      let law := hooke (lameLambda d b ex mi) (lameMu ex mi) (ι := Fin d)
      let scale := (if d = 2 then t else 1) * det * w
      (∀ U V, formOf (d * N) y.1 U V = formOf (d * N) x.1 U V +
        scale * (contract (law (strainOf f (displacementGradient d N dND U))) (strainOf f (displacementGradient d N dND V)) +
          contract (displacementGradient d N dND U * law (greenStrain f)) (displacementGradient d N dND V))) ∧
      ∀ V, workOf (d * N) y.2 V = workOf (d * N) x.2 V + scale * contract (law (greenStrain f)) (strainOf f (displacementGradient d N dND V)) := by
  rcases hd with rfl | rfl
  · have hb := hb rfl
    simp only [kirchhoff, Option.bind_eq_bind, Option.bind_eq_some_iff, Option.pure_def, Option.some.injEq] at hs
    obtain ⟨C, hC, rfl⟩ := hs
    obtain ⟨B, b1, b2⟩ := green2_spec N F dND
    obtain ⟨D, d1, d2, d3⟩ := multAtBA_form 3 (2 * N) (entry B) C (t * det * w) hA
    obtain ⟨g, g1, g2, g3⟩ := multAtB1_work 3 (2 * N) (entry B) (stress2 C (cauchyGreen 2 F)) (t * det * w) hf
    obtain ⟨KS, k1, k2, k3⟩ := multABAt_spec N 2 (fun i => dND (i / 2) (i % 2)) (voigt3ToMatrix22 (stress2 C (cauchyGreen 2 F))) (t * det * w)
      (C := List.replicate (N * N) 0) (by simp)
    obtain ⟨E, e1, e2, e3⟩ := addBlocks_form 2 N k2 d2
    have hf : (1 + displacementGradient 2 N dND u : Matrix (Fin 2) (Fin 2) K) = matOf 2 F := by
      ext i j
      rw [matOf, Matrix.of_apply, hF, deformation_entry N u dND i j j.2, Matrix.add_apply, unit2]
      rfl
    refine ⟨(E, g), ?_, e2, g2, ?_⟩
    · have e1' : addBlocks 2 N KS D = some E := e1
      simp only [matrixElasticityLarge, hb, if_false, b1, Option.bind_eq_bind, Option.bind_some]
      change (multAtBA 3 (2 * N) x.1 (entry B) C (t * det * w)).bind (fun A => (multAtB1 (2 * N) 3 x.2 (entry B) (stress2 C (cauchyGreen 2 F)) (t * det * w)).bind fun nf => _) = _
      rw [d1, Option.bind_some, g1, Option.bind_some, k1, Option.bind_some, e1', Option.bind_some]
      rfl
    · dsimp only
      rw [hf]
      refine ⟨fun U V => ?_, fun V => ?_⟩
      · rw [e3, d3, stressBlocks 2 N (voigt3ToMatrix22 (stress2 C (cauchyGreen 2 F))) dND (t * det * w) (fun a ha b hb => ?_), stressPart, stress2_spec hb hC, if_pos rfl]
        · have ct := contract2 (lameLambda 2 b ex mi) (lameMu ex mi) (fun j i => F (j * 2 + i)) (gradOf N dND U) (gradOf N dND V)
          change contract (hooke _ _ (strainOf (matOf 2 F) (displacementGradient 2 N dND U))) (strainOf (matOf 2 F) (displacementGradient 2 N dND V)) = _ at ct
          rw [ct, ← kirchhoff2_law hb hC]
          rw [mul_add, add_assoc]
          congr 3
          refine Finset.sum_congr rfl fun k hk => Finset.sum_congr rfl fun j hj => ?_
          have hk := Finset.mem_range.1 hk
          have hj := Finset.mem_range.1 hj
          rw [rowSum (entry B) U _ j (b2 j hj), rowSum (entry B) V _ k (b2 k hk), row2_sum N _ _ _ j hj, row2_sum N _ _ _ k hk]
        · rw [k3 a ha b hb, entry_replicate, zero_add]
          congr 1
          refine Finset.sum_congr rfl fun k hk => ?_
          have hk := Finset.mem_range.1 hk
          rw [show (b * 2 + k) / 2 = b by omega, show (b * 2 + k) % 2 = k by omega]
          congr 1
          refine Finset.sum_congr rfl fun i hi => ?_
          have hi := Finset.mem_range.1 hi
          rw [show (a * 2 + i) / 2 = a by omega, show (a * 2 + i) % 2 = i by omega]
      · rw [g3, ← stress2_spec hb hC, show contract (matOf 2 (voigt3ToMatrix22 (stress2 C (cauchyGreen 2 F)))) (strainOf (matOf 2 F) (displacementGradient 2 N dND V)) = _ from (work2 _ (fun j i => F (j * 2 + i)) (gradOf N dND V)).symm, if_pos rfl]
        congr 2
        refine Finset.sum_congr rfl fun k hk => ?_
        have hk := Finset.mem_range.1 hk
        rw [rowSum (entry B) V _ k (b2 k hk), row2_sum N _ _ _ k hk]
  · simp only [kirchhoff] at hs
    split at hs
    · simp at hs
    obtain rfl := Option.some.inj hs
    obtain ⟨B, b1, b2⟩ := green3_spec N F dND
    obtain ⟨la, hla⟩ : ∃ la, la = ex * mi / ((1 + mi) * (1 - 2 * mi)) := ⟨_, rfl⟩
    obtain ⟨mu, hmu⟩ : ∃ mu, mu = ex / (2 + 2 * mi) := ⟨_, rfl⟩
    rw [lambda3, ← lameMu_eq, ← hla, ← hmu]
    obtain ⟨D, d1, d2, d3⟩ := multAtBA_form 6 (3 * N) (entry B) (symmetrize (kirchhoff3 la mu)) (det * w) hA
    obtain ⟨g, g1, g2, g3⟩ := multAtB1_work 6 (3 * N) (entry B) (stress3 la mu (cauchyGreen 3 F)) (det * w) hf
    obtain ⟨KS, k1, k2, k3⟩ := multABAt_spec N 3 (fun i => dND (i / 3) (i % 3)) (voigt6ToMatrix33 (stress3 la mu (cauchyGreen 3 F))) (det * w)
      (C := List.replicate (N * N) 0) (by simp)
    obtain ⟨E, e1, e2, e3⟩ := addBlocks_form 3 N k2 d2
    have hf : (1 + displacementGradient 3 N dND u : Matrix (Fin 3) (Fin 3) K) = matOf 3 F := by
      ext i j
      rw [matOf, Matrix.of_apply, hF, deformation_entry N u dND i j j.2, Matrix.add_apply, unit3]
      rfl
    refine ⟨(E, g), ?_, e2, g2, ?_⟩
    · have e1' : addBlocks 3 N KS D = some E := e1
      simp only [matrixElasticityLarge, b1, Option.bind_eq_bind, Option.bind_some]
      change (multAtBA 6 (3 * N) x.1 (entry B) (symmetrize (kirchhoff3 la mu)) (det * w)).bind (fun A => (multAtB1 (3 * N) 6 x.2 (entry B) (stress3 la mu (cauchyGreen 3 F)) (det * w)).bind fun nf => _) = _
      rw [d1, Option.bind_some, g1, Option.bind_some, k1, Option.bind_some, e1', Option.bind_some]
      rfl
    · dsimp only
      rw [hf]
      refine ⟨fun U V => ?_, fun V => ?_⟩
      · rw [e3, d3, stressBlocks 3 N (voigt6ToMatrix33 (stress3 la mu (cauchyGreen 3 F))) dND (det * w) (fun a ha b hb => ?_), stressPart, stress3_spec, if_neg (by omega), one_mul]
        · have ct := contract3 la mu (fun j i => F (j * 3 + i)) (gradOf N dND U) (gradOf N dND V)
          change contract (hooke _ _ (strainOf (matOf 3 F) (displacementGradient 3 N dND U))) (strainOf (matOf 3 F) (displacementGradient 3 N dND V)) = _ at ct
          rw [ct, ← kirchhoff3_law _ _ two_ne_zero]
          rw [mul_add, add_assoc]
          congr 3
          refine Finset.sum_congr rfl fun k hk => Finset.sum_congr rfl fun j hj => ?_
          have hk := Finset.mem_range.1 hk
          have hj := Finset.mem_range.1 hj
          rw [rowSum (entry B) U _ j (b2 j hj), rowSum (entry B) V _ k (b2 k hk), row3_sum N _ _ _ j hj, row3_sum N _ _ _ k hk]
        · rw [k3 a ha b hb, entry_replicate, zero_add]
          congr 1
          refine Finset.sum_congr rfl fun k hk => ?_
          have hk := Finset.mem_range.1 hk
          rw [show (b * 3 + k) / 3 = b by omega, show (b * 3 + k) % 3 = k by omega]
          congr 1
          refine Finset.sum_congr rfl fun i hi => ?_
          have hi := Finset.mem_range.1 hi
          rw [show (a * 3 + i) / 3 = a by omega, show (a * 3 + i) % 3 = i by omega]
      · rw [g3, ← stress3_spec, show contract (matOf 3 (voigt6ToMatrix33 (stress3 la mu (cauchyGreen 3 F)))) (strainOf (matOf 3 F) (displacementGradient 3 N dND V)) = _ from (work3 _ (fun j i => F (j * 3 + i)) (gradOf N dND V)).symm, if_neg (by omega), one_mul]
        congr 2
        refine Finset.sum_congr rfl fun k hk => ?_
        have hk := Finset.mem_range.1 hk
        rw [rowSum (entry B) V _ k (b2 k hk), row3_sum N _ _ _ k hk]

end

end Verif.Fem
