import Verif.Spec.Loads
import Verif.Proof.ElasticPoint
import Verif.Prop.Elasticity
/-!
The additions of the kernels as linear and bilinear forms.
-/
namespace Verif.Fem

section
variable {K : Type} [Field K] [DecidableEq K]

omit [DecidableEq K] in
theorem addAll_spec (l : List (Nat × K)) {M : Nat} (h : ∀ p ∈ l, p.1 < M) {A : List K} (hA : A.length = M) :
    ∃ B, addAll l A = some B ∧ B.length = M ∧ ∀ j, entry B j = entry A j + (l.map fun p => if j = p.1 then p.2 else 0).sum :=
  Adds.loop l (fun p A => addTo A p.1 p.2) (fun p j => if j = p.1 then p.2 else 0) (fun p hp => Adds.one (h p hp) p.2) A hA

omit [DecidableEq K] in
theorem addAll_work (l : List (Nat × K)) {M : Nat} (h : ∀ p ∈ l, p.1 < M) {A : List K} (hA : A.length = M) :
    ∃ B, addAll l A = some B ∧ B.length = M ∧ ∀ V, workOf M B V = workOf M A V + (l.map fun p => p.2 * V p.1).sum := by
  obtain ⟨B, h1, h2, h3⟩ := addAll_spec l h hA
  refine ⟨B, h1, h2, fun V => ?_⟩
  unfold workOf
  simp only [h3, add_mul, Finset.sum_add_distrib]
  congr 1
  clear h1 h3
  induction l with
  | nil => simp
  | cons p l ih =>
    simp only [List.map_cons, List.sum_cons, add_mul, Finset.sum_add_distrib]
    rw [ih fun q hq => h q (by simp [hq])]
    congr 1
    rw [Finset.sum_eq_single p.1]
    · simp
    · intro b _ hb; simp [hb]
    · intro hn; exact absurd (Finset.mem_range.2 (h p (by simp))) hn

omit [DecidableEq K] in
theorem addAll_form (l : List (Nat × K)) {M : Nat} (h : ∀ p ∈ l, p.1 < M * M) {A : List K} (hA : A.length = M * M) :
    ∃ B, addAll l A = some B ∧ B.length = M * M ∧ ∀ U V, formOf M B U V = formOf M A U V + (l.map fun p => U (p.1 / M) * p.2 * V (p.1 % M)).sum := by
  obtain ⟨B, h1, h2, h3⟩ := addAll_spec l h hA
  refine ⟨B, h1, h2, fun U V => ?_⟩
  unfold formOf
  simp only [h3, mul_add, add_mul, Finset.sum_add_distrib]
  congr 1
  clear h1 h3
  induction l with
  | nil => simp
  | cons p l ih =>
    simp only [List.map_cons, List.sum_cons, mul_add, add_mul, Finset.sum_add_distrib]
    rw [ih fun q hq => h q (by simp [hq])]
    congr 1
    have hp := h p (by simp)
    have hM : 0 < M := Nat.pos_of_ne_zero fun h0 => by rw [h0] at hp; simp at hp
    have a1 : p.1 / M < M := Nat.div_lt_of_lt_mul hp
    have a2 : p.1 % M < M := Nat.mod_lt _ hM
    have e : ∀ a b, b < M → (a * M + b = p.1 ↔ a = p.1 / M ∧ b = p.1 % M) := by
      intro a b hb
      conv_lhs => rw [← Nat.div_add_mod' p.1 M]
      exact flat_inj hb a2
    rw [Finset.sum_eq_single (p.1 / M), Finset.sum_eq_single (p.1 % M)]
    · rw [if_pos ((e _ _ a2).2 ⟨rfl, rfl⟩)]
    · intro b hb hne
      rw [if_neg fun h => hne ((e _ _ (Finset.mem_range.1 hb)).1 h).2]; simp
    · intro hn; exact absurd (Finset.mem_range.2 a2) hn
    · intro a _ hne
      refine Finset.sum_eq_zero fun b hb => ?_
      rw [if_neg fun h => hne ((e _ _ (Finset.mem_range.1 hb)).1 h).1]; simp
    · intro hn; exact absurd (Finset.mem_range.2 a1) hn

omit [DecidableEq K] in
/-- The diagonal and the mirrored triangles are the whole square. -/
theorem mirror_sum (N : Nat) (x : Nat → Nat → K) :
    ∑ n ∈ Finset.range N, (x n n + ∑ i ∈ Finset.range (N - (n + 1)), (x n (n + 1 + i) + x (n + 1 + i) n)) = ∑ n ∈ Finset.range N, ∑ m ∈ Finset.range N, x n m := by
  induction N with
  | zero => simp
  | succ N ih =>
    rw [Finset.sum_range_succ, Finset.sum_range_succ (fun n => ∑ m ∈ Finset.range (N + 1), x n m)]
    have e : ∀ n ∈ Finset.range N, x n n + ∑ i ∈ Finset.range (N + 1 - (n + 1)), (x n (n + 1 + i) + x (n + 1 + i) n) =
        (x n n + ∑ i ∈ Finset.range (N - (n + 1)), (x n (n + 1 + i) + x (n + 1 + i) n)) + (x n N + x N n) := by
      intro n hn
      have hn := Finset.mem_range.1 hn
      rw [show N + 1 - (n + 1) = (N - (n + 1)) + 1 by omega, Finset.sum_range_succ, show n + 1 + (N - (n + 1)) = N by omega, add_assoc]
    rw [Finset.sum_congr rfl e, Finset.sum_add_distrib, ih, Finset.sum_add_distrib]
    simp only [Finset.sum_range_succ, Finset.sum_add_distrib, Nat.sub_self, Finset.range_zero, Finset.sum_empty]
    ring

omit [DecidableEq K] in
theorem sum_flat_pairs {ι : Type} (l : List ι) (f : ι → List (Nat × K)) (g : Nat × K → K) :
    ((l.flatMap f).map g).sum = (l.map fun n => ((f n).map g).sum).sum := by
  induction l with
  | nil => simp
  | cons x l ih => simp [ih]

/-- The mass of a point. -/
theorem massAdds_form (dim N : Nat) (det w rho : K) (S : Nat → K) {A : List K} (hA : A.length = dim * N * (dim * N)) :
    ∃ B, addAll (massAdds dim N det w rho S) A = some B ∧ B.length = dim * N * (dim * N) ∧ ∀ U V, formOf (dim * N) B U V = formOf (dim * N) A U V +
      det * w * rho * ∑ d ∈ Finset.range dim, (∑ n ∈ Finset.range N, S n * U (d * N + n)) * ∑ n ∈ Finset.range N, S n * V (d * N + n) := by
  have lt : ∀ n d, n < N → d < dim → n + d * N < dim * N := by
    intro n d hn hd
    have : (d + 1) * N ≤ dim * N := Nat.mul_le_mul_right N hd
    rw [add_mul, one_mul] at this
    omega
  have hl : ∀ p ∈ massAdds dim N det w rho S, p.1 < dim * N * (dim * N) := by
    intro p hp
    simp only [massAdds, List.mem_flatMap, List.mem_append, List.mem_map, List.mem_range, List.mem_range'_1] at hp
    obtain ⟨n, hn, ⟨d, hd, rfl⟩ | ⟨m, hm, ⟨d, hd, rfl⟩ | ⟨d, hd, rfl⟩⟩⟩ := hp
    · exact flat_lt (lt n d hn hd) (lt n d hn hd)
    · exact flat_lt (lt n d hn hd) (lt m d (by omega) hd)
    · exact flat_lt (lt m d (by omega) hd) (lt n d hn hd)
  obtain ⟨B, h1, h2, h3⟩ := addAll_form _ hl hA
  refine ⟨B, h1, h2, fun U V => ?_⟩
  rw [h3]
  congr 1
  have at_ : ∀ n m d, n < N → m < N → d < dim → ((n + d * N) * (dim * N) + (m + d * N)) / (dim * N) = n + d * N ∧
      ((n + d * N) * (dim * N) + (m + d * N)) % (dim * N) = m + d * N := by
    intro n m d hn hm hd
    have h := lt m d hm hd
    have hp : 0 < dim * N := by omega
    rw [mul_comm (n + d * N)]
    exact ⟨by rw [Nat.mul_add_div hp, Nat.div_eq_of_lt h, add_zero], by rw [Nat.mul_add_mod, Nat.mod_eq_of_lt h]⟩
  have key : ((massAdds dim N det w rho S).map fun p => U (p.1 / (dim * N)) * p.2 * V (p.1 % (dim * N))).sum =
      ∑ n ∈ Finset.range N, ((∑ d ∈ Finset.range dim, U (n + d * N) * (det * w * rho * (S n * S n)) * V (n + d * N)) +
        ∑ i ∈ Finset.range (N - (n + 1)), ((∑ d ∈ Finset.range dim, U (n + d * N) * (det * w * rho * (S n * S (n + 1 + i))) * V (n + 1 + i + d * N)) +
          ∑ d ∈ Finset.range dim, U (n + 1 + i + d * N) * (det * w * rho * (S (n + 1 + i) * S n)) * V (n + d * N))) := by
    unfold massAdds
    dsimp only
    rw [sum_flat_pairs, sum_range_list]
    refine Finset.sum_congr rfl fun n hn => ?_
    have hn := Finset.mem_range.1 hn
    rw [List.map_append, List.sum_append, List.map_map, sum_range_list, sum_flat_pairs, sum_range'_list]
    congr 1
    · refine Finset.sum_congr rfl fun d hd => ?_
      obtain ⟨e1, e2⟩ := at_ n n d hn hn (Finset.mem_range.1 hd)
      simp only [Function.comp, e1, e2]
    · refine Finset.sum_congr rfl fun i hi => ?_
      have hi := Finset.mem_range.1 hi
      rw [List.map_append, List.sum_append, List.map_map, List.map_map, sum_range_list, sum_range_list]
      congr 1
      · refine Finset.sum_congr rfl fun d hd => ?_
        obtain ⟨e1, e2⟩ := at_ n (n + 1 + i) d hn (by omega) (Finset.mem_range.1 hd)
        simp only [Function.comp, e1, e2]
      · refine Finset.sum_congr rfl fun d hd => ?_
        obtain ⟨e1, e2⟩ := at_ (n + 1 + i) n d (by omega) hn (Finset.mem_range.1 hd)
        simp only [Function.comp, e1, e2, mul_comm (S n) (S (n + 1 + i))]
  rw [key, mirror_sum N fun n m => ∑ d ∈ Finset.range dim, U (n + d * N) * (det * w * rho * (S n * S m)) * V (m + d * N), Finset.mul_sum]
  rw [Finset.sum_congr rfl fun n _ => Finset.sum_comm, Finset.sum_comm]
  refine Finset.sum_congr rfl fun d _ => ?_
  rw [Finset.sum_mul_sum, Finset.mul_sum]
  refine Finset.sum_congr rfl fun n _ => ?_
  rw [Finset.mul_sum]
  refine Finset.sum_congr rfl fun m _ => ?_
  rw [add_comm n, add_comm m]
  ring

omit [DecidableEq K] in
theorem loads2 (N : Nat) (f g : Nat → K) (V : Nat → K) :
    ((((List.range N).flatMap fun n => [(0 * N + n, f n), (1 * N + n, g n)])).map fun p => p.2 * V p.1).sum =
      ∑ n ∈ Finset.range N, f n * V (0 * N + n) + ∑ n ∈ Finset.range N, g n * V (1 * N + n) := by
  rw [sum_flat_pairs, sum_range_list, ← Finset.sum_add_distrib]
  exact Finset.sum_congr rfl fun n _ => by simp

omit [DecidableEq K] in
theorem loads3 (N : Nat) (f g h : Nat → K) (V : Nat → K) :
    ((((List.range N).flatMap fun n => [(0 * N + n, f n), (1 * N + n, g n), (2 * N + n, h n)])).map fun p => p.2 * V p.1).sum =
      ∑ n ∈ Finset.range N, f n * V (0 * N + n) + ∑ n ∈ Finset.range N, g n * V (1 * N + n) + ∑ n ∈ Finset.range N, h n * V (2 * N + n) := by
  rw [sum_flat_pairs, sum_range_list, ← Finset.sum_add_distrib, ← Finset.sum_add_distrib]
  exact Finset.sum_congr rfl fun n _ => by simp [add_assoc]

omit [DecidableEq K] in
theorem loads1 (N e : Nat) (f : Nat → K) (V : Nat → K) :
    ((((List.range N).flatMap fun n => [(e * N + n, f n)])).map fun p => p.2 * V p.1).sum = ∑ n ∈ Finset.range N, f n * V (e * N + n) := by
  rw [sum_flat_pairs, sum_range_list]
  exact Finset.sum_congr rfl fun n _ => by simp

omit [DecidableEq K] in
theorem scaled_sum (N d : Nat) (k : K) (S V : Nat → K) (f : Nat → K) (hf : ∀ n, f n = k * S n) :
    ∑ n ∈ Finset.range N, f n * V (d * N + n) = k * ∑ n ∈ Finset.range N, S n * V (d * N + n) := by
  rw [Finset.mul_sum]
  exact Finset.sum_congr rfl fun n _ => by rw [hf, mul_assoc]

/-- The acceleration in a point. -/
theorem accelerationLoads_work {d : Nat} (hd : d = 2 ∨ d = 3) (b : Behaviour) (pi : K) (N : Nat) (t det w rho : K) (x S a : Nat → K) {A : List K}
    (hA : A.length = d * N) :
    ∃ B, addAll (accelerationLoads d b pi N t det w rho x S a) A = some B ∧ B.length = d * N ∧ ∀ V, workOf (d * N) B V = workOf (d * N) A V +
      (if d = 2 then (if b = .axisymmetric then 2 * pi * x 0 else t) else 1) * det * w * rho *
        ∑ e ∈ Finset.range d, pullOf d b a e * ∑ n ∈ Finset.range N, S n * V (e * N + n) := by
  have hl : ∀ p ∈ accelerationLoads d b pi N t det w rho x S a, p.1 < d * N := by
    intro p hp
    rcases hd with rfl | rfl
    · simp only [accelerationLoads] at hp
      split at hp
      · simp only [List.mem_flatMap, List.mem_range, List.mem_cons, List.not_mem_nil, or_false] at hp
        obtain ⟨n, hn, rfl⟩ := hp
        dsimp only; omega
      · simp only [List.mem_flatMap, List.mem_range, List.mem_cons, List.not_mem_nil, or_false] at hp
        obtain ⟨n, hn, rfl | rfl⟩ := hp <;> dsimp only <;> omega
    · simp only [accelerationLoads, List.mem_flatMap, List.mem_range, List.mem_cons, List.not_mem_nil, or_false] at hp
      obtain ⟨n, hn, rfl | rfl | rfl⟩ := hp <;> dsimp only <;> omega
  obtain ⟨B, h1, h2, h3⟩ := addAll_work _ hl hA
  refine ⟨B, h1, h2, fun V => ?_⟩
  rw [h3]
  congr 1
  rcases hd with rfl | rfl
  · by_cases hb : b = .axisymmetric
    · simp only [accelerationLoads, if_pos hb, if_true, pullOf, hb, and_self, Finset.sum_range_succ, Finset.sum_range_zero]
      rw [loads1, scaled_sum N 1 (det * w * (2 * pi) * x 0 * rho * a 1) S V _ fun n => by ring]
      simp
      ring
    · simp only [accelerationLoads, if_neg hb, if_true, pullOf, hb, and_false, if_false, Finset.sum_range_succ, Finset.sum_range_zero]
      rw [loads2, scaled_sum N 0 (t * det * w * rho * a 0) S V _ fun n => by ring, scaled_sum N 1 (t * det * w * rho * a 1) S V _ fun n => by ring]
      ring
  · simp only [accelerationLoads, show ¬ (3 = 2) by decide, if_false, pullOf, false_and, Finset.sum_range_succ, Finset.sum_range_zero]
    rw [loads3, scaled_sum N 0 (det * w * rho * a 0) S V _ fun n => by ring, scaled_sum N 1 (det * w * rho * a 1) S V _ fun n => by ring,
      scaled_sum N 2 (det * w * rho * a 2) S V _ fun n => by ring]
    ring

/-- The acceleration that the code takes for the centrifugal one in space: without the mixed products of the angular velocity. -/
def spinCode (dim : Nat) (o x : Nat → K) (d : Nat) : K :=
  if dim = 3 then (o 0 * o 0 + o 1 * o 1 + o 2 * o 2 - o d * o d) * x d else centrifugal o x d

/-- The angular velocity in a point. -/
theorem angularLoads_work {d : Nat} (hd : d = 2 ∨ d = 3) (b : Behaviour) (pi : K) (N : Nat) (t det w rho : K) (x S o : Nat → K) {A : List K}
    (hA : A.length = d * N) :
    ∃ B, addAll (angularLoads d b pi N t det w rho x S o) A = some B ∧ B.length = d * N ∧ ∀ V, workOf (d * N) B V = workOf (d * N) A V +
      (if d = 2 then (if b = .axisymmetric then 2 * pi * x 0 else t) else 1) * det * w * rho *
        ∑ e ∈ Finset.range d, spinCode d (spinOf d b o) (fun i => if d = 2 ∧ i = 2 then 0 else x i) e * ∑ n ∈ Finset.range N, S n * V (e * N + n) := by
  have hl : ∀ p ∈ angularLoads d b pi N t det w rho x S o, p.1 < d * N := by
    intro p hp
    rcases hd with rfl | rfl
    · simp only [angularLoads] at hp
      split at hp
      · simp only [List.mem_flatMap, List.mem_range, List.mem_cons, List.not_mem_nil, or_false] at hp
        obtain ⟨n, hn, rfl⟩ := hp
        dsimp only; omega
      · simp only [List.mem_flatMap, List.mem_range, List.mem_cons, List.not_mem_nil, or_false] at hp
        obtain ⟨n, hn, rfl | rfl⟩ := hp <;> dsimp only <;> omega
    · simp only [angularLoads, List.mem_flatMap, List.mem_range, List.mem_cons, List.not_mem_nil, or_false] at hp
      obtain ⟨n, hn, rfl | rfl | rfl⟩ := hp <;> dsimp only <;> omega
  obtain ⟨B, h1, h2, h3⟩ := addAll_work _ hl hA
  refine ⟨B, h1, h2, fun V => ?_⟩
  rw [h3]
  congr 1
  rcases hd with rfl | rfl
  · by_cases hb : b = .axisymmetric
    · simp only [angularLoads, if_pos hb, if_true]
      rw [loads1, scaled_sum N 0 (det * w * (2 * pi) * x 0 * rho * o 1 * o 1 * x 0) S V _ fun n => by ring]
      simp [spinCode, centrifugal, spinOf, hb, Finset.sum_range_succ]
      ring
    · simp only [angularLoads, if_neg hb, if_true]
      rw [loads2, scaled_sum N 0 (t * det * w * rho * o 2 * o 2 * x 0) S V _ fun n => by ring, scaled_sum N 1 (t * det * w * rho * o 2 * o 2 * x 1) S V _ fun n => by ring]
      simp [spinCode, centrifugal, spinOf, hb, Finset.sum_range_succ]
      ring
  · simp only [angularLoads, show ¬ (3 = 2) by decide, if_false]
    rw [loads3, scaled_sum N 0 (det * w * rho * x 0 * (o 1 * o 1 + o 2 * o 2)) S V _ fun n => by ring,
      scaled_sum N 1 (det * w * rho * x 1 * (o 0 * o 0 + o 2 * o 2)) S V _ fun n => by ring,
      scaled_sum N 2 (det * w * rho * x 2 * (o 0 * o 0 + o 1 * o 1)) S V _ fun n => by ring]
    simp [spinCode, spinOf, Finset.sum_range_succ]
    ring

/-- Pressures in a point. -/
theorem pressureLoads_work {d : Nat} (hd : d = 2 ∨ d = 3) (b : Behaviour) (pi : K) (N : Nat) (det w : K) (x S : Nat → K) (v : K) (r : Nat → K) {A : List K}
    (hA : A.length = d * N) :
    ∃ B, addAll (pressureLoads d b pi N det w x S v r) A = some B ∧ B.length = d * N ∧ ∀ V, workOf (d * N) B V = workOf (d * N) A V +
      (if d = 2 ∧ b = .axisymmetric then 2 * pi * x 0 else 1) * det * w * v * ∑ e ∈ Finset.range d, r e * ∑ n ∈ Finset.range N, S n * V (e * N + n) := by
  have hl : ∀ p ∈ pressureLoads d b pi N det w x S v r, p.1 < d * N := by
    intro p hp
    rcases hd with rfl | rfl
    · simp only [pressureLoads] at hp
      split at hp <;> simp only [List.mem_flatMap, List.mem_range, List.mem_cons, List.not_mem_nil, or_false] at hp <;>
        (obtain ⟨n, hn, rfl | rfl⟩ := hp <;> dsimp only <;> omega)
    · simp only [pressureLoads, List.mem_flatMap, List.mem_range, List.mem_cons, List.not_mem_nil, or_false] at hp
      obtain ⟨n, hn, rfl | rfl | rfl⟩ := hp <;> dsimp only <;> omega
  obtain ⟨B, h1, h2, h3⟩ := addAll_work _ hl hA
  refine ⟨B, h1, h2, fun V => ?_⟩
  rw [h3]
  congr 1
  rcases hd with rfl | rfl
  · by_cases hb : b = .axisymmetric
    · simp only [pressureLoads, if_pos hb, if_true]
      rw [loads2, scaled_sum N 0 (det * w * (2 * pi) * x 0 * v * r 0) S V _ fun n => by ring,
        scaled_sum N 1 (det * w * (2 * pi) * x 0 * v * r 1) S V _ fun n => by ring]
      simp [hb, Finset.sum_range_succ]
      ring
    · simp only [pressureLoads, if_neg hb, if_true]
      rw [loads2, scaled_sum N 0 (det * w * v * r 0) S V _ fun n => by ring, scaled_sum N 1 (det * w * v * r 1) S V _ fun n => by ring]
      simp [hb, Finset.sum_range_succ]
      ring
  · simp only [pressureLoads, show ¬ (3 = 2) by decide, false_and, if_false]
    rw [loads3, scaled_sum N 0 (det * w * v * r 0) S V _ fun n => by ring, scaled_sum N 1 (det * w * v * r 1) S V _ fun n => by ring,
      scaled_sum N 2 (det * w * v * r 2) S V _ fun n => by ring]
    simp [Finset.sum_range_succ]
    ring

/-- The pressures along the normal are pressures with a direction: along the normal of edges in a plane, against the normal of faces in space. -/
theorem normalPressureLoads_eq {d : Nat} (hd : d = 2 ∨ d = 3) (b : Behaviour) (pi : K) (N : Nat) (det w : K) (x S : Nat → K) (v : K) (r : Nat → K) :
    normalPressureLoads d b pi N det w x S v r = pressureLoads d b pi N det w x S v fun e => if d = 2 then r e else -r e := by
  rcases hd with rfl | rfl
  · rfl
  · simp [normalPressureLoads, pressureLoads]

end

end Verif.Fem
