import Verif.Proof.AddTo
import Verif.Spec.Elasticity
import Verif.Prop.Conductivity
import Mathlib.Tactic.IntervalCases
import Mathlib.Tactic.LinearCombination
/-!
The products and the matrices of the structural mechanics.
-/
namespace Verif.Fem

section
variable {K : Type} [Field K]

theorem sumLoop_eq (n : Nat) (f : Nat → K) : sumLoop n f = ∑ k ∈ Finset.range n, f k := by
  have := foldl_sum (S := K) (fun s k => s + f k) id f (fun s n => rfl) n 0
  simpa [sumLoop] using this

theorem multAtBA_spec (rows cols : Nat) (A B : Nat → K) (scale : K) {C : List K} (hC : C.length = cols * cols) :
    ∃ D, multAtBA rows cols C A B scale = some D ∧ D.length = cols * cols ∧ ∀ a < cols, ∀ b < cols,
      entry D (a * cols + b) = entry C (a * cols + b) +
        scale * ∑ k ∈ Finset.range rows, (∑ j ∈ Finset.range rows, A (j * cols + a) * B (j * rows + k)) * A (k * cols + b) := by
  obtain ⟨D, h1, h2, h3⟩ := addFull_spec cols (fun r c => scale * sumLoop rows fun k => (sumLoop rows fun j => A (j * cols + r) * B (j * rows + k)) * A (k * cols + c)) hC
  refine ⟨D, h1, h2, fun a ha b hb => ?_⟩
  rw [h3 a ha b hb]
  simp only [sumLoop_eq]

theorem multABAt_spec (rows cols : Nat) (A B : Nat → K) (scale : K) {C : List K} (hC : C.length = rows * rows) :
    ∃ D, multABAt rows cols C A B scale = some D ∧ D.length = rows * rows ∧ ∀ a < rows, ∀ b < rows,
      entry D (a * rows + b) = entry C (a * rows + b) +
        scale * ∑ k ∈ Finset.range cols, (∑ i ∈ Finset.range cols, A (a * cols + i) * B (i * cols + k)) * A (b * cols + k) := by
  obtain ⟨D, h1, h2, h3⟩ := addFull_spec rows (fun n m => scale * sumLoop cols fun k => (sumLoop cols fun i => A (n * cols + i) * B (i * cols + k)) * A (m * cols + k)) hC
  refine ⟨D, h1, h2, fun a ha b hb => ?_⟩
  rw [h3 a ha b hb]
  simp only [sumLoop_eq]

theorem multAtB1_spec (rows common : Nat) (A B : Nat → K) (scale : K) {C : List K} (hC : C.length = rows) :
    ∃ D, multAtB1 rows common C A B scale = some D ∧ D.length = rows ∧ ∀ a < rows,
      entry D a = entry C a + scale * ∑ k ∈ Finset.range common, A (k * rows + a) * B k := by
  have h := Adds.loop (len := rows) (List.range rows) (fun r C => addTo C r (scale * sumLoop common fun k => A (k * rows + r) * B k))
    (fun r j => if j = r then scale * sumLoop common fun k => A (k * rows + r) * B k else 0) fun r hr => Adds.one (List.mem_range.1 hr) _
  obtain ⟨D, h1, h2, h3⟩ := h C hC
  refine ⟨D, h1, h2, fun a ha => ?_⟩
  rw [h3]
  dsimp only
  rw [sum_range_list, Finset.sum_eq_single a]
  · rw [if_pos rfl, sumLoop_eq]
  · exact fun b _ hb => if_neg (Ne.symm hb)
  · exact fun h => absurd (Finset.mem_range.2 ha) h

/-- A sequence of assignments that agrees with a function. -/
theorem assign_spec (l : List (Nat × K)) (g : Nat → K) (A : List K) (hl : ∀ p ∈ l, p.1 < A.length ∧ p.2 = g p.1) :
    ∃ B, assign l A = some B ∧ B.length = A.length ∧ (∀ p ∈ l, entry B p.1 = g p.1) ∧ ∀ j, (∀ p ∈ l, p.1 ≠ j) → entry B j = entry A j := by
  induction l generalizing A with
  | nil => exact ⟨A, rfl, rfl, by simp, by simp⟩
  | cons p l ih =>
    obtain ⟨h1, h2⟩ := hl p (by simp)
    obtain ⟨B, i1, i2, i3, i4⟩ := ih (A.set p.1 p.2) fun q hq => by
      rw [List.length_set]
      exact hl q (by simp [hq])
    rw [List.length_set] at i2
    refine ⟨B, ?_, i2, fun q hq => ?_, fun j hj => ?_⟩
    · unfold assign at i1 ⊢
      rw [List.foldlM_cons]
      simp only [wr, h1, if_true, Option.bind_eq_bind, Option.bind_some]
      exact i1
    · by_cases hm : ∃ r ∈ l, r.1 = q.1
      · obtain ⟨r, hr, e⟩ := hm
        rw [← e]
        exact i3 r hr
      · have hq : q = p := by
          rcases List.mem_cons.1 hq with h | h
          · exact h
          · exact absurd ⟨q, h, rfl⟩ hm
        subst hq
        rw [i4 q.1 fun r hr e => hm ⟨r, hr, e⟩, entry, List.getElem?_set_self h1, Option.getD_some, h2]
    · rw [i4 j fun q hq => hj q (by simp [hq]), entry, entry, List.getElem?_set_ne (hj p (by simp))]

theorem table_index {d N k j n : Nat} (hj : j < d) (hn : n < N) :
    (k * (d * N) + (j * N + n)) / (d * N) = k ∧ (k * (d * N) + (j * N + n)) / N % d = j ∧ (k * (d * N) + (j * N + n)) % N = n := by
  have hN : 0 < N := by omega
  have hd : 0 < d := by omega
  have h1 : j * N + n < d * N := by
    have : (j + 1) * N ≤ d * N := Nat.mul_le_mul_right N hj
    rw [add_mul, one_mul] at this
    omega
  refine ⟨?_, ?_, ?_⟩
  · rw [mul_comm k, Nat.mul_add_div (Nat.mul_pos hd hN), Nat.div_eq_of_lt h1, add_zero]
  · have : k * (d * N) + (j * N + n) = N * (d * k + j) + n := by ring
    rw [this, Nat.mul_add_div hN, Nat.div_eq_of_lt hn, add_zero, Nat.mul_add_mod, Nat.mod_eq_of_lt hj]
  · have : k * (d * N) + (j * N + n) = N * (d * k + j) + n := by ring
    rw [this, Nat.mul_add_mod, Nat.mod_eq_of_lt hn]

theorem table_lt {rows d N k j n : Nat} (hk : k < rows) (hj : j < d) (hn : n < N) : k * (d * N) + (j * N + n) < rows * (d * N) := by
  have h1 : (j + 1) * N ≤ d * N := Nat.mul_le_mul_right N hj
  have h2 : (k + 1) * (d * N) ≤ rows * (d * N) := Nat.mul_le_mul_right _ hk
  rw [add_mul, one_mul] at h1 h2
  omega

/-- A table written entry by entry. -/
theorem assign_table {rows d N len : Nat} {l : List (Nat × K)} (h : Nat → Nat → Nat → K) (hlen : len = rows * (d * N))
    (h1 : ∀ p ∈ l, ∃ k < rows, ∃ j < d, ∃ n < N, p.1 = k * (d * N) + (j * N + n) ∧ p.2 = h k j n)
    (h2 : ∀ k < rows, ∀ j < d, ∀ n < N, h k j n = 0 ∨ ∃ p ∈ l, p.1 = k * (d * N) + (j * N + n)) :
    ∃ B, assign l (List.replicate len 0) = some B ∧ ∀ k < rows, ∀ j < d, ∀ n < N, entry B (k * (d * N) + (j * N + n)) = h k j n := by
  subst hlen
  obtain ⟨B, b1, -, b3, b4⟩ := assign_spec l (fun i => h (i / (d * N)) (i / N % d) (i % N)) (List.replicate (rows * (d * N)) 0) fun p hp => by
    obtain ⟨k, hk, j, hj, n, hn, e1, e2⟩ := h1 p hp
    obtain ⟨i1, i2, i3⟩ := table_index (k := k) hj hn
    refine ⟨?_, ?_⟩
    · rw [e1, List.length_replicate]
      exact table_lt hk hj hn
    · rw [e2, e1, i1, i2, i3]
  refine ⟨B, b1, fun k hk j hj n hn => ?_⟩
  obtain ⟨i1, i2, i3⟩ := table_index (k := k) hj hn
  by_cases hm : ∃ p ∈ l, p.1 = k * (d * N) + (j * N + n)
  · obtain ⟨p, hp, e⟩ := hm
    have := b3 p hp
    rw [e, i1, i2, i3] at this
    exact this
  · rcases h2 k hk j hj n hn with e | e
    · rw [b4 _ fun p hp e => hm ⟨p, hp, e⟩, entry_replicate, e]
    · exact absurd e hm

/-- The row `k` of the strains of the node functions. -/
def row2 (F : Nat → Nat → K) (dND : Nat → Nat → K) (k j n : Nat) : K :=
  match k with
  | 0 => F j 0 * dND n 0
  | 1 => F j 1 * dND n 1
  | _ => F j 0 * dND n 1 + F j 1 * dND n 0

def row3 (F : Nat → Nat → K) (dND : Nat → Nat → K) (k j n : Nat) : K :=
  match k with
  | 0 => F j 0 * dND n 0
  | 1 => F j 1 * dND n 1
  | 2 => F j 2 * dND n 2
  | 3 => F j 0 * dND n 1 + F j 1 * dND n 0
  | 4 => F j 1 * dND n 2 + F j 2 * dND n 1
  | _ => F j 0 * dND n 2 + F j 2 * dND n 0

def rowAxi (N : Nat → K) (r : K) (dND : Nat → Nat → K) (k j n : Nat) : K :=
  match k with
  | 0 => if j = 0 then dND n 0 else 0
  | 1 => if j = 1 then dND n 1 else 0
  | 2 => if j = 0 then N n / r else 0
  | _ => if j = 0 then dND n 1 else dND n 0

def unitF (j i : Nat) : K := if j = i then 1 else 0

theorem strain2_spec (N : Nat) (dND : Nat → Nat → K) :
    ∃ B, strain2 N dND = some B ∧ ∀ k < 3, ∀ j < 2, ∀ n < N, entry B (k * (2 * N) + (j * N + n)) = row2 unitF dND k j n := by
  refine assign_table (row2 unitF dND) (by ring) ?_ ?_
  · simp only [List.mem_flatMap, List.mem_range, List.mem_cons, List.not_mem_nil, or_false]
    rintro p ⟨n, hn, rfl | rfl | rfl | rfl⟩
    · exact ⟨0, by omega, 0, by omega, n, hn, by ring, by simp [row2, unitF]⟩
    · exact ⟨1, by omega, 1, by omega, n, hn, by ring, by simp [row2, unitF]⟩
    · exact ⟨2, by omega, 0, by omega, n, hn, by ring, by simp [row2, unitF]⟩
    · exact ⟨2, by omega, 1, by omega, n, hn, by ring, by simp [row2, unitF]⟩
  · simp only [List.mem_flatMap, List.mem_range, List.mem_cons, List.not_mem_nil, or_false]
    intro k hk j hj n hn
    interval_cases k <;> interval_cases j
    · exact Or.inr ⟨_, ⟨n, hn, Or.inl rfl⟩, by ring⟩
    · exact Or.inl (by simp [row2, unitF])
    · exact Or.inl (by simp [row2, unitF])
    · exact Or.inr ⟨_, ⟨n, hn, Or.inr (Or.inl rfl)⟩, by ring⟩
    · exact Or.inr ⟨_, ⟨n, hn, Or.inr (Or.inr (Or.inl rfl))⟩, by ring⟩
    · exact Or.inr ⟨_, ⟨n, hn, Or.inr (Or.inr (Or.inr rfl))⟩, by ring⟩

theorem strainAxi_spec [DecidableEq K] (N : Nat) (v : Nat → K) {r : K} (hr : r ≠ 0) (dND : Nat → Nat → K) :
    ∃ B, strainAxi N v r dND = some B ∧ ∀ k < 4, ∀ j < 2, ∀ n < N, entry B (k * (2 * N) + (j * N + n)) = rowAxi v r dND k j n := by
  unfold strainAxi
  rw [if_neg hr]
  refine assign_table (rowAxi v r dND) (by ring) ?_ ?_
  · simp only [List.mem_flatMap, List.mem_range, List.mem_cons, List.not_mem_nil, or_false]
    rintro p ⟨n, hn, rfl | rfl | rfl | rfl | rfl⟩
    · exact ⟨0, by omega, 0, by omega, n, hn, by ring, by simp [rowAxi]⟩
    · exact ⟨1, by omega, 1, by omega, n, hn, by ring, by simp [rowAxi]⟩
    · exact ⟨2, by omega, 0, by omega, n, hn, by ring, by simp [rowAxi]⟩
    · exact ⟨3, by omega, 0, by omega, n, hn, by ring, by simp [rowAxi]⟩
    · exact ⟨3, by omega, 1, by omega, n, hn, by ring, by simp [rowAxi]⟩
  · simp only [List.mem_flatMap, List.mem_range, List.mem_cons, List.not_mem_nil, or_false]
    intro k hk j hj n hn
    interval_cases k <;> interval_cases j
    · exact Or.inr ⟨_, ⟨n, hn, Or.inl rfl⟩, by ring⟩
    · exact Or.inl (by simp [rowAxi])
    · exact Or.inl (by simp [rowAxi])
    · exact Or.inr ⟨_, ⟨n, hn, Or.inr (Or.inl rfl)⟩, by ring⟩
    · exact Or.inr ⟨_, ⟨n, hn, Or.inr (Or.inr (Or.inl rfl))⟩, by ring⟩
    · exact Or.inl (by simp [rowAxi])
    · exact Or.inr ⟨_, ⟨n, hn, Or.inr (Or.inr (Or.inr (Or.inl rfl)))⟩, by ring⟩
    · exact Or.inr ⟨_, ⟨n, hn, Or.inr (Or.inr (Or.inr (Or.inr rfl)))⟩, by ring⟩

theorem strain3_spec (N : Nat) (dND : Nat → Nat → K) :
    ∃ B, strain3 N dND = some B ∧ ∀ k < 6, ∀ j < 3, ∀ n < N, entry B (k * (3 * N) + (j * N + n)) = row3 unitF dND k j n := by
  refine assign_table (row3 unitF dND) (by ring) ?_ ?_
  · simp only [List.mem_flatMap, List.mem_range, List.mem_cons, List.not_mem_nil, or_false]
    rintro p ⟨n, hn, rfl | rfl | rfl | rfl | rfl | rfl | rfl | rfl | rfl⟩
    · exact ⟨0, by omega, 0, by omega, n, hn, by ring, by simp [row3, unitF]⟩
    · exact ⟨1, by omega, 1, by omega, n, hn, by ring, by simp [row3, unitF]⟩
    · exact ⟨2, by omega, 2, by omega, n, hn, by ring, by simp [row3, unitF]⟩
    · exact ⟨3, by omega, 0, by omega, n, hn, by ring, by simp [row3, unitF]⟩
    · exact ⟨3, by omega, 1, by omega, n, hn, by ring, by simp [row3, unitF]⟩
    · exact ⟨4, by omega, 1, by omega, n, hn, by ring, by simp [row3, unitF]⟩
    · exact ⟨4, by omega, 2, by omega, n, hn, by ring, by simp [row3, unitF]⟩
    · exact ⟨5, by omega, 0, by omega, n, hn, by ring, by simp [row3, unitF]⟩
    · exact ⟨5, by omega, 2, by omega, n, hn, by ring, by simp [row3, unitF]⟩
  · simp only [List.mem_flatMap, List.mem_range, List.mem_cons, List.not_mem_nil, or_false]
    intro k hk j hj n hn
    interval_cases k <;> interval_cases j
    · exact Or.inr ⟨_, ⟨n, hn, Or.inl rfl⟩, by ring⟩
    · exact Or.inl (by simp [row3, unitF])
    · exact Or.inl (by simp [row3, unitF])
    · exact Or.inl (by simp [row3, unitF])
    · exact Or.inr ⟨_, ⟨n, hn, Or.inr (Or.inl rfl)⟩, by ring⟩
    · exact Or.inl (by simp [row3, unitF])
    · exact Or.inl (by simp [row3, unitF])
    · exact Or.inl (by simp [row3, unitF])
    · exact Or.inr ⟨_, ⟨n, hn, Or.inr (Or.inr (Or.inl rfl))⟩, by ring⟩
    · exact Or.inr ⟨_, ⟨n, hn, Or.inr (Or.inr (Or.inr (Or.inl rfl)))⟩, by ring⟩
    · exact Or.inr ⟨_, ⟨n, hn, Or.inr (Or.inr (Or.inr (Or.inr (Or.inl rfl))))⟩, by ring⟩
    · exact Or.inl (by simp [row3, unitF])
    · exact Or.inl (by simp [row3, unitF])
    · exact Or.inr ⟨_, ⟨n, hn, Or.inr (Or.inr (Or.inr (Or.inr (Or.inr (Or.inl rfl)))))⟩, by ring⟩
    · exact Or.inr ⟨_, ⟨n, hn, Or.inr (Or.inr (Or.inr (Or.inr (Or.inr (Or.inr (Or.inl rfl))))))⟩, by ring⟩
    · exact Or.inr ⟨_, ⟨n, hn, Or.inr (Or.inr (Or.inr (Or.inr (Or.inr (Or.inr (Or.inr (Or.inl rfl)))))))⟩, by ring⟩
    · exact Or.inl (by simp [row3, unitF])
    · exact Or.inr ⟨_, ⟨n, hn, Or.inr (Or.inr (Or.inr (Or.inr (Or.inr (Or.inr (Or.inr (Or.inr rfl)))))))⟩, by ring⟩

theorem green2_spec (N : Nat) (F : Nat → K) (dND : Nat → Nat → K) :
    ∃ B, green2 N F dND = some B ∧ ∀ k < 3, ∀ j < 2, ∀ n < N, entry B (k * (2 * N) + (j * N + n)) = row2 (fun j i => F (j * 2 + i)) dND k j n := by
  refine assign_table (row2 (fun j i => F (j * 2 + i)) dND) (by ring) ?_ ?_
  · simp only [List.mem_flatMap, List.mem_range, List.mem_cons, List.not_mem_nil, or_false]
    rintro p ⟨n, hn, j, hj, rfl | rfl | rfl⟩
    · exact ⟨0, by omega, j, hj, n, hn, by ring, rfl⟩
    · exact ⟨1, by omega, j, hj, n, hn, by ring, rfl⟩
    · exact ⟨2, by omega, j, hj, n, hn, by ring, rfl⟩
  · simp only [List.mem_flatMap, List.mem_range, List.mem_cons, List.not_mem_nil, or_false]
    intro k hk j hj n hn
    interval_cases k
    · exact Or.inr ⟨_, ⟨n, hn, j, hj, Or.inl rfl⟩, by ring⟩
    · exact Or.inr ⟨_, ⟨n, hn, j, hj, Or.inr (Or.inl rfl)⟩, by ring⟩
    · exact Or.inr ⟨_, ⟨n, hn, j, hj, Or.inr (Or.inr rfl)⟩, by ring⟩

theorem green3_spec (N : Nat) (F : Nat → K) (dND : Nat → Nat → K) :
    ∃ B, green3 N F dND = some B ∧ ∀ k < 6, ∀ j < 3, ∀ n < N, entry B (k * (3 * N) + (j * N + n)) = row3 (fun j i => F (j * 3 + i)) dND k j n := by
  refine assign_table (row3 (fun j i => F (j * 3 + i)) dND) (by ring) ?_ ?_
  · simp only [List.mem_flatMap, List.mem_range, List.mem_cons, List.not_mem_nil, or_false]
    rintro p ⟨n, hn, j, hj, rfl | rfl | rfl | rfl | rfl | rfl⟩
    · exact ⟨0, by omega, j, hj, n, hn, by ring, rfl⟩
    · exact ⟨1, by omega, j, hj, n, hn, by ring, rfl⟩
    · exact ⟨2, by omega, j, hj, n, hn, by ring, rfl⟩
    · exact ⟨3, by omega, j, hj, n, hn, by ring, rfl⟩
    · exact ⟨4, by omega, j, hj, n, hn, by ring, rfl⟩
    · exact ⟨5, by omega, j, hj, n, hn, by ring, rfl⟩
  · simp only [List.mem_flatMap, List.mem_range, List.mem_cons, List.not_mem_nil, or_false]
    intro k hk j hj n hn
    interval_cases k
    · exact Or.inr ⟨_, ⟨n, hn, j, hj, Or.inl rfl⟩, by ring⟩
    · exact Or.inr ⟨_, ⟨n, hn, j, hj, Or.inr (Or.inl rfl)⟩, by ring⟩
    · exact Or.inr ⟨_, ⟨n, hn, j, hj, Or.inr (Or.inr (Or.inl rfl))⟩, by ring⟩
    · exact Or.inr ⟨_, ⟨n, hn, j, hj, Or.inr (Or.inr (Or.inr (Or.inl rfl)))⟩, by ring⟩
    · exact Or.inr ⟨_, ⟨n, hn, j, hj, Or.inr (Or.inr (Or.inr (Or.inr (Or.inl rfl))))⟩, by ring⟩
    · exact Or.inr ⟨_, ⟨n, hn, j, hj, Or.inr (Or.inr (Or.inr (Or.inr (Or.inr rfl))))⟩, by ring⟩

/-- The loop over the diagonal blocks. -/
theorem addBlocks_spec (d N : Nat) {KS A : List K} (hK : KS.length = N * N) (hA : A.length = d * N * (d * N)) :
    ∃ B, addBlocks d N KS A = some B ∧ B.length = d * N * (d * N) ∧ ∀ j < d, ∀ n < N, ∀ l < d, ∀ m < N,
      entry B ((j * N + n) * (d * N) + (l * N + m)) = entry A ((j * N + n) * (d * N) + (l * N + m)) + if j = l then entry KS (n * N + m) else 0 := by
  have hlt : ∀ {j n}, j < d → n < N → j * N + n < d * N := fun {j n} hj hn => by
    have : (j + 1) * N ≤ d * N := Nat.mul_le_mul_right N hj
    rw [add_mul, one_mul] at this
    omega
  have h := Adds.loop (len := d * N * (d * N)) (List.range N)
    (fun n A => (List.range N).foldlM (fun A m => (List.range d).foldlM (fun A j => do
      let v ← KS[n * N + m]?
      addTo A ((n + j * N) * d * N + m + j * N) v) A) A)
    (fun n i => ((List.range N).map fun m => ((List.range d).map fun j => if i = (n + j * N) * d * N + m + j * N then entry KS (n * N + m) else 0).sum).sum)
    fun n hn => Adds.loop (List.range N) (fun m A => (List.range d).foldlM (fun A j => do
      let v ← KS[n * N + m]?
      addTo A ((n + j * N) * d * N + m + j * N) v) A) _
      fun m hm => Adds.loop (List.range d) (fun j A => do
        let v ← KS[n * N + m]?
        addTo A ((n + j * N) * d * N + m + j * N) v) _
        fun j hj => by
          have hn := List.mem_range.1 hn
          have hm := List.mem_range.1 hm
          have hj := List.mem_range.1 hj
          have hk : n * N + m < KS.length := by rw [hK]; exact flat_lt hn hm
          have e : entry KS (n * N + m) = KS[n * N + m] := by simp [entry, List.getElem?_eq_getElem hk]
          have hi : (n + j * N) * d * N + m + j * N < d * N * (d * N) := by
            have := flat_lt (hlt hj hn) (hlt hj hm)
            have e : (n + j * N) * d * N + m + j * N = (j * N + n) * (d * N) + (j * N + m) := by ring
            rw [e]
            exact this
          simp only [List.getElem?_eq_getElem hk, Option.bind_eq_bind, Option.bind_some]
          rw [e]
          exact Adds.one hi _
  obtain ⟨B, h1, h2, h3⟩ := h A hA
  refine ⟨B, h1, h2, fun j hj n hn l hl m hm => ?_⟩
  rw [h3]
  congr 1
  simp only [sum_range_list]
  have key : ∀ n' < N, ∀ m' < N, ∀ j' < d, ((j * N + n) * (d * N) + (l * N + m) = (n' + j' * N) * d * N + m' + j' * N) ↔ (j = j' ∧ n = n') ∧ l = j' ∧ m = m' := by
    intro n' hn' m' hm' j' hj'
    have e : (n' + j' * N) * d * N + m' + j' * N = (j' * N + n') * (d * N) + (j' * N + m') := by ring
    rw [e, flat_inj (hlt hl hm) (hlt hj' hm'), flat_inj hn hn', flat_inj hm hm']
  rw [Finset.sum_eq_single n, Finset.sum_eq_single m, Finset.sum_eq_single j]
  · by_cases e : j = l
    · rw [if_pos ((key n hn m hm j hj).2 ⟨⟨rfl, rfl⟩, e.symm, rfl⟩), if_pos e]
    · rw [if_neg fun h => e ((key n hn m hm j hj).1 h).2.1.symm, if_neg e]
  · exact fun j' hj' hne => if_neg fun h => hne ((key n hn m hm j' (Finset.mem_range.1 hj')).1 h).1.1.symm
  · exact fun h => absurd (Finset.mem_range.2 hj) h
  · exact fun m' hm' hne => Finset.sum_eq_zero fun j' hj' => if_neg fun h => hne ((key n hn m' (Finset.mem_range.1 hm') j' (Finset.mem_range.1 hj')).1 h).2.2.symm
  · exact fun h => absurd (Finset.mem_range.2 hm) h
  · exact fun n' hn' hne => Finset.sum_eq_zero fun m' hm' => Finset.sum_eq_zero fun j' hj' => if_neg fun h =>
      hne ((key n' (Finset.mem_range.1 hn') m' (Finset.mem_range.1 hm') j' (Finset.mem_range.1 hj')).1 h).1.2.symm
  · exact fun h => absurd (Finset.mem_range.2 hn) h

/-- A sum over the unknowns of an element is a sum over the components and the nodes. -/
theorem sum_blocks (d N : Nat) (f : Nat → K) : ∑ a ∈ Finset.range (d * N), f a = ∑ j ∈ Finset.range d, ∑ n ∈ Finset.range N, f (j * N + n) := by
  induction d with
  | zero => simp
  | succ d ih => rw [add_mul, one_mul, Finset.sum_range_add, ih, Finset.sum_range_succ]

end

end Verif.Fem
