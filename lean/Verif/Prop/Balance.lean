import Verif.Proof.Balance
import Verif.Prop.Comm
import Verif.Model.Exscan
import Mathlib.Algebra.Group.Nat.Defs
/-!
C25: `exscan` and `getDistribution`.  C26: `balance`.
-/
namespace Verif.Comm
open Verif.Mpi

variable {T : Type}

/-! ### C26 -/

theorem prefix_length {n N : Nat} {d : List Nat} (hd : Distribution n N d) {buf : Nat → List T} (hb : ∀ i, i < n → (buf i).length = d.getD (i + 1) 0 - d.getD i 0) :
    ∀ k, k ≤ n → ((List.range k).map buf).flatten.length = d.getD k 0 := by
  intro k
  induction k with
  | zero => intro _; simpa using hd.first.symm
  | succ k ih =>
      intro hk
      have := getD_mono hd.sorted (show k ≤ k + 1 by omega) (by rw [hd.length]; omega)
      rw [List.range_succ, List.map_append, List.flatten_append, List.length_append, ih (by omega)]
      simp only [List.map_cons, List.map_nil, List.flatten_cons, List.flatten_nil, List.append_nil, hb k (by omega)]
      omega

theorem buf_seg {n N : Nat} {d : List Nat} (hd : Distribution n N d) {buf : Nat → List T} (hb : ∀ i, i < n → (buf i).length = d.getD (i + 1) 0 - d.getD i 0)
    {i : Nat} (hi : i < n) : buf i = seg ((List.range n).map buf).flatten (d.getD i 0) (d.getD (i + 1) 0) := by
  have h1 := prefix_length hd hb i (by omega)
  have e : (List.range n).map buf = (List.range i).map buf ++ buf i :: (List.range' (i + 1) (n - (i + 1))).map buf := by
    have : List.range n = List.range i ++ i :: List.range' (i + 1) (n - (i + 1)) := by
      have h := List.range'_append_1 (s := 0) (m := i) (n := n - (i + 1) + 1)
      rw [List.range_eq_range', List.range_eq_range', ← List.range'_succ, ← show i + (n - (i + 1) + 1) = n by omega, ← h]
      congr 2 <;> omega
    rw [this, List.map_append, List.map_cons]
  rw [e, List.flatten_append, List.flatten_cons]
  unfold seg
  rw [← h1, List.drop_left, h1, ← hb i hi, List.take_left]

theorem segs_concat {n N : Nat} {d : List Nat} (hd : Distribution n N d) (G : List T) :
    ∀ k, k ≤ n → ((List.range k).map fun i => seg G (d.getD i 0) (d.getD (i + 1) 0)).flatten = seg G 0 (d.getD k 0) := by
  intro k
  induction k with
  | zero => intro _; rw [hd.first]; simp [seg]
  | succ k ih =>
      intro hk
      have := getD_mono hd.sorted (show k ≤ k + 1 by omega) (by rw [hd.length]; omega)
      rw [List.range_succ, List.map_append, List.flatten_append, ih (by omega)]
      simp only [List.map_cons, List.map_nil, List.flatten_cons, List.flatten_nil, List.append_nil]
      exact seg_append (Nat.zero_le _) this

/-- C26: whatever the interleaving, `balance` finishes; afterwards the sequence of all elements, in rank order, is the same and the size of the part of
each rank is given by the target distribution. -/
theorem C26_balance [Inhabited T] (t n N : Nat) (cur tgt : List Nat) (hc : Distribution n N cur) (ht : Distribution n N tgt) (buf : Nat → List T)
    (hb : ∀ i, i < n → (buf i).length = cur.getD (i + 1) 0 - cur.getD i 0) :
    ∃ res : Nat → List T, Completes (world 0 n fun i => balance t n i (buf i) cur tgt) (finished 0 n fun i => some (res i)) ∧
      (contributions 0 n res).flatten = (contributions 0 n buf).flatten ∧
      ∀ i, i < n → (res i).length = tgt.getD (i + 1) 0 - tgt.getD i 0 := by
  have hG : ((List.range n).map buf).flatten.length = N := by rw [prefix_length hc hb n (Nat.le_refl _), hc.last]
  have key := balance_completes (t := t) hc ht hG
  refine ⟨fun i => seg ((List.range n).map buf).flatten (tgt.getD i 0) (tgt.getD (i + 1) 0), ?_, ?_, ?_⟩
  · refine cast ?_ key
    congr 1
    unfold world
    congr 1; funext i
    by_cases hi : 0 ≤ i ∧ i < n
    · rw [if_pos hi, if_pos hi]; beta_reduce; rw [← buf_seg hc hb hi.2]
    · rw [if_neg hi, if_neg hi]
  · unfold contributions
    rw [Nat.sub_zero, ← List.range_eq_range', segs_concat ht _ n (Nat.le_refl _), ht.last]
    unfold seg
    rw [List.drop_zero, List.take_of_length_le (by omega)]
  · intro i hi
    have := getD_mono ht.sorted (show i + 1 ≤ n by omega) (by rw [ht.length]; omega)
    exact seg_length (by rw [hG, ← ht.last]; exact this)

/-- Three ranks, one of them is empty, to a distribution with another empty one. -/
example : Distribution 3 5 [0, 4, 4, 5] ∧ Distribution 3 5 [0, 1, 5, 5] ∧
    (let buf : Nat → List Nat := fun i => if i = 0 then [10, 11, 12, 13] else if i = 1 then [] else [14]
    ∀ i, i < 3 → (buf i).length = [0, 4, 4, 5].getD (i + 1) 0 - [0, 4, 4, 5].getD i 0) :=
  ⟨⟨rfl, by decide, rfl, rfl⟩, ⟨rfl, by decide, rfl, rfl⟩, by decide⟩

/-! ### C25 -/

variable [AddMonoid T]

theorem sum_range_succ' (v : Nat → T) (i : Nat) : ((List.range (i + 1)).map v).sum = ((List.range i).map v).sum + v i := by
  induction i generalizing v with
  | zero => simp
  | succ i ih =>
      rw [List.range_succ_eq_map, List.map_cons, List.sum_cons, List.map_map, ih (v ∘ Nat.succ), List.range_succ_eq_map, List.map_cons, List.sum_cons, List.map_map,
        add_assoc]
      rfl

/-- C25: the value becomes the sum over the lower ranks and everybody gets the sum over all ranks, whatever MPI leaves in the buffer of rank 0. -/
theorem C25_exscan (n : Nat) (undef : T) (v : Nat → T) (i : Nat) (hi : i < n) :
    exscan n undef v i = ((contributions 0 n v).sum, (contributions 0 i v).sum) := by
  unfold contributions
  rw [Nat.sub_zero, Nat.sub_zero, ← List.range_eq_range', ← List.range_eq_range']
  unfold exscan
  by_cases h1 : n = 1
  · subst h1
    have : i = 0 := by omega
    subst this
    simp
  · rw [if_neg h1]
    have e : ((List.range n).map v).sum = mpiExscan undef v (n - 1) + v (n - 1) := by
      unfold mpiExscan
      rw [if_neg (by omega), ← sum_range_succ', show n - 1 + 1 = n by omega]
    rw [e]
    show (_, _) = (_, _)
    congr 1
    by_cases h0 : i = 0
    · rw [if_pos h0, h0]; rfl
    · rw [if_neg h0]; unfold mpiExscan; rw [if_neg h0]

/-- C25: the version for vectors, component by component. -/
theorem C25_exscanVec (n k : Nat) (undef : List T) (v : Nat → List T) (hv : ∀ i, i < n → (v i).length = k) (i : Nat) (hi : i < n) :
    (exscanVec n k undef v i).1.length = k ∧ (exscanVec n k undef v i).2.length = k ∧
    ∀ c, c < k → (exscanVec n k undef v i).1[c]? = some (contributions 0 n fun j => (v j).getD c 0).sum ∧
      (exscanVec n k undef v i).2[c]? = some (contributions 0 i fun j => (v j).getD c 0).sum := by
  have el : ∀ j c, j < n → c < k → (v j)[c]? = some ((v j).getD c 0) := by
    intro j c hj hc
    rw [List.getD_eq_getElem?_getD, List.getElem?_eq_getElem (by rw [hv j hj]; exact hc)]; rfl
  unfold exscanVec contributions
  by_cases h1 : n = 1
  · subst h1
    have : i = 0 := by omega
    subst this
    rw [if_pos rfl]
    refine ⟨hv 0 hi, by simpa using hv 0 hi, ?_⟩
    intro c hc
    rw [el 0 c hi hc, List.getElem?_map, el 0 c hi hc]
    simp
  · rw [if_neg h1]
    unfold mpiBcast
    refine ⟨?_, ?_, ?_⟩
    · simp [hv (n - 1) (by omega)]
    · dsimp only; split <;> simp
    · intro c hc
      rw [Nat.sub_zero, Nat.sub_zero, ← List.range_eq_range', ← List.range_eq_range']
      constructor
      · rw [List.getElem?_zipWith, el _ c (by omega) hc, List.getElem?_map, List.getElem?_range hc]
        show some (mpiExscan _ _ _ + _) = _
        unfold mpiExscan
        rw [if_neg (by omega), ← sum_range_succ' (fun j => (v j).getD c 0), show n - 1 + 1 = n by omega]
      · dsimp only
        by_cases h0 : i = 0
        · rw [if_pos h0, List.getElem?_map, List.getElem?_map, List.getElem?_range hc, h0]; rfl
        · rw [if_neg h0, List.getElem?_map, List.getElem?_range hc]
          unfold mpiExscan
          rw [Option.map_some, if_neg h0]

/-- C25: every rank gets the same borders; border `k` is the number of elements of the ranks below `k`. -/
theorem C25_getDistribution (n : Nat) (undef : T) (size : Nat → T) (i : Nat) (hi : i < n) :
    getDistribution n undef size i = (List.range (n + 1)).map fun k => (contributions 0 k size).sum := by
  have e : ∀ j, j < n → (exscan n undef size j).2 = ((List.range j).map size).sum := by
    intro j hj
    rw [C25_exscan n undef size j hj]
    show ((List.range' 0 (j - 0)).map size).sum = _
    rw [Nat.sub_zero, ← List.range_eq_range']
  unfold getDistribution mpiAllgather mpiBcast
  simp only [List.dropLast_concat, List.getLast?_concat, Option.getD_some]
  rw [List.range_succ, List.map_append, e (n - 1) (by omega), ← sum_range_succ', show n - 1 + 1 = n by omega]
  unfold contributions
  simp only [Nat.sub_zero, ← List.range_eq_range', List.map_cons, List.map_nil]
  congr 1
  apply List.map_congr_left
  intro j hj
  exact e j (List.mem_range.1 hj)

/-- C25: with natural numbers this is a distribution in the sense of C26 with the given sizes. -/
theorem C25_distribution (n undef : Nat) (size : Nat → Nat) (i : Nat) (hi : i < n) :
    Distribution n (contributions 0 n size).sum (getDistribution n undef size i) ∧
    ∀ k, k < n → (getDistribution n undef size i).getD (k + 1) 0 - (getDistribution n undef size i).getD k 0 = size k := by
  have e := C25_getDistribution n undef size i hi
  have g : ∀ k, k ≤ n → (getDistribution n undef size i).getD k 0 = ((List.range k).map size).sum := by
    intro k hk
    rw [e, List.getD_eq_getElem?_getD, List.getElem?_map, List.getElem?_range (by omega)]
    simp [contributions, List.range_eq_range']
  have mono : ∀ a b, a ≤ b → ((List.range a).map size).sum ≤ ((List.range b).map size).sum := by
    intro a b hab
    induction hab with
    | refl => exact Nat.le_refl _
    | step _ ih => rw [Nat.succ_eq_add_one, sum_range_succ']; omega
  refine ⟨⟨by rw [e]; simp, ?_, by rw [g 0 (by omega)]; rfl, ?_⟩, ?_⟩
  · rw [e, List.pairwise_map]
    refine List.Pairwise.imp ?_ (List.pairwise_lt_range (n := n + 1))
    intro a b hab
    have := mono a b (by omega)
    simpa [contributions, List.range_eq_range'] using this
  · rw [g n (Nat.le_refl _)]; simp [contributions, List.range_eq_range']
  · intro k hk
    rw [g (k + 1) (by omega), g k (by omega), sum_range_succ']; omega

/-- Three ranks with 2, 0 and 5 elements. -/
example : getDistribution 3 77 (fun i => if i = 0 then 2 else if i = 1 then 0 else 5) 1 = [0, 2, 2, 7] := by decide

end Verif.Comm
