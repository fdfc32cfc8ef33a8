import Verif.Proof.PatternBuild
/-! The filler. -/
namespace Verif.Pattern

open Verif.Csx Verif.Feti

variable {R : Type} [AddCommMonoid R]

/-- A loop that adds the values one after another at the positions read from `perm`. -/
theorem counter_loop {X : Type} (perm : List Nat) (pos : Nat) (val : X → R) : ∀ (l : List X) (i : Nat) (out : List R), l.length ≤ (perm.drop (pos + i)).length →
    l.foldlM (m := Option) (fun (st : Nat × List R) x => perm[pos + st.1]?.bind fun p => (addAt st.2 p (val x)).bind fun out => some (st.1 + 1, out)) (i, out) =
      (runOps ((perm.drop (pos + i)).zip (l.map val)) out).map fun o => (i + l.length, o) := by
  intro l
  induction l with
  | nil => intro i out _; rw [List.map_nil, List.zip_nil_right]; rfl
  | cons x l ih =>
      intro i out h
      have hlt : pos + i < perm.length := by
        rw [List.length_drop, List.length_cons] at h; omega
      rw [List.drop_eq_getElem_cons hlt, List.map_cons, List.zip_cons_cons]
      unfold runOps
      rw [List.foldlM_cons, List.foldlM_cons, List.getElem?_eq_getElem hlt, Option.bind_some]
      cases hadd : addAt out perm[pos + i] (val x) with
      | none => rfl
      | some o =>
          show List.foldlM _ (i + 1, o) l = _
          rw [ih (i + 1) o (by rw [List.length_drop] at h ⊢; rw [List.length_cons] at h; omega)]
          rw [show pos + (i + 1) = pos + i + 1 by omega, List.length_cons, show i + (l.length + 1) = i + 1 + l.length by omega]
          rfl

/-- The values of the elements `s0, …, s0 + n - 1` in the order of the filler. -/
def elementValues (full : Bool) (sz : Nat) (A : Nat → Nat → Nat → R) (s0 n : Nat) : List R :=
  (List.range' s0 n).flatMap fun s => (visited full sz).map fun rc => A s rc.1 rc.2

theorem flatMap_length_const {A B : Type} (l : List A) (f : A → List B) (k : Nat) (h : ∀ a ∈ l, (f a).length = k) : (l.flatMap f).length = l.length * k := by
  induction l with
  | nil => simp
  | cons a l ih =>
      rw [List.flatMap_cons, List.length_append, h a List.mem_cons_self, ih fun b hb => h b (List.mem_cons_of_mem _ hb), List.length_cons, Nat.succ_mul, Nat.add_comm]

omit [AddCommMonoid R] in
theorem elementValues_length (full : Bool) (sz : Nat) (A : Nat → Nat → Nat → R) (s0 n : Nat) : (elementValues full sz A s0 n).length = n * (visited full sz).length := by
  unfold elementValues
  rw [flatMap_length_const _ _ (visited full sz).length (by intro a _; rw [List.length_map]), List.length_range']

omit [AddCommMonoid R] in
theorem elementValues_append (full : Bool) (sz : Nat) (A : Nat → Nat → Nat → R) (s0 a b : Nat) :
    elementValues full sz A s0 (a + b) = elementValues full sz A s0 a ++ elementValues full sz A (s0 + a) b := by
  unfold elementValues
  rw [← List.flatMap_append, ← List.range'_append_1]

theorem visited_length_full (sz : Nat) : (visited true sz).length = sz * sz := by
  unfold visited
  rw [flatMap_length_const _ _ sz (by intro a _; simp), List.length_range]

theorem sum_sub (sz : Nat) : ((List.range sz).map fun r => sz - r).sum * 2 = sz * (sz + 1) := by
  induction sz with
  | zero => rfl
  | succ n ih =>
      rw [List.range_succ_eq_map, List.map_cons, List.map_map, List.sum_cons]
      have : ((fun r => n + 1 - r) ∘ Nat.succ) = fun r => n - r := by
        funext r; show n + 1 - (r + 1) = n - r; omega
      rw [this, Nat.add_mul, ih, Nat.sub_zero]
      rw [Nat.mul_comm n, ← Nat.mul_add, Nat.add_comm 2 n]

theorem visited_length (full : Bool) (sz : Nat) : (visited full sz).length = bif full then sz * sz else sz * (sz - 1) / 2 + sz := by
  cases full with
  | true => exact visited_length_full sz
  | false =>
      have h : (visited false sz).length = ((List.range sz).map fun r => sz - r).sum := by
        unfold visited
        rw [List.length_flatMap]
        simp
      have h2 := sum_sub sz
      rw [cond_false, h]
      have h3 : sz * (sz + 1) = sz * (sz - 1) + 2 * sz := by
        cases sz with
        | zero => rfl
        | succ n => rw [Nat.add_sub_cancel, ← Nat.mul_comm (n + 1) 2, ← Nat.mul_add]
      omega

theorem fillChunk_eq (full : Bool) (sz : Nat) (A : Nat → Nat → Nat → R) (perm : List Nat) (s0 count pos : Nat) (out : List R)
    (h : count * (visited full sz).length ≤ (perm.drop pos).length) :
    fillChunk full sz A perm s0 count (pos, out) =
      (runOps ((perm.drop pos).zip (elementValues full sz A s0 count)) out).map fun o => (pos + count * (visited full sz).length, o) := by
  unfold fillChunk
  simp only [Option.bind_eq_bind]
  have key : forLoop 0 count ((0 : Nat), out) (fun s (st : Nat × List R) => (visited full sz).foldlM (m := Option) (fun (st : Nat × List R) (rc : Nat × Nat) =>
      perm[pos + st.1]?.bind fun p => (addAt st.2 p (A (s0 + s) rc.1 rc.2)).bind fun out => some (st.1 + 1, out)) (st.1, st.2)) =
      (runOps ((perm.drop pos).zip (elementValues full sz A s0 count)) out).map fun o => (count * (visited full sz).length, o) := by
    have hc := counter_loop perm pos (fun x : Nat × Nat × Nat => A (s0 + x.1) x.2.1 x.2.2) ((List.range count).flatMap fun s => (visited full sz).map fun rc => (s, rc)) 0 out (by
      rw [flatMap_length_const _ _ (visited full sz).length (by intro a _; rw [List.length_map]), List.length_range]; exact h)
    rw [foldlM_flatMap'] at hc
    rw [forLoop_range]
    rw [List.map_flatMap, flatMap_length_const _ _ (visited full sz).length (by intro a _; rw [List.length_map]), List.length_range, Nat.add_zero, Nat.zero_add] at hc
    unfold elementValues
    rw [List.range'_eq_map_range, List.flatMap_map]
    simp only [List.map_map] at hc
    refine Eq.trans ?_ hc
    apply Verif.Csx.foldlM_congr
    intro s _ st
    rw [List.foldlM_map]
  rw [← visited_length, key]
  cases runOps ((perm.drop pos).zip (elementValues full sz A s0 count)) out with
  | none => rfl
  | some o => rfl

theorem zip_append_right {A B : Type} (p : List A) (a b : List B) (h : a.length ≤ p.length) : p.zip (a ++ b) = p.zip a ++ (p.drop a.length).zip b := by
  induction a generalizing p with
  | nil => simp
  | cons x a ih =>
      cases p with
      | nil => simp at h
      | cons y p =>
          rw [List.cons_append, List.zip_cons_cons, List.zip_cons_cons, List.length_cons, List.drop_succ_cons, List.cons_append,
            ih p (by simpa using h)]

theorem fillInterval_eq (full : Bool) (sz simd : Nat) (A : Nat → Nat → Nat → R) (perm : List Nat) : ∀ (chunks elements s0 pos : Nat) (out : List R),
    elements ≤ chunks * simd → elements * (visited full sz).length ≤ (perm.drop pos).length →
    fillInterval full sz simd A perm chunks elements s0 (pos, out) =
      (runOps ((perm.drop pos).zip (elementValues full sz A s0 elements)) out).map fun o => (pos + elements * (visited full sz).length, o) := by
  intro chunks
  induction chunks with
  | zero =>
      intro elements s0 pos out h1 _
      have : elements = 0 := by omega
      subst this
      unfold elementValues
      simp only [List.range'_zero, List.flatMap_nil, List.zip_nil_right, Nat.zero_mul, Nat.add_zero]
      rfl
  | succ chunks ih =>
      intro elements s0 pos out h1 h2
      obtain ⟨c, hc⟩ : ∃ c, c = min simd elements := ⟨_, rfl⟩
      obtain ⟨d, hd⟩ : ∃ d, elements = c + d := ⟨elements - c, by omega⟩
      have h1' : d ≤ chunks * simd := by
        rw [Nat.succ_mul] at h1
        rcases Nat.le_total simd elements with hh | hh
        · rw [Nat.min_eq_left hh] at hc; omega
        · rw [Nat.min_eq_right hh] at hc; omega
      have hsub : elements - min simd elements = d := by omega
      unfold fillInterval
      simp only [Option.bind_eq_bind]
      rw [hsub, ← hc]
      rw [hd, Nat.add_mul] at h2
      rw [fillChunk_eq full sz A perm s0 c pos out (by omega), hd, elementValues_append,
        zip_append_right _ _ _ (by rw [elementValues_length]; omega), runOps_append, elementValues_length, List.drop_drop]
      cases runOps ((perm.drop pos).zip (elementValues full sz A s0 c)) out with
      | none => rfl
      | some o =>
          rw [Option.map_some, Option.bind_some, Option.bind_some, ih d (s0 + c) _ o h1' (by rw [← List.drop_drop, List.length_drop]; omega), Nat.add_mul, Nat.add_assoc]

/-- All values of a domain in the order of the filler. -/
def domainValues (full : Bool) (intervals : List (IntervalData R)) : List R := intervals.flatMap fun I => elementValues full I.1 I.2.2 0 I.2.1

theorem ceil_mul (e simd : Nat) (h : 0 < simd) : e ≤ (e / simd + if e % simd ≠ 0 then 1 else 0) * simd := by
  have h1 := Nat.div_add_mod e simd
  have h2 := Nat.mod_lt e h
  rw [Nat.mul_comm] at h1
  by_cases h0 : e % simd = 0
  · rw [if_neg (by simpa using h0), Nat.add_zero]; omega
  · rw [if_pos h0, Nat.add_mul, Nat.one_mul]; omega

theorem fillDomain_eq (full : Bool) {simd : Nat} (hsimd : 0 < simd) (perm offs : List Nat) (intervals : List (IntervalData R)) (out : List R)
    (hoffs : ∀ i, i < intervals.length → offs[i]? = some (domainValues full (intervals.take i)).length) (hlen : (domainValues full intervals).length ≤ perm.length) :
    fillDomain full simd perm offs intervals out = runOps (perm.zip (domainValues full intervals)) out := by
  unfold fillDomain
  rw [forLoop_range]
  have key : ∀ n, n ≤ intervals.length → (List.range n).foldlM (m := Option) (fun out i => offs[i]?.bind fun o => intervals[i]?.bind fun I =>
      (fillInterval full I.1 simd I.2.2 perm (I.2.1 / simd + if I.2.1 % simd ≠ 0 then 1 else 0) I.2.1 0 (o, out)).bind fun st => some st.2) out =
      runOps (perm.zip (domainValues full (intervals.take n))) out := by
    intro n
    induction n with
    | zero =>
        intro _
        unfold domainValues
        rw [List.take_zero, List.flatMap_nil, List.zip_nil_right]; rfl
    | succ n ih =>
        intro hn
        have hlt : n < intervals.length := by omega
        have hsplit : domainValues full (intervals.take (n + 1)) = domainValues full (intervals.take n) ++ elementValues full intervals[n].1 intervals[n].2.2 0 intervals[n].2.1 := by
          unfold domainValues
          rw [List.take_add_one, List.getElem?_eq_getElem hlt, List.flatMap_append]
          simp
        have hle : (domainValues full (intervals.take (n + 1))).length ≤ perm.length := by
          refine Nat.le_trans ?_ hlen
          have : domainValues full intervals = domainValues full (intervals.take (n + 1)) ++ domainValues full (intervals.drop (n + 1)) := by
            unfold domainValues
            rw [← List.flatMap_append, List.take_append_drop]
          rw [this, List.length_append]; omega
        rw [hsplit, List.length_append, elementValues_length] at hle
        rw [List.range_succ, List.foldlM_append, ih (by omega), hsplit, zip_append_right _ _ _ (by omega), runOps_append]
        cases runOps (perm.zip (domainValues full (intervals.take n))) out with
        | none => rfl
        | some o =>
            rw [Option.bind_eq_bind, Option.bind_some, Option.bind_some, List.foldlM_cons, hoffs n hlt, Option.bind_some, List.getElem?_eq_getElem hlt, Option.bind_some,
              fillInterval_eq full _ simd _ perm _ _ 0 _ o (ceil_mul _ _ hsimd) (by rw [List.length_drop]; omega)]
            cases runOps ((perm.drop (domainValues full (intervals.take n)).length).zip (elementValues full intervals[n].1 intervals[n].2.2 0 intervals[n].2.1)) o with
            | none => rfl
            | some o => rfl
  have := key intervals.length (Nat.le_refl _)
  rw [List.take_length] at this
  exact this

end Verif.Pattern
