import Verif.Model.Comm
import Verif.Spec.Comm
import Verif.Proof.Mpi
/-! The all-reduce algorithm. -/
namespace Verif.Comm
open Verif.Mpi

variable {T A : Type}

/-! ### Sums without a neutral element -/

def oadd (op : A → A → A) : Option A → Option A → Option A
  | none, b => b
  | a, none => a
  | some a, some b => some (op a b)

def osum (op : A → A → A) : List A → Option A
  | [] => none
  | a :: as => oadd op (some a) (osum op as)

section alg
variable {op : A → A → A} (ha : ∀ a b c, op (op a b) c = op a (op b c)) (hc : ∀ a b, op a b = op b a)
include ha
theorem oadd_assoc (a b c) : oadd op (oadd op a b) c = oadd op a (oadd op b c) := by
  cases a <;> cases b <;> cases c <;> simp [oadd, ha]

theorem osum_append (l l') : osum op (l ++ l') = oadd op (osum op l) (osum op l') := by
  induction l with
  | nil => rfl
  | cons a l ih => simp only [List.cons_append, osum, ih, oadd_assoc ha]

theorem osum_foldl (as : List A) : ∀ a, osum op (a :: as) = some (as.foldl op a) := by
  induction as with
  | nil => intro a; rfl
  | cons b as ih =>
    intro a
    rw [List.foldl_cons, ← ih]
    simp only [osum, ← oadd_assoc ha]
    rfl

theorem osum_combine (l : List A) : osum op l = combine op l := by
  cases l with
  | nil => rfl
  | cons a l => exact osum_foldl ha l a

include hc
set_option linter.unusedSectionVars false in
theorem oadd_comm' (a b : Option A) : oadd op a b = oadd op b a := by
  cases a <;> cases b <;> simp [oadd, hc]

theorem osum_zipWith : ∀ (l l' : List A), l.length = l'.length → osum op (List.zipWith op l l') = oadd op (osum op l) (osum op l')
  | [], [], _ => rfl
  | a :: l, b :: l', h => by
      have ih := osum_zipWith l l' (by simpa using h)
      have e : oadd op (some (op a b)) (oadd op (osum op l) (osum op l')) =
          oadd op (oadd op (some a) (osum op l)) (oadd op (some b) (osum op l')) := by
        have : some (op a b) = oadd op (some a) (some b) := rfl
        rw [this, oadd_assoc ha, oadd_assoc ha, ← oadd_assoc ha (some b), ← oadd_assoc ha (osum op l) (some b),
          oadd_comm' ha hc (some b) (osum op l)]
      simp only [List.zipWith_cons_cons, osum, ih]
      exact e
end alg

/-- Sum over the ranks `l, …, l + n - 1`. -/
def rsum (op : A → A → A) (d : Nat → A) (l n : Nat) : Option A := osum op ((List.range' l n).map d)

section alg2
variable {op : A → A → A} (ha : ∀ a b c, op (op a b) c = op a (op b c)) (hc : ∀ a b, op a b = op b a)
include ha
theorem rsum_add (d : Nat → A) (l m n : Nat) : rsum op d l (m + n) = oadd op (rsum op d l m) (rsum op d (l + m) n) := by
  unfold rsum
  rw [← List.range'_append_1, List.map_append, osum_append ha]
omit ha in
theorem rsum_one (d : Nat → A) (l : Nat) : rsum op d l 1 = some (d l) := rfl
omit ha in
theorem rsum_congr {d d' : Nat → A} {l n : Nat} (h : ∀ i, l ≤ i → i < l + n → d i = d' i) : rsum op d l n = rsum op d' l n := by
  unfold rsum
  congr 1
  apply List.map_congr_left
  intro i hi
  rw [List.mem_range'_1] at hi
  exact h i hi.1 hi.2
include hc
theorem rsum_pair (d d' e : Nat → A) (l l' n : Nat) (h : ∀ s, s < n → e (l + s) = op (d (l + s)) (d' (l' + s))) :
    rsum op e l n = oadd op (rsum op d l n) (rsum op d' l' n) := by
  unfold rsum
  rw [← osum_zipWith ha hc _ _ (by simp)]
  congr 1
  apply List.ext_getElem
  · simp
  · intro i h1 h2
    simp only [List.length_map, List.length_range'] at h1
    simp only [List.getElem_map, List.getElem_range', List.getElem_zipWith, Nat.one_mul]
    exact h i h1
end alg2

/-! ### One level -/

/-- Data after one level. -/
def next (op : T → T → T) (l r : Nat) (d : Nat → List T) (i : Nat) : List T :=
  let h := mid l r - l
  if i < mid l r then
    if isodd i l r then d i else mergeVec op (d i) (d (i + h))
  else
    let x := mergeVec op (d i) (d (i - h))
    if treatodd i l r then mergeVec op x (d (mid l r - 1)) else x

theorem recvInto_eq {buf m : List T} (h : m.length = buf.length) : recvInto buf m = some m := by
  unfold recvInto
  rw [if_pos (by omega), List.drop_eq_nil_of_le (by omega), List.append_nil]

theorem merge_length (op : T → T → T) {a b : List T} (h : a.length = b.length) : (mergeVec op a b).length = a.length := by
  unfold mergeVec; simp [h]

/-- Contents of the receive buffers after one level. -/
def nextBuf (l r : Nat) (d b : Nat → List T) (i : Nat) : List T :=
  let h := mid l r - l
  if i < mid l r then
    if isodd i l r then b i else d (i + h)
  else if treatodd i l r then d (mid l r - 1) else d (i - h)

theorem isodd_iff {i l r : Nat} : isodd i l r = true ↔ (r - l) % 2 ≠ 0 ∧ i + 1 = mid l r := by simp [isodd]
theorem treatodd_iff {i l r : Nat} : treatodd i l r = true ↔ (r - l) % 2 ≠ 0 ∧ i = mid l r := by simp [treatodd]
theorem isodd_false {i l r : Nat} : isodd i l r = false ↔ ¬ ((r - l) % 2 ≠ 0 ∧ i + 1 = mid l r) := by
  rw [← isodd_iff]; simp
theorem treatodd_false {i l r : Nat} : treatodd i l r = false ↔ ¬ ((r - l) % 2 ≠ 0 ∧ i = mid l r) := by
  rw [← treatodd_iff]; simp

/-- Ranks of a range. -/
def inR (l r : Nat) : Nat → Prop := fun i => l ≤ i ∧ i < r

/-- Rest of the program of an upper rank after the exchange with its twin. -/
def upperRest (t : Nat) (op : T → T → T) (i l r : Nat) (data buf : List T) : Prog (List T) (Option (List T)) :=
  if treatodd i l r then
    .recv (mid l r - 1) t fun m =>
      match recvInto buf m with
      | none => .ret none
      | some buf => allReduce t op i (mid l r) r (mergeVec op data buf) buf
  else allReduce t op i (mid l r) r data buf

theorem level_local {S : Type} (t : Nat) (op : T → T → T) {l r N : Nat} (h : l + 1 < r) (d b : Nat → List T) (hd : ∀ i, (d i).length = N)
    (hb : ∀ i, (b i).length = N) (K : Nat → Option (List T) → Prog (List T) S) :
    Local (inR l r) (fun i => (allReduce t op i l r (d i) (b i)).bind (K i))
      (fun i => if i < mid l r then (allReduce t op i l (mid l r) (next op l r d i) (nextBuf l r d b i)).bind (K i)
        else (allReduce t op i (mid l r) r (next op l r d i) (nextBuf l r d b i)).bind (K i)) := by
  have hm := mid_lt h
  have hmid : mid l r = l + (r - l) / 2 + (r - l) % 2 := rfl
  generalize hP : (fun i => (allReduce t op i l r (d i) (b i)).bind (K i)) = P
  generalize hQ : (fun i => if i < mid l r then (allReduce t op i l (mid l r) (next op l r d i) (nextBuf l r d b i)).bind (K i)
        else (allReduce t op i (mid l r) r (next op l r d i) (nextBuf l r d b i)).bind (K i)) = Q
  have hr : ∀ i j, recvInto (b i) (d j) = some (d j) := fun i j => recvInto_eq (by rw [hb, hd])
  have hr' : ∀ i j, recvInto (d i) (d j) = some (d j) := fun i j => recvInto_eq (by rw [hd, hd])
  -- state after the exchange of the pairs
  let m1 : Nat → Prog (List T) S := fun i =>
    if isodd i l r then P i
    else if i < mid l r then Q i
    else (upperRest t op i l r (mergeVec op (d i) (d (i - (mid l r - l)))) (d (i - (mid l r - l)))).bind (K i)
  have hpairs : Local (fun i => ∃ s, s < r - mid l r ∧ (i = l + s ∨ i = mid l r + s)) P m1 := by
    apply Local.all
    · intro s hs
      have hlow : l + s < mid l r := by omega
      have hnodd : isodd (l + s) l r = false := by rw [isodd_false]; omega
      have hnodd' : isodd (mid l r + s) l r = false := by rw [isodd_false]; omega
      have htwin : l + s + (mid l r - l) = mid l r + s := by omega
      have htwin' : mid l r + s - (mid l r - l) = l + s := by omega
      refine Local.exch (t := t) (a := d (l + s)) (b := d (mid l r + s)) (j := mid l r + s)
        (ki := fun m => Prog.bind (match recvInto (b (l + s)) m with
          | none => .ret none
          | some buf => allReduce t op (l + s) l (mid l r) (mergeVec op (d (l + s)) buf) buf) (K (l + s)))
        (kj := (upperRest t op (mid l r + s) l r (mergeVec op (d (mid l r + s)) (d (l + s))) (d (l + s))).bind (K (mid l r + s)))
        (f := fun m => Prog.bind (match recvInto (b (mid l r + s)) m with
          | none => .ret none
          | some buf => .send (l + s) t (d (mid l r + s)) (upperRest t op (mid l r + s) l r (mergeVec op (d (mid l r + s)) buf) buf)) (K (mid l r + s)))
        ?_ ?_ ?_ ?_ ?_
      · rw [← hP]
        simp only
        rw [allReduce, dif_pos h, if_pos hlow, if_neg (by simp [hnodd])]
        simp only [htwin]
        rfl
      · rw [← hP]
        simp only
        rw [allReduce, dif_pos h, if_neg (by omega)]
        simp only [htwin']
        rfl
      · simp only [hr]; rfl
      · simp only [m1, hnodd, hlow, if_true, hr, ← hQ, next, nextBuf, htwin]
        rfl
      · simp only [m1, hnodd', htwin']
        rw [if_neg (show ¬ (mid l r + s < mid l r) by omega)]
        rfl
    · intro s s' i hs hs' h1 h2
      omega
  by_cases hodd : (r - l) % 2 = 0
  · -- even: all ranks are paired
    refine (hpairs.congr (fun _ _ => rfl) ?_).iff ?_
    · intro i hi
      have h1 : isodd i l r = false := by rw [isodd_false]; omega
      have h2 : treatodd i l r = false := by rw [treatodd_false]; omega
      simp only [m1, h1]
      split
      · rename_i h; cases h
      · split
        · rfl
        · rename_i h3
          simp only [← hQ, next, nextBuf, upperRest, h2, if_neg h3]
          rfl
    · intro i
      unfold inR
      constructor
      · rintro ⟨s, hs, rfl | rfl⟩ <;> omega
      · intro hi
        by_cases hlt : i < mid l r
        · exact ⟨i - l, by omega, by omega⟩
        · exact ⟨i - mid l r, by omega, by omega⟩
  · have h1 : Local (inR l r) P m1 := by
      refine hpairs.frame ?_ ?_
      · rintro i ⟨s, hs, rfl | rfl⟩ <;> unfold inR <;> omega
      · intro i hi hn
        have : isodd i l r = true := by
          rw [isodd_iff]
          refine ⟨hodd, ?_⟩
          unfold inR at hi
          by_cases hlt : i < mid l r
          · rcases Nat.lt_or_ge (i - l) (r - mid l r) with hh | hh
            · exact absurd ⟨i - l, hh, by omega⟩ hn
            · omega
          · exact absurd ⟨i - mid l r, by omega, by omega⟩ hn
        simp only [m1, this, if_true]
    have h2 : Local (fun x => x = mid l r - 1 ∨ x = mid l r) m1 Q := by
      have o1 : isodd (mid l r - 1) l r = true := by rw [isodd_iff]; omega
      have o2 : isodd (mid l r) l r = false := by rw [isodd_false]; omega
      have o3 : treatodd (mid l r) l r = true := by rw [treatodd_iff]; omega
      refine Local.msg (t := t) (m := d (mid l r - 1))
        (k := (allReduce t op (mid l r - 1) l (mid l r) (d (mid l r - 1)) (b (mid l r - 1))).bind (K (mid l r - 1)))
        (k' := fun m => Prog.bind (match recvInto (d (mid l r - (mid l r - l))) m with
          | none => .ret none
          | some buf => allReduce t op (mid l r) (mid l r) r (mergeVec op (mergeVec op (d (mid l r)) (d (mid l r - (mid l r - l)))) buf) buf)
            (K (mid l r))) ?_ ?_ ?_ ?_
      · simp only [m1, o1, if_true, ← hP]
        rw [allReduce, dif_pos h, if_pos (by omega), if_pos o1]
        rfl
      · simp only [m1, o2, Nat.lt_irrefl, if_false, upperRest, o3, if_true]
        rfl
      · simp only [← hQ, next, nextBuf, o1, if_true]
        rw [if_pos (by omega), if_pos (by omega), if_pos (by omega)]
      · simp only [← hQ, next, nextBuf, o3, if_true, hr', Nat.lt_irrefl, if_false]
    refine h1.trans (h2.frame ?_ ?_)
    · rintro i (rfl | rfl) <;> unfold inR <;> omega
    · intro i hi hn
      have h1 : isodd i l r = false := by rw [isodd_false]; omega
      have h2 : treatodd i l r = false := by rw [treatodd_false]; omega
      simp only [m1, h1]
      split
      · rename_i h; cases h
      · split
        · rfl
        · rename_i h3
          simp only [← hQ, next, nextBuf, upperRest, h2, if_neg h3]
          rfl

theorem mergeVec_assoc {op : T → T → T} (ha : ∀ a b c, op (op a b) c = op a (op b c)) : ∀ (a b c : List T),
    mergeVec op (mergeVec op a b) c = mergeVec op a (mergeVec op b c)
  | [], _, _ => by simp [mergeVec]
  | _ :: _, [], _ => by simp [mergeVec]
  | _ :: _, _ :: _, [] => by simp [mergeVec]
  | x :: a, y :: b, z :: c => by
      have := mergeVec_assoc ha a b c
      simp only [mergeVec, List.zipWith_cons_cons, ha] at this ⊢
      rw [this]

theorem mergeVec_comm {op : T → T → T} (hc : ∀ a b, op a b = op b a) : ∀ (a b : List T), mergeVec op a b = mergeVec op b a
  | [], [] => rfl
  | [], _ :: _ => by simp [mergeVec]
  | _ :: _, [] => by simp [mergeVec]
  | x :: a, y :: b => by
      have := mergeVec_comm hc a b
      simp only [mergeVec, List.zipWith_cons_cons] at this ⊢
      rw [this, hc]

theorem next_length {op : T → T → T} {l r N : Nat} {d : Nat → List T} (hd : ∀ i, (d i).length = N) (i : Nat) : (next op l r d i).length = N := by
  have hm : ∀ a b : List T, a.length = N → b.length = N → (mergeVec op a b).length = N := fun a b h1 h2 => by
    rw [merge_length op (by omega), h1]
  unfold next
  simp only
  split
  · split
    · exact hd _
    · exact hm _ _ (hd _) (hd _)
  · split
    · exact hm _ _ (hm _ _ (hd _) (hd _)) (hd _)
    · exact hm _ _ (hd _) (hd _)

theorem nextBuf_length {l r N : Nat} {d b : Nat → List T} (hd : ∀ i, (d i).length = N) (hb : ∀ i, (b i).length = N) (i : Nat) :
    (nextBuf l r d b i).length = N := by
  unfold nextBuf
  simp only
  repeat' split
  all_goals first | exact hd _ | exact hb _

/-- After one level the sum over each half is the sum over the whole range. -/
theorem next_sum {op : T → T → T} (ha : ∀ a b c, op (op a b) c = op a (op b c)) (hc : ∀ a b, op a b = op b a) {l r : Nat} (h : l + 1 < r)
    (d : Nat → List T) :
    rsum (mergeVec op) (next op l r d) l (mid l r - l) = rsum (mergeVec op) d l (r - l) ∧
    rsum (mergeVec op) (next op l r d) (mid l r) (r - mid l r) = rsum (mergeVec op) d l (r - l) := by
  have hm := mid_lt h
  have hmid : mid l r = l + (r - l) / 2 + (r - l) % 2 := rfl
  have ha' := mergeVec_assoc ha
  have hc' := mergeVec_comm hc
  generalize hop : mergeVec op = o at *
  generalize hu : r - mid l r = u at *
  have hlow : ∀ s, s < u → next op l r d (l + s) = o (d (l + s)) (d (mid l r + s)) := by
    intro s hs
    have h1 : isodd (l + s) l r = false := by rw [isodd_false]; omega
    unfold next
    simp only
    rw [if_pos (by omega), h1, hop, show l + s + (mid l r - l) = mid l r + s by omega]
    rfl
  have hup : ∀ s, s < u → treatodd (mid l r + s) l r = false → next op l r d (mid l r + s) = o (d (mid l r + s)) (d (l + s)) := by
    intro s hs h1
    unfold next
    simp only
    rw [if_neg (by omega), h1, hop, show mid l r + s - (mid l r - l) = l + s by omega]
    rfl
  by_cases hodd : (r - l) % 2 = 0
  · have e1 : mid l r - l = u := by omega
    have e2 : r - l = u + u := by omega
    have e3 : l + u = mid l r := by omega
    rw [e1, e2, rsum_add ha', e3]
    refine ⟨rsum_pair ha' hc' _ _ _ _ _ _ hlow, ?_⟩
    rw [rsum_pair ha' hc' d d _ _ l u (fun s hs => hup s hs (by rw [treatodd_false]; omega)), oadd_comm' ha' hc']
  · have e1 : mid l r - l = u + 1 := by omega
    have e2 : r - l = (u + 1) + u := by omega
    have e3 : l + (u + 1) = mid l r := by omega
    have e4 : next op l r d (l + u) = d (l + u) := by
      have h1 : isodd (l + u) l r = true := by rw [isodd_iff]; omega
      unfold next
      simp only
      rw [if_pos (by omega), if_pos h1]
    have total : rsum o d l (r - l) = oadd o (oadd o (rsum o d l u) (some (d (l + u)))) (rsum o d (mid l r) u) := by
      rw [e2, rsum_add ha', rsum_add ha', e3, rsum_one]
    constructor
    · rw [total, e1, rsum_add ha', rsum_one, e4, rsum_pair ha' hc' d d _ _ (mid l r) u hlow, oadd_assoc ha', oadd_assoc ha',
        oadd_comm' ha' hc' (rsum o d (mid l r) u)]
    · obtain ⟨v, rfl⟩ : ∃ v, u = 1 + v := ⟨u - 1, by omega⟩
      have e5 : next op l r d (mid l r) = o (o (d (mid l r)) (d l)) (d (mid l r - 1)) := by
        have h1 : treatodd (mid l r) l r = true := by rw [treatodd_iff]; omega
        unfold next
        simp only
        rw [if_neg (by omega), if_pos h1, hop, show mid l r - (mid l r - l) = l by omega]
      have e6 : rsum o (next op l r d) (mid l r + 1) v = oadd o (rsum o d (mid l r + 1) v) (rsum o d (l + 1) v) := by
        apply rsum_pair ha' hc'
        intro s hs
        have := hup (1 + s) (by omega) (by rw [treatodd_false]; omega)
        rw [← Nat.add_assoc, ← Nat.add_assoc] at this
        exact this
      rw [total, rsum_add ha', rsum_one, e5, e6, rsum_add ha' d (mid l r) 1 v, rsum_one, rsum_add ha' d l 1 v, rsum_one,
        show l + (1 + v) = mid l r - 1 by omega]
      have e7 : some (o (o (d (mid l r)) (d l)) (d (mid l r - 1))) = oadd o (oadd o (some (d (mid l r))) (some (d l))) (some (d (mid l r - 1))) := rfl
      rw [e7]
      generalize some (d (mid l r)) = A
      generalize some (d l) = B
      generalize some (d (mid l r - 1)) = C
      generalize rsum o d (mid l r + 1) v = D
      generalize rsum o d (l + 1) v = E
      -- commutative rearrangement
      have as := oadd_assoc ha'
      have cm := oadd_comm' ha' hc'
      have lc : ∀ x y z, oadd o x (oadd o y z) = oadd o y (oadd o x z) := fun x y z => by rw [← as, cm x y, as]
      simp only [as, cm, lc]

theorem allReduce_local {S : Type} (t : Nat) {op : T → T → T} (ha : ∀ a b c, op (op a b) c = op a (op b c)) (hc : ∀ a b, op a b = op b a)
    (N : Nat) (K : Nat → Option (List T) → Prog (List T) S) (v : List T) : ∀ n l r, r - l = n → l < r → ∀ (d b : Nat → List T),
    (∀ i, (d i).length = N) → (∀ i, (b i).length = N) → rsum (mergeVec op) d l (r - l) = some v →
    Local (inR l r) (fun i => (allReduce t op i l r (d i) (b i)).bind (K i)) (fun i => K i (some v)) := by
  intro n
  induction n using Nat.strongRecOn with
  | ind n ih =>
    intro l r hn hlr d b hd hb hv
    by_cases h : l + 1 < r
    · have hm := mid_lt h
      obtain ⟨s1, s2⟩ := next_sum ha hc h d
      have h1 := level_local t op h d b hd hb K
      have l1 := ih (mid l r - l) (by omega) l (mid l r) rfl hm.1 (next op l r d) (nextBuf l r d b) (next_length hd) (nextBuf_length hd hb)
        (s1.trans hv)
      have l2 := ih (r - mid l r) (by omega) (mid l r) r rfl hm.2 (next op l r d) (nextBuf l r d b) (next_length hd) (nextBuf_length hd hb)
        (s2.trans hv)
      refine h1.trans ?_
      refine ((l1.congr (fun i hi => ?_) (fun _ _ => rfl)).par (l2.congr (fun i hi => ?_) (fun _ _ => rfl)) ?_).iff ?_
      · rw [if_pos hi.2]
      · rw [if_neg (Nat.not_lt.2 hi.1)]
      · intro i h1 h2; unfold inR at h1 h2; omega
      · intro i; unfold inR; omega
    · have : r - l = 1 := by omega
      rw [this, rsum_one] at hv
      refine Local.refl ?_
      intro i hi
      have : i = l := by unfold inR at hi; omega
      subst this
      rw [allReduce, dif_neg h]
      simp only [Prog.bind]
      rw [hv]

end Verif.Comm
