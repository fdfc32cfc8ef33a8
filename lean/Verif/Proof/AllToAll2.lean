import Verif.Proof.AllToAll
/-! Targeted all-to-all: one level, conservation of messages, induction. -/
namespace Verif.Comm
open Verif.Mpi

/-- One level in which the lower ranks send first and the odd rank sends to `mid`, in terms of the shape of the programs. -/
theorem exchange_local {M R : Type} (t : Nat) {l r : Nat} (h : l + 1 < r) (P Q : Nat → Prog M R) (a a' : Nat → M)
    (kl f : Nat → M → Prog M R) (rest : Nat → Prog M R) (kk : M → Prog M R)
    (hlow : ∀ i, l ≤ i → i < mid l r → isodd i l r = false → P i = .send (i + (mid l r - l)) t (a i) (.recv (i + (mid l r - l)) t (kl i)))
    (hlow' : ∀ i, l ≤ i → i < mid l r → isodd i l r = false → Q i = kl i (a' (i + (mid l r - l))))
    (hup : ∀ i, mid l r ≤ i → i < r → P i = .recv (i - (mid l r - l)) t (f i))
    (hup' : ∀ i, mid l r ≤ i → i < r → f i (a (i - (mid l r - l))) = .send (i - (mid l r - l)) t (a' i) (rest i))
    (hrest : ∀ i, mid l r ≤ i → i < r → treatodd i l r = false → Q i = rest i)
    (hodd : isodd (mid l r - 1) l r = true → P (mid l r - 1) = .send (mid l r) t (a (mid l r - 1)) (Q (mid l r - 1)))
    (htreat : treatodd (mid l r) l r = true → rest (mid l r) = .recv (mid l r - 1) t kk ∧ Q (mid l r) = kk (a (mid l r - 1))) :
    Local (inR l r) P Q := by
  have hm := mid_lt h
  have hmid : mid l r = l + (r - l) / 2 + (r - l) % 2 := rfl
  let m1 : Nat → Prog M R := fun i =>
    if isodd i l r then P i
    else if i < mid l r then Q i
    else rest i
  have hpairs : Local (fun i => ∃ s, s < r - mid l r ∧ (i = l + s ∨ i = mid l r + s)) P m1 := by
    apply Local.all
    · intro s hs
      have hlow1 : l + s < mid l r := by omega
      have hnodd : isodd (l + s) l r = false := by rw [isodd_false]; omega
      have hnodd' : isodd (mid l r + s) l r = false := by rw [isodd_false]; omega
      have htwin : l + s + (mid l r - l) = mid l r + s := by omega
      have htwin' : mid l r + s - (mid l r - l) = l + s := by omega
      have e1 := hlow (l + s) (by omega) hlow1 hnodd
      have e2 := hlow' (l + s) (by omega) hlow1 hnodd
      have e3 := hup (mid l r + s) (by omega) (by omega)
      have e4 := hup' (mid l r + s) (by omega) (by omega)
      rw [htwin] at e1 e2
      rw [htwin'] at e3 e4
      refine Local.exch e1 e3 e4 ?_ ?_
      · simp only [m1, hnodd, hlow1, if_true, e2]; rfl
      · simp only [m1, hnodd']
        rw [if_neg (show ¬ (mid l r + s < mid l r) by omega)]
        rfl
    · intro s s' i hs hs' h1 h2
      omega
  by_cases hodd' : (r - l) % 2 = 0
  · refine (hpairs.congr (fun _ _ => rfl) ?_).iff ?_
    · intro i hi
      have h1 : isodd i l r = false := by rw [isodd_false]; omega
      have h2 : treatodd i l r = false := by rw [treatodd_false]; omega
      simp only [m1, h1]
      split
      · rename_i h; cases h
      · split
        · rfl
        · obtain ⟨s, hs, e | e⟩ := hi <;> exact (hrest i (by omega) (by omega) h2).symm
    · intro i
      unfold inR
      constructor
      · rintro ⟨s, hs, rfl | rfl⟩ <;> omega
      · intro hi
        by_cases hlt : i < mid l r
        · exact ⟨i - l, by omega, by omega⟩
        · exact ⟨i - mid l r, by omega, by omega⟩
  · have h1 : Local (inR l r) P m1 := by
      refine hpairs.frame ?_ ?_
      · rintro i ⟨s, hs, rfl | rfl⟩ <;> unfold inR <;> omega
      · intro i hi hn
        have : isodd i l r = true := by
          rw [isodd_iff]
          refine ⟨hodd', ?_⟩
          unfold inR at hi
          by_cases hlt : i < mid l r
          · rcases Nat.lt_or_ge (i - l) (r - mid l r) with hh | hh
            · exact absurd ⟨i - l, hh, by omega⟩ hn
            · omega
          · exact absurd ⟨i - mid l r, by omega, by omega⟩ hn
        simp only [m1, this, if_true]
    have h2 : Local (fun x => x = mid l r - 1 ∨ x = mid l r) m1 Q := by
      have o1 : isodd (mid l r - 1) l r = true := by rw [isodd_iff]; omega
      have o2 : isodd (mid l r) l r = false := by rw [isodd_false]; omega
      have o3 : treatodd (mid l r) l r = true := by rw [treatodd_iff]; omega
      refine Local.msg (t := t) (m := a (mid l r - 1)) (k := Q (mid l r - 1)) (k' := kk) ?_ ?_ rfl (htreat o3).2
      · simp only [m1, o1, if_true]; exact hodd o1
      · simp only [m1, o2, Nat.lt_irrefl, if_false]; exact (htreat o3).1
    refine h1.trans (h2.frame ?_ ?_)
    · rintro i (rfl | rfl) <;> unfold inR <;> omega
    · intro i hi hn
      have h1 : isodd i l r = false := by rw [isodd_false]; omega
      have h2 : treatodd i l r = false := by rw [treatodd_false]; omega
      simp only [m1, h1]
      split
      · rename_i h; cases h
      · split
        · rfl
        · exact (hrest i (by omega) hi.2 h2).symm

/-! ### the messages after one level -/

/-- Second message of an upper rank. -/
def second (l r : Nat) (s : Nat → List Rec) (i : Nat) : List Rec := if treatodd i l r then up (mid l r) (s (mid l r - 1)) else []

/-- Messages a rank has to forward after one level. -/
def nextS (l r : Nat) (s : Nat → List Rec) (i : Nat) : List Rec :=
  if i < mid l r then
    if isodd i l r then low i (s i)
    else mergeSend i l (mid l r) fun k => addressed k (low (mid l r) (s (i + (mid l r - l)))) ++ addressed k (s i)
  else mergeSend i (mid l r) r fun k => addressed k (up (mid l r) (s (i - (mid l r - l)))) ++ addressed k (second l r s i) ++ addressed k (s i)

/-- Messages delivered to a rank in one level. -/
def nextY (l r : Nat) (s : Nat → List Rec) (i : Nat) : List Rec :=
  if i < mid l r then
    if isodd i l r then [] else addressed i (low (mid l r) (s (i + (mid l r - l))))
  else addressed i (up (mid l r) (s (i - (mid l r - l)))) ++ addressed i (second l r s i)

theorem movebefore_all {s : List Rec} (h : Srt s) (m : Nat) :
    movebefore (encode s) m 0 (encode s).length = some (encode (low m s)).length := by
  have := movebefore_enc m s [] [] h
  simpa using this

theorem encode_take {s : List Rec} (h : Srt s) (m : Nat) : (encode s).take (encode (low m s)).length = encode (low m s) := by
  have e := low_up h m
  have : encode s = encode (low m s) ++ encode (up m s) := by rw [← encode_append, e]
  rw [this, List.take_left]
theorem encode_drop {s : List Rec} (h : Srt s) (m : Nat) : (encode s).drop (encode (low m s)).length = encode (up m s) := by
  have e := low_up h m
  have : encode s = encode (low m s) ++ encode (up m s) := by rw [← encode_append, e]
  rw [this, List.drop_left]

theorem a2a_level {S : Type} (t : Nat) {l r : Nat} (h : l + 1 < r) (s : Nat → List Rec) (b : Nat → List Int) (hs : ∀ i, inR l r i → Srt (s i))
    (hr : ∀ i, inR l r i → ∀ x ∈ s i, l ≤ x.1 ∧ x.1 < r) (K : Nat → Option (List Int) → Prog (List Int) S) :
    Local (inR l r) (fun i => (allToAllLoop t i l r (encode (s i)) (b i)).bind (K i))
      (fun i => (if i < mid l r then allToAllLoop t i l (mid l r) (encode (nextS l r s i)) (b i ++ encode (nextY l r s i))
        else allToAllLoop t i (mid l r) r (encode (nextS l r s i)) (b i ++ encode (nextY l r s i))).bind (K i)) := by
  have hm := mid_lt h
  have hmid : mid l r = l + (r - l) / 2 + (r - l) % 2 := rfl
  refine exchange_local t h _ _ (fun i => encode (up (mid l r) (s i))) (fun i => encode (low (mid l r) (s i)))
    (fun i recv => Prog.bind (match mergeLower i l (mid l r) recv (encode (s i)) (b i) with
      | none => .ret none
      | some s => allToAllLoop t i l (mid l r) s.send s.rbuf) (K i))
    (fun i recv => .send (i - (mid l r - l)) t (encode (low (mid l r) (s i))) <| Prog.bind (
      if treatodd i l r then
        .recv (mid l r - 1) t fun recv2 =>
          match mergeUpper i (mid l r) r (recv ++ recv2) recv.length (encode (s i)) (b i) with
          | none => .ret none
          | some s => allToAllLoop t i (mid l r) r s.send s.rbuf
      else
        match mergeUpper i (mid l r) r recv recv.length (encode (s i)) (b i) with
        | none => .ret none
        | some s => allToAllLoop t i (mid l r) r s.send s.rbuf) (K i))
    (fun i => Prog.bind (
      if treatodd i l r then
        .recv (mid l r - 1) t fun recv2 =>
          match mergeUpper i (mid l r) r (encode (up (mid l r) (s (i - (mid l r - l)))) ++ recv2) (encode (up (mid l r) (s (i - (mid l r - l))))).length
              (encode (s i)) (b i) with
          | none => .ret none
          | some s => allToAllLoop t i (mid l r) r s.send s.rbuf
      else
        match mergeUpper i (mid l r) r (encode (up (mid l r) (s (i - (mid l r - l))))) (encode (up (mid l r) (s (i - (mid l r - l))))).length
            (encode (s i)) (b i) with
        | none => .ret none
        | some s => allToAllLoop t i (mid l r) r s.send s.rbuf) (K i))
    (fun recv2 => Prog.bind (
          match mergeUpper (mid l r) (mid l r) r (encode (up (mid l r) (s (mid l r - (mid l r - l)))) ++ recv2)
              (encode (up (mid l r) (s (mid l r - (mid l r - l))))).length (encode (s (mid l r))) (b (mid l r)) with
          | none => .ret none
          | some s => allToAllLoop t (mid l r) (mid l r) r s.send s.rbuf) (K (mid l r))) ?_ ?_ ?_ ?_ ?_ ?_ ?_
  · intro i h1 h2 h3
    have hi : inR l r i := ⟨h1, by omega⟩
    rw [allToAllLoop, dif_pos h, if_pos h2, if_neg (by simp [h3])]
    simp only [movebefore_all (hs i hi), encode_drop (hs i hi)]
    rfl
  · intro i h1 h2 h3
    have hi : inR l r i := ⟨h1, by omega⟩
    have hodd := isodd_false.1 h3
    have hj : inR l r (i + (mid l r - l)) := ⟨by omega, by omega⟩
    obtain ⟨ms, e1, e2, e3⟩ := mergeLower_eq i l (mid l r) (by omega) (low (mid l r) (s (i + (mid l r - l)))) (s i) ((hs _ hj).filter _) (hs i hi)
      (fun x hx => (hr _ hj x (List.mem_filter.1 hx).1).1) (fun x hx => (hr i hi x hx).1) (b i)
    rw [e1]
    simp only [e2, e3]
    rw [if_pos h2, if_pos ⟨h1, h2⟩]
    simp only [nextS, nextY, if_pos h2, h3]
    rfl
  · intro i h1 h2
    have hi : inR l r i := ⟨by omega, h2⟩
    rw [allToAllLoop, dif_pos h, if_neg (by omega)]
    simp only [movebefore_all (hs i hi), encode_take (hs i hi)]
    rfl
  · intro i h1 h2; rfl
  · intro i h1 h2 h3
    have hi : inR l r i := ⟨by omega, h2⟩
    have hj : inR l r (i - (mid l r - l)) := ⟨by omega, by omega⟩
    obtain ⟨ms, e1, e2, e3⟩ := mergeUpper_eq i (mid l r) r (by omega) (up (mid l r) (s (i - (mid l r - l)))) [] (s i) ((hs _ hj).filter _)
      List.Pairwise.nil (hs i hi) (fun x hx => of_decide_eq_true (List.mem_filter.1 hx).2) (by simp) (b i)
    rw [encode_nil, List.append_nil] at e1
    rw [if_pos ⟨h1, h2⟩] at e3
    have hn : ¬ i < mid l r := by omega
    simp only [h3, hn, if_false, nextS, nextY, second, Bool.false_eq_true, e1, e2, e3]
  · intro ho
    have ho' := isodd_iff.1 ho
    have hi : inR l r (mid l r - 1) := ⟨by omega, by omega⟩
    rw [allToAllLoop, dif_pos h, if_pos (by omega), if_pos ho]
    simp only [movebefore_all (hs _ hi)]
    have e := movebefore_from (hs _ hi) [] [] (show mid l r - 1 ≤ mid l r by omega)
    simp only [List.nil_append, List.append_nil, List.length_nil, Nat.zero_add] at e
    simp only [e, encode_drop (hs _ hi), encode_take (hs _ hi), Prog.bind, nextS, nextY, ho, if_true]
    rw [if_pos (by omega), if_pos (by omega), if_pos (by omega)]
    simp [encode_nil]
  · intro ho
    have ho' := treatodd_iff.1 ho
    have hi : inR l r (mid l r) := ⟨by omega, by omega⟩
    have hj : inR l r (mid l r - (mid l r - l)) := ⟨by omega, by omega⟩
    have hk : inR l r (mid l r - 1) := ⟨by omega, by omega⟩
    constructor
    · simp only [ho, if_true]; rfl
    · obtain ⟨ms, e1, e2, e3⟩ := mergeUpper_eq (mid l r) (mid l r) r (by omega) (up (mid l r) (s (mid l r - (mid l r - l))))
        (up (mid l r) (s (mid l r - 1))) (s (mid l r)) ((hs _ hj).filter _) ((hs _ hk).filter _) (hs _ hi)
        (fun x hx => of_decide_eq_true (List.mem_filter.1 hx).2) (fun x hx => of_decide_eq_true (List.mem_filter.1 hx).2) (b (mid l r))
      simp only [e1, e2, e3]
      rw [if_neg (by omega), if_pos (by omega)]
      simp only [nextS, nextY, second, ho, if_true]
      rw [if_neg (by omega), if_neg (by omega)]

/-! ### conservation -/

/-- Sum over the ranks `a … b`. -/
def sumR (f : Nat → Nat) (a b : Nat) : Nat := ((List.range' a (b - a)).map f).sum

theorem sumR_self (f : Nat → Nat) (a : Nat) : sumR f a a = 0 := by simp [sumR]
theorem sumR_succ (f : Nat → Nat) {a b : Nat} (h : a ≤ b) : sumR f a (b + 1) = sumR f a b + f b := by
  unfold sumR
  rw [show b + 1 - a = (b - a) + 1 by omega, List.range'_concat, List.map_append, List.sum_append]
  simp [show a + (b - a) = b by omega]
theorem sumR_append (f : Nat → Nat) {a m b : Nat} (h : a ≤ m) (h' : m ≤ b) : sumR f a b = sumR f a m + sumR f m b := by
  unfold sumR
  rw [show b - a = (m - a) + (b - m) by omega, ← List.range'_append_1, List.map_append, List.sum_append, show a + (m - a) = m by omega]
theorem sumR_ind {P : Nat → Prop} {a : Nat} (h0 : P a) (hs : ∀ b, a ≤ b → P b → P (b + 1)) : ∀ b, a ≤ b → P b := by
  intro b hb
  induction hb with
  | refl => exact h0
  | step h ih => exact hs _ h ih
theorem sumR_congr {f g : Nat → Nat} {a b : Nat} (h : ∀ i, a ≤ i → i < b → f i = g i) : sumR f a b = sumR g a b := by
  unfold sumR
  congr 1
  apply List.map_congr_left
  intro i hi
  rw [List.mem_range'_1] at hi
  exact h i hi.1 (by omega)
theorem sumR_add (f g : Nat → Nat) {a : Nat} : ∀ b, a ≤ b → sumR (fun i => f i + g i) a b = sumR f a b + sumR g a b :=
  sumR_ind (by simp [sumR_self]) (fun b h ih => by rw [sumR_succ _ h, sumR_succ _ h, sumR_succ _ h, ih]; omega)
theorem sumR_shift (f : Nat → Nat) (k : Nat) {a : Nat} : ∀ b, a ≤ b → sumR (fun i => f (i + k)) a b = sumR f (a + k) (b + k) :=
  sumR_ind (by simp [sumR_self]) (fun b h ih => by
    rw [sumR_succ _ h, show b + 1 + k = b + k + 1 by omega, sumR_succ _ (by omega), ih])
/-- Taking one term out. -/
theorem sumR_except (f : Nat → Nat) {a k : Nat} (hk : a ≤ k) : ∀ b, a ≤ b →
    sumR (fun i => if i = k then 0 else f i) a b + (if k < b then f k else 0) = sumR f a b := by
  refine sumR_ind ?_ ?_
  · rw [sumR_self, sumR_self, if_neg (by omega)]
  · intro b h ih
    rw [sumR_succ _ h, sumR_succ _ h, ← ih]
    by_cases hb : b = k
    · subst hb; rw [if_pos rfl, if_pos (by omega), if_neg (by omega)]
    · rw [if_neg hb]
      by_cases hkb : k < b
      · rw [if_pos hkb, if_pos (by omega)]; omega
      · rw [if_neg hkb, if_neg (by omega)]; omega
theorem sumR_zero {f : Nat → Nat} {a b : Nat} (h : ∀ i, a ≤ i → i < b → f i = 0) : sumR f a b = 0 := by
  rw [sumR_congr (g := fun _ => 0) h]
  unfold sumR
  induction List.range' a (b - a) with
  | nil => rfl
  | cons a l ih => simpa using ih

/-- Messages for rank `k` that the other ranks of `l … r` hold. -/
def pending (l r : Nat) (s : Nat → List Rec) (k : Nat) : List Rec :=
  (List.range' l (r - l)).flatMap fun i => if i = k then [] else addressed k (s i)

theorem count_pending (x : Rec) (l r : Nat) (s : Nat → List Rec) (k : Nat) :
    (pending l r s k).count x = sumR (fun i => if i = k then 0 else (addressed k (s i)).count x) l r := by
  unfold pending sumR
  rw [List.count_flatMap]
  congr 1
  apply List.map_congr_left
  intro i _
  show List.count x (if i = k then [] else addressed k (s i)) = _
  split <;> simp

theorem addressed_low {k m : Nat} (h : k < m) (s : List Rec) : addressed k (low m s) = addressed k s := by
  unfold addressed low
  rw [List.filter_filter]
  apply List.filter_congr
  intro x _
  rw [Bool.eq_iff_iff]
  simp only [Bool.and_eq_true, decide_eq_true_eq, beq_iff_eq]
  omega
theorem addressed_up {k m : Nat} (h : m ≤ k) (s : List Rec) : addressed k (up m s) = addressed k s := by
  unfold addressed up
  rw [List.filter_filter]
  apply List.filter_congr
  intro x _
  rw [Bool.eq_iff_iff]
  simp only [Bool.and_eq_true, decide_eq_true_eq, beq_iff_eq]
  omega

theorem conserve_lower {l r : Nat} (h : l + 1 < r) (s : Nat → List Rec) {k : Nat} (h1 : l ≤ k) (h2 : k < mid l r) :
    (nextY l r s k ++ pending l (mid l r) (nextS l r s) k).Perm (pending l r s k) := by
  have hm := mid_lt h
  have hmid : mid l r = l + (r - l) / 2 + (r - l) % 2 := rfl
  rw [List.perm_iff_count]
  intro x
  rw [List.count_append, count_pending, count_pending]
  let c : Nat → Nat := fun i => (addressed k (s i)).count x
  let g : Nat → Nat := fun i => if i + (mid l r - l) < r then c (i + (mid l r - l)) else 0
  have hY : (nextY l r s k).count x = g k := by
    simp only [nextY, if_pos h2, g]
    by_cases ho : isodd k l r = true
    · have := isodd_iff.1 ho
      rw [if_pos ho, if_neg (by omega)]; simp
    · have := isodd_false.1 (Bool.eq_false_iff.2 ho)
      rw [if_neg ho, if_pos (by omega), addressed_low h2]
  have hS : ∀ i, l ≤ i → i < mid l r → (if i = k then 0 else (addressed k (nextS l r s i)).count x) =
      (fun i => if i = k then 0 else c i) i + (fun i => if i = k then 0 else g i) i := by
    intro i h3 h4
    simp only
    by_cases hik : i = k
    · simp [hik]
    · simp only [if_neg hik, nextS, if_pos h4]
      by_cases ho : isodd i l r = true
      · have := isodd_iff.1 ho
        simp only [g]
        rw [if_pos ho, if_neg (by omega), addressed_low (by omega)]; rfl
      · have := isodd_false.1 (Bool.eq_false_iff.2 ho)
        rw [if_neg ho, addressed_mergeSend ?_ (Ne.symm hik) _ (by omega), if_pos ⟨h1, h2⟩, addressed_low h2, List.count_append]
        · simp only [g]
          rw [if_pos (by omega)]; simp only [c]; omega
        · intro r' x hx
          rcases List.mem_append.1 hx with hx | hx <;> exact (mem_addressed.1 hx).2
  rw [hY, sumR_congr hS, sumR_add _ _ _ (by omega)]
  have e1 := sumR_except g h1 (mid l r) (by omega)
  rw [if_pos h2] at e1
  have e2 : sumR g l (mid l r) = sumR c (mid l r) r := by
    have e3 := sumR_shift (fun j => if j < r then c j else 0) (mid l r - l) (a := l) (mid l r) (by omega)
    have e4 : sumR g l (mid l r) = sumR (fun i => (fun j => if j < r then c j else 0) (i + (mid l r - l))) l (mid l r) := rfl
    rw [e4, e3, show l + (mid l r - l) = mid l r by omega, sumR_append _ (show mid l r ≤ r by omega) (by omega),
      sumR_zero (a := r) (by intro i h1 h2; rw [if_neg (by omega)]), Nat.add_zero]
    exact sumR_congr (by intro i h1 h2; rw [if_pos h2])
  rw [sumR_append (fun i => if i = k then 0 else (addressed k (s i)).count x) (show l ≤ mid l r by omega) (show mid l r ≤ r by omega)]
  have e5 : sumR (fun i => if i = k then 0 else (addressed k (s i)).count x) (mid l r) r = sumR c (mid l r) r :=
    sumR_congr (by intro i h3 h4; rw [if_neg (by omega)])
  rw [e5, ← e2]
  have e6 : sumR (fun i => if i = k then 0 else c i) l (mid l r) = sumR (fun i => if i = k then 0 else (addressed k (s i)).count x) l (mid l r) := rfl
  omega

theorem conserve_upper {l r : Nat} (h : l + 1 < r) (s : Nat → List Rec) {k : Nat} (h1 : mid l r ≤ k) (h2 : k < r) :
    (nextY l r s k ++ pending (mid l r) r (nextS l r s) k).Perm (pending l r s k) := by
  have hm := mid_lt h
  have hmid : mid l r = l + (r - l) / 2 + (r - l) % 2 := rfl
  rw [List.perm_iff_count]
  intro x
  rw [List.count_append, count_pending, count_pending]
  let c : Nat → Nat := fun i => (addressed k (s i)).count x
  let o : Nat → Nat := fun i => if i = mid l r then (if (r - l) % 2 ≠ 0 then c (mid l r - 1) else 0) else 0
  let g : Nat → Nat := fun i => c (i - (mid l r - l)) + o i
  have ho : ∀ i, (addressed k (second l r s i)).count x = o i := by
    intro i
    simp only [second, o]
    by_cases ht : treatodd i l r = true
    · have := treatodd_iff.1 ht
      rw [if_pos ht, if_pos this.2, if_pos this.1, addressed_up h1]
    · have := treatodd_false.1 (Bool.eq_false_iff.2 ht)
      rw [if_neg ht]
      by_cases hi : i = mid l r
      · rw [if_pos hi, if_neg (by omega)]; rfl
      · rw [if_neg hi]; rfl
  have hY : (nextY l r s k).count x = g k := by
    simp only [nextY, if_neg (Nat.not_lt.2 h1), g]
    rw [List.count_append, ho, addressed_up h1]
  have hS : ∀ i, mid l r ≤ i → i < r → (if i = k then 0 else (addressed k (nextS l r s i)).count x) =
      (fun i => if i = k then 0 else c i) i + (fun i => if i = k then 0 else g i) i := by
    intro i h3 h4
    simp only
    by_cases hik : i = k
    · simp [hik]
    · simp only [if_neg hik, nextS, if_neg (Nat.not_lt.2 h3)]
      rw [addressed_mergeSend ?_ (Ne.symm hik) _ (by omega), if_pos ⟨h1, h2⟩, addressed_up h1, List.count_append, List.count_append, ho]
      · simp only [g, c]; omega
      · intro r' x hx
        rcases List.mem_append.1 hx with hx | hx
        · rcases List.mem_append.1 hx with hx | hx <;> exact (mem_addressed.1 hx).2
        · exact (mem_addressed.1 hx).2
  rw [hY, sumR_congr hS, sumR_add _ _ _ (by omega)]
  have e1 := sumR_except g h1 r (by omega)
  rw [if_pos h2] at e1
  have eo : sumR o (mid l r) r = if (r - l) % 2 ≠ 0 then c (mid l r - 1) else 0 := by
    rw [sumR_append o (show mid l r ≤ mid l r + 1 by omega) (by omega), sumR_succ _ (Nat.le_refl _), sumR_self,
      sumR_zero (a := mid l r + 1) (by intro i h1 h2; simp only [o]; rw [if_neg (by omega)])]
    simp [o]
  have e2 : sumR g (mid l r) r = sumR c l (mid l r) := by
    rw [show g = fun i => (fun i => c (i - (mid l r - l))) i + o i from rfl, sumR_add _ _ _ (by omega), eo]
    have e3 := sumR_shift (fun i => c (i - (mid l r - l))) (mid l r - l) (a := l) (l + (r - mid l r)) (by omega)
    rw [show l + (mid l r - l) = mid l r by omega, show l + (r - mid l r) + (mid l r - l) = r by omega] at e3
    rw [← e3, sumR_congr (g := c) (by intro i _ _; simp)]
    by_cases hodd : (r - l) % 2 ≠ 0
    · rw [if_pos hodd, show mid l r = l + (r - mid l r) + 1 by omega, sumR_succ _ (by omega)]
      congr 2 <;> omega
    · rw [if_neg hodd, Nat.add_zero]
      congr 1; omega
  rw [sumR_append (fun i => if i = k then 0 else (addressed k (s i)).count x) (show l ≤ mid l r by omega) (show mid l r ≤ r by omega)]
  have e5 : sumR (fun i => if i = k then 0 else (addressed k (s i)).count x) l (mid l r) = sumR c l (mid l r) :=
    sumR_congr (by intro i h3 h4; rw [if_neg (by omega)])
  rw [e5, ← e2]
  have e6 : sumR (fun i => if i = k then 0 else c i) (mid l r) r = sumR (fun i => if i = k then 0 else (addressed k (s i)).count x) (mid l r) r := rfl
  omega

theorem nextS_sorted {l r : Nat} (h : l + 1 < r) (s : Nat → List Rec) (hs : ∀ i, inR l r i → Srt (s i)) {i : Nat} (hi : inR l r i) :
    Srt (nextS l r s i) := by
  have hm := mid_lt h
  unfold nextS
  split
  · split
    · exact (hs i hi).filter _
    · refine mergeSend_sorted ?_ _ (by omega)
      intro r' x hx
      rcases List.mem_append.1 hx with hx | hx <;> exact (mem_addressed.1 hx).2
  · refine mergeSend_sorted ?_ _ (by omega)
    intro r' x hx
    rcases List.mem_append.1 hx with hx | hx
    · rcases List.mem_append.1 hx with hx | hx <;> exact (mem_addressed.1 hx).2
    · exact (mem_addressed.1 hx).2

theorem nextS_lower {l r : Nat} (s : Nat → List Rec) (hr : ∀ i, inR l r i → ∀ x ∈ s i, l ≤ x.1 ∧ x.1 < r) {i : Nat}
    (hi : inR l r i) (h2 : i < mid l r) : ∀ x ∈ nextS l r s i, l ≤ x.1 ∧ x.1 < mid l r := by
  intro x hx
  unfold nextS at hx
  rw [if_pos h2] at hx
  split at hx
  · have h3 := List.mem_filter.1 hx
    have h4 := hr i hi x h3.1
    have h5 := of_decide_eq_true h3.2
    omega
  · refine mergeSend_range ?_ x hx
    intro r' x hx
    rcases List.mem_append.1 hx with hx | hx <;> exact (mem_addressed.1 hx).2

theorem nextS_upper {l r : Nat} (s : Nat → List Rec) {i : Nat} (h2 : mid l r ≤ i) :
    ∀ x ∈ nextS l r s i, mid l r ≤ x.1 ∧ x.1 < r := by
  intro x hx
  unfold nextS at hx
  rw [if_neg (by omega)] at hx
  refine mergeSend_range ?_ x hx
  intro r' x hx
  rcases List.mem_append.1 hx with hx | hx
  · rcases List.mem_append.1 hx with hx | hx <;> exact (mem_addressed.1 hx).2
  · exact (mem_addressed.1 hx).2

theorem a2a_local {S : Type} (t : Nat) : ∀ n l r, r - l = n → l < r → ∀ (s : Nat → List Rec) (b : Nat → List Int),
    (∀ i, inR l r i → Srt (s i)) → (∀ i, inR l r i → ∀ x ∈ s i, l ≤ x.1 ∧ x.1 < r) →
    ∃ X : Nat → List Rec, (∀ i, inR l r i → (X i).Perm (pending l r s i)) ∧ ∀ K : Nat → Option (List Int) → Prog (List Int) S,
      Local (inR l r) (fun i => (allToAllLoop t i l r (encode (s i)) (b i)).bind (K i)) (fun i => K i (some (b i ++ encode (X i)))) := by
  intro n
  induction n using Nat.strongRecOn with
  | ind n ih =>
    intro l r hn hlr s b hs hr
    by_cases h : l + 1 < r
    · have hm := mid_lt h
      obtain ⟨X1, p1, l1⟩ := ih (mid l r - l) (by omega) l (mid l r) rfl hm.1 (nextS l r s) (fun i => b i ++ encode (nextY l r s i))
        (fun i hi => nextS_sorted h s hs ⟨hi.1, by have := hi.2; omega⟩) (fun i hi => nextS_lower s hr ⟨hi.1, by have := hi.2; omega⟩ hi.2)
      obtain ⟨X2, p2, l2⟩ := ih (r - mid l r) (by omega) (mid l r) r rfl hm.2 (nextS l r s) (fun i => b i ++ encode (nextY l r s i))
        (fun i hi => nextS_sorted h s hs ⟨by have := hi.1; omega, hi.2⟩) (fun i hi => nextS_upper s hi.1)
      refine ⟨fun i => nextY l r s i ++ if i < mid l r then X1 i else X2 i, ?_, ?_⟩
      · intro i hi
        simp only
        by_cases hlt : i < mid l r
        · rw [if_pos hlt]
          exact ((p1 i ⟨hi.1, hlt⟩).append_left _).trans (conserve_lower h s hi.1 hlt)
        · rw [if_neg hlt]
          exact ((p2 i ⟨by omega, hi.2⟩).append_left _).trans (conserve_upper h s (by omega) hi.2)
      · intro K
        refine (a2a_level t h s b hs hr K).trans ?_
        refine (((l1 K).congr (fun i hi => ?_) (fun i hi => ?_)).par ((l2 K).congr (fun i hi => ?_) (fun i hi => ?_)) ?_).iff ?_
        · rw [if_pos hi.2]
        · simp only; rw [if_pos hi.2, encode_append, List.append_assoc]
        · rw [if_neg (Nat.not_lt.2 hi.1)]
        · simp only; rw [if_neg (Nat.not_lt.2 hi.1), encode_append, List.append_assoc]
        · intro i h1 h2; unfold inR at h1 h2; omega
        · intro i; unfold inR; omega
    · have h2 : r = l + 1 := by omega
      refine ⟨fun _ => [], ?_, ?_⟩
      · intro i hi
        have h1 : i = l := by unfold inR at hi; omega
        subst h1; subst h2
        unfold pending
        rw [show i + 1 - i = 1 by omega]
        simp
      · intro K
        refine Local.refl ?_
        intro i hi
        rw [allToAllLoop, dif_neg h]
        simp [Prog.bind, encode_nil]

theorem own_eq {s : List Rec} (h : Srt s) (k : Nat) : (do
    let mybegin ← movebefore (encode s) k 0 (encode s).length
    let myend ← movebefore (encode s) (k + 1) mybegin (encode s).length
    slice (encode s) mybegin (myend - mybegin)) = some (encode (addressed k s)) := by
  have a1 := movebefore_from h [] [] (Nat.le_succ k)
  have a3 := slice_enc h [] [] k
  simp only [List.nil_append, List.append_nil, List.length_nil, Nat.zero_add, Nat.succ_eq_add_one] at a1 a3
  simp only [movebefore_all h, Option.bind_eq_bind, Option.bind_some, a1, a3]

theorem own_pending (l r : Nat) (s : Nat → List Rec) {k : Nat} (h : inR l r k) :
    (addressed k (s k) ++ pending l r s k).Perm ((contributions l r s).flatMap (addressed k)) := by
  rw [List.perm_iff_count]
  intro x
  have := sumR_except (fun i => (addressed k (s i)).count x) h.1 r (Nat.le_of_lt (Nat.lt_of_le_of_lt h.1 h.2))
  rw [if_pos h.2] at this
  rw [List.count_append, count_pending, Nat.add_comm, this]
  unfold contributions
  rw [List.count_flatMap, List.map_map]
  rfl

end Verif.Comm
