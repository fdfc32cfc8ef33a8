import Verif.Proof.Gather
import Verif.Spec.Comm
import Mathlib.Tactic.Tauto
/-! The individual gather operations. -/
namespace Verif.Comm
open Verif.Mpi

variable {T R A : Type}

theorem contributions_append {l m r : Nat} (d : Nat → A) (h : l ≤ m) (h' : m ≤ r) :
    contributions l r d = contributions l m d ++ contributions m r d := by
  unfold contributions
  rw [show r - l = (m - l) + (r - m) by omega, ← List.range'_append_1, List.map_append, show l + (m - l) = m by omega]

theorem contributions_one (i : Nat) (d : Nat → A) : contributions i (i + 1) d = [d i] := by
  unfold contributions
  rw [show i + 1 - i = 1 by omega]
  rfl

theorem contributions_length (l r : Nat) (d : Nat → A) : (contributions l r d).length = r - l := by
  simp [contributions]

theorem mem_contributions {l r : Nat} {d : Nat → A} {x : A} : x ∈ contributions l r d ↔ ∃ i, l ≤ i ∧ i < r ∧ d i = x := by
  unfold contributions
  simp only [List.mem_map, List.mem_range'_1]
  constructor
  · rintro ⟨i, hi, e⟩; exact ⟨i, hi.1, by omega, e⟩
  · rintro ⟨i, h1, h2, e⟩; exact ⟨i, ⟨h1, by omega⟩, e⟩

theorem flatten_one (i : Nat) (d : Nat → List T) : (contributions i (i + 1) d).flatten = d i := by
  rw [contributions_one]; simp

/-! ### gather -/

def gatherVal (d : Nat → List T) (l r i : Nat) : Option (List T) := if i = l then some (contributions l r d).flatten else none

theorem gather_local (t : Nat) (d : Nat → List T) (n l r : Nat) (hlr : l < r) (hn : r - l ≤ 2 ^ n) (K : Nat → Option (List T) → Prog (List T) R) :
    Local (inR l r) (fun i => (upLoop (gatherBody t) i l r n (some (d i))).bind (K i)) (fun i => K i (gatherVal d l r i)) := by
  refine Local.congr (upLoop_local (gatherBody t) (gatherVal d) ?_ n l r hlr hn K) (fun i _ => ?_) (fun _ _ => rfl)
  · intro l r h K
    have hm := mid_lt h
    have hb : ∀ i, l ≤ i → i ≠ l → i ≠ mid l r → (if i < mid l r then gatherVal d l (mid l r) i else gatherVal d (mid l r) r i) = none := by
      intro i _ h1 h2
      split <;> simp [gatherVal, h1, h2]
    have hl : (if l < mid l r then gatherVal d l (mid l r) l else gatherVal d (mid l r) r l) = some (contributions l (mid l r) d).flatten := by
      rw [if_pos hm.1]; simp [gatherVal]
    have hmm : (if mid l r < mid l r then gatherVal d l (mid l r) (mid l r) else gatherVal d (mid l r) r (mid l r)) =
        some (contributions (mid l r) r d).flatten := by
      rw [if_neg (Nat.lt_irrefl _)]; simp [gatherVal]
    refine Local.frame (A := fun x => x = mid l r ∨ x = l) ?_ ?_ ?_
    · refine Local.msg (t := t) (m := (contributions (mid l r) r d).flatten) (k := K (mid l r) none)
        (k' := fun m => K l (some ((contributions l (mid l r) d).flatten ++ m))) ?_ ?_ ?_ ?_
      · simp only [hmm, gatherBody]
        rw [if_neg (by omega)]
        simp [Prog.bind]
      · simp only [hl, gatherBody, if_true]
        rfl
      · simp only [gatherVal]
        rw [if_neg (by omega)]
      · simp only [gatherVal, if_true]
        rw [contributions_append d (Nat.le_of_lt hm.1) (Nat.le_of_lt hm.2), List.flatten_append]
    · rintro i (rfl | rfl) <;> unfold inR <;> omega
    · intro i hi hn
      rw [hb i hi.1 (fun e => hn (.inr e)) (fun e => hn (.inl e))]
      simp only [gatherBody, Prog.bind, gatherVal]
      rw [if_neg (fun e => hn (.inr e))]
  · simp [gatherVal, flatten_one]

/-! ### set union -/

section
variable {lt : T → T → Bool} (hirr : ∀ a, lt a a = false) (htr : ∀ a b c, lt a b = true → lt b c = true → lt a c = true)
  (htri : ∀ a b, lt a b = false → lt b a = false → a = b)

include htri in
theorem mem_setUnion : ∀ (as bs : List T) (x : T), x ∈ setUnion lt as bs ↔ x ∈ as ∨ x ∈ bs := by
  intro as bs
  induction as, bs using setUnion.induct (lt := lt) with
  | case1 bs => intro x; simp [setUnion]
  | case2 as h => intro x; cases as with
    | nil => exact (h rfl).elim
    | cons => simp [setUnion]
  | case3 a as b bs h ih =>
    intro x; rw [setUnion, if_pos h, List.mem_cons, ih]; simp only [List.mem_cons]; tauto
  | case4 a as b bs h h' ih =>
    intro x; rw [setUnion, if_neg h, if_pos h', List.mem_cons, ih]; simp only [List.mem_cons]; tauto
  | case5 a as b bs h h' ih =>
    intro x
    have := htri a b (by simpa using h) (by simpa using h')
    rw [setUnion, if_neg h, if_neg h', List.mem_cons, ih, this]; simp only [List.mem_cons]; tauto

include htr htri in
theorem sorted_setUnion : ∀ (as bs : List T), Increasing lt as → Increasing lt bs → Increasing lt (setUnion lt as bs) := by
  intro as bs
  induction as, bs using setUnion.induct (lt := lt) with
  | case1 bs => intro _ h; simpa [setUnion] using h
  | case2 as h => intro h' _; cases as with
    | nil => exact (h rfl).elim
    | cons => simpa [setUnion] using h'
  | case3 a as b bs h ih =>
    intro h1 h2
    rw [setUnion, if_pos h]
    refine List.pairwise_cons.2 ⟨?_, ih (List.pairwise_cons.1 h1).2 h2⟩
    intro x hx
    rcases (mem_setUnion htri _ _ _).1 hx with hx | hx
    · exact (List.pairwise_cons.1 h1).1 x hx
    · rcases List.mem_cons.1 hx with rfl | hx
      · exact h
      · exact htr _ _ _ h ((List.pairwise_cons.1 h2).1 x hx)
  | case4 a as b bs h h' ih =>
    intro h1 h2
    rw [setUnion, if_neg h, if_pos h']
    refine List.pairwise_cons.2 ⟨?_, ih h1 (List.pairwise_cons.1 h2).2⟩
    intro x hx
    rcases (mem_setUnion htri _ _ _).1 hx with hx | hx
    · rcases List.mem_cons.1 hx with rfl | hx
      · exact h'
      · exact htr _ _ _ h' ((List.pairwise_cons.1 h1).1 x hx)
    · exact (List.pairwise_cons.1 h2).1 x hx
  | case5 a as b bs h h' ih =>
    intro h1 h2
    have e := htri a b (by simpa using h) (by simpa using h')
    rw [setUnion, if_neg h, if_neg h']
    refine List.pairwise_cons.2 ⟨?_, ih (List.pairwise_cons.1 h1).2 (List.pairwise_cons.1 h2).2⟩
    intro x hx
    rcases (mem_setUnion htri _ _ _).1 hx with hx | hx
    · exact (List.pairwise_cons.1 h1).1 x hx
    · rw [e]; exact (List.pairwise_cons.1 h2).1 x hx

include hirr htr in
/-- A strictly sorted list is determined by its elements. -/
theorem sorted_ext : ∀ (as bs : List T), Increasing lt as → Increasing lt bs → (∀ x, x ∈ as ↔ x ∈ bs) → as = bs
  | [], [], _, _, _ => rfl
  | [], b :: bs, _, _, h => by have := (h b).2 (by simp); cases this
  | a :: as, [], _, _, h => by have := (h a).1 (by simp); cases this
  | a :: as, b :: bs, h1, h2, h => by
      have p1 := List.pairwise_cons.1 h1
      have p2 := List.pairwise_cons.1 h2
      have e : a = b := by
        rcases List.mem_cons.1 ((h a).1 (by simp)) with e | ha
        · exact e
        · rcases List.mem_cons.1 ((h b).2 (by simp)) with e | hb
          · exact e.symm
          · have := htr _ _ _ (p1.1 b hb) (p2.1 a ha)
            rw [hirr] at this; cases this
      subst e
      rw [sorted_ext as bs p1.2 p2.2 ?_]
      intro x
      constructor
      · intro hx
        rcases List.mem_cons.1 ((h x).1 (List.mem_cons_of_mem _ hx)) with e | hb
        · subst e; have := p1.1 x hx; rw [hirr] at this; cases this
        · exact hb
      · intro hx
        rcases List.mem_cons.1 ((h x).2 (List.mem_cons_of_mem _ hx)) with e | hb
        · subst e; have := p2.1 x hx; rw [hirr] at this; cases this
        · exact hb

def unionAll (lt : T → T → Bool) (ls : List (List T)) : List T := ls.foldr (setUnion lt) []

include htri in
theorem mem_unionAll (ls : List (List T)) (x : T) : x ∈ unionAll lt ls ↔ ∃ l ∈ ls, x ∈ l := by
  induction ls with
  | nil => simp [unionAll]
  | cons a as ih =>
    have : unionAll lt (a :: as) = setUnion lt a (unionAll lt as) := rfl
    rw [this, mem_setUnion htri, ih]; simp

include htr htri in
theorem sorted_unionAll (ls : List (List T)) (h : ∀ l ∈ ls, Increasing lt l) : Increasing lt (unionAll lt ls) := by
  induction ls with
  | nil => exact List.Pairwise.nil
  | cons a as ih =>
    have : unionAll lt (a :: as) = setUnion lt a (unionAll lt as) := rfl
    rw [this]
    exact sorted_setUnion htr htri _ _ (h a (by simp)) (ih fun l hl => h l (by simp [hl]))

include hirr htr htri in
theorem unionAll_append (as bs : List (List T)) (ha : ∀ l ∈ as, Increasing lt l) (hb : ∀ l ∈ bs, Increasing lt l) :
    setUnion lt (unionAll lt as) (unionAll lt bs) = unionAll lt (as ++ bs) ∧
    setUnion lt (unionAll lt bs) (unionAll lt as) = unionAll lt (as ++ bs) := by
  have hab : ∀ l ∈ as ++ bs, Increasing lt l := by
    intro l hl
    rcases List.mem_append.1 hl with h | h
    · exact ha l h
    · exact hb l h
  constructor <;> refine sorted_ext hirr htr _ _ (sorted_setUnion htr htri _ _ (sorted_unionAll htr htri _ ?_) (sorted_unionAll htr htri _ ?_))
    (sorted_unionAll htr htri _ hab) ?_ <;> first | assumption | skip
  all_goals
    intro x
    rw [mem_setUnion htri, mem_unionAll htri, mem_unionAll htri, mem_unionAll htri]
    simp only [List.mem_append, or_and_right, exists_or]
    try exact or_comm
end

/-! ### in place -/

/-- Offset of rank `i`; the gathered part of the array begins at `b`. -/
def offs (b : Nat) (d : Nat → List T) (i : Nat) : Nat := b + (contributions 0 i d).flatten.length

theorem offs_add (b : Nat) (d : Nat → List T) {l r : Nat} (h : l ≤ r) : offs b d l + (contributions l r d).flatten.length = offs b d r := by
  unfold offs
  rw [contributions_append d (Nat.zero_le l) h, List.flatten_append, List.length_append, Nat.add_assoc]

def inplaceVal (b : Nat) (a : Nat → List T) (d : Nat → List T) (l r i : Nat) : Option (Inplace T) :=
  some { data := (a i).take (offs b d l) ++ (contributions l r d).flatten ++ (a i).drop (offs b d r), offset := offs b d l,
         size := (contributions l r d).flatten.length }

theorem slice_mid (x y z : List T) (n : Nat) (hx : x.length = n) : ((x ++ y ++ z).drop n).take y.length = y := by
  subst hx
  rw [List.append_assoc, List.drop_left, List.take_left]

theorem inplace_local (t b : Nat) (a d : Nat → List T) (ha : ∀ i r, offs b d r ≤ (a i).length)
    (hown : ∀ i, a i = (a i).take (offs b d i) ++ d i ++ (a i).drop (offs b d (i + 1)))
    (n l r : Nat) (hlr : l < r) (hn : r - l ≤ 2 ^ n) (K : Nat → Option (Inplace T) → Prog (List T) R) :
    Local (inR l r) (fun i => (upLoop (gatherLevel t inplaceOut (fun s m => s.bind (inplaceAbove · m)) (fun s m => s.bind (inplaceBelow · m)))
      i l r n (some { data := a i, offset := offs b d i, size := (d i).length })).bind (K i)) (fun i => K i (inplaceVal b a d l r i)) := by
  refine Local.congr (allGather_local t inplaceOut (fun s m => s.bind (inplaceAbove · m)) (fun s m => s.bind (inplaceBelow · m)) (inplaceVal b a d) (fun l r => (contributions l r d).flatten) ?_ ?_ ?_ n l r hlr hn K)
    (fun i _ => ?_) (fun _ _ => rfl)
  · intro l r i _
    simp only [inplaceVal, inplaceOut]
    exact slice_mid _ _ _ _ (by simp [ha i l])
  · intro l m r i hi hmr
    have hlm : l ≤ m := by have := hi.1; have := hi.2; omega
    have e1 := offs_add b d hlm
    have e2 := offs_add b d (Nat.le_of_lt hmr)
    have a1 := ha i l
    have a2 := ha i m
    have a3 := ha i r
    have el : ((a i).take (offs b d l) ++ (contributions l m d).flatten).length = offs b d m := by
      simp only [List.length_append, List.length_take]; omega
    simp only [inplaceVal, Option.bind_some, inplaceAbove, writeAt]
    rw [e1, if_pos (by simp only [List.length_append, List.length_take, List.length_drop]; omega), e2]
    simp only [Option.bind_eq_bind, Option.bind_some]
    have e3 : ((a i).take (offs b d l) ++ (contributions l m d).flatten ++ (a i).drop (offs b d m)).take (offs b d m) =
        (a i).take (offs b d l) ++ (contributions l m d).flatten := by
      rw [← el, List.take_left]
    have e4 : ((a i).take (offs b d l) ++ (contributions l m d).flatten ++ (a i).drop (offs b d m)).drop (offs b d r) = (a i).drop (offs b d r) := by
      rw [List.drop_append, List.drop_eq_nil_of_le (by omega), List.nil_append, List.drop_drop, el]
      congr 1; omega
    rw [e3, e4, contributions_append d hlm (Nat.le_of_lt hmr), List.flatten_append]
    simp [List.append_assoc]
  · intro l m r i hi hlm
    have hmr : m ≤ r := by have := hi.1; have := hi.2; omega
    have e1 := offs_add b d (Nat.le_of_lt hlm)
    have e2 := offs_add b d hmr
    have a1 := ha i l
    have a2 := ha i m
    have a3 := ha i r
    have el : ((a i).take (offs b d m)).length = offs b d m := by
      simp only [List.length_take]; omega
    simp only [inplaceVal, Option.bind_some, inplaceBelow, writeAt]
    rw [if_pos (by omega), show offs b d m - (contributions l m d).flatten.length = offs b d l by omega,
      if_pos (by simp only [List.length_append, List.length_take, List.length_drop]; omega), e1]
    simp only [Option.bind_eq_bind, Option.bind_some]
    have e3 : ((a i).take (offs b d m) ++ (contributions m r d).flatten ++ (a i).drop (offs b d r)).take (offs b d l) = (a i).take (offs b d l) := by
      rw [List.append_assoc, List.take_append_of_le_length (by omega), List.take_take]
      congr 1; omega
    have e4 : ((a i).take (offs b d m) ++ (contributions m r d).flatten ++ (a i).drop (offs b d r)).drop (offs b d m) =
        (contributions m r d).flatten ++ (a i).drop (offs b d r) := by
      rw [List.append_assoc]
      have := List.drop_left (l₁ := (a i).take (offs b d m)) (l₂ := (contributions m r d).flatten ++ (a i).drop (offs b d r))
      rwa [el] at this
    rw [e3, e4, contributions_append d (Nat.le_of_lt hlm) hmr, List.flatten_append]
    simp [List.append_assoc, Nat.add_comm]
  · simp only [inplaceVal, flatten_one]
    rw [← hown]

end Verif.Comm
