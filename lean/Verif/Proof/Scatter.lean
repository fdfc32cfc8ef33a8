import Verif.Proof.Gather2
/-! Scatter operations. -/
namespace Verif.Comm
open Verif.Mpi

variable {T R : Type}

theorem resize_length [Inhabited T] (buf : List T) (n : Nat) : (resize buf n).length = n := by
  simp [resize]; omega

theorem resize_take [Inhabited T] {buf : List T} {n : Nat} (h : n ≤ buf.length) : resize buf n = buf.take n := by
  simp [resize, Nat.sub_eq_zero_of_le h]

/-- Part of the root buffer for the ranks `a … b`. -/
def part (s : List T) (D : Nat → Nat) (a b : Nat) : List T := (s.drop (D a)).take (D b - D a)

theorem part_length {s : List T} {D : Nat → Nat} {a b : Nat} (h : D b ≤ s.length) : (part s D a b).length = D b - D a := by
  simp only [part, List.length_take, List.length_drop]; omega

theorem part_slice {s : List T} {D : Nat → Nat} {l m r : Nat} (h1 : D l ≤ D m) (h2 : D m ≤ D r) (h : D r ≤ s.length) :
    slice (part s D l r) (D m - D l) (D r - D m) = some (part s D m r) := by
  unfold slice
  rw [if_pos (by rw [part_length h]; omega)]
  unfold part
  rw [List.drop_take, List.drop_drop, List.take_take, show D l + (D m - D l) = D m by omega]
  congr 2; omega

theorem part_take {s : List T} {D : Nat → Nat} {l m r : Nat} (h2 : D m ≤ D r) :
    (part s D l r).take (D m - D l) = part s D l m := by
  unfold part
  rw [List.take_take]; congr 1; omega

variable [Inhabited T]

theorem scatter_local (t : Nat) (dist : Nat → Nat → Option Nat) (first : Option Nat) (D : Nat → Nat) (size : Nat) (s : List T)
    (hD : ∀ a b, a ≤ b → b ≤ size → D a ≤ D b) (hd : ∀ a b, a ≤ b → b ≤ size → dist a b = some (D b - D a)) (h0 : D 0 = 0)
    (hf : first = some (D 1)) (hs : D size ≤ s.length) (sb : Nat → List T) (hsb : sb 0 = s) (K : Nat → Option (List T) → Prog (List T) R) :
    ∀ n l r, r - l = n → l < r → r ≤ size → ∀ rb : Nat → List T, (l ≠ 0 → rb l = part s D l r) →
    Local (inR l r) (fun i => (scatterTree t dist first i l r (sb i) (rb i)).bind (K i)) (fun i => K i (some (part s D i (i + 1)))) := by
  intro n
  induction n using Nat.strongRecOn with
  | ind n ih =>
    intro l r hn hlr hr rb hrb
    by_cases h : l + 1 < r
    · have hm := mid_lt h
      generalize hP : (fun i => (scatterTree t dist first i l r (sb i) (rb i)).bind (K i)) = P
      have d1 := hd l (mid l r) (by omega) (by omega)
      have d2 := hd (mid l r) r (by omega) hr
      have D1 := hD l (mid l r) (by omega) (by omega)
      have D2 := hD (mid l r) r (by omega) hr
      have D3 := hD r size hr (Nat.le_refl _)
      let nrb : Nat → List T := fun i =>
        if i = l then (if i = 0 then rb i else part s D l (mid l r)) else if i = mid l r then part s D (mid l r) r else rb i
      let Q : Nat → Prog (List T) R := fun i =>
        (if i < mid l r then scatterTree t dist first i l (mid l r) (sb i) (nrb i) else scatterTree t dist first i (mid l r) r (sb i) (nrb i)).bind (K i)
      have h1 : Local (inR l r) P Q := by
        refine Local.frame (A := fun x => x = l ∨ x = mid l r) ?_ ?_ ?_
        · refine Local.msg (t := t) (m := part s D (mid l r) r) (k := Q l) (k' := fun msg => Prog.bind (
              match recvInto (resize (rb (mid l r)) (D r - D (mid l r))) msg with
              | none => .ret none
              | some rbuf => scatterTree t dist first (mid l r) (mid l r) r (sb (mid l r)) rbuf) (K (mid l r))) ?_ ?_ rfl ?_
          · rw [← hP]
            simp only
            rw [scatterTree]
            have hsl : slice (if l = 0 then sb l else rb l) (D (mid l r) - D l) (D r - D (mid l r)) = some (part s D (mid l r) r) := by
              by_cases hz : l = 0
              · subst hz
                rw [if_pos rfl, hsb]
                have := part_slice (s := s) (D := D) (l := 0) D1 D2 (by omega)
                unfold slice at this ⊢
                rw [h0, Nat.sub_zero] at this ⊢
                rw [if_pos (by omega)]
                simp only [part]
              · rw [if_neg hz, hrb hz]
                exact part_slice D1 D2 (by omega)
            have hmr : ¬ mid l r = l := by omega
            simp only [h, dif_pos, if_true, d1, d2, hsl, hmr, if_false, hm.1]
            simp only [Prog.bind, Q, hm.1, if_true]
            congr 1
            by_cases hz : l = 0
            · subst hz; simp [nrb]
            · simp only [hz, if_false, nrb, if_true, hrb hz]
              rw [resize_take (by rw [part_length (by omega)]; omega), part_take D2]
          · rw [← hP]
            simp only
            rw [scatterTree]
            have hmr : ¬ l = mid l r := by omega
            simp only [h, dif_pos, hmr, if_false, if_true, d2, Nat.lt_irrefl]
            simp only [Prog.bind]
            congr 1
          · have hmr : ¬ mid l r = l := by omega
            rw [recvInto_eq (by rw [part_length (by omega), resize_length])]
            simp only [Q, Nat.lt_irrefl, if_false, nrb, hmr, if_true]
        · rintro i (rfl | rfl) <;> unfold inR <;> omega
        · intro i hi hni
          rw [← hP]
          have e1 : ¬ l = i := fun e => hni (.inl e.symm)
          have e2 : ¬ mid l r = i := fun e => hni (.inr e.symm)
          simp only [Q]
          rw [scatterTree]
          simp only [h, dif_pos, e1, e2, if_false, nrb, Ne.symm e1, Ne.symm e2]
      have l1 := ih (mid l r - l) (by omega) l (mid l r) rfl hm.1 (by omega) nrb (by
        intro hz; simp only [nrb, if_true, hz, if_false])
      have l2 := ih (r - mid l r) (by omega) (mid l r) r rfl hm.2 hr nrb (by
        intro hz; simp only [nrb, if_neg (show ¬ mid l r = l by omega), if_true])
      refine h1.trans ?_
      refine ((l1.congr (fun i hi => ?_) (fun i hi => rfl)).par (l2.congr (fun i hi => ?_) (fun i hi => rfl)) ?_).iff ?_
      · simp only [Q]; rw [if_pos hi.2]
      · simp only [Q]; rw [if_neg (Nat.not_lt.2 hi.1)]
      · intro i h1 h2; unfold inR at h1 h2; omega
      · intro i; unfold inR; omega
    · refine Local.refl ?_
      intro i hi
      have h1 : i = l := by unfold inR at hi; omega
      have h2 : r = l + 1 := by omega
      subst h1; subst h2
      rw [scatterTree]
      simp only [h, dif_neg, not_false_iff]
      by_cases hz : i = 0
      · subst hz
        have := hD 1 size (by omega) (Nat.le_refl _)
        simp only [if_true, Prog.bind, hf, Option.bind_some, slice, hsb]
        rw [if_pos (by omega)]
        simp [part, h0]
      · simp only [hz, if_false, Prog.bind, hrb hz]

end Verif.Comm
