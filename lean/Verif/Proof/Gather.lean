import Verif.Proof.AllReduce
/-! Gather-like collectives (from the leaves of the tree of ranges to its root). -/
namespace Verif.Comm
open Verif.Mpi

variable {M S R : Type}

theorem node_succ_lower {rank l r n : Nat} (h : l + 1 < r) (hl : rank < mid l r) : node rank l r (n + 1) = node rank l (mid l r) n := by
  simp [node, h, hl]
theorem node_succ_upper {rank l r n : Nat} (h : l + 1 < r) (hl : ¬ rank < mid l r) : node rank l r (n + 1) = node rank (mid l r) r n := by
  simp [node, h, hl]
theorem node_leaf {rank l r : Nat} (h : ¬ l + 1 < r) : ∀ n, node rank l r n = (l, r)
  | 0 => rfl
  | n + 1 => by simp [node, h]

theorem upLoop_leaf (body : Nat → Nat → Nat → S → Prog M S) {rank l r : Nat} (h : ¬ l + 1 < r) : ∀ n s, upLoop body rank l r n s = .ret s
  | 0, s => rfl
  | n + 1, s => by
      simp only [upLoop, node_leaf h, h, if_false, Prog.bind]
      exact upLoop_leaf body h n s

theorem upLoop_lower (body : Nat → Nat → Nat → S → Prog M S) {rank l r : Nat} (h : l + 1 < r) (hl : rank < mid l r) :
    ∀ n s, upLoop body rank l r (n + 1) s = (upLoop body rank l (mid l r) n s).bind (body rank l r)
  | 0, s => by
      simp only [upLoop, node, h, if_true, Prog.bind, Prog.bind_ret]
  | n + 1, s => by
      rw [upLoop]
      simp only [node_succ_lower h hl]
      rw [upLoop]
      rw [Prog.bind_assoc]
      congr 1
      funext s'
      exact upLoop_lower body h hl n s'

theorem upLoop_upper (body : Nat → Nat → Nat → S → Prog M S) {rank l r : Nat} (h : l + 1 < r) (hl : ¬ rank < mid l r) :
    ∀ n s, upLoop body rank l r (n + 1) s = (upLoop body rank (mid l r) r n s).bind (body rank l r)
  | 0, s => by
      simp only [upLoop, node, h, if_true, Prog.bind, Prog.bind_ret]
  | n + 1, s => by
      rw [upLoop]
      simp only [node_succ_upper h hl]
      rw [upLoop]
      rw [Prog.bind_assoc]
      congr 1
      funext s'
      exact upLoop_upper body h hl n s'

/-- Correctness of the loop from the correctness of one level. `val l r i` is the state of rank `i` after its range `l … r` is done. -/
theorem upLoop_local (body : Nat → Nat → Nat → S → Prog M S) (val : Nat → Nat → Nat → S)
    (hlev : ∀ l r, l + 1 < r → ∀ K : Nat → S → Prog M R,
      Local (inR l r) (fun i => (body i l r (if i < mid l r then val l (mid l r) i else val (mid l r) r i)).bind (K i))
        (fun i => K i (val l r i))) :
    ∀ (n l r : Nat), l < r → r - l ≤ 2 ^ n → ∀ K : Nat → S → Prog M R,
      Local (inR l r) (fun i => (upLoop body i l r n (val i (i + 1) i)).bind (K i)) (fun i => K i (val l r i)) := by
  intro n
  induction n with
  | zero =>
    intro l r hlr hn K
    refine Local.refl ?_
    intro i hi
    have h1 : i = l := by unfold inR at hi; simp at hn; omega
    have h2 : r = l + 1 := by simp at hn; omega
    subst h1; subst h2
    rfl
  | succ n ih =>
    intro l r hlr hn K
    by_cases h : l + 1 < r
    · have hm := mid_lt h
      have hmid : mid l r = l + (r - l) / 2 + (r - l) % 2 := rfl
      rw [Nat.pow_succ] at hn
      have h1 := ih l (mid l r) hm.1 (by omega) (fun i s => (body i l r s).bind (K i))
      have h2 := ih (mid l r) r hm.2 (by omega) (fun i s => (body i l r s).bind (K i))
      refine Local.trans ?_ (hlev l r h K)
      refine ((h1.congr (fun i hi => ?_) (fun i hi => ?_)).par (h2.congr (fun i hi => ?_) (fun i hi => ?_)) ?_).iff ?_
      · rw [upLoop_lower body h hi.2, Prog.bind_assoc]
      · rw [if_pos hi.2]
      · rw [upLoop_upper body h (Nat.not_lt.2 hi.1), Prog.bind_assoc]
      · rw [if_neg (Nat.not_lt.2 hi.1)]
      · intro i h1 h2; unfold inR at h1 h2; omega
      · intro i; unfold inR; omega
    · refine Local.refl ?_
      intro i hi
      have h1 : i = l := by unfold inR at hi; omega
      have h2 : r = l + 1 := by omega
      subst h1; subst h2
      rw [upLoop_leaf body h]
      rfl

theorem levels_le (size : Nat) : size ≤ 2 ^ levels size := by
  unfold levels
  have := Nat.lt_log2_self (n := 2 * size - 1)
  rw [Nat.pow_succ] at this
  omega

/-- `levels size` is the ceiling of the logarithm. -/
theorem levels_least (size L : Nat) (h : size ≤ 2 ^ L) : levels size ≤ L := by
  unfold levels
  by_cases h0 : 2 * size - 1 = 0
  · rw [h0]; exact Nat.zero_le _
  · have : (2 * size - 1).log2 < L + 1 := (Nat.log2_lt h0).2 (by rw [Nat.pow_succ]; omega)
    omega

/-- One level of an all-gather. -/
theorem gatherLevel_local (t : Nat) (out : S → M) (fl fu : S → M → S) {l r : Nat} (h : l + 1 < r) (v v' : Nat → S) (wl wu : M)
    (hwl : ∀ i, inR l (mid l r) i → out (v i) = wl) (hwu : ∀ i, inR (mid l r) r i → out (v i) = wu)
    (hfl : ∀ i, inR l (mid l r) i → fl (v i) wu = v' i) (hfu : ∀ i, inR (mid l r) r i → fu (v i) wl = v' i) (K : Nat → S → Prog M R) :
    Local (inR l r) (fun i => (gatherLevel t out fl fu i l r (v i)).bind (K i)) (fun i => K i (v' i)) := by
  have hm := mid_lt h
  have hmid : mid l r = l + (r - l) / 2 + (r - l) % 2 := rfl
  generalize hP : (fun i => (gatherLevel t out fl fu i l r (v i)).bind (K i)) = P
  generalize hQ : (fun i => K i (v' i)) = Q
  let m1 : Nat → Prog M R := fun i =>
    if isodd i l r then P i
    else if treatodd i l r then .send (mid l r - 1) t wu (K i (v' i))
    else Q i
  have hpairs : Local (fun i => ∃ s, s < r - mid l r ∧ (i = l + s ∨ i = mid l r + s)) P m1 := by
    apply Local.all
    · intro s hs
      have hlow : l + s < mid l r := by omega
      have hnodd : isodd (l + s) l r = false := by rw [isodd_false]; omega
      have htr : treatodd (l + s) l r = false := by rw [treatodd_false]; omega
      have hnodd' : isodd (mid l r + s) l r = false := by rw [isodd_false]; omega
      have htwin : l + s + (mid l r - l) = mid l r + s := by omega
      have htwin' : mid l r + s - (mid l r - l) = l + s := by omega
      have inl : inR l (mid l r) (l + s) := ⟨by omega, by omega⟩
      have inu : inR (mid l r) r (mid l r + s) := ⟨by omega, by omega⟩
      refine Local.exch (t := t) (a := wl) (b := wu) (j := mid l r + s)
        (ki := fun m => K (l + s) (fl (v (l + s)) m))
        (f := fun m => .send (l + s) t wu ((if treatodd (mid l r + s) l r then .send (mid l r - 1) t wu (.ret (fu (v (mid l r + s)) m))
          else .ret (fu (v (mid l r + s)) m) : Prog M S).bind (K (mid l r + s)))) ?_ ?_ rfl ?_ ?_
      · rw [← hP]
        simp only [gatherLevel]
        rw [if_pos hlow, if_neg (by simp [hnodd]), htwin, hwl _ inl]
        rfl
      · rw [← hP]
        simp only [gatherLevel]
        rw [if_neg (by omega), htwin', hwu _ inu]
        rfl
      · simp only [m1, hnodd, htr, ← hQ, hfl _ inl]
        rfl
      · simp only [m1, hnodd', hfu _ inu, ← hQ]
        split
        · rename_i h; cases h
        · split
          · rfl
          · rfl
    · intro s s' i hs hs' h1 h2
      omega
  by_cases hodd : (r - l) % 2 = 0
  · refine (hpairs.congr (fun _ _ => rfl) ?_).iff ?_
    · intro i hi
      have h1 : isodd i l r = false := by rw [isodd_false]; omega
      have h2 : treatodd i l r = false := by rw [treatodd_false]; omega
      simp only [m1, h1, h2]
      rfl
    · intro i
      unfold inR
      constructor
      · rintro ⟨s, hs, rfl | rfl⟩ <;> omega
      · intro hi
        by_cases hlt : i < mid l r
        · exact ⟨i - l, by omega, by omega⟩
        · exact ⟨i - mid l r, by omega, by omega⟩
  · have h1 : Local (inR l r) P m1 := by
      refine hpairs.frame ?_ ?_
      · rintro i ⟨s, hs, rfl | rfl⟩ <;> unfold inR <;> omega
      · intro i hi hn
        have : isodd i l r = true := by
          rw [isodd_iff]
          refine ⟨hodd, ?_⟩
          unfold inR at hi
          by_cases hlt : i < mid l r
          · rcases Nat.lt_or_ge (i - l) (r - mid l r) with hh | hh
            · exact absurd ⟨i - l, hh, by omega⟩ hn
            · omega
          · exact absurd ⟨i - mid l r, by omega, by omega⟩ hn
        simp only [m1, this, if_true]
    have h2 : Local (fun x => x = mid l r ∨ x = mid l r - 1) m1 Q := by
      have o1 : isodd (mid l r - 1) l r = true := by rw [isodd_iff]; omega
      have o2 : isodd (mid l r) l r = false := by rw [isodd_false]; omega
      have o3 : treatodd (mid l r) l r = true := by rw [treatodd_iff]; omega
      refine Local.msg (t := t) (m := wu) (k := K (mid l r) (v' (mid l r)))
        (k' := fun m => K (mid l r - 1) (fl (v (mid l r - 1)) m)) ?_ ?_ ?_ ?_
      · simp only [m1, o2, o3, if_true]
        rfl
      · simp only [m1, o1, if_true, ← hP, gatherLevel]
        rw [if_pos (by omega)]
        rfl
      · simp only [← hQ]
      · simp only [← hQ]
        rw [hfl _ ⟨by omega, by omega⟩]
    refine h1.trans (h2.frame ?_ ?_)
    · rintro i (rfl | rfl) <;> unfold inR <;> omega
    · intro i hi hn
      have h1 : isodd i l r = false := by rw [isodd_false]; omega
      have h2 : treatodd i l r = false := by rw [treatodd_false]; omega
      simp only [m1, h1, h2]
      rfl

/-- All-gathers: the message `w l r` is what all ranks of the range know afterwards. -/
theorem allGather_local (t : Nat) (out : S → M) (fl fu : S → M → S) (val : Nat → Nat → Nat → S) (w : Nat → Nat → M)
    (hout : ∀ l r i, inR l r i → out (val l r i) = w l r)
    (hfl : ∀ l m r i, inR l m i → m < r → fl (val l m i) (w m r) = val l r i)
    (hfu : ∀ l m r i, inR m r i → l < m → fu (val m r i) (w l m) = val l r i)
    (n l r : Nat) (hlr : l < r) (hn : r - l ≤ 2 ^ n) (K : Nat → S → Prog M R) :
    Local (inR l r) (fun i => (upLoop (gatherLevel t out fl fu) i l r n (val i (i + 1) i)).bind (K i)) (fun i => K i (val l r i)) := by
  refine upLoop_local _ val ?_ n l r hlr hn K
  intro l r h K
  have hm := mid_lt h
  refine gatherLevel_local t out fl fu h _ _ (w l (mid l r)) (w (mid l r) r) ?_ ?_ ?_ ?_ K
  · intro i hi; rw [if_pos hi.2]; exact hout _ _ _ hi
  · intro i hi; rw [if_neg (Nat.not_lt.2 hi.1)]; exact hout _ _ _ hi
  · intro i hi; rw [if_pos hi.2]; exact hfl _ _ _ _ hi hm.2
  · intro i hi; rw [if_neg (Nat.not_lt.2 hi.1)]; exact hfu _ _ _ _ hi hm.1

end Verif.Comm
