import Verif.Model.AllToAll
import Verif.Proof.Scatter
/-! Targeted all-to-all: scanning and merging of buffers. -/
namespace Verif.Comm
open Verif.Mpi

/-- Messages sorted by target. -/
def Srt (s : List Rec) : Prop := s.Pairwise fun a b => a.1 ≤ b.1
/-- Messages with a target below `m`. -/
def low (m : Nat) (s : List Rec) : List Rec := s.filter fun x => decide (x.1 < m)
/-- The other messages. -/
def up (m : Nat) (s : List Rec) : List Rec := s.filter fun x => decide (m ≤ x.1)

theorem encode_nil : encode [] = [] := rfl
theorem encode_cons (m : Rec) (ms : List Rec) : encode (m :: ms) = (m.2.length + 2 : Int) :: (m.1 : Int) :: m.2 ++ encode ms := by
  simp [encode]
theorem encode_append (a b : List Rec) : encode (a ++ b) = encode a ++ encode b := by simp [encode]

theorem low_up : ∀ {s : List Rec}, Srt s → ∀ m, low m s ++ up m s = s
  | [], _, _ => rfl
  | x :: s, h, m => by
      have h' := List.pairwise_cons.1 h
      by_cases hx : x.1 < m
      · have h1 : low m (x :: s) = x :: low m s := by simp [low, hx]
        have h2 : up m (x :: s) = up m s := by unfold up; rw [List.filter_cons_of_neg (by simp; omega)]
        rw [h1, h2, List.cons_append, low_up h'.2]
      · have h1 : low m (x :: s) = [] := by
          simp only [low, List.filter_eq_nil_iff, decide_eq_true_eq]
          intro y hy
          rcases List.mem_cons.1 hy with rfl | hy
          · exact hx
          · have := h'.1 y hy; omega
        have h2 : up m (x :: s) = x :: s := by
          simp only [up, List.filter_eq_self, decide_eq_true_eq]
          intro y hy
          rcases List.mem_cons.1 hy with rfl | hy
          · omega
          · have := h'.1 y hy; omega
        rw [h1, h2]; rfl

theorem Srt.filter {s : List Rec} (h : Srt s) (p : Rec → Bool) : Srt (s.filter p) := List.Pairwise.filter p h

theorem low_low {s : List Rec} {a m : Nat} (h : a ≤ m) : low a (low m s) = low a s := by
  unfold low
  rw [List.filter_filter]
  apply List.filter_congr
  intro x _
  simp only [Bool.and_eq_left_iff_imp, decide_eq_true_eq]
  omega

theorem low_succ {s : List Rec} (h : Srt s) (r : Nat) : low (r + 1) s = low r s ++ addressed r s := by
  have : low r (low (r + 1) s) ++ up r (low (r + 1) s) = low (r + 1) s := low_up (h.filter fun x => decide (x.1 < r + 1)) r
  rw [← this]
  congr 1
  · exact low_low (Nat.le_succ r)
  · unfold up addressed low
    rw [List.filter_filter]
    apply List.filter_congr
    intro x _
    rw [Bool.eq_iff_iff]
    simp only [Bool.and_eq_true, decide_eq_true_eq, beq_iff_eq]
    omega

/-- Records between two ranks. -/
theorem low_le {s : List Rec} (h : Srt s) {a m : Nat} (ham : a ≤ m) : low m s = low a s ++ up a (low m s) := by
  have := low_up (h.filter fun x => decide (x.1 < m)) a
  rw [← low_low ham]; exact this.symm

theorem movebefore_enc (m : Nat) : ∀ (s : List Rec) (X Y : List Int), Srt s →
    movebefore (X ++ encode s ++ Y) m X.length (X.length + (encode s).length) = some (X.length + (encode (low m s)).length)
  | [], X, Y, _ => by rw [movebefore]; simp [encode_nil, low]
  | x :: s, X, Y, h => by
      have h' := List.pairwise_cons.1 h
      rw [movebefore]
      have e0 : X ++ encode (x :: s) ++ Y = X ++ ((x.2.length + 2 : Int) :: (x.1 : Int) :: (x.2 ++ (encode s ++ Y))) := by
        rw [encode_cons]; simp
      have e1 : (X ++ encode (x :: s) ++ Y)[X.length + 1]? = some (x.1 : Int) := by
        rw [e0, List.getElem?_append_right (by omega)]; simp
      have e2 : (X ++ encode (x :: s) ++ Y)[X.length]? = some (x.2.length + 2 : Int) := by
        rw [e0, List.getElem?_append_right (by omega)]; simp
      rw [if_pos (by rw [encode_cons]; simp), e1, e2]
      simp only
      by_cases hx : x.1 < m
      · have hx' : (x.1 : Int) < m := by omega
        rw [if_pos hx', if_pos (by omega)]
        have ih := movebefore_enc m s (X ++ (x.2.length + 2 : Int) :: (x.1 : Int) :: x.2) Y h'.2
        have el : (X ++ (x.2.length + 2 : Int) :: (x.1 : Int) :: x.2).length = X.length + (x.2.length + 2 : Int).toNat := by
          simp only [List.length_append, List.length_cons]; omega
        have e3 : X ++ encode (x :: s) ++ Y = X ++ (x.2.length + 2 : Int) :: (x.1 : Int) :: x.2 ++ encode s ++ Y := by
          rw [encode_cons]; simp
        have e4 : X.length + (encode (x :: s)).length = X.length + (x.2.length + 2 : Int).toNat + (encode s).length := by
          rw [encode_cons]; simp only [List.length_append, List.length_cons]; omega
        rw [el] at ih
        rw [e3, e4, ih]
        have : low m (x :: s) = x :: low m s := by simp [low, hx]
        rw [this, encode_cons]
        simp only [List.length_append, List.length_cons, Option.some.injEq]
        omega
      · have hx' : ¬ (x.1 : Int) < m := by omega
        rw [if_neg hx']
        have h1 : low m (x :: s) = [] := by
          simp only [low, List.filter_eq_nil_iff, decide_eq_true_eq]
          intro y hy
          rcases List.mem_cons.1 hy with rfl | hy
          · exact hx
          · have := h'.1 y hy; omega
        rw [h1]; simp [encode_nil]

/-- Scanning continues after the records below `a`. -/
theorem movebefore_from {s : List Rec} (h : Srt s) (X Y : List Int) {a m : Nat} (ham : a ≤ m) :
    movebefore (X ++ encode s ++ Y) m (X.length + (encode (low a s)).length) (X.length + (encode s).length) =
      some (X.length + (encode (low m s)).length) := by
  have hs := low_up h a
  have := movebefore_enc m (up a s) (X ++ encode (low a s)) Y (h.filter _)
  have e1 : X ++ encode (low a s) ++ encode (up a s) ++ Y = X ++ encode s ++ Y := by
    rw [List.append_assoc X, ← encode_append, hs]
  have e2 : (encode s).length = (encode (low a s)).length + (encode (up a s)).length := by
    rw [← List.length_append, ← encode_append, hs]
  have e3 : up a (low m s) = low m (up a s) := by
    unfold up low
    rw [List.filter_filter, List.filter_filter]
    apply List.filter_congr
    intro x _
    exact Bool.and_comm _ _
  rw [e1, List.length_append, Nat.add_assoc, ← e2] at this
  rw [this, low_le h ham, encode_append, List.length_append, e3, Nat.add_assoc]

theorem slice_enc {s : List Rec} (h : Srt s) (X Y : List Int) (r : Nat) :
    slice (X ++ encode s ++ Y) (X.length + (encode (low r s)).length)
      (X.length + (encode (low (r + 1) s)).length - (X.length + (encode (low r s)).length)) = some (encode (addressed r s)) := by
  have e := low_up h (r + 1)
  have e' := low_succ h r
  have e1 : X ++ encode s ++ Y = (X ++ encode (low r s)) ++ (encode (addressed r s) ++ (encode (up (r + 1) s) ++ Y)) := by
    conv => lhs; rw [← e, e', encode_append, encode_append]
    simp [List.append_assoc]
  have e2 : X.length + (encode (low (r + 1) s)).length - (X.length + (encode (low r s)).length) = (encode (addressed r s)).length := by
    rw [e', encode_append, List.length_append]; omega
  have e3 : X.length + (encode (low r s)).length = (X ++ encode (low r s)).length := by simp
  unfold slice
  rw [e1, e2, e3, if_pos (by simp only [List.length_append]; omega), List.drop_left, List.take_left]

/-! ### merges -/

/-- New messages to forward, ranks `a … b`. -/
def mergeSend (rank a b : Nat) (f : Nat → List Rec) : List Rec :=
  (List.range' a (b - a)).flatMap fun r => if r = rank then [] else f r

theorem mergeSend_self (rank a : Nat) (f : Nat → List Rec) : mergeSend rank a a f = [] := by simp [mergeSend]

theorem mergeSend_succ (rank a b : Nat) (h : a ≤ b) (f : Nat → List Rec) :
    mergeSend rank a (b + 1) f = mergeSend rank a b f ++ if b = rank then [] else f b := by
  unfold mergeSend
  rw [show b + 1 - a = (b - a) + 1 by omega, List.range'_concat, List.flatMap_append]
  simp [show a + (b - a) = b by omega]

theorem low_eq_nil {s : List Rec} {l : Nat} (h : ∀ x ∈ s, l ≤ x.1) : low l s = [] := by
  simp only [low, List.filter_eq_nil_iff, decide_eq_true_eq]
  intro x hx; have := h x hx; omega

theorem low_eq_self {s : List Rec} {r : Nat} (h : ∀ x ∈ s, x.1 < r) : low r s = s := by
  simp only [low, List.filter_eq_self, decide_eq_true_eq]; exact h

theorem mergeLower_eq (rank l m : Nat) (hlm : l ≤ m) (recv prev : List Rec) (hr : Srt recv) (hp : Srt prev) (lr : ∀ x ∈ recv, l ≤ x.1)
    (lp : ∀ x ∈ prev, l ≤ x.1) (rbuf : List Int) :
    ∃ s, mergeLower rank l m (encode recv) (encode prev) rbuf = some s ∧
      s.send = encode (mergeSend rank l m fun r => addressed r recv ++ addressed r prev) ∧
      s.rbuf = rbuf ++ if l ≤ rank ∧ rank < m then encode (addressed rank recv) else [] := by
  obtain ⟨s, e, -, -, h3, h4⟩ := forLoop_inv hlm (⟨0, 0, 0, [], rbuf⟩ : Merge) (fun r s => do
    let recvend ← movebefore (encode recv) (r + 1) s.recvend (encode recv).length
    let sendend ← movebefore (encode prev) (r + 1) s.sendend (encode prev).length
    let a ← slice (encode recv) s.recvend (recvend - s.recvend)
    let b ← slice (encode prev) s.sendend (sendend - s.sendend)
    if r = rank then some { s with recvend, sendend, rbuf := s.rbuf ++ a }
    else some { s with recvend, sendend, send := s.send ++ a ++ b })
    (fun i s => s.recvend = (encode (low i recv)).length ∧ s.sendend = (encode (low i prev)).length ∧
      s.send = encode (mergeSend rank l i fun r => addressed r recv ++ addressed r prev) ∧
      s.rbuf = rbuf ++ if l ≤ rank ∧ rank < i then encode (addressed rank recv) else [])
    ⟨by rw [low_eq_nil lr]; rfl, by rw [low_eq_nil lp]; rfl, by rw [mergeSend_self]; rfl, by rw [if_neg (by omega)]; simp⟩
    (by
      rintro i h1 h2 ⟨re, rm, se, snd, rb⟩ ⟨e1, e2, e3, e4⟩
      simp only at e1 e2 e3 e4
      subst e1; subst e2; subst e3; subst e4
      have a1 := movebefore_from hr [] [] (Nat.le_succ i)
      have a2 := movebefore_from hp [] [] (Nat.le_succ i)
      have a3 := slice_enc hr [] [] i
      have a4 := slice_enc hp [] [] i
      simp only [List.nil_append, List.append_nil, List.length_nil, Nat.zero_add, Nat.succ_eq_add_one] at a1 a2 a3 a4
      simp only [a1, a2, a3, a4, Option.bind_eq_bind, Option.bind_some]
      by_cases hi : i = rank
      · rw [if_pos hi]
        refine ⟨_, rfl, rfl, rfl, ?_, ?_⟩
        · simp only; rw [mergeSend_succ _ _ _ h1, if_pos hi, List.append_nil]
        · simp only; rw [if_neg (by omega), if_pos (by omega), hi]; simp
      · rw [if_neg hi]
        refine ⟨_, rfl, rfl, rfl, ?_, ?_⟩
        · simp only; rw [mergeSend_succ _ _ _ h1, if_neg hi, encode_append, encode_append, List.append_assoc]
        · simp only
          congr 1
          by_cases hc : l ≤ rank ∧ rank < i
          · rw [if_pos hc, if_pos (by omega)]
          · rw [if_neg hc, if_neg (by omega)])
  exact ⟨s, e, h3, h4⟩

theorem mergeUpper_eq (rank m r : Nat) (hmr : m ≤ r) (recv recv2 prev : List Rec) (hr : Srt recv) (hr2 : Srt recv2) (hp : Srt prev)
    (lr : ∀ x ∈ recv, m ≤ x.1) (lr2 : ∀ x ∈ recv2, m ≤ x.1) (rbuf : List Int) :
    ∃ s, mergeUpper rank m r (encode recv ++ encode recv2) (encode recv).length (encode prev) rbuf = some s ∧
      s.send = encode (mergeSend rank m r fun r => addressed r recv ++ addressed r recv2 ++ addressed r prev) ∧
      s.rbuf = rbuf ++ if m ≤ rank ∧ rank < r then encode (addressed rank recv ++ addressed rank recv2) else [] := by
  obtain ⟨s, e, -, -, -, h3, h4⟩ := forLoop_inv hmr
    (⟨0, (encode recv).length, (encode (low m prev)).length, [], rbuf⟩ : Merge) (fun r s => do
    let recvend ← movebefore (encode recv ++ encode recv2) (r + 1) s.recvend (encode recv).length
    let recvmidend ← movebefore (encode recv ++ encode recv2) (r + 1) s.recvmidend (encode recv ++ encode recv2).length
    let sendend ← movebefore (encode prev) (r + 1) s.sendend (encode prev).length
    let a ← slice (encode recv ++ encode recv2) s.recvend (recvend - s.recvend)
    let c ← slice (encode recv ++ encode recv2) s.recvmidend (recvmidend - s.recvmidend)
    let b ← slice (encode prev) s.sendend (sendend - s.sendend)
    if r = rank then some { s with recvend, recvmidend, sendend, rbuf := s.rbuf ++ a ++ c }
    else some { s with recvend, recvmidend, sendend, send := s.send ++ a ++ c ++ b })
    (fun i s => s.recvend = (encode (low i recv)).length ∧ s.recvmidend = (encode recv).length + (encode (low i recv2)).length ∧
      s.sendend = (encode (low i prev)).length ∧
      s.send = encode (mergeSend rank m i fun r => addressed r recv ++ addressed r recv2 ++ addressed r prev) ∧
      s.rbuf = rbuf ++ if m ≤ rank ∧ rank < i then encode (addressed rank recv ++ addressed rank recv2) else [])
    ⟨by rw [low_eq_nil lr]; rfl, by rw [low_eq_nil lr2]; rfl, rfl, by rw [mergeSend_self]; rfl, by rw [if_neg (by omega)]; simp⟩
    (by
      rintro i h1 h2 ⟨re, rm, se, snd, rb⟩ ⟨e1, e2, e3, e4, e5⟩
      simp only at e1 e2 e3 e4 e5
      subst e1; subst e2; subst e3; subst e4; subst e5
      have a1 := movebefore_from hr [] (encode recv2) (Nat.le_succ i)
      have a2 := movebefore_from hp [] [] (Nat.le_succ i)
      have a3 := slice_enc hr [] (encode recv2) i
      have a4 := slice_enc hp [] [] i
      have a5 := movebefore_from hr2 (encode recv) [] (Nat.le_succ i)
      have a6 := slice_enc hr2 (encode recv) [] i
      simp only [List.nil_append, List.append_nil, List.length_nil, Nat.zero_add, Nat.succ_eq_add_one] at a1 a2 a3 a4 a5 a6
      simp only [List.length_append, a1, a2, a3, a4, a5, a6, Option.bind_eq_bind, Option.bind_some]
      by_cases hi : i = rank
      · rw [if_pos hi]
        refine ⟨_, rfl, rfl, rfl, rfl, ?_, ?_⟩
        · simp only; rw [mergeSend_succ _ _ _ h1, if_pos hi, List.append_nil]
        · simp only; rw [if_neg (by omega), if_pos (by omega), hi]; simp [encode_append]
      · rw [if_neg hi]
        refine ⟨_, rfl, rfl, rfl, rfl, ?_, ?_⟩
        · simp only; rw [mergeSend_succ _ _ _ h1, if_neg hi, encode_append, encode_append, encode_append]; simp only [List.append_assoc]
        · simp only
          congr 1
          by_cases hc : m ≤ rank ∧ rank < i
          · rw [if_pos hc, if_pos (by omega)]
          · rw [if_neg hc, if_neg (by omega)])
  refine ⟨s, ?_, h3, h4⟩
  unfold mergeUpper
  have := movebefore_enc m prev [] [] hp
  simp only [List.nil_append, List.append_nil, List.length_nil, Nat.zero_add] at this
  simp only [this, Option.bind_eq_bind, Option.bind_some]
  exact e

/-! ### properties of the merged buffers -/

theorem mem_addressed {k : Nat} {s : List Rec} {x : Rec} : x ∈ addressed k s ↔ x ∈ s ∧ x.1 = k := by
  simp [addressed]

theorem mergeSend_range {rank a b : Nat} {f : Nat → List Rec} (hf : ∀ r, ∀ x ∈ f r, x.1 = r) :
    ∀ x ∈ mergeSend rank a b f, a ≤ x.1 ∧ x.1 < b := by
  intro x hx
  unfold mergeSend at hx
  obtain ⟨r, hr, hx⟩ := List.mem_flatMap.1 hx
  have h1 := List.mem_range'_1.1 hr
  split at hx
  · cases hx
  · have := hf r x hx; omega

theorem mergeSend_sorted {rank a : Nat} {f : Nat → List Rec} (hf : ∀ r, ∀ x ∈ f r, x.1 = r) : ∀ b, a ≤ b → Srt (mergeSend rank a b f) := by
  intro b
  induction b with
  | zero =>
    intro h
    have : a = 0 := by omega
    subst this
    rw [mergeSend_self]; exact List.Pairwise.nil
  | succ b ih =>
    intro h
    by_cases hb : a ≤ b
    · rw [mergeSend_succ _ _ _ hb]
      refine List.pairwise_append.2 ⟨ih hb, ?_, ?_⟩
      · split
        · exact List.Pairwise.nil
        · have : ∀ s : List Rec, (∀ x ∈ s, x.1 = b) → Srt s := by
            intro s
            induction s with
            | nil => intro _; exact List.Pairwise.nil
            | cons x s ih =>
              intro h
              refine List.pairwise_cons.2 ⟨?_, ih fun y hy => h y (by simp [hy])⟩
              intro y hy
              rw [h x (by simp), h y (by simp [hy])]
              exact Nat.le_refl _
          exact this _ (hf b)
      · intro x hx y hy
        have h1 := mergeSend_range hf x hx
        split at hy
        · cases hy
        · have := hf b y hy; omega
    · have : a = b + 1 := by omega
      subst this
      rw [mergeSend_self]; exact List.Pairwise.nil

theorem addressed_mergeSend {rank a : Nat} {f : Nat → List Rec} (hf : ∀ r, ∀ x ∈ f r, x.1 = r) {k : Nat} (hk : k ≠ rank) : ∀ b, a ≤ b →
    addressed k (mergeSend rank a b f) = if a ≤ k ∧ k < b then f k else [] := by
  intro b
  induction b with
  | zero =>
    intro h
    have : a = 0 := by omega
    subst this
    rw [mergeSend_self, if_neg (by omega)]; rfl
  | succ b ih =>
    intro h
    by_cases hb : a ≤ b
    · rw [mergeSend_succ _ _ _ hb]
      have : addressed k (mergeSend rank a b f ++ if b = rank then [] else f b) =
          addressed k (mergeSend rank a b f) ++ addressed k (if b = rank then [] else f b) := by simp [addressed]
      rw [this, ih hb]
      by_cases hkb : k = b
      · subst hkb
        rw [if_neg (by omega), if_neg hk, if_pos (by omega), List.nil_append]
        unfold addressed
        rw [List.filter_eq_self]
        intro x hx
        simpa using hf k x hx
      · have e : addressed k (if b = rank then [] else f b) = [] := by
          unfold addressed
          rw [List.filter_eq_nil_iff]
          intro x hx
          split at hx
          · cases hx
          · have := hf b x hx
            simp only [beq_iff_eq]; omega
        rw [e, List.append_nil]
        by_cases hc : a ≤ k ∧ k < b
        · rw [if_pos hc, if_pos (by omega)]
        · rw [if_neg hc, if_neg (by omega)]
    · have : a = b + 1 := by omega
      subst this
      rw [mergeSend_self, if_neg (by omega)]; rfl

end Verif.Comm
