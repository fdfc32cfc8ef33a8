import Verif.Model.Wildcard
import Verif.Spec.Wildcard
import Mathlib.Logic.Basic
import Mathlib.Tactic.ByContra
/-! Invariant, progress and termination of the exchanges with unknown sources. -/
namespace Verif.Wildcard

variable {M : Type}

theorem upd_self {A : Type} (p : Nat → A) (i : Nat) (v : A) : upd p i v i = v := if_pos rfl
theorem upd_ne {A : Type} (p : Nat → A) {i j : Nat} (v : A) (h : j ≠ i) : upd p i v j = p j := if_neg h
theorem updc_self {A : Type} (p : Nat → Nat → A) (i j : Nat) (v : A) : updc p i j v i j = v := if_pos ⟨rfl, rfl⟩
theorem updc_ne {A : Type} (p : Nat → Nat → A) {i j x y : Nat} (v : A) (h : ¬(x = i ∧ y = j)) : updc p i j v x y = p x y := if_neg h

def sumTo (n : Nat) (f : Nat → Nat) : Nat := ((List.range n).map f).sum

theorem sumTo_zero (f : Nat → Nat) : sumTo 0 f = 0 := rfl
theorem sumTo_succ (n : Nat) (f : Nat → Nat) : sumTo (n + 1) f = sumTo n f + f n := by
  simp [sumTo, List.range_succ]
theorem sumTo_le {n : Nat} {f g : Nat → Nat} (h : ∀ j, j < n → f j ≤ g j) : sumTo n f ≤ sumTo n g := by
  induction n with
  | zero => exact Nat.le_refl _
  | succ n ih =>
      rw [sumTo_succ, sumTo_succ]
      have := ih fun j hj => h j (by omega)
      have := h n (by omega)
      omega
theorem sumTo_congr {n : Nat} {f g : Nat → Nat} (h : ∀ j, j < n → f j = g j) : sumTo n f = sumTo n g :=
  Nat.le_antisymm (sumTo_le fun j hj => Nat.le_of_eq (h j hj)) (sumTo_le fun j hj => Nat.le_of_eq (h j hj).symm)
theorem sumTo_tight {n : Nat} {f g : Nat → Nat} (h : ∀ j, j < n → f j ≤ g j) (hs : sumTo n g ≤ sumTo n f) :
    ∀ j, j < n → f j = g j := by
  induction n with
  | zero => intro j hj; omega
  | succ n ih =>
      rw [sumTo_succ, sumTo_succ] at hs
      have h1 := sumTo_le fun j hj => h j (Nat.lt_succ_of_lt hj)
      have h2 := h n (by omega)
      intro j hj
      by_cases hjn : j = n
      · subst hjn; omega
      · exact ih (fun j hj => h j (Nat.lt_succ_of_lt hj)) (by omega) j (by omega)
theorem sumTo_upd {n i : Nat} (f : Nat → Nat) (v : Nat) (h : i < n) : sumTo n (upd f i v) + f i = sumTo n f + v := by
  induction n with
  | zero => omega
  | succ n ih =>
      rw [sumTo_succ, sumTo_succ]
      by_cases hin : i = n
      · subst hin
        rw [upd_self, sumTo_congr (g := f) (fun j hj => upd_ne f v (by omega))]; omega
      · rw [upd_ne f v (Ne.symm hin)]
        have := ih (by omega)
        omega
theorem sumTo_single {n i : Nat} (h : i < n) : sumTo n (fun j => if i = j then 1 else 0) = 1 := by
  induction n with
  | zero => omega
  | succ n ih =>
      rw [sumTo_succ]
      by_cases hin : i = n
      · subst hin
        rw [if_pos rfl, sumTo_congr (g := fun _ => 0) (fun j hj => if_neg (by omega))]
        have : ∀ m, sumTo m (fun _ => 0) = 0 := by
          intro m; induction m with
          | zero => rfl
          | succ m ih => rw [sumTo_succ, ih]
        rw [this]
      · rw [if_neg hin, ih (by omega)]
theorem sumTo_add (n : Nat) (f g : Nat → Nat) : sumTo n (fun j => f j + g j) = sumTo n f + sumTo n g := by
  induction n with
  | zero => rfl
  | succ n ih => rw [sumTo_succ, sumTo_succ, sumTo_succ, ih]; omega

theorem buffersOf_append (a b : List (Nat × M)) (k : Nat) : buffersOf (a ++ b) k = buffersOf a k ++ buffersOf b k := by
  simp [buffersOf]
theorem buffersOf_single (j k : Nat) (m : M) : buffersOf [(j, m)] k = if j = k then [m] else [] := by
  unfold buffersOf
  by_cases h : j = k <;> simp [h]
theorem buffersOf_nil (k : Nat) : buffersOf ([] : List (Nat × M)) k = [] := rfl
theorem buffersOf_cons (x : Nat × M) (l : List (Nat × M)) (k : Nat) :
    buffersOf (x :: l) k = (if x.1 = k then [x.2] else []) ++ buffersOf l k := by
  unfold buffersOf
  by_cases h : x.1 = k <;> simp [h]

theorem length_eq_sum {n : Nat} {l : List (Nat × M)} (h : ∀ x ∈ l, x.1 < n) :
    l.length = sumTo n fun j => (buffersOf l j).length := by
  induction l with
  | nil =>
      induction n with
      | zero => rfl
      | succ n ih => rw [sumTo_succ, ← ih (by simp)]; rfl
  | cons x l ih =>
      have h1 := h x (by simp)
      rw [sumTo_congr (g := fun j => (if x.1 = j then 1 else 0) + (buffersOf l j).length)
        (fun j _ => by rw [buffersOf_cons]; split <;> simp <;> omega)]
      rw [sumTo_add, sumTo_single h1, ← ih fun y hy => h y (by simp [hy])]
      simp; omega

theorem take_succ_of_get {A : Type} {l : List A} {n : Nat} {a : A} (h : l[n]? = some a) : l.take (n + 1) = l.take n ++ [a] := by
  rw [List.take_add_one, h]; rfl

/-- The preconditions: targets are ranks, the receive loops have the right number of repetitions. -/
structure Ok (J : Job M) : Prop where
  target : ∀ k i, k < J.rounds → i < J.ranks → ∀ x ∈ J.msgs k i, x.1 < J.ranks
  count : ∀ k i, k < J.rounds → i < J.ranks → J.cnt k i = sumTo J.ranks fun j => (buffersOf (J.msgs k j) i).length

/-- `g` are the messages for rank `i` in round `k`, those of one source in the order of sending. -/
def Good (J : Job M) (k i : Nat) (g : List (Nat × M)) : Prop :=
  (∀ x ∈ g, x.1 < J.ranks) ∧ ∀ j, j < J.ranks → buffersOf g j = buffersOf (J.msgs k j) i

structure Inv (J : Job M) (r : Nat → Rank M) (ch : Nat → Nat → List M) : Prop where
  near : ∀ i j, i < J.ranks → j < J.ranks →
    (r j).round ≤ (r i).round + 1 ∧ ((r j).round = (r i).round + 1 → (r i).barrier = true)
  same : ∀ i j, i < J.ranks → j < J.ranks → (r i).round = (r j).round →
    buffersOf (r i).got j ++ ch j i = buffersOf ((J.msgs (r j).round j).take (r j).sent) i
  ahead : ∀ i j, i < J.ranks → j < J.ranks → (r i).round = (r j).round + 1 → ch j i = [] ∧ buffersOf (r i).got j = []
  behind : ∀ i j, i < J.ranks → j < J.ranks → (r j).round = (r i).round + 1 →
    buffersOf (r i).got j = buffersOf (J.msgs (r i).round j) i ∧
    ch j i = buffersOf ((J.msgs (r j).round j).take (r j).sent) i
  out : ∀ i j, ¬(i < J.ranks ∧ j < J.ranks) → ch i j = []
  src : ∀ i, i < J.ranks → ∀ x ∈ (r i).got, x.1 < J.ranks
  sent : ∀ i, i < J.ranks → (r i).round < J.rounds → (r i).sent ≤ (J.msgs (r i).round i).length
  got : ∀ i, i < J.ranks → (r i).round < J.rounds → (r i).got.length ≤ J.cnt (r i).round i
  bar : ∀ i, i < J.ranks → (r i).barrier = true →
    (r i).sent = (J.msgs (r i).round i).length ∧ (r i).got.length = J.cnt (r i).round i ∧ (r i).round < J.rounds
  round : ∀ i, i < J.ranks → (r i).round ≤ J.rounds
  fin : ∀ i, i < J.ranks → (r i).round = J.rounds → (r i).sent = 0 ∧ (r i).got = []
  res : ∀ i, i < J.ranks → (r i).out.length = (r i).round ∧ ∀ k g, (r i).out[k]? = some g → Good J k i g

theorem inv_init (J : Job M) : Inv J (init : State M).r (init : State M).ch where
  near := by intro i j _ _; simp [init]
  same := by intro i j _ _ _; simp [init, buffersOf]
  ahead := by intro i j _ _ h; simp [init] at h
  behind := by intro i j _ _ h; simp [init] at h
  out := by intro i j _; rfl
  src := by intro i _ x hx; simp [init] at hx
  sent := by intro i _ _; simp [init]
  got := by intro i _ _; simp [init]
  bar := by intro i _ h; simp [init] at h
  round := by intro i _; simp [init]
  fin := by intro i _ _; simp [init]
  res := by intro i _; simp [init]

/-- A rank that is in the barrier and sees all others in the barrier (or behind) has got everything. -/
theorem complete {J : Job M} (hJ : Ok J) {s : State M} (I : Inv J s.r s.ch) {i : Nat} (hi : i < J.ranks) (hr : (s.r i).round < J.rounds)
    (hg : J.cnt (s.r i).round i ≤ (s.r i).got.length)
    (hall : ∀ j, j < J.ranks → (s.r i).round < (s.r j).round ∨
      ((s.r j).round = (s.r i).round ∧ (s.r j).sent = (J.msgs (s.r j).round j).length)) :
    (∀ j, j < J.ranks → buffersOf (s.r i).got j = buffersOf (J.msgs (s.r i).round j) i) ∧
    (∀ j, j < J.ranks → (s.r j).round = (s.r i).round → s.ch j i = []) := by
  have key : ∀ j, j < J.ranks → ∃ rest, buffersOf (s.r i).got j ++ rest = buffersOf (J.msgs (s.r i).round j) i ∧
      ((s.r j).round = (s.r i).round → rest = s.ch j i) := by
    intro j hj
    rcases hall j hj with h | ⟨h, h'⟩
    · refine ⟨[], ?_, by omega⟩
      have := (I.near i j hi hj).1
      rw [List.append_nil]; exact (I.behind i j hi hj (by omega)).1
    · refine ⟨s.ch j i, ?_, fun _ => rfl⟩
      rw [I.same i j hi hj h.symm, h', List.take_length, h]
  have le : ∀ j, j < J.ranks → (buffersOf (s.r i).got j).length ≤ (buffersOf (J.msgs (s.r i).round j) i).length := by
    intro j hj
    obtain ⟨rest, e, _⟩ := key j hj
    rw [← e, List.length_append]; omega
  have eq := sumTo_tight le (by
    rw [← hJ.count _ i hr hi, ← length_eq_sum (I.src i hi)]; exact hg)
  have key2 : ∀ j, j < J.ranks → ∃ rest, rest = [] ∧ buffersOf (s.r i).got j ++ rest = buffersOf (J.msgs (s.r i).round j) i ∧
      ((s.r j).round = (s.r i).round → rest = s.ch j i) := by
    intro j hj
    obtain ⟨rest, e, e'⟩ := key j hj
    refine ⟨rest, ?_, e, e'⟩
    have := eq j hj
    rw [← e, List.length_append] at this
    exact List.length_eq_zero_iff.1 (by omega)
  constructor
  · intro j hj
    obtain ⟨rest, e0, e, _⟩ := key2 j hj
    rw [← e, e0, List.append_nil]
  · intro j hj h
    obtain ⟨rest, e0, _, e⟩ := key2 j hj
    rw [← e h, e0]

theorem inv_isend {J : Job M} (hJ : Ok J) {s : State M} (I : Inv J s.r s.ch) {i t : Nat} {m : M} (hi : i < J.ranks)
    (hr : (s.r i).round < J.rounds) (hb : (s.r i).barrier = false)
    (hm : (J.msgs (s.r i).round i)[(s.r i).sent]? = some (t, m)) :
    Inv J (upd s.r i { s.r i with sent := (s.r i).sent + 1 }) (updc s.ch i t (s.ch i t ++ [m])) := by
  have ht : t < J.ranks := hJ.target _ i hr hi (t, m) (List.mem_of_getElem? hm)
  have R : ∀ x, ((upd s.r i { s.r i with sent := (s.r i).sent + 1 }) x).round = (s.r x).round := by
    intro x; unfold upd; split <;> simp_all
  have B : ∀ x, ((upd s.r i { s.r i with sent := (s.r i).sent + 1 }) x).barrier = (s.r x).barrier := by
    intro x; unfold upd; split <;> simp_all
  have G : ∀ x, ((upd s.r i { s.r i with sent := (s.r i).sent + 1 }) x).got = (s.r x).got := by
    intro x; unfold upd; split <;> simp_all
  have O : ∀ x, ((upd s.r i { s.r i with sent := (s.r i).sent + 1 }) x).out = (s.r x).out := by
    intro x; unfold upd; split <;> simp_all
  have C : ∀ u, updc s.ch i t (s.ch i t ++ [m]) i u = s.ch i u ++ buffersOf [(t, m)] u := by
    intro u
    rw [buffersOf_single]
    by_cases h : t = u
    · subst h; rw [updc_self, if_pos rfl]
    · rw [updc_ne _ _ (by rintro ⟨_, h'⟩; exact h h'.symm), if_neg h, List.append_nil]
  have C' : ∀ j u, j ≠ i → updc s.ch i t (s.ch i t ++ [m]) j u = s.ch j u := by
    intro j u h; rw [updc_ne _ _ (by rintro ⟨h', _⟩; exact h h')]
  have T : ∀ u, buffersOf ((J.msgs (s.r i).round i).take ((s.r i).sent + 1)) u =
      buffersOf ((J.msgs (s.r i).round i).take (s.r i).sent) u ++ buffersOf [(t, m)] u := by
    intro u; rw [take_succ_of_get hm, buffersOf_append]
  constructor
  · intro x y hx hy; rw [R, R, B]; exact I.near x y hx hy
  · intro x y hx hy h
    rw [R, R] at h
    rw [G, R]
    have := I.same x y hx hy h
    by_cases hyi : y = i
    · subst hyi
      show buffersOf _ _ ++ updc _ _ _ _ _ _ = buffersOf (List.take (Rank.sent (upd _ _ _ _)) _) _
      rw [C, ← List.append_assoc, this, upd_self, T]
    · show buffersOf _ _ ++ updc _ _ _ _ _ _ = buffersOf (List.take (Rank.sent (upd _ _ _ _)) _) _
      rw [C' y x hyi, this, upd_ne _ _ hyi]
  · intro x y hx hy h
    rw [R, R] at h
    rw [G]
    have hyi : y ≠ i := by
      intro e; subst e
      have := (I.near y x hi hx).2 h
      rw [hb] at this; cases this
    show updc _ _ _ _ _ _ = _ ∧ _
    rw [C' y x hyi]; exact I.ahead x y hx hy h
  · intro x y hx hy h
    rw [R, R] at h
    rw [G, R, R]
    have := I.behind x y hx hy h
    refine ⟨this.1, ?_⟩
    by_cases hyi : y = i
    · subst hyi
      show updc _ _ _ _ _ _ = buffersOf (List.take (Rank.sent (upd _ _ _ _)) _) _
      rw [C, this.2, upd_self, T]
    · show updc _ _ _ _ _ _ = buffersOf (List.take (Rank.sent (upd _ _ _ _)) _) _
      rw [C' y x hyi, this.2, upd_ne _ _ hyi]
  · intro x y h
    show updc _ _ _ _ _ _ = _
    rw [updc_ne _ _ (by rintro ⟨rfl, rfl⟩; exact h ⟨hi, ht⟩)]; exact I.out x y h
  · intro x hx; rw [G]; exact I.src x hx
  · intro x hx h
    rw [R] at h ⊢
    by_cases e : x = i
    · subst e; rw [upd_self]
      exact (List.getElem?_eq_some_iff.1 hm).1
    · rw [upd_ne _ _ e]; exact I.sent x hx h
  · intro x hx h; rw [R] at h ⊢; rw [G]; exact I.got x hx h
  · intro x hx h
    have e : x ≠ i := by
      intro e; subst e; rw [B, hb] at h; cases h
    have h' : (s.r x).barrier = true := by rw [← B]; exact h
    show ((upd s.r i _) x).sent = _ ∧ ((upd s.r i _) x).got.length = _ ∧ ((upd s.r i _) x).round < _
    rw [upd_ne _ _ e]; exact I.bar x hx h'
  · intro x hx; rw [R]; exact I.round x hx
  · intro x hx h
    have e : x ≠ i := by
      intro e; subst e; rw [R] at h; omega
    rw [upd_ne _ _ e] at h ⊢; exact I.fin x hx h
  · intro x hx; rw [O, R]; exact I.res x hx

theorem inv_recv {J : Job M} {s : State M} (I : Inv J s.r s.ch) {i j : Nat} {m : M} {ms : List M} (hi : i < J.ranks)
    (hr : (s.r i).round < J.rounds) (hb : (s.r i).barrier = false)
    (hg : (s.r i).got.length < J.cnt (s.r i).round i) (hc : s.ch j i = m :: ms) :
    Inv J (upd s.r i { s.r i with got := (s.r i).got ++ [(j, m)] }) (updc s.ch j i ms) := by
  have hj : j < J.ranks := by
    by_contra h
    have := I.out j i (by omega)
    rw [hc] at this; cases this
  have hrj : (s.r i).round = (s.r j).round := by
    have h1 := I.near i j hi hj
    have h2 := I.near j i hj hi
    by_contra hne
    rcases Nat.lt_or_gt_of_ne hne with h | h
    · have := h1.2 (by omega); rw [hb] at this; cases this
    · have := (I.ahead i j hi hj (by omega)).1
      rw [hc] at this; cases this
  have R : ∀ x, ((upd s.r i { s.r i with got := (s.r i).got ++ [(j, m)] }) x).round = (s.r x).round := by
    intro x; unfold upd; split <;> simp_all
  have B : ∀ x, ((upd s.r i { s.r i with got := (s.r i).got ++ [(j, m)] }) x).barrier = (s.r x).barrier := by
    intro x; unfold upd; split <;> simp_all
  have S : ∀ x, ((upd s.r i { s.r i with got := (s.r i).got ++ [(j, m)] }) x).sent = (s.r x).sent := by
    intro x; unfold upd; split <;> simp_all
  have O : ∀ x, ((upd s.r i { s.r i with got := (s.r i).got ++ [(j, m)] }) x).out = (s.r x).out := by
    intro x; unfold upd; split <;> simp_all
  constructor
  · intro x y hx hy; rw [R, R, B]; exact I.near x y hx hy
  · intro x y hx hy h
    rw [R, R] at h
    rw [R, S]
    have := I.same x y hx hy h
    by_cases e : x = i
    · subst e
      show buffersOf (Rank.got (upd _ _ _ x)) _ ++ updc _ _ _ _ _ _ = _
      rw [upd_self]
      by_cases e' : y = j
      · subst e'
        rw [hc] at this
        rw [updc_self, ← this]
        show buffersOf ((s.r x).got ++ [(y, m)]) y ++ ms = _
        rw [buffersOf_append, buffersOf_single, if_pos rfl, List.append_assoc]; rfl
      · rw [updc_ne _ _ (by rintro ⟨h', _⟩; exact e' h'), ← this]
        show buffersOf ((s.r x).got ++ [(j, m)]) y ++ _ = _
        rw [buffersOf_append, buffersOf_single, if_neg (fun h' => e' h'.symm), List.append_nil]
    · show buffersOf (Rank.got (upd _ _ _ x)) _ ++ updc _ _ _ _ _ _ = _
      rw [upd_ne _ _ e, updc_ne _ _ (by rintro ⟨_, h'⟩; exact e h'), this]
  · intro x y hx hy h
    rw [R, R] at h
    have := I.ahead x y hx hy h
    show updc _ _ _ _ _ _ = _ ∧ buffersOf (Rank.got (upd _ _ _ x)) _ = _
    by_cases e : x = i
    · subst e
      have e' : y ≠ j := by
        intro e'; subst e'; rw [hc] at this; cases this.1
      rw [upd_self, updc_ne _ _ (by rintro ⟨h', _⟩; exact e' h')]
      refine ⟨this.1, ?_⟩
      show buffersOf ((s.r x).got ++ [(j, m)]) y = _
      rw [buffersOf_append, buffersOf_single, if_neg (fun h' => e' h'.symm), List.append_nil]; exact this.2
    · rw [upd_ne _ _ e, updc_ne _ _ (by rintro ⟨_, h'⟩; exact e h')]; exact this
  · intro x y hx hy h
    rw [R, R] at h
    rw [R, R, S]
    have := I.behind x y hx hy h
    have e : x ≠ i := by
      intro e; subst e
      have := (I.near x y hx hy).2 h; rw [hb] at this; cases this
    show buffersOf (Rank.got (upd _ _ _ x)) _ = _ ∧ updc _ _ _ _ _ _ = _
    rw [upd_ne _ _ e, updc_ne _ _ (by rintro ⟨_, h'⟩; exact e h')]; exact this
  · intro x y h
    show updc _ _ _ _ _ _ = _
    rw [updc_ne _ _ (by rintro ⟨rfl, rfl⟩; exact h ⟨hj, hi⟩)]; exact I.out x y h
  · intro x hx
    by_cases e : x = i
    · subst e
      rw [upd_self]
      intro y hy
      rcases List.mem_append.1 hy with h | h
      · exact I.src x hx y h
      · rw [List.mem_singleton.1 h]; exact hj
    · rw [upd_ne _ _ e]; exact I.src x hx
  · intro x hx h; rw [R] at h ⊢; rw [S]; exact I.sent x hx h
  · intro x hx h
    rw [R] at h ⊢
    by_cases e : x = i
    · subst e
      rw [upd_self]
      show ((s.r x).got ++ [(j, m)]).length ≤ _
      rw [List.length_append]; simp; omega
    · rw [upd_ne _ _ e]; exact I.got x hx h
  · intro x hx h
    have e : x ≠ i := by
      intro e; subst e; rw [B, hb] at h; cases h
    have h' : (s.r x).barrier = true := by rw [← B]; exact h
    show ((upd s.r i _) x).sent = _ ∧ ((upd s.r i _) x).got.length = _ ∧ ((upd s.r i _) x).round < _
    rw [upd_ne _ _ e]; exact I.bar x hx h'
  · intro x hx; rw [R]; exact I.round x hx
  · intro x hx h
    have e : x ≠ i := by
      intro e; subst e; rw [R] at h; omega
    rw [upd_ne _ _ e] at h ⊢; exact I.fin x hx h
  · intro x hx; rw [O, R]; exact I.res x hx

theorem inv_wait {J : Job M} {s : State M} (I : Inv J s.r s.ch) {i : Nat} (hr : (s.r i).round < J.rounds)
    (hs : (s.r i).sent = (J.msgs (s.r i).round i).length) (hg : J.cnt (s.r i).round i ≤ (s.r i).got.length) :
    Inv J (upd s.r i { s.r i with barrier := true }) (s.ch) := by
  have R : ∀ x, ((upd s.r i { s.r i with barrier := true }) x).round = (s.r x).round := by
    intro x; unfold upd; split <;> simp_all
  have G : ∀ x, ((upd s.r i { s.r i with barrier := true }) x).got = (s.r x).got := by
    intro x; unfold upd; split <;> simp_all
  have S : ∀ x, ((upd s.r i { s.r i with barrier := true }) x).sent = (s.r x).sent := by
    intro x; unfold upd; split <;> simp_all
  have O : ∀ x, ((upd s.r i { s.r i with barrier := true }) x).out = (s.r x).out := by
    intro x; unfold upd; split <;> simp_all
  constructor
  · intro x y hx hy; rw [R, R]
    refine ⟨(I.near x y hx hy).1, fun h => ?_⟩
    have := (I.near x y hx hy).2 h
    by_cases e : x = i
    · subst e; rw [upd_self]
    · rw [upd_ne _ _ e]; exact this
  · intro x y hx hy h; rw [R, R] at h; rw [R, S, G]; exact I.same x y hx hy h
  · intro x y hx hy h; rw [R, R] at h; rw [G]; exact I.ahead x y hx hy h
  · intro x y hx hy h; rw [R, R] at h; rw [R, R, S, G]; exact I.behind x y hx hy h
  · exact I.out
  · intro x hx; rw [G]; exact I.src x hx
  · intro x hx h; rw [R] at h ⊢; rw [S]; exact I.sent x hx h
  · intro x hx h; rw [R] at h ⊢; rw [G]; exact I.got x hx h
  · intro x hx h
    rw [R, S, G]
    by_cases e : x = i
    · subst e
      exact ⟨hs, Nat.le_antisymm (I.got x hx hr) hg, hr⟩
    · rw [upd_ne _ _ e] at h; exact I.bar x hx h
  · intro x hx; rw [R]; exact I.round x hx
  · intro x hx h; rw [R] at h; rw [S, G]; exact I.fin x hx h
  · intro x hx; rw [O, R]; exact I.res x hx

theorem inv_leave {J : Job M} (hJ : Ok J) {s : State M} (I : Inv J s.r s.ch) {i : Nat} (hi : i < J.ranks) (hb : (s.r i).barrier = true)
    (hall : ∀ j, j < J.ranks → (s.r i).round < (s.r j).round ∨ ((s.r j).round = (s.r i).round ∧ (s.r j).barrier = true)) :
    Inv J (upd s.r i { round := (s.r i).round + 1, sent := 0, got := [], barrier := false, out := (s.r i).out ++ [(s.r i).got] }) (s.ch) := by
  have bi := I.bar i hi hb
  -- every rank of the round of `i` has got everything
  have comp : ∀ x, x < J.ranks → (s.r x).round = (s.r i).round →
      (∀ j, j < J.ranks → buffersOf (s.r x).got j = buffersOf (J.msgs (s.r x).round j) x) ∧
      (∀ j, j < J.ranks → (s.r j).round = (s.r x).round → s.ch j x = []) := by
    intro x hx hxi
    have hbx : (s.r x).barrier = true := by
      rcases hall x hx with h | h
      · omega
      · exact h.2
    have bx := I.bar x hx hbx
    refine complete hJ I hx bx.2.2 (by omega) ?_
    intro j hj
    rcases hall j hj with h | ⟨h, h'⟩
    · left; omega
    · right; exact ⟨by omega, (I.bar j hj h').1⟩
  have two : ∀ x, x < J.ranks → x ≠ i → (s.r x).round = (s.r i).round ∨ (s.r x).round = (s.r i).round + 1 := by
    intro x hx _
    have := (I.near i x hi hx).1
    rcases hall x hx with h | h <;> omega
  constructor
  · intro x y hx hy
    by_cases ex : x = i
    · subst ex
      rw [upd_self]
      by_cases ey : y = x
      · subst ey; rw [upd_self]; simp
      · rw [upd_ne _ _ ey]
        have := two y hy ey
        simp only; constructor
        · omega
        · intro h; omega
    · rw [upd_ne _ _ ex]
      have h1 := two x hx ex
      by_cases ey : y = i
      · subst ey; rw [upd_self]
        simp only; constructor
        · omega
        · intro h
          rcases hall x hx with h' | h'
          · omega
          · exact h'.2
      · rw [upd_ne _ _ ey]; exact I.near x y hx hy
  · intro x y hx hy h
    show buffersOf (Rank.got (upd _ _ _ x)) _ ++ s.ch _ _ = _
    by_cases ex : x = i
    · subst ex
      rw [upd_self] at h ⊢
      by_cases ey : y = x
      · subst ey; rw [upd_self, (comp y hy rfl).2 y hy rfl]; rfl
      · rw [upd_ne _ _ ey] at h ⊢
        show buffersOf [] _ ++ _ = _
        rw [(I.behind x y hx hy h.symm).2]; rfl
    · rw [upd_ne _ _ ex] at h ⊢
      by_cases ey : y = i
      · subst ey
        rw [upd_self] at h ⊢
        have := I.ahead x y hx hy h
        rw [this.1, this.2]; rfl
      · rw [upd_ne _ _ ey] at h ⊢; exact I.same x y hx hy h
  · intro x y hx hy h
    show s.ch _ _ = _ ∧ buffersOf (Rank.got (upd _ _ _ x)) _ = _
    by_cases ex : x = i
    · subst ex
      rw [upd_self] at h ⊢
      by_cases ey : y = x
      · subst ey; rw [upd_self] at h; simp at h
      · rw [upd_ne _ _ ey] at h
        have h0 : (s.r x).round + 1 = (s.r y).round + 1 := h
        exact ⟨(comp x hx rfl).2 y hy (by omega), rfl⟩
    · rw [upd_ne _ _ ex] at h ⊢
      by_cases ey : y = i
      · subst ey
        rw [upd_self] at h
        have h0 : (s.r x).round = (s.r y).round + 1 + 1 := h
        have := two x hx ex
        omega
      · rw [upd_ne _ _ ey] at h; exact I.ahead x y hx hy h
  · intro x y hx hy h
    show buffersOf (Rank.got (upd _ _ _ x)) _ = _ ∧ s.ch _ _ = _
    by_cases ex : x = i
    · subst ex
      rw [upd_self] at h
      by_cases ey : y = x
      · subst ey; rw [upd_self] at h; simp at h
      · rw [upd_ne _ _ ey] at h
        have h0 : (s.r y).round = (s.r x).round + 1 + 1 := h
        have := two y hy ey
        omega
    · rw [upd_ne _ _ ex] at h ⊢
      by_cases ey : y = i
      · subst ey
        rw [upd_self] at h ⊢
        have h0 : (s.r y).round + 1 = (s.r x).round + 1 := h
        have := comp x hx (by omega)
        exact ⟨this.1 y hy, by rw [this.2 y hy (by omega)]; rfl⟩
      · rw [upd_ne _ _ ey] at h ⊢; exact I.behind x y hx hy h
  · exact I.out
  · intro x hx
    by_cases ex : x = i
    · subst ex; rw [upd_self]; intro y hy; cases hy
    · rw [upd_ne _ _ ex]; exact I.src x hx
  · intro x hx h
    by_cases ex : x = i
    · subst ex; rw [upd_self]; exact Nat.zero_le _
    · rw [upd_ne _ _ ex] at h ⊢; exact I.sent x hx h
  · intro x hx h
    by_cases ex : x = i
    · subst ex; rw [upd_self]; exact Nat.zero_le _
    · rw [upd_ne _ _ ex] at h ⊢; exact I.got x hx h
  · intro x hx h
    by_cases ex : x = i
    · subst ex; rw [upd_self] at h; cases h
    · rw [upd_ne _ _ ex] at h
      show ((upd s.r i _) x).sent = _ ∧ ((upd s.r i _) x).got.length = _ ∧ ((upd s.r i _) x).round < _
      rw [upd_ne _ _ ex]; exact I.bar x hx h
  · intro x hx
    by_cases ex : x = i
    · subst ex; rw [upd_self]; exact bi.2.2
    · rw [upd_ne _ _ ex]; exact I.round x hx
  · intro x hx h
    by_cases ex : x = i
    · subst ex; rw [upd_self]; exact ⟨rfl, rfl⟩
    · rw [upd_ne _ _ ex] at h ⊢; exact I.fin x hx h
  · intro x hx
    by_cases ex : x = i
    · subst ex
      rw [upd_self]
      have h0 := I.res x hx
      refine ⟨by simp [h0.1], ?_⟩
      intro k g hk
      have hk' : ((s.r x).out ++ [(s.r x).got])[k]? = some g := hk
      by_cases hkl : k < (s.r x).out.length
      · rw [List.getElem?_append_left hkl] at hk'
        exact h0.2 k g hk'
      · have : k = (s.r x).out.length := by
          have := (List.getElem?_eq_some_iff.1 hk').1
          simp at this; omega
        subst this
        rw [List.getElem?_append_right (Nat.le_refl _), Nat.sub_self] at hk'
        cases hk'
        rw [h0.1]
        exact ⟨I.src x hx, (comp x hx rfl).1⟩
    · rw [upd_ne _ _ ex]; exact I.res x hx

theorem inv_step {J : Job M} (hJ : Ok J) {b : Bool} {s s' : State M} (I : Inv J s.r s.ch) (h : Step J b s s') : Inv J s'.r s'.ch := by
  cases h with
  | isend hi hr hb hm => exact inv_isend hJ I hi hr hb hm
  | recv hi hr hb _ hg hc => exact inv_recv I hi hr hb hg hc
  | wait _ hr _ hs hg _ => exact inv_wait I hr hs hg
  | bwait _ hr _ hs hg => exact inv_wait I hr hs hg
  | leave hi hb hall => exact inv_leave hJ I hi hb hall

theorem inv_exec {J : Job M} (hJ : Ok J) {n : Nat} {s s' : State M} (h : Exec J n s s') (I : Inv J s.r s.ch) : Inv J s'.r s'.ch := by
  induction h with
  | refl => exact I
  | step _ hs ih => exact inv_step hJ (ih I) hs

/-! ### Progress -/

theorem exists_min (n : Nat) (f : Nat → Nat) (h : 0 < n) : ∃ i, i < n ∧ ∀ j, j < n → f i ≤ f j := by
  induction n with
  | zero => omega
  | succ n ih =>
      by_cases hn : n = 0
      · subst hn; exact ⟨0, by omega, fun j hj => by rw [show j = 0 by omega]; exact Nat.le_refl _⟩
      · obtain ⟨i, hi, hm⟩ := ih (by omega)
        by_cases hc : f i ≤ f n
        · refine ⟨i, by omega, fun j hj => ?_⟩
          by_cases e : j = n
          · subst e; exact hc
          · exact hm j (by omega)
        · refine ⟨n, by omega, fun j hj => ?_⟩
          by_cases e : j = n
          · subst e; exact Nat.le_refl _
          · have := hm j (by omega); omega

theorem progress {J : Job M} (hJ : Ok J) {s : State M} (I : Inv J s.r s.ch) (hn : ∃ i, i < J.ranks ∧ (s.r i).round < J.rounds) :
    ∃ s', Step J true s s' := by
  obtain ⟨x, hx, hxr⟩ := hn
  obtain ⟨i, hi, hmin⟩ := exists_min J.ranks (fun i => (s.r i).round) (by omega)
  have hir : (s.r i).round < J.rounds := Nat.lt_of_le_of_lt (hmin x hx) hxr
  by_cases hnb : ∃ j, j < J.ranks ∧ (s.r j).round = (s.r i).round ∧ (s.r j).barrier = false
  · obtain ⟨b, hb, hbr, hbb⟩ := hnb
    -- all ranks are in the same round
    have all : ∀ j, j < J.ranks → (s.r j).round = (s.r i).round := by
      intro j hj
      have h1 := I.near b j hb hj
      have h2 := hmin j hj
      by_contra hne
      have := h1.2 (by omega)
      rw [hbb] at this; cases this
    by_cases hs : ∃ j, j < J.ranks ∧ (s.r j).sent ≠ (J.msgs (s.r j).round j).length
    · obtain ⟨j, hj, hjs⟩ := hs
      have hjr : (s.r j).round < J.rounds := by rw [all j hj]; exact hir
      have hjb : (s.r j).barrier = false := by
        cases e : (s.r j).barrier with
        | false => rfl
        | true => exact absurd (I.bar j hj e).1 hjs
      have hlt : (s.r j).sent < (J.msgs (s.r j).round j).length := by
        have := I.sent j hj hjr; omega
      exact ⟨_, Step.isend (t := ((J.msgs (s.r j).round j)[(s.r j).sent]).1) (m := ((J.msgs (s.r j).round j)[(s.r j).sent]).2) hj hjr hjb
        (List.getElem?_eq_getElem hlt)⟩
    · have sent : ∀ j, j < J.ranks → (s.r j).sent = (J.msgs (s.r j).round j).length := by
        intro j hj
        by_contra h
        exact hs ⟨j, hj, h⟩
      by_cases hg : ∃ j, j < J.ranks ∧ (s.r j).got.length ≠ J.cnt (s.r j).round j
      · obtain ⟨j, hj, hjg⟩ := hg
        have hjr : (s.r j).round < J.rounds := by rw [all j hj]; exact hir
        have hjb : (s.r j).barrier = false := by
          cases e : (s.r j).barrier with
          | false => rfl
          | true => exact absurd (I.bar j hj e).2.1 hjg
        have hlt : (s.r j).got.length < J.cnt (s.r j).round j := by
          have := I.got j hj hjr; omega
        have : ∃ y, y < J.ranks ∧ s.ch y j ≠ [] := by
          by_contra hne
          have he : ∀ y, y < J.ranks → s.ch y j = [] := by
            intro y hy
            by_contra h
            exact hne ⟨y, hy, h⟩
          rw [hJ.count _ j hjr hj, length_eq_sum (I.src j hj)] at hlt
          refine absurd hlt (Nat.not_lt.2 (Nat.le_of_eq (sumTo_congr ?_)))
          intro y hy
          have e := I.same j y hj hy (by rw [all j hj, all y hy])
          rw [he y hy, List.append_nil, sent y hy, List.take_length] at e
          rw [e, all j hj, all y hy]
        obtain ⟨y, hy, hne⟩ := this
        cases e : s.ch y j with
        | nil => exact absurd e hne
        | cons m ms => exact ⟨_, Step.recv hj hjr hjb (sent j hj) hlt e⟩
      · have got : ∀ j, j < J.ranks → (s.r j).got.length = J.cnt (s.r j).round j := by
          intro j hj
          by_contra h
          exact hg ⟨j, hj, h⟩
        refine ⟨_, Step.wait hb (by omega) hbb (sent b hb) (Nat.le_of_eq (got b hb).symm) ?_⟩
        intro t
        by_cases ht : t < J.ranks
        · refine (complete hJ I ht (by rw [all t ht]; exact hir) (Nat.le_of_eq (got t ht).symm) ?_).2 b hb (by rw [all t ht, all b hb])
          intro j hj
          exact Or.inr ⟨by rw [all j hj, all t ht], sent j hj⟩
        · exact I.out b t (by omega)
  · have hb : ∀ j, j < J.ranks → (s.r j).round = (s.r i).round → (s.r j).barrier = true := by
      intro j hj h
      cases e : (s.r j).barrier with
      | true => rfl
      | false => exact absurd ⟨j, hj, h, e⟩ hnb
    refine ⟨_, Step.leave hi (hb i hi rfl) ?_⟩
    intro j hj
    have h2 := hmin j hj
    rcases Nat.lt_or_eq_of_le h2 with h | h
    · exact Or.inl h
    · exact Or.inr ⟨h.symm, hb j hj h.symm⟩

/-! ### Termination -/

/-- Number of calls of rank `i` in the rounds before `k`. -/
def callsBefore (J : Job M) (i k : Nat) : Nat := sumTo k fun k' => (J.msgs k' i).length + J.cnt k' i + 2

def callsOf (J : Job M) (i : Nat) (r : Rank M) : Nat :=
  callsBefore J i r.round + r.sent + r.got.length + (if r.barrier then 1 else 0)

def calls (J : Job M) (s : State M) : Nat := sumTo J.ranks fun i => callsOf J i (s.r i)

/-- Number of calls of all ranks. -/
def bound (J : Job M) : Nat := sumTo J.ranks fun i => callsBefore J i J.rounds

theorem callsBefore_mono (J : Job M) (i : Nat) {a b : Nat} (h : a ≤ b) : callsBefore J i a ≤ callsBefore J i b := by
  induction h with
  | refl => exact Nat.le_refl _
  | step _ ih => unfold callsBefore at *; rw [sumTo_succ]; omega

theorem calls_le {J : Job M} {s : State M} (I : Inv J s.r s.ch) : calls J s ≤ bound J := by
  apply sumTo_le
  intro i hi
  unfold callsOf
  rcases Nat.lt_or_eq_of_le (I.round i hi) with h | h
  · have h1 := callsBefore_mono J i (show (s.r i).round + 1 ≤ J.rounds from h)
    have h2 := I.sent i hi h
    have h3 := I.got i hi h
    unfold callsBefore at *
    rw [sumTo_succ] at h1
    split <;> omega
  · have h1 := I.fin i hi h
    have h2 : (s.r i).barrier = false := by
      cases e : (s.r i).barrier with
      | false => rfl
      | true => have := (I.bar i hi e).2.2; omega
    rw [h1.1, h1.2, h2, h]; simp

theorem calls_upd {J : Job M} {s : State M} {i : Nat} (hi : i < J.ranks) (v : Rank M) (ch : Nat → Nat → List M)
    (h : callsOf J i v = callsOf J i (s.r i) + 1) : calls J ⟨upd s.r i v, ch⟩ = calls J s + 1 := by
  unfold calls
  have e := sumTo_upd (fun i => callsOf J i (s.r i)) (callsOf J i v) hi
  have : sumTo J.ranks (fun j => callsOf J j (upd s.r i v j)) = sumTo J.ranks (upd (fun i => callsOf J i (s.r i)) i (callsOf J i v)) := by
    apply sumTo_congr
    intro j _
    by_cases e : j = i
    · subst e; rw [upd_self, upd_self]
    · rw [upd_ne _ _ e, upd_ne _ _ e]
  show sumTo J.ranks (fun j => callsOf J j (upd s.r i v j)) = _
  rw [this]
  omega

theorem calls_step {J : Job M} {b : Bool} {s s' : State M} (I : Inv J s.r s.ch) (h : Step J b s s') : calls J s' = calls J s + 1 := by
  cases h with
  | isend hi hr hb hm => exact calls_upd hi _ _ (by simp only [callsOf]; omega)
  | recv hi hr hb _ hg hc => exact calls_upd hi _ _ (by simp only [callsOf, List.length_append, List.length_singleton]; omega)
  | wait hi hr hb hs hg _ => exact calls_upd hi _ _ (by simp only [callsOf, hb]; simp)
  | bwait hi hr hb hs hg => exact calls_upd hi _ _ (by simp only [callsOf, hb]; simp)
  | leave hi hb hall =>
      refine calls_upd hi _ _ ?_
      have := I.bar _ hi hb
      simp only [callsOf, hb, callsBefore, sumTo_succ, List.length_nil]
      simp; omega

theorem exec_calls {J : Job M} (hJ : Ok J) {n : Nat} {s s' : State M} (h : Exec J n s s') (I : Inv J s.r s.ch) : calls J s' = calls J s + n := by
  induction h with
  | refl => rfl
  | step he hs ih => rw [calls_step (inv_exec hJ he I) hs, ih I]; omega

theorem calls_init (J : Job M) : calls J (init : State M) = 0 := by
  unfold calls
  have : ∀ n, sumTo n (fun i => callsOf J i ((init : State M).r i)) = 0 := by
    intro n
    induction n with
    | zero => rfl
    | succ n ih => rw [sumTo_succ, ih]; rfl
  exact this _

/-- No message is left when all ranks are done. -/
theorem fin_empty {J : Job M} {s : State M} (I : Inv J s.r s.ch) (h : ∀ i, i < J.ranks → (s.r i).round = J.rounds) (i j : Nat) :
    s.ch i j = [] := by
  by_cases hij : i < J.ranks ∧ j < J.ranks
  · have := I.same j i hij.2 hij.1 (by rw [h j hij.2, h i hij.1])
    rw [(I.fin j hij.2 (h j hij.2)).2, (I.fin i hij.1 (h i hij.1)).1] at this
    exact this
  · exact I.out i j hij

end Verif.Wildcard
