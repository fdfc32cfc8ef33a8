import Verif.Proof.Nonblocking
import Verif.Prop.Comm
import Verif.Prop.Wildcard
/-!
C28 (chain shifts and known-size exchanges with lower / upper neighbours) and C54 (known-size exchanges with all neighbours) under every
schedule and every buffering.
-/
namespace Verif.Comm
open Verif.Mpi Verif.Wildcard

variable {T : Type}

/-! ### Chain shifts -/

theorem resizeTo_length (rbuf sbuf : List T) : (receiveLower.resizeTo rbuf sbuf).length = sbuf.length := by
  unfold receiveLower.resizeTo
  simp only [List.length_append, List.length_take, List.length_drop]
  omega

/-- C28: `receiveLower` gives every rank the buffer of the previous one (rank 0 gets nothing), when all buffers have the same size. -/
theorem C28_receiveLower (t size N : Nat) (sbuf rbuf : Nat → List T) (hN : ∀ i, i < size → (sbuf i).length = N) :
    Completes (world 0 size fun i => receiveLower t i size (sbuf i) (rbuf i))
      (finished 0 size fun i => some (if i = 0 then receiveLower.resizeTo (rbuf i) (sbuf i) else sbuf (i - 1))) := by
  refine completes_world ?_
  -- after the even ranks have sent
  let Q : Nat → Prog (List T) (Option (List T)) := fun i =>
    if i % 2 = 1 then
      if i + 1 ≠ size then .send (i + 1) t (sbuf i) (.ret (some (sbuf (i - 1)))) else .ret (some (sbuf (i - 1)))
    else if i ≠ 0 then .recv (i - 1) t fun m => .ret (recvInto (receiveLower.resizeTo (rbuf i) (sbuf i)) m)
      else .ret (some (receiveLower.resizeTo (rbuf i) (sbuf i)))
  have got : ∀ i, i < size → i ≠ 0 → recvInto (receiveLower.resizeTo (rbuf i) (sbuf i)) (sbuf (i - 1)) = some (sbuf (i - 1)) := by
    intro i hi h0
    exact recvInto_eq (by rw [resizeTo_length, hN i hi, hN (i - 1) (by omega)])
  refine Local.trans (Q := Q) ?_ ?_
  · refine Local.frame (Local.all size (fun s x => s % 2 = 0 ∧ s + 1 < size ∧ (x = s ∨ x = s + 1)) ?_ ?_) ?_ ?_
    · intro s hs
      by_cases h : s % 2 = 0 ∧ s + 1 < size
      · refine (Local.msg (i := s) (j := s + 1) (t := t) (m := sbuf s) (k := Q s)
          (k' := fun m => if s + 1 + 1 ≠ size then .send (s + 1 + 1) t (sbuf (s + 1)) (.ret (recvInto (receiveLower.resizeTo (rbuf (s + 1)) (sbuf (s + 1))) m))
            else .ret (recvInto (receiveLower.resizeTo (rbuf (s + 1)) (sbuf (s + 1))) m)) ?_ ?_ ?_ ?_).iff ?_
        · unfold receiveLower
          rw [if_neg (by omega), if_pos (by omega)]
          show _ = Prog.send _ _ _ (if s % 2 = 1 then _ else _)
          rw [if_neg (show ¬ s % 2 = 1 by omega)]
        · unfold receiveLower
          rw [if_pos (by omega)]; rfl
        · rfl
        · show (if (s + 1) % 2 = 1 then _ else _) = _
          rw [if_pos (by omega)]
          have := got (s + 1) (by omega) (by omega)
          simp only [Nat.add_sub_cancel] at this
          simp only [Nat.add_sub_cancel, this]
        · intro x; constructor
          · intro hx; exact ⟨h.1, h.2, hx⟩
          · intro hx; exact hx.2.2
      · exact (Local.refl (A := fun _ => False) (fun i hi => hi.elim)).iff (fun x => ⟨False.elim, fun hx => h ⟨hx.1, hx.2.1⟩⟩)
    · rintro s s' i _ _ ⟨h1, h2, h3⟩ ⟨h4, h5, h6⟩; omega
    · rintro i ⟨s, hs, h1, h2, h3⟩
      exact ⟨by omega, by omega⟩
    · intro i hi hn
      unfold inR at hi
      have h1 : i % 2 = 0 := by
        by_contra h
        exact hn ⟨i - 1, by omega, by omega, by omega, by omega⟩
      have h2 : i + 1 = size := by
        by_contra h
        exact hn ⟨i, by omega, by omega, by omega, by omega⟩
      show receiveLower _ _ _ _ _ = if i % 2 = 1 then _ else _
      unfold receiveLower
      rw [if_neg (show ¬ i % 2 = 1 by omega), if_neg (show ¬ i + 1 ≠ size by omega), if_neg (show ¬ i % 2 = 1 by omega)]
  · refine Local.frame (Local.all size (fun s x => s % 2 = 1 ∧ s + 1 < size ∧ (x = s ∨ x = s + 1)) ?_ ?_) ?_ ?_
    · intro s hs
      by_cases h : s % 2 = 1 ∧ s + 1 < size
      · refine (Local.msg (i := s) (j := s + 1) (t := t) (m := sbuf s) (k := .ret (some (sbuf (s - 1))))
          (k' := fun m => .ret (recvInto (receiveLower.resizeTo (rbuf (s + 1)) (sbuf (s + 1))) m)) ?_ ?_ ?_ ?_).iff ?_
        · show (if s % 2 = 1 then _ else _) = _
          rw [if_pos h.1, if_pos (by omega)]
        · show (if (s + 1) % 2 = 1 then _ else _) = _
          rw [if_neg (by omega), if_pos (by omega)]; rfl
        · show Prog.ret (some (if s = 0 then _ else _)) = _
          rw [if_neg (by omega)]
        · show Prog.ret (some (if s + 1 = 0 then _ else _)) = _
          rw [if_neg (by omega)]
          have := got (s + 1) (by omega) (by omega)
          simp only [Nat.add_sub_cancel] at this
          simp only [Nat.add_sub_cancel, this]
        · intro x; constructor
          · intro hx; exact ⟨h.1, h.2, hx⟩
          · intro hx; exact hx.2.2
      · exact (Local.refl (A := fun _ => False) (fun i hi => hi.elim)).iff (fun x => ⟨False.elim, fun hx => h ⟨hx.1, hx.2.1⟩⟩)
    · rintro s s' i _ _ ⟨h1, h2, h3⟩ ⟨h4, h5, h6⟩; omega
    · rintro i ⟨s, hs, h1, h2, h3⟩
      exact ⟨by omega, by omega⟩
    · intro i hi hn
      unfold inR at hi
      show (if i % 2 = 1 then _ else _) = Prog.ret (some (if i = 0 then _ else _))
      by_cases h1 : i % 2 = 1
      · have h2 : i + 1 = size := by
          by_contra h
          exact hn ⟨i, by omega, by omega, by omega, by omega⟩
        rw [if_pos h1, if_neg (by omega), if_neg (by omega)]
      · have h2 : i = 0 := by
          by_contra h
          exact hn ⟨i - 1, by omega, by omega, by omega, by omega⟩
        rw [if_neg h1, if_neg (by omega), if_pos h2]

/-- C28: `receiveUpper` gives every rank the buffer of the next one (the last rank gets nothing). -/
theorem C28_receiveUpper (t size N : Nat) (sbuf rbuf : Nat → List T) (hN : ∀ i, i < size → (sbuf i).length = N) :
    Completes (world 0 size fun i => receiveUpper t i size (sbuf i) (rbuf i))
      (finished 0 size fun i => some (if i + 1 = size then receiveLower.resizeTo (rbuf i) (sbuf i) else sbuf (i + 1))) := by
  refine completes_world ?_
  let fin : Nat → Option (List T) := fun i => some (if i + 1 = size then receiveLower.resizeTo (rbuf i) (sbuf i) else sbuf (i + 1))
  -- after the odd ranks have sent
  let Q : Nat → Prog (List T) (Option (List T)) := fun i =>
    if i % 2 = 1 then
      if i + 1 ≠ size then .recv (i + 1) t fun m => .ret (recvInto (receiveLower.resizeTo (rbuf i) (sbuf i)) m)
      else .ret (some (receiveLower.resizeTo (rbuf i) (sbuf i)))
    else if i ≠ 0 then .send (i - 1) t (sbuf i) (.ret (fin i)) else .ret (fin i)
  have got : ∀ i, i + 1 < size → recvInto (receiveLower.resizeTo (rbuf i) (sbuf i)) (sbuf (i + 1)) = some (sbuf (i + 1)) := by
    intro i hi
    exact recvInto_eq (by rw [resizeTo_length, hN i (by omega), hN (i + 1) hi])
  refine Local.trans (Q := Q) ?_ ?_
  · refine Local.frame (Local.all size (fun s x => s % 2 = 0 ∧ s + 1 < size ∧ (x = s + 1 ∨ x = s)) ?_ ?_) ?_ ?_
    · intro s hs
      by_cases h : s % 2 = 0 ∧ s + 1 < size
      · refine (Local.msg (i := s + 1) (j := s) (t := t) (m := sbuf (s + 1)) (k := Q (s + 1))
          (k' := fun m => if s ≠ 0 then .send (s - 1) t (sbuf s) (.ret (recvInto (receiveLower.resizeTo (rbuf s) (sbuf s)) m))
            else .ret (recvInto (receiveLower.resizeTo (rbuf s) (sbuf s)) m)) ?_ ?_ ?_ ?_).iff ?_
        · unfold receiveUpper
          rw [if_pos (by omega)]
          show _ = Prog.send _ _ _ (if (s + 1) % 2 = 1 then _ else _)
          rw [if_pos (show (s + 1) % 2 = 1 by omega)]; rfl
        · unfold receiveUpper
          rw [if_neg (by omega), if_pos (by omega)]
        · rfl
        · show (if s % 2 = 1 then _ else _) = _
          rw [if_neg (by omega)]
          have hf : fin s = some (sbuf (s + 1)) := by
            show some (if s + 1 = size then _ else _) = _
            rw [if_neg (by omega)]
          simp only [got s h.2, hf]
        · intro x; constructor
          · intro hx; exact ⟨h.1, h.2, hx⟩
          · intro hx; exact hx.2.2
      · exact (Local.refl (A := fun _ => False) (fun i hi => hi.elim)).iff (fun x => ⟨False.elim, fun hx => h ⟨hx.1, hx.2.1⟩⟩)
    · rintro s s' i _ _ ⟨h1, h2, h3⟩ ⟨h4, h5, h6⟩; omega
    · rintro i ⟨s, hs, h1, h2, h3⟩
      exact ⟨by omega, by omega⟩
    · intro i hi hn
      unfold inR at hi
      have h1 : i % 2 = 0 := by
        by_contra h
        exact hn ⟨i - 1, by omega, by omega, by omega, by omega⟩
      have h2 : i + 1 = size := by
        by_contra h
        exact hn ⟨i, by omega, by omega, by omega, by omega⟩
      show receiveUpper _ _ _ _ _ = if i % 2 = 1 then _ else _
      unfold receiveUpper
      have hf : fin i = some (receiveLower.resizeTo (rbuf i) (sbuf i)) := by
        show some (if i + 1 = size then _ else _) = _
        rw [if_pos h2]
      rw [if_neg (show ¬ i % 2 = 1 by omega), if_neg (show ¬ i + 1 ≠ size by omega), if_neg (show ¬ i % 2 = 1 by omega), hf]
  · refine Local.frame (Local.all size (fun s x => s % 2 = 1 ∧ s + 1 < size ∧ (x = s + 1 ∨ x = s)) ?_ ?_) ?_ ?_
    · intro s hs
      by_cases h : s % 2 = 1 ∧ s + 1 < size
      · refine (Local.msg (i := s + 1) (j := s) (t := t) (m := sbuf (s + 1)) (k := .ret (fin (s + 1)))
          (k' := fun m => .ret (recvInto (receiveLower.resizeTo (rbuf s) (sbuf s)) m)) ?_ ?_ ?_ ?_).iff ?_
        · show (if (s + 1) % 2 = 1 then _ else _) = _
          rw [if_neg (by omega), if_pos (by omega)]; rfl
        · show (if s % 2 = 1 then _ else _) = _
          rw [if_pos h.1, if_pos (by omega)]
        · rfl
        · show Prog.ret (some (if s + 1 = size then _ else _)) = _
          rw [if_neg (by omega), got s h.2]
        · intro x; constructor
          · intro hx; exact ⟨h.1, h.2, hx⟩
          · intro hx; exact hx.2.2
      · exact (Local.refl (A := fun _ => False) (fun i hi => hi.elim)).iff (fun x => ⟨False.elim, fun hx => h ⟨hx.1, hx.2.1⟩⟩)
    · rintro s s' i _ _ ⟨h1, h2, h3⟩ ⟨h4, h5, h6⟩; omega
    · rintro i ⟨s, hs, h1, h2, h3⟩
      exact ⟨by omega, by omega⟩
    · intro i hi hn
      unfold inR at hi
      show (if i % 2 = 1 then _ else _) = Prog.ret (fin i)
      by_cases h1 : i % 2 = 1
      · have h2 : i + 1 = size := by
          by_contra h
          exact hn ⟨i, by omega, by omega, by omega, by omega⟩
        rw [if_pos h1, if_neg (by omega)]
        show _ = Prog.ret (some (if i + 1 = size then _ else _))
        rw [if_pos h2]
      · have h2 : i = 0 := by
          by_contra h
          exact hn ⟨i - 1, by omega, by omega, by omega, by omega⟩
        rw [if_neg h1, if_neg (by omega)]

/-- Three ranks. -/
example : Completes (world 0 3 fun i => receiveLower 0 i 3 [i, i + 10] []) (finished 0 3 fun i => some (if i = 0 then [0, 10] else [i - 1, i - 1 + 10])) := by
  refine cast ?_ (C28_receiveLower 0 3 2 (fun i => [i, i + 10]) (fun _ => []) (fun _ _ => rfl))
  congr 1
  unfold finished
  congr 1; funext i
  by_cases h : i = 0
  · subst h; rfl
  · simp [h]

/-! ### Known sizes -/

section Known

variable (t n : Nat) (nb : Nat → List Nat) (sbuf rbuf : Nat → List (List T))

/-- The preconditions: symmetric sorted neighbourhoods, one buffer per neighbour, and the receive buffers have the sizes of the buffers sent. -/
structure KnownSizes : Prop where
  nbs : ∀ i, i < n → Neighbors n (nb i)
  sym : ∀ i j, i < n → j ∈ nb i → i ∈ nb j
  slen : ∀ i, i < n → (sbuf i).length = (nb i).length
  rlen : ∀ i, i < n → (rbuf i).length = (nb i).length
  size : ∀ (i p j q : Nat) s r, i < n → (nb i)[p]? = some j → (nb j)[q]? = some i → (rbuf i)[p]? = some r → (sbuf j)[q]? = some s → r.length = s.length

theorem fillWhere_spec (sel : Nat → Bool) (f : Nat → List (List T)) : ∀ (nb : List Nat) (rbuf : List (List T)), rbuf.length = nb.length →
    (∀ (p j : Nat) r, nb[p]? = some j → rbuf[p]? = some r → sel j = true → ∃ m, f j = [m] ∧ m.length = r.length) →
    ∃ r', fillWhere sel nb rbuf ((nb.filter sel).flatMap f) = some r' ∧ r'.length = nb.length ∧
      ∀ p j : Nat, nb[p]? = some j → r'[p]? = if sel j then (f j)[0]? else rbuf[p]? := by
  intro nb
  induction nb with
  | nil =>
      intro rbuf hr _
      cases rbuf with
      | nil => exact ⟨[], rfl, rfl, by intro p j h; simp at h⟩
      | cons => cases hr
  | cons a nb ih =>
      intro rbuf hr hf
      cases rbuf with
      | nil => cases hr
      | cons b rbuf =>
          obtain ⟨r', e, el, es⟩ := ih rbuf (by simpa using hr) (fun p j r h1 h2 h3 => hf (p + 1) j r (by simpa using h1) (by simpa using h2) h3)
          by_cases h : sel a = true
          · obtain ⟨m, hm, hml⟩ := hf 0 a b rfl rfl h
            refine ⟨m :: r', ?_, by simp [el], ?_⟩
            · rw [List.filter_cons, if_pos h, List.flatMap_cons, hm, List.singleton_append]
              unfold fillWhere
              rw [if_pos h]
              simp only [recvInto_eq hml, e, Option.bind_eq_bind, Option.bind_some]; rfl
            · intro p j hp
              cases p with
              | zero => simp at hp; subst hp; rw [if_pos h, hm]; rfl
              | succ p => simp at hp; simpa using es p j hp
          · refine ⟨b :: r', ?_, by simp [el], ?_⟩
            · rw [List.filter_cons, if_neg h]
              unfold fillWhere
              rw [if_neg h]
              simp only [e, Option.bind_eq_bind, Option.bind_some]; rfl
            · intro p j hp
              cases p with
              | zero => simp at hp; subst hp; rw [if_neg h]; rfl
              | succ p => simp at hp; simpa using es p j hp

/-- The common form. -/
theorem known_completes {t n : Nat} {nb : Nat → List Nat} {sbuf rbuf : Nat → List (List T)} (H : KnownSizes n nb sbuf rbuf) (sel : Nat → Nat → Bool) :
    ∃ res : Nat → List (List T), Completes
      (world 0 n fun i => (nonblocking t (((nb i).zip (sbuf i)).filter fun x => sel i x.1) ((nb i).filter fun j => sel j i)).bind fun ms =>
        .ret (fillWhere (fun j => sel j i) (nb i) (rbuf i) ms)) (finished 0 n fun i => some (res i)) ∧
      ∀ i, i < n → (res i).length = (nb i).length ∧ ∀ p j q : Nat, (nb i)[p]? = some j → (nb j)[q]? = some i →
        (res i)[p]? = if sel j i then (sbuf j)[q]? else (rbuf i)[p]? := by
  let sends : Nat → List (Nat × List T) := fun i => ((nb i).zip (sbuf i)).filter fun x => sel i x.1
  let f : Nat → Nat → List (List T) := fun i j => if j < n then buffersOf (sends j) i else []
  have one : ∀ i j q : Nat, j < n → (nb j)[q]? = some i → ∃ m, (sbuf j)[q]? = some m ∧ buffersOf (sends j) i = if sel j i then [m] else [] := by
    intro i j q hj hq
    have hql : q < (sbuf j).length := by rw [H.slen j hj]; exact (List.getElem?_eq_some_iff.1 hq).1
    refine ⟨(sbuf j)[q], List.getElem?_eq_getElem hql, ?_⟩
    show buffersOf (List.filter (fun x => sel j x.1) _) i = _
    rw [buffersOf_filter, buffersOf_zip_get (nodup_of_lt (H.nbs j hj).sorted) hq (List.getElem?_eq_getElem hql)]
  have none : ∀ i j, j < n → i ∉ nb j → buffersOf (sends j) i = [] := by
    intro i j hj h
    show buffersOf (List.filter (fun x => sel j x.1) _) i = _
    rw [buffersOf_filter, buffersOf_zip_not_mem h]; simp
  have fsel : ∀ i j q : Nat, j < n → (nb j)[q]? = some i → ∃ m, (sbuf j)[q]? = some m ∧ f i j = if sel j i then [m] else [] := by
    intro i j q hj hq
    obtain ⟨m, h1, h2⟩ := one i j q hj hq
    refine ⟨m, h1, ?_⟩
    show (if j < n then _ else _) = _
    rw [if_pos hj, h2]
  have zf : ∀ i, i < n → ∀ j, ((nb i).filter fun j => sel j i).length = (((nb i).filter fun j => sel j i).flatMap (f i)).length ∧
      buffersOf (((nb i).filter fun j => sel j i).zip (((nb i).filter fun j => sel j i).flatMap (f i))) j = f i j := by
    intro i hi j
    refine zip_flatMap ((nodup_of_lt (H.nbs i hi).sorted).filter _) ?_ ?_ j
    · intro j hj
      rw [List.mem_filter] at hj
      obtain ⟨q, hq⟩ := List.mem_iff_getElem?.1 (H.sym i j hi hj.1)
      obtain ⟨m, _, h2⟩ := fsel i j q ((H.nbs i hi).lt j hj.1) hq
      have hs : sel j i = true := hj.2
      rw [h2, if_pos hs]; rfl
    · intro j hj
      show (if j < n then _ else _) = _
      by_cases hjn : j < n
      · rw [if_pos hjn]
        by_cases hm : i ∈ nb j
        · obtain ⟨q, hq⟩ := List.mem_iff_getElem?.1 hm
          obtain ⟨m, _, h2⟩ := one i j q hjn hq
          rw [h2, if_neg]
          intro hs
          exact hj (List.mem_filter.2 ⟨H.sym j i hjn hm, hs⟩)
        · exact none i j hjn hm
      · rw [if_neg hjn]
  have fill : ∀ i, i < n → ∃ r', fillWhere (fun j => sel j i) (nb i) (rbuf i) (((nb i).filter fun j => sel j i).flatMap (f i)) = some r' ∧
      r'.length = (nb i).length ∧ ∀ p j : Nat, (nb i)[p]? = some j → r'[p]? = if sel j i then (f i j)[0]? else (rbuf i)[p]? := by
    intro i hi
    refine fillWhere_spec (fun j => sel j i) (f i) (nb i) (rbuf i) (H.rlen i hi) ?_
    intro p j r hp hr hs
    have hjm := List.mem_of_getElem? hp
    obtain ⟨q, hq⟩ := List.mem_iff_getElem?.1 (H.sym i j hi hjm)
    obtain ⟨m, h1, h2⟩ := fsel i j q ((H.nbs i hi).lt j hjm) hq
    exact ⟨m, by rw [h2, if_pos hs], (H.size i p j q m r hi hp hq hr h1).symm⟩
  refine ⟨fun i => (fillWhere (fun j => sel j i) (nb i) (rbuf i) (((nb i).filter fun j => sel j i).flatMap (f i))).getD [], ?_, ?_⟩
  · have c := nonblocking_completes (t := t) (n := n) (sends := sends) (srcs := fun i => (nb i).filter fun j => sel j i)
      (res := fun i => ((nb i).filter fun j => sel j i).flatMap (f i))
      (by
        intro i hi x hx
        obtain ⟨a, m⟩ := x
        exact (H.nbs i hi).lt a (List.of_mem_zip (List.mem_filter.1 hx).1).1)
      (fun i hi => (zf i hi 0).1)
      (fun i hi j hj => (H.nbs i hi).lt j (List.mem_filter.1 hj).1)
      (fun i j hi hj => by
        rw [(zf i hi j).2]
        show (if j < n then _ else _) = _
        rw [if_pos hj])
      (fun i ms => fillWhere (fun j => sel j i) (nb i) (rbuf i) ms)
    refine cast ?_ c
    congr 1
    unfold finished
    congr 1; funext i
    by_cases hi : 0 ≤ i ∧ i < n
    · rw [if_pos hi, if_pos hi]
      obtain ⟨r', e, _⟩ := fill i hi.2
      simp only [e]; rfl
    · rw [if_neg hi, if_neg hi]
  · intro i hi
    obtain ⟨r', e, el, es⟩ := fill i hi
    simp only [e, Option.getD_some]
    refine ⟨el, ?_⟩
    intro p j q hp hq
    obtain ⟨m, h1, h2⟩ := fsel i j q ((H.nbs i hi).lt j (List.mem_of_getElem? hp)) hq
    rw [es p j hp]
    by_cases hs : sel j i = true
    · rw [if_pos hs, if_pos hs, h2, if_pos hs, h1]; rfl
    · rw [if_neg hs, if_neg hs]

/-- C54: `exchangeKnownSize` delivers the buffer of every neighbour `j = nb i [p]` (which it has for `i = nb j [q]`). -/
theorem C54_exchangeKnownSize (H : KnownSizes n nb sbuf rbuf) :
    ∃ res : Nat → List (List T), Completes (world 0 n fun i => exchangeKnownSize t (nb i) (sbuf i) (rbuf i)) (finished 0 n fun i => some (res i)) ∧
      ∀ i, i < n → (res i).length = (nb i).length ∧ ∀ p j q : Nat, (nb i)[p]? = some j → (nb j)[q]? = some i → (res i)[p]? = (sbuf j)[q]? := by
  obtain ⟨res, h1, h2⟩ := known_completes (t := t) H (fun _ _ => true)
  refine ⟨res, ?_, ?_⟩
  · refine cast ?_ h1
    congr 2; funext i
    unfold exchangeKnownSize
    rw [List.filter_eq_self.2 (by intros; rfl), List.filter_eq_self.2 (by intros; rfl)]
  · intro i hi
    refine ⟨(h2 i hi).1, fun p j q hp hq => ?_⟩
    rw [(h2 i hi).2 p j q hp hq, if_pos rfl]

/-- C28: `receiveLowerKnownSize`. -/
theorem C28_receiveLowerKnownSize (H : KnownSizes n nb sbuf rbuf) :
    ∃ res : Nat → List (List T), Completes (world 0 n fun i => receiveLowerKnownSize t i (nb i) (sbuf i) (rbuf i)) (finished 0 n fun i => some (res i)) ∧
      ∀ i, i < n → (res i).length = (nb i).length ∧ ∀ p j q : Nat, (nb i)[p]? = some j → (nb j)[q]? = some i →
        (res i)[p]? = if j < i then (sbuf j)[q]? else (rbuf i)[p]? := by
  obtain ⟨res, h1, h2⟩ := known_completes (t := t) H (fun i j => decide (j > i))
  refine ⟨res, h1, ?_⟩
  intro i hi
  refine ⟨(h2 i hi).1, fun p j q hp hq => ?_⟩
  rw [(h2 i hi).2 p j q hp hq]; simp

/-- C28: `receiveUpperKnownSize`. -/
theorem C28_receiveUpperKnownSize (H : KnownSizes n nb sbuf rbuf) :
    ∃ res : Nat → List (List T), Completes (world 0 n fun i => receiveUpperKnownSize t i (nb i) (sbuf i) (rbuf i)) (finished 0 n fun i => some (res i)) ∧
      ∀ i, i < n → (res i).length = (nb i).length ∧ ∀ p j q : Nat, (nb i)[p]? = some j → (nb j)[q]? = some i →
        (res i)[p]? = if i < j then (sbuf j)[q]? else (rbuf i)[p]? := by
  obtain ⟨res, h1, h2⟩ := known_completes (t := t) H (fun i j => decide (j < i))
  refine ⟨res, h1, ?_⟩
  intro i hi
  refine ⟨(h2 i hi).1, fun p j q hp hq => ?_⟩
  rw [(h2 i hi).2 p j q hp hq]; simp

end Known

/-! ### One flat buffer -/

/-- The messages of an exchange with all neighbours, in the order of the neighbours. -/
theorem all_completes {M R : Type} [Inhabited R] {t n : Nat} {nb : Nat → List Nat} {sbuf : Nat → List M} (nbs : ∀ i, i < n → Neighbors n (nb i))
    (sym : ∀ i j, i < n → j ∈ nb i → i ∈ nb j) (slen : ∀ i, i < n → (sbuf i).length = (nb i).length) (K : Nat → List M → R) :
    ∃ msgs : Nat → List M, Completes (world 0 n fun i => (nonblocking t ((nb i).zip (sbuf i)) (nb i)).bind fun ms => .ret (K i ms))
      (finished 0 n fun i => K i (msgs i)) ∧
      ∀ i, i < n → (msgs i).length = (nb i).length ∧ ∀ p j q : Nat, (nb i)[p]? = some j → (nb j)[q]? = some i → (msgs i)[p]? = (sbuf j)[q]? := by
  let f : Nat → Nat → List M := fun i j => if j < n then buffersOf ((nb j).zip (sbuf j)) i else []
  have one : ∀ i j q : Nat, j < n → (nb j)[q]? = some i → ∃ m, (sbuf j)[q]? = some m ∧ f i j = [m] := by
    intro i j q hj hq
    have hql : q < (sbuf j).length := by rw [slen j hj]; exact (List.getElem?_eq_some_iff.1 hq).1
    refine ⟨(sbuf j)[q], List.getElem?_eq_getElem hql, ?_⟩
    show (if j < n then _ else _) = _
    rw [if_pos hj, buffersOf_zip_get (nodup_of_lt (nbs j hj).sorted) hq (List.getElem?_eq_getElem hql)]
  have len1 : ∀ i, i < n → ∀ j ∈ nb i, (f i j).length = 1 := by
    intro i hi j hj
    obtain ⟨q, hq⟩ := List.mem_iff_getElem?.1 (sym i j hi hj)
    obtain ⟨m, _, h2⟩ := one i j q ((nbs i hi).lt j hj) hq
    rw [h2]; rfl
  have zf : ∀ i, i < n → ∀ j, (nb i).length = ((nb i).flatMap (f i)).length ∧ buffersOf ((nb i).zip ((nb i).flatMap (f i))) j = f i j := by
    intro i hi j
    refine zip_flatMap (nodup_of_lt (nbs i hi).sorted) (len1 i hi) ?_ j
    intro j hj
    show (if j < n then _ else _) = _
    by_cases hjn : j < n
    · rw [if_pos hjn, buffersOf_zip_not_mem (fun hm => hj (sym j i hjn hm))]
    · rw [if_neg hjn]
  refine ⟨fun i => (nb i).flatMap (f i), ?_, ?_⟩
  · exact nonblocking_completes (t := t) (n := n) (sends := fun i => (nb i).zip (sbuf i)) (srcs := nb) (res := fun i => (nb i).flatMap (f i))
      (by
        intro i hi x hx
        obtain ⟨a, m⟩ := x
        exact (nbs i hi).lt a (List.of_mem_zip hx).1)
      (fun i hi => (zf i hi 0).1)
      (fun i hi j hj => (nbs i hi).lt j hj)
      (fun i j hi hj => by
        rw [(zf i hi j).2]
        show (if j < n then _ else _) = _
        rw [if_pos hj]) K
  · intro i hi
    refine ⟨(zf i hi 0).1.symm, ?_⟩
    intro p j q hp hq
    obtain ⟨m, h1, h2⟩ := one i j q ((nbs i hi).lt j (List.mem_of_getElem? hp)) hq
    rw [h1]
    have : ∀ (l : List Nat) (p : Nat), (∀ j ∈ l, (f i j).length = 1) → l[p]? = some j → (l.flatMap (f i))[p]? = some m := by
      intro l
      induction l with
      | nil => intro p _ h; simp at h
      | cons a l ih =>
          intro p h1 hp
          obtain ⟨b, hb⟩ := List.length_eq_one_iff.1 (h1 a (by simp))
          rw [List.flatMap_cons, hb, List.singleton_append]
          cases p with
          | zero =>
              simp at hp; subst hp
              rw [h2] at hb; cases hb; rfl
          | succ p =>
              simp at hp
              simpa using ih p (fun j hj => h1 j (by simp [hj])) hp
    exact this (nb i) p (len1 i hi) hp

/-- Messages written one after another. -/
theorem scatterIn_concat (off cap : Nat → Nat) : ∀ (ms : List (List T)) (n : Nat) (pre old : List T), off n = pre.length →
    (∀ (k : Nat) m, ms[k]? = some m → off (n + k + 1) = off (n + k) + m.length ∧ m.length ≤ cap (n + k)) → ms.flatten.length ≤ old.length →
    scatterIn off cap n ms (pre ++ old) = some (pre ++ ms.flatten ++ old.drop ms.flatten.length) := by
  intro ms
  induction ms with
  | nil => intro n pre old _ _ _; simp [scatterIn]
  | cons m ms ih =>
      intro n pre old h0 hs hl
      rw [List.flatten_cons, List.length_append] at hl
      have h1 := hs 0 m rfl
      unfold scatterIn
      rw [if_pos (by simpa using h1.2), h0]
      have e : memcpyTo (pre ++ old) pre.length m = some (pre ++ m ++ old.drop m.length) := by
        have := memcpyTo_append pre (old.take m.length) (old.drop m.length) m (by rw [List.length_take]; omega)
        rw [List.append_assoc pre, List.take_append_drop] at this
        exact this
      rw [e, Option.bind_some]
      have e2 := ih (n + 1) (pre ++ m) (old.drop m.length)
        (by rw [List.length_append, ← h0]; simpa using h1.1)
        (fun k m' hk => by
          have := hs (k + 1) m' (by simpa using hk)
          rw [show n + 1 + k = n + (k + 1) by omega]; exact this)
        (by rw [List.length_drop]; omega)
      rw [e2, List.flatten_cons, List.length_append, List.drop_drop, List.append_assoc pre m]

theorem flatten_uniform {ms : List (List T)} {N : Nat} (h : ∀ m ∈ ms, m.length = N) : ms.flatten.length = ms.length * N := by
  induction ms with
  | nil => simp
  | cons m ms ih =>
      rw [List.flatten_cons, List.length_append, ih (fun m hm => h m (by simp [hm])), h m (by simp), List.length_cons, Nat.succ_mul]
      omega

/-- C54: `gatherUniformNeighbors` concatenates the buffers of the neighbours (all of the same size `N`) at the beginning of `rBuffer`. -/
theorem C54_gatherUniformNeighbors (t n N : Nat) (nb : Nat → List Nat) (sbuf rbuf : Nat → List T) (nbs : ∀ i, i < n → Neighbors n (nb i))
    (sym : ∀ i j, i < n → j ∈ nb i → i ∈ nb j) (hN : ∀ i, i < n → (sbuf i).length = N) (hr : ∀ i, i < n → (nb i).length * N ≤ (rbuf i).length) :
    Completes (world 0 n fun i => gatherUniformNeighbors t (nb i) (sbuf i) (rbuf i))
      (finished 0 n fun i => some ((nb i).flatMap sbuf ++ (rbuf i).drop ((nb i).length * N))) := by
  obtain ⟨msgs, h1, h2⟩ := all_completes (t := t) (sbuf := fun i => (nb i).map fun _ => sbuf i) nbs sym (fun i _ => List.length_map _)
    (fun i ms => scatterIn (fun n => n * (sbuf i).length) (fun _ => (sbuf i).length) 0 ms (rbuf i))
  refine cast ?_ h1
  congr 1
  · congr 1; funext i
    unfold gatherUniformNeighbors
    congr 2
    induction nb i with
    | nil => rfl
    | cons a l ih => rw [List.map_cons, List.zip_cons_cons, List.map_cons, ih]
  · unfold finished
    congr 1; funext i
    by_cases hi : 0 ≤ i ∧ i < n
    · rw [if_pos hi, if_pos hi]
      congr 1
      obtain ⟨hl, hm⟩ := h2 i hi.2
      have e : msgs i = (nb i).map sbuf := by
        apply List.ext_getElem?; intro p
        rw [List.getElem?_map]
        by_cases hp : p < (nb i).length
        · have hp' := List.getElem?_eq_getElem hp
          obtain ⟨q, hq⟩ := List.mem_iff_getElem?.1 (sym i _ hi.2 (List.getElem_mem hp))
          rw [hm p _ q hp' hq, hp', List.getElem?_map, hq]; rfl
        · rw [List.getElem?_eq_none (by omega), List.getElem?_eq_none (by omega)]; rfl
      have hu : ∀ m ∈ (nb i).map sbuf, m.length = N := by
        intro m hm
        obtain ⟨j, hj, rfl⟩ := List.mem_map.1 hm
        exact hN j ((nbs i hi.2).lt j hj)
      have := scatterIn_concat (fun n => n * (sbuf i).length) (fun _ => (sbuf i).length) (msgs i) 0 [] (rbuf i) (by simp)
        (fun k m hk => by
          rw [e] at hk
          have hml := hu m (List.mem_of_getElem? hk)
          simp only [hN i hi.2, hml]
          exact ⟨by rw [Nat.zero_add, Nat.succ_mul], Nat.le_refl _⟩)
        (by rw [e, flatten_uniform hu, List.length_map]; exact hr i hi.2)
      rw [List.nil_append, List.nil_append] at this
      refine this.trans ?_
      rw [e, flatten_uniform hu, List.length_map]
      rfl
    · rw [if_neg hi, if_neg hi]

/-- C54: `exchangeKnownSizeInPlace`: part `p` of `rBuffer` is the part that neighbour `nb i [p]` has for `i`. -/
theorem C54_exchangeInPlace (t n : Nat) (nb dist : Nat → List Nat) (sbuf rbuf : Nat → List T) (nbs : ∀ i, i < n → Neighbors n (nb i))
    (sym : ∀ i j, i < n → j ∈ nb i → i ∈ nb j) (hd : ∀ i, i < n → (dist i).length = (nb i).length + 1) (hmono : ∀ i, i < n → (dist i).Pairwise (· ≤ ·))
    (hs : ∀ i, i < n → (dist i).getD (nb i).length 0 ≤ (sbuf i).length ∧ (dist i).getD (nb i).length 0 ≤ (rbuf i).length)
    (hsize : ∀ i p j q : Nat, i < n → (nb i)[p]? = some j → (nb j)[q]? = some i →
      (dist i).getD (p + 1) 0 - (dist i).getD p 0 = (dist j).getD (q + 1) 0 - (dist j).getD q 0) :
    ∃ res : Nat → List T, Completes (world 0 n fun i => exchangeInPlace t (nb i) (dist i) (sbuf i) (rbuf i)) (finished 0 n fun i => some (res i)) ∧
      ∀ i, i < n → (res i).length = (rbuf i).length ∧ (res i).take ((dist i).getD 0 0) = (rbuf i).take ((dist i).getD 0 0) ∧
        (res i).drop ((dist i).getD (nb i).length 0) = (rbuf i).drop ((dist i).getD (nb i).length 0) ∧
        ∀ p j q : Nat, (nb i)[p]? = some j → (nb j)[q]? = some i →
          ((res i).drop ((dist i).getD p 0)).take ((dist i).getD (p + 1) 0 - (dist i).getD p 0) =
          ((sbuf j).drop ((dist j).getD q 0)).take ((dist j).getD (q + 1) 0 - (dist j).getD q 0) := by
  let part : Nat → Nat → List T := fun i k => ((sbuf i).drop ((dist i).getD k 0)).take ((dist i).getD (k + 1) 0 - (dist i).getD k 0)
  have mono : ∀ i a b, i < n → a ≤ b → b ≤ (nb i).length → (dist i).getD a 0 ≤ (dist i).getD b 0 := by
    intro i a b hi hab hb
    rcases Nat.lt_or_eq_of_le hab with h | h
    · have hal : a < (dist i).length := by rw [hd i hi]; omega
      have hbl : b < (dist i).length := by rw [hd i hi]; omega
      have := List.pairwise_iff_getElem.1 (hmono i hi) a b hal hbl h
      rw [List.getD_eq_getElem?_getD, List.getD_eq_getElem?_getD, List.getElem?_eq_getElem hal, List.getElem?_eq_getElem hbl]; exact this
    · rw [h]; exact Nat.le_refl _
  have plen : ∀ i k, i < n → k < (nb i).length → (part i k).length = (dist i).getD (k + 1) 0 - (dist i).getD k 0 := by
    intro i k hi hk
    show (List.take _ (List.drop _ _)).length = _
    have h1 := (hs i hi).1
    have h2 := mono i (k + 1) (nb i).length hi (by omega) (Nat.le_refl _)
    have h3 := mono i k (k + 1) hi (by omega) (by omega)
    rw [List.length_take, List.length_drop]; omega
  obtain ⟨msgs, h1, h2⟩ := all_completes (t := t) (sbuf := fun i => (List.range (nb i).length).map (part i)) nbs sym (fun i _ => by simp)
    (fun i ms => scatterIn (fun k => (dist i).getD k 0) (fun k => (dist i).getD (k + 1) 0 - (dist i).getD k 0) 0 ms (rbuf i))
  -- the lengths of the messages
  have mlen : ∀ (i p : Nat) m, i < n → (msgs i)[p]? = some m → m.length = (dist i).getD (p + 1) 0 - (dist i).getD p 0 ∧ p < (nb i).length := by
    intro i p m hi hm
    obtain ⟨hl, hg⟩ := h2 i hi
    have hp : p < (nb i).length := by rw [← hl]; exact (List.getElem?_eq_some_iff.1 hm).1
    obtain ⟨q, hq⟩ := List.mem_iff_getElem?.1 (sym i _ hi (List.getElem_mem hp))
    have hp' := List.getElem?_eq_getElem hp
    rw [hg p _ q hp' hq, List.getElem?_map, List.getElem?_range (List.getElem?_eq_some_iff.1 hq).1] at hm
    simp at hm
    subst hm
    have hj := (nbs i hi).lt _ (List.getElem_mem hp)
    exact ⟨by rw [plen _ q hj (List.getElem?_eq_some_iff.1 hq).1, hsize i p _ q hi hp' hq], hp⟩
  -- prefix sums
  have pre : ∀ i, i < n → ∀ k, k ≤ (nb i).length → (dist i).getD 0 0 + ((msgs i).take k).flatten.length = (dist i).getD k 0 := by
    intro i hi k
    induction k with
    | zero => intro _; simp
    | succ k ih =>
        intro hk
        have hkm : k < (msgs i).length := by rw [(h2 i hi).1]; omega
        have e := List.getElem?_eq_getElem hkm
        have := (mlen i k _ hi e).1
        rw [take_succ_of_get e, List.flatten_append, List.length_append, ← Nat.add_assoc, ih (by omega)]
        simp only [List.flatten_cons, List.flatten_nil, List.append_nil, this]
        have := mono i k (k + 1) hi (by omega) hk
        omega
  have sc : ∀ i, i < n → scatterIn (fun k => (dist i).getD k 0) (fun k => (dist i).getD (k + 1) 0 - (dist i).getD k 0) 0 (msgs i) (rbuf i) =
      some ((rbuf i).take ((dist i).getD 0 0) ++ (msgs i).flatten ++ (rbuf i).drop ((dist i).getD (nb i).length 0)) := by
    intro i hi
    have hp := pre i hi (nb i).length (Nat.le_refl _)
    rw [← (h2 i hi).1, List.take_length] at hp
    have hb := (hs i hi).2
    rw [← (h2 i hi).1] at hb
    have := scatterIn_concat (fun k => (dist i).getD k 0) (fun k => (dist i).getD (k + 1) 0 - (dist i).getD k 0) (msgs i) 0
      ((rbuf i).take ((dist i).getD 0 0)) ((rbuf i).drop ((dist i).getD 0 0))
      (by rw [List.length_take]; show (dist i).getD 0 0 = _; omega)
      (fun k m hk => by
        have hm := mlen i k m hi hk
        have := mono i k (k + 1) hi (by omega) (by omega)
        simp only [Nat.zero_add]
        omega)
      (by rw [List.length_drop]; omega)
    rw [List.take_append_drop, List.drop_drop, hp, (h2 i hi).1] at this
    exact this
  refine ⟨fun i => (rbuf i).take ((dist i).getD 0 0) ++ (msgs i).flatten ++ (rbuf i).drop ((dist i).getD (nb i).length 0), ?_, ?_⟩
  · refine cast ?_ h1
    congr 1
    · congr 1; funext i
      unfold exchangeInPlace
      congr 2
      rw [List.zipIdx_eq_zip_range', List.zip_map_right, List.range_eq_range']
      rfl
    · unfold finished
      congr 1; funext i
      by_cases hi : 0 ≤ i ∧ i < n
      · rw [if_pos hi, if_pos hi]
        congr 1
        exact sc i hi.2
      · rw [if_neg hi, if_neg hi]
  · intro i hi
    have hp := pre i hi (nb i).length (Nat.le_refl _)
    rw [← (h2 i hi).1, List.take_length, (h2 i hi).1] at hp
    have hb := (hs i hi).2
    have h0 := mono i 0 (nb i).length hi (by omega) (Nat.le_refl _)
    have htl : ((rbuf i).take ((dist i).getD 0 0)).length = (dist i).getD 0 0 := by rw [List.length_take]; omega
    beta_reduce
    refine ⟨?_, ?_, ?_, ?_⟩
    · simp only [List.length_append, htl, List.length_drop]; omega
    · rw [List.append_assoc, List.take_append_of_le_length (by omega), List.take_of_length_le (by omega)]
    · rw [List.drop_append_of_le_length (by rw [List.length_append]; omega), List.drop_eq_nil_of_le (by rw [List.length_append]; omega), List.nil_append]
    · intro p j q hpj hqi
      have hpl : p < (nb i).length := (List.getElem?_eq_some_iff.1 hpj).1
      have hpm : p < (msgs i).length := by rw [(h2 i hi).1]; exact hpl
      have hm := (h2 i hi).2 p j q hpj hqi
      rw [List.getElem?_map, List.getElem?_range (List.getElem?_eq_some_iff.1 hqi).1] at hm
      have hm' : (msgs i)[p]? = some (part j q) := hm
      have hml := (mlen i p _ hi hm').1
      have hpre := pre i hi p (by omega)
      have split : (msgs i).flatten = ((msgs i).take p).flatten ++ part j q ++ ((msgs i).drop (p + 1)).flatten := by
        have e : msgs i = (msgs i).take p ++ part j q :: (msgs i).drop (p + 1) := by
          rw [← (List.getElem?_eq_some_iff.1 hm').2]; simp
        conv => lhs; rw [e]
        simp
      show List.take _ (List.drop _ _) = part j q
      rw [split, List.append_assoc, List.append_assoc, List.append_assoc, ← List.append_assoc]
      rw [List.drop_append_of_le_length (by rw [List.length_append, htl]; omega), List.drop_eq_nil_of_le (by rw [List.length_append, htl]; omega), List.nil_append,
        List.take_append_of_le_length (by omega), List.take_of_length_le (by omega)]

/-- The hypotheses hold for a path of three ranks with buffers of different sizes. -/
example : KnownSizes 3 exNb (fun i => (exNb i).map fun j => List.replicate (i + j) i) (fun i => (exNb i).map fun j => List.replicate (i + j) 0) where
  nbs := by
    intro i hi
    rcases (show i = 0 ∨ i = 1 ∨ i = 2 by omega) with rfl | rfl | rfl
    all_goals exact ⟨by decide, by decide⟩
  sym := by
    intro i j hi hj
    rcases (show i = 0 ∨ i = 1 ∨ i = 2 by omega) with rfl | rfl | rfl <;> simp [exNb] at hj ⊢
    · subst hj; simp
    · rcases hj with rfl | rfl <;> simp
    · subst hj; simp
  slen := by intro i _; simp
  rlen := by intro i _; simp
  size := by
    intro i p j q s r _ h1 h2 h3 h4
    rw [List.getElem?_map, h1] at h3
    rw [List.getElem?_map, h2] at h4
    simp at h3 h4
    subst h3; subst h4
    simp; omega

/-- The flat buffers of the same path: rank 1 has two parts of sizes 1 and 2 in its buffers, the sizes agree with those of ranks 0 and 2. -/
example : let dist : Nat → List Nat := fun i => if i = 0 then [0, 1] else if i = 1 then [0, 1, 3] else [1, 3]
    (∀ i, i < 3 → (dist i).length = (exNb i).length + 1) ∧ (∀ i, i < 3 → (dist i).Pairwise (· ≤ ·)) ∧
    (∀ i p j q : Nat, i < 3 → (exNb i)[p]? = some j → (exNb j)[q]? = some i →
      (dist i).getD (p + 1) 0 - (dist i).getD p 0 = (dist j).getD (q + 1) 0 - (dist j).getD q 0) := by
  refine ⟨by decide, by decide, ?_⟩
  intro i p j q hi h1 h2
  have hp := (List.getElem?_eq_some_iff.1 h1).1
  have hq := (List.getElem?_eq_some_iff.1 h2).1
  rcases (show i = 0 ∨ i = 1 ∨ i = 2 by omega) with rfl | rfl | rfl
  · have : p = 0 := by simp [exNb] at hp; omega
    subst this
    simp [exNb] at h1; subst h1
    have : q = 0 ∨ q = 1 := by simp [exNb] at hq; omega
    rcases this with rfl | rfl <;> simp [exNb] at h2 ⊢
  · have : p = 0 ∨ p = 1 := by simp [exNb] at hp; omega
    rcases this with rfl | rfl <;> (simp [exNb] at h1; subst h1; have : q = 0 := (by simp [exNb] at hq; omega); subst this; simp)
  · have : p = 0 := by simp [exNb] at hp; omega
    subst this
    simp [exNb] at h1; subst h1
    have : q = 0 ∨ q = 1 := by simp [exNb] at hq; omega
    rcases this with rfl | rfl <;> simp [exNb] at h2 ⊢

end Verif.Comm
