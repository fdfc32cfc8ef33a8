import Verif.Model.Nonblocking
import Verif.Proof.Mpi
import Verif.Proof.Wildcard2
import Verif.Spec.Comm
/-! Runs of the nonblocking exchanges. -/
namespace Verif.Comm
open Verif.Mpi
open Verif.Wildcard (buffersOf buffersOf_cons buffersOf_nil buffersOf_append buffersOf_single)

variable {M R : Type}

theorem grun_trans {a b : Nat} {c d e : Cfg M R} (h : GRun a c d) (h' : GRun b d e) : GRun (a + b) c e := by
  induction h with
  | refl => rw [Nat.zero_add]; exact h'
  | step g _ ih => rw [Nat.add_assoc]; exact .step g (ih h')

/-- Channels after rank `i` has sent `ms`. -/
def addSent (t i : Nat) (ms : List (Nat × M)) (ch : Chan M) : Chan M :=
  fun x y z => if x = i ∧ z = t then ch x y z ++ buffersOf ms y else ch x y z

theorem grun_isends (t i : Nat) (ms : List (Nat × M)) (k : Prog M R) : ∀ (p : Nat → Prog M R) (ch : Chan M), p i = isends t ms k →
    ∃ n, GRun n ⟨p, ch⟩ ⟨upd p i k, addSent t i ms ch⟩ := by
  induction ms with
  | nil =>
      intro p ch hp
      have e1 : upd p i k = p := by
        funext x; unfold upd; split
        · rename_i h; subst h; exact hp.symm
        · rfl
      have e2 : addSent t i [] ch = ch := by
        funext x y z; unfold addSent; rw [buffersOf_nil]; simp
      rw [e1, e2]
      exact ⟨0, .refl⟩
  | cons x ms ih =>
      obtain ⟨j, m⟩ := x
      intro p ch hp
      have g : GStep 1 ⟨p, ch⟩ ⟨upd p i (isends t ms k), updc ch i j t (ch i j t ++ [m])⟩ := GStep.isend (c := ⟨p, ch⟩) hp
      obtain ⟨n, r⟩ := ih (upd p i (isends t ms k)) (updc ch i j t (ch i j t ++ [m])) (upd_same ..)
      refine ⟨1 + n, ?_⟩
      have e1 : upd (upd p i (isends t ms k)) i k = upd p i k := upd_upd ..
      have e2 : addSent t i ms (updc ch i j t (ch i j t ++ [m])) = addSent t i ((j, m) :: ms) ch := by
        funext x y z
        unfold addSent
        by_cases h : x = i ∧ z = t
        · rw [if_pos h, if_pos h, buffersOf_cons]
          obtain ⟨rfl, rfl⟩ := h
          by_cases hy : j = y
          · subst hy; rw [updc_same, if_pos rfl, List.append_assoc]
          · rw [updc_ne _ _ (by rintro ⟨_, h, _⟩; exact hy h.symm), if_neg hy]; rfl
        · rw [if_neg h, if_neg h, updc_ne _ _ (by rintro ⟨h1, _, h3⟩; exact h ⟨h1, h3⟩)]
      rw [e1, e2] at r
      exact .step g r

/-- Channels after rank `i` has received everything with this tag. -/
def clearTo (t i : Nat) (ch : Chan M) : Chan M := fun x y z => if y = i ∧ z = t then [] else ch x y z

theorem grun_recvs (t i : Nat) (K : List M → Prog M R) : ∀ (srcs : List Nat) (res acc : List M) (p : Nat → Prog M R) (ch : Chan M),
    srcs.length = res.length → p i = recvs t srcs acc K → (∀ j, ch j i t = buffersOf (srcs.zip res) j) →
    ∃ n, GRun n ⟨p, ch⟩ ⟨upd p i (K (acc ++ res)), clearTo t i ch⟩ := by
  intro srcs
  induction srcs with
  | nil =>
      intro res acc p ch hl hp hc
      cases res with
      | cons a b => cases hl
      | nil =>
          have e1 : upd p i (K (acc ++ [])) = p := by
            funext x; unfold upd; split
            · rename_i h; subst h; rw [hp, List.append_nil]; rfl
            · rfl
          have e2 : clearTo t i ch = ch := by
            funext x y z; unfold clearTo; split
            · rename_i h; rw [h.1, h.2, hc]; rfl
            · rfl
          rw [e1, e2]
          exact ⟨0, .refl⟩
  | cons j srcs ih =>
      intro res acc p ch hl hp hc
      cases res with
      | nil => cases hl
      | cons m res =>
          have hj : ch j i t = m :: buffersOf (srcs.zip res) j := by
            rw [hc, List.zip_cons_cons, buffersOf_cons, if_pos rfl]; rfl
          have g : GStep 1 ⟨p, ch⟩ ⟨upd p i (recvs t srcs (acc ++ [m]) K), updc ch j i t (buffersOf (srcs.zip res) j)⟩ :=
            GStep.recv (c := ⟨p, ch⟩) (k := fun m => recvs t srcs (acc ++ [m]) K) hp hj
          obtain ⟨n, r⟩ := ih res (acc ++ [m]) _ (updc ch j i t (buffersOf (srcs.zip res) j)) (by simpa using hl) (upd_same p i _) (by
            intro j'
            by_cases e : j' = j
            · subst e; rw [updc_same]
            · rw [updc_ne _ _ (by rintro ⟨h, _⟩; exact e h), hc, List.zip_cons_cons, buffersOf_cons, if_neg (Ne.symm e)]; rfl)
          have e2 : clearTo t i (updc ch j i t (buffersOf (srcs.zip res) j)) = clearTo t i ch := by
            funext x y z
            unfold clearTo
            by_cases h : y = i ∧ z = t
            · rw [if_pos h, if_pos h]
            · rw [if_neg h, if_neg h, updc_ne _ _ (by rintro ⟨_, h2, h3⟩; exact h ⟨h2, h3⟩)]
          rw [upd_upd, e2, List.append_assoc] at r
          exact ⟨_, .step g r⟩

/-- Ranks below `r` are done with a phase. -/
def phase (r : Nat) (Q P : Nat → Prog M R) : Nat → Prog M R := fun i => if i < r then Q i else P i

theorem phase_succ (r : Nat) (Q P : Nat → Prog M R) : upd (phase r Q P) r (Q r) = phase (r + 1) Q P := by
  funext x
  unfold upd phase
  by_cases h : x = r
  · subst h; rw [if_pos rfl, if_pos (by omega)]
  · rw [if_neg h]
    by_cases h' : x < r
    · rw [if_pos h', if_pos (by omega)]
    · rw [if_neg h', if_neg (by omega)]

variable {n t : Nat} {sends : Nat → List (Nat × M)} {srcs : Nat → List Nat} {res : Nat → List M}

/-- Every exchange in which each rank posts the receives for the messages addressed to it completes; `res i` are the messages of rank `i` in the order of its
receives. -/
theorem nonblocking_completes [Inhabited R] (htgt : ∀ i, i < n → ∀ x ∈ sends i, x.1 < n) (hlen : ∀ i, i < n → (srcs i).length = (res i).length)
    (hsrc : ∀ i, i < n → ∀ j ∈ srcs i, j < n)
    (hres : ∀ i j, i < n → j < n → buffersOf ((srcs i).zip (res i)) j = buffersOf (sends j) i) (K : Nat → List M → R) :
    Completes (world 0 n fun i => (nonblocking t (sends i) (srcs i)).bind fun ms => .ret (K i ms)) (finished 0 n fun i => K i (res i)) := by
  have bi : ∀ ms (k : Prog M (List M)) (f : List M → Prog M R), (isends t ms k).bind f = isends t ms (k.bind f) := by
    intro ms
    induction ms with
    | nil => intros; rfl
    | cons x ms ih => intro k f; simp only [isends, Prog.bind, ih]
  have br : ∀ l acc (k : List M → Prog M (List M)) (f : List M → Prog M R), (recvs t l acc k).bind f = recvs t l acc fun ms => (k ms).bind f := by
    intro l
    induction l with
    | nil => intros; rfl
    | cons j l ih => intro acc k f; simp only [recvs, Prog.bind, ih]
  let P0 : Nat → Prog M R := fun i => if 0 ≤ i ∧ i < n then (nonblocking t (sends i) (srcs i)).bind fun ms => .ret (K i ms) else .ret default
  let P1 : Nat → Prog M R := fun i => if i < n then recvs t (srcs i) [] fun ms => .wait (.ret (K i ms)) else .ret default
  let P2 : Nat → Prog M R := fun i => if i < n then .wait (.ret (K i (res i))) else .ret default
  let P3 : Nat → Prog M R := fun i => .ret (if 0 ≤ i ∧ i < n then K i (res i) else default)
  have outside : ∀ j y, n ≤ y → j < n → buffersOf (sends j) y = [] := by
    intro j y hy hj
    unfold buffersOf
    rw [List.map_eq_nil_iff, List.filter_eq_nil_iff]
    intro x hx e
    have := htgt j hj x hx
    simp at e; omega
  have outside' : ∀ i y, i < n → n ≤ y → buffersOf ((srcs i).zip (res i)) y = [] := by
    intro i y hi hy
    apply Wildcard.buffersOf_zip_not_mem
    intro h
    have := hsrc i hi y h; omega
  -- channels after `a` ranks have sent and `b` ranks have received
  let C : Nat → Nat → Chan M := fun a b x y z => if x < a ∧ z = t ∧ b ≤ y then buffersOf (sends x) y else []
  have ph1 : ∀ r, r ≤ n → ∃ k, GRun k ⟨P0, C 0 0⟩ ⟨phase r P1 P0, C r 0⟩ := by
    intro r
    induction r with
    | zero =>
        intro _
        have : phase 0 P1 P0 = P0 := by funext i; simp [phase]
        rw [this]; exact ⟨0, .refl⟩
    | succ r ih =>
        intro hr0
        have hr : r < n := hr0
        obtain ⟨k, g⟩ := ih (by omega)
        obtain ⟨k', g'⟩ := grun_isends t r (sends r) (recvs t (srcs r) [] fun ms => .wait (.ret (K r ms))) (phase r P1 P0) (C r 0) (by
          show (if r < r then P1 r else P0 r) = _
          rw [if_neg (by omega)]
          show (if 0 ≤ r ∧ r < n then _ else _) = _
          rw [if_pos ⟨Nat.zero_le _, hr⟩]
          unfold nonblocking
          rw [bi, br]; rfl)
        have e1 : (recvs t (srcs r) [] fun ms => .wait (.ret (K r ms))) = P1 r := by
          show _ = if r < n then _ else _
          rw [if_pos hr]
        have e2 : addSent t r (sends r) (C r 0) = C (r + 1) 0 := by
          funext x y z
          show (if x = r ∧ z = t then (if x < r ∧ z = t ∧ 0 ≤ y then _ else _) ++ _ else (if x < r ∧ z = t ∧ 0 ≤ y then _ else _)) =
            if x < r + 1 ∧ z = t ∧ 0 ≤ y then _ else _
          by_cases h : x = r ∧ z = t
          · rw [if_pos h, if_neg (by omega), if_pos (by omega), h.1]; rfl
          · rw [if_neg h]
            by_cases h' : x < r ∧ z = t ∧ 0 ≤ y
            · rw [if_pos h', if_pos (by omega)]
            · rw [if_neg h', if_neg (by omega)]
        rw [e1, e2, phase_succ] at g'
        exact ⟨_, grun_trans g g'⟩
  have ph2 : ∀ r, r ≤ n → ∃ k, GRun k ⟨P1, C n 0⟩ ⟨phase r P2 P1, C n r⟩ := by
    intro r
    induction r with
    | zero =>
        intro _
        have : phase 0 P2 P1 = P1 := by funext i; simp [phase]
        rw [this]; exact ⟨0, .refl⟩
    | succ r ih =>
        intro hr0
        have hr : r < n := hr0
        obtain ⟨k, g⟩ := ih (by omega)
        obtain ⟨k', g'⟩ := grun_recvs t r (fun ms => .wait (.ret (K r ms))) (srcs r) (res r) [] (phase r P2 P1) (C n r) (hlen r hr) (by
          show (if r < r then P2 r else P1 r) = _
          rw [if_neg (by omega)]
          show (if r < n then _ else _) = _
          rw [if_pos hr]) (by
          intro j
          show (if j < n ∧ t = t ∧ r ≤ r then _ else _) = _
          by_cases hj : j < n
          · rw [if_pos ⟨hj, rfl, Nat.le_refl _⟩, hres r j hr hj]
          · rw [if_neg (fun h => hj h.1), outside' r j hr (by omega)])
        have e1 : Prog.wait (.ret (K r ([] ++ res r))) = P2 r := by
          show _ = if r < n then _ else _
          rw [if_pos hr]; rfl
        have e2 : clearTo t r (C n r) = C n (r + 1) := by
          funext x y z
          show (if y = r ∧ z = t then [] else (if x < n ∧ z = t ∧ r ≤ y then _ else _)) = if x < n ∧ z = t ∧ r + 1 ≤ y then _ else _
          by_cases h : y = r ∧ z = t
          · rw [if_pos h, if_neg (by omega)]
          · rw [if_neg h]
            by_cases h' : x < n ∧ z = t ∧ r ≤ y
            · rw [if_pos h', if_pos (by omega)]
            · rw [if_neg h', if_neg (by omega)]
        rw [e1, e2, phase_succ] at g'
        exact ⟨_, grun_trans g g'⟩
  have cn : C n n = fun _ _ _ => [] := by
    funext x y z
    show (if x < n ∧ z = t ∧ n ≤ y then _ else _) = _
    by_cases h : x < n ∧ z = t ∧ n ≤ y
    · rw [if_pos h, outside x y h.2.2 h.1]
    · rw [if_neg h]
  have ph3 : ∀ r, r ≤ n → ∃ k, GRun k ⟨P2, fun _ _ _ => []⟩ ⟨phase r P3 P2, fun _ _ _ => []⟩ := by
    intro r
    induction r with
    | zero =>
        intro _
        have : phase 0 P3 P2 = P2 := by funext i; simp [phase]
        rw [this]; exact ⟨0, .refl⟩
    | succ r ih =>
        intro hr0
        have hr : r < n := hr0
        obtain ⟨k, g⟩ := ih (by omega)
        have g' : GStep 1 ⟨phase r P3 P2, fun _ _ _ => ([] : List M)⟩ ⟨upd (phase r P3 P2) r (P3 r), fun _ _ _ => []⟩ :=
          GStep.wait (c := ⟨phase r P3 P2, fun _ _ _ => ([] : List M)⟩) (by
            show (if r < r then P3 r else P2 r) = _
            rw [if_neg (by omega)]
            show (if r < n then Prog.wait (.ret (K r (res r))) else _) = .wait (.ret (if 0 ≤ r ∧ r < n then _ else _))
            rw [if_pos hr, if_pos ⟨Nat.zero_le _, hr⟩]) (fun _ _ => rfl)
        rw [phase_succ] at g'
        exact ⟨_, grun_trans g (.step g' .refl)⟩
  have pn1 : phase n P1 P0 = P1 := by
    funext i
    show (if i < n then P1 i else P0 i) = _
    by_cases h : i < n
    · rw [if_pos h]
    · rw [if_neg h]
      show (if 0 ≤ i ∧ i < n then _ else _) = if i < n then _ else _
      rw [if_neg (by omega), if_neg h]
  have pn2 : phase n P2 P1 = P2 := by
    funext i
    show (if i < n then P2 i else P1 i) = _
    by_cases h : i < n
    · rw [if_pos h]
    · rw [if_neg h]
      show (if i < n then _ else _) = if i < n then _ else _
      rw [if_neg h, if_neg h]
  have pn3 : phase n P3 P2 = P3 := by
    funext i
    show (if i < n then P3 i else P2 i) = _
    by_cases h : i < n
    · rw [if_pos h]
    · rw [if_neg h]
      show (if i < n then _ else _) = Prog.ret (if 0 ≤ i ∧ i < n then _ else _)
      rw [if_neg h, if_neg (by omega)]
  have c0 : C 0 0 = fun _ _ _ => [] := by
    funext x y z
    show (if x < 0 ∧ z = t ∧ 0 ≤ y then _ else _) = _
    rw [if_neg (by omega)]
  obtain ⟨k1, g1⟩ := ph1 n (Nat.le_refl _)
  obtain ⟨k2, g2⟩ := ph2 n (Nat.le_refl _)
  obtain ⟨k3, g3⟩ := ph3 n (Nat.le_refl _)
  rw [pn1] at g1
  rw [pn2, cn] at g2
  rw [pn3] at g3
  rw [c0] at g1
  exact completes_of_grun (grun_trans g1 (grun_trans g2 g3)) ⟨fun i => ⟨_, rfl⟩, fun _ _ _ => rfl⟩

/-- The messages in the order of the receives, when each source sends one. -/
theorem zip_flatMap {l : List Nat} {f : Nat → List M} (hn : l.Nodup) (h1 : ∀ j ∈ l, (f j).length = 1) (h0 : ∀ j, j ∉ l → f j = []) (j : Nat) :
    l.length = (l.flatMap f).length ∧ buffersOf (l.zip (l.flatMap f)) j = f j := by
  have key : ∀ l : List Nat, l.Nodup → (∀ j ∈ l, (f j).length = 1) → l.length = (l.flatMap f).length ∧
      (j ∈ l → buffersOf (l.zip (l.flatMap f)) j = f j) := by
    intro l hn h1
    induction l with
    | nil => exact ⟨rfl, fun h => by cases h⟩
    | cons a l ih =>
        rw [List.nodup_cons] at hn
        have ih := ih hn.2 (fun j hj => h1 j (by simp [hj]))
        obtain ⟨m, hm⟩ := List.length_eq_one_iff.1 (h1 a (by simp))
        rw [List.flatMap_cons, hm]
        refine ⟨by simpa using ih.1, fun hj => ?_⟩
        show buffersOf ((a, m) :: l.zip (l.flatMap f)) j = _
        rw [buffersOf_cons]
        by_cases e : a = j
        · subst e
          rw [if_pos rfl, Wildcard.buffersOf_zip_not_mem hn.1, hm]; rfl
        · rw [if_neg e, ih.2 ((List.mem_cons.1 hj).resolve_left (Ne.symm e))]; rfl
  obtain ⟨k1, k2⟩ := key l hn h1
  refine ⟨k1, ?_⟩
  by_cases h : j ∈ l
  · exact k2 h
  · rw [Wildcard.buffersOf_zip_not_mem h, h0 j h]

end Verif.Comm
