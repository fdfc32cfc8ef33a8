/-
Semantics of message passing between ranks, used for `src/wrappers/mpi/communication.hpp`.

A rank is a program built from the point-to-point calls of MPI.  Channels are FIFO per (source, destination, tag), as MPI's
non-overtaking rule guarantees.  `MPI_Send` is in standard mode: it may be buffered by the implementation or may wait for the matching
receive.  Therefore the relation `Step` contains both behaviours, while `GStep` contains only the steps that every implementation
has to be able to make.  "No deadlock" always means that a `GStep` exists, whatever the implementation has buffered so far.
`MPI_Probe` + `MPI_Get_count` + `MPI_Recv` from a given source is one `recv` that also tells the length of the message.
-/
namespace Verif.Mpi

/-- Program of one rank with messages `M` and result `R`. -/
inductive Prog (M R : Type) where
  | ret (r : R)
  /-- `MPI_Send` -/
  | send (dst tag : Nat) (m : M) (k : Prog M R)
  /-- `MPI_Isend`; the buffer is not touched until `wait` -/
  | isend (dst tag : Nat) (m : M) (k : Prog M R)
  /-- `MPI_Recv` from a given source -/
  | recv (src tag : Nat) (k : M → Prog M R)
  /-- `MPI_Waitall` on the sends of this rank -/
  | wait (k : Prog M R)

namespace Prog

/-- Sequential composition. -/
def bind {M R S : Type} : Prog M R → (R → Prog M S) → Prog M S
  | ret r, f => f r
  | send d t m k, f => send d t m (bind k f)
  | isend d t m k, f => isend d t m (bind k f)
  | recv s t k, f => recv s t fun m => bind (k m) f
  | wait k, f => wait (bind k f)

theorem bind_assoc {M R S T : Type} (p : Prog M R) (f : R → Prog M S) (g : S → Prog M T) :
    (p.bind f).bind g = p.bind fun r => (f r).bind g := by
  induction p with
  | ret => rfl
  | send _ _ _ _ ih => simp [bind, ih]
  | isend _ _ _ _ ih => simp [bind, ih]
  | recv _ _ _ ih => simp only [bind]; congr; funext m; exact ih m
  | wait _ ih => simp [bind, ih]

theorem bind_ret {M R : Type} (p : Prog M R) : p.bind ret = p := by
  induction p with
  | ret => rfl
  | send _ _ _ _ ih => simp [bind, ih]
  | isend _ _ _ _ ih => simp [bind, ih]
  | recv _ _ _ ih => simp only [bind]; congr; funext m; exact ih m
  | wait _ ih => simp [bind, ih]

end Prog

/-- Replacement of the program of one rank. -/
def upd {A : Type} (p : Nat → A) (i : Nat) (v : A) : Nat → A := fun x => if x = i then v else p x

/-- Messages sent and not yet received, per source, destination and tag. -/
abbrev Chan (M : Type) := Nat → Nat → Nat → List M

def updc {M : Type} (ch : Chan M) (i j t : Nat) (v : List M) : Chan M :=
  fun x y z => if x = i ∧ y = j ∧ z = t then v else ch x y z

/-- State of all ranks and channels. -/
structure Cfg (M R : Type) where
  p : Nat → Prog M R
  ch : Chan M

variable {M R : Type}

/-- Steps that every implementation has to be able to make; the number counts the calls that are completed. -/
inductive GStep : Nat → Cfg M R → Cfg M R → Prop where
  | recv {c : Cfg M R} {i j t m ms k} : c.p j = .recv i t k → c.ch i j t = m :: ms →
      GStep 1 c ⟨upd c.p j (k m), updc c.ch i j t ms⟩
  | rdv {c : Cfg M R} {i j t m k k'} : c.p i = .send j t m k → c.p j = .recv i t k' → c.ch i j t = [] →
      GStep 2 c ⟨upd (upd c.p i k) j (k' m), c.ch⟩
  | isend {c : Cfg M R} {i j t m k} : c.p i = .isend j t m k →
      GStep 1 c ⟨upd c.p i k, updc c.ch i j t (c.ch i j t ++ [m])⟩
  | wait {c : Cfg M R} {i k} : c.p i = .wait k → (∀ j t, c.ch i j t = []) → GStep 1 c ⟨upd c.p i k, c.ch⟩

/-- All steps, including those that need buffering in the MPI library. -/
inductive Step : Nat → Cfg M R → Cfg M R → Prop where
  | g {w} {c c' : Cfg M R} : GStep w c c' → Step w c c'
  | bsend {c : Cfg M R} {i j t m k} : c.p i = .send j t m k →
      Step 1 c ⟨upd c.p i k, updc c.ch i j t (c.ch i j t ++ [m])⟩
  | bwait {c : Cfg M R} {i k} : c.p i = .wait k → Step 1 c ⟨upd c.p i k, c.ch⟩

/-- Executions under every schedule and every buffering. -/
inductive Exec : Nat → Cfg M R → Cfg M R → Prop where
  | refl {c : Cfg M R} : Exec 0 c c
  | step {n w} {c c' c'' : Cfg M R} : Exec n c c' → Step w c' c'' → Exec (n + w) c c''

/-- Executions without buffering. -/
inductive GRun : Nat → Cfg M R → Cfg M R → Prop where
  | refl {c : Cfg M R} : GRun 0 c c
  | step {n w} {c c' c'' : Cfg M R} : GStep w c c' → GRun n c' c'' → GRun (w + n) c c''

/-- All ranks have returned, no message is left. -/
def Final (c : Cfg M R) : Prop := (∀ i, ∃ r, c.p i = .ret r) ∧ ∀ i j t, c.ch i j t = []

/-- Under every schedule and every buffering of the implementation, `c` ends in `f`: the number of calls in an execution is bounded, an
execution can always be continued up to `f`, and as long as it is not in `f`, some step that needs no buffering is possible (in particular
there is no deadlock and no other final state). -/
def Completes (c f : Cfg M R) : Prop :=
  Final f ∧ (∃ n, ∀ l c', Exec l c c' → l ≤ n) ∧
    ∀ l c', Exec l c c' → (c' = f ∨ ∃ w c'', GStep w c' c'') ∧ ∃ l', Exec l' c' f

/-- Initial state: no messages. -/
def start (p : Nat → Prog M R) : Cfg M R := ⟨p, fun _ _ _ => []⟩

theorem upd_same {A : Type} (p : Nat → A) (i : Nat) (v : A) : upd p i v i = v := by simp [upd]
theorem upd_ne {A : Type} (p : Nat → A) {i x : Nat} (v : A) (h : x ≠ i) : upd p i v x = p x := by simp [upd, h]
theorem upd_comm {A : Type} (p : Nat → A) {i j : Nat} (v w : A) (h : i ≠ j) : upd (upd p i v) j w = upd (upd p j w) i v := by
  funext x
  unfold upd
  split <;> split <;> first | rfl | omega
theorem upd_upd {A : Type} (p : Nat → A) (i : Nat) (v w : A) : upd (upd p i v) i w = upd p i w := by
  funext x
  unfold upd
  split <;> rfl
theorem updc_same (ch : Chan M) (i j t : Nat) (v) : updc ch i j t v i j t = v := by simp [updc]
theorem updc_ne (ch : Chan M) {i j t x y z : Nat} (v) (h : ¬ (x = i ∧ y = j ∧ z = t)) : updc ch i j t v x y z = ch x y z := by
  simp [updc, h]
theorem updc_comm (ch : Chan M) {i j t x y z : Nat} (v w) (h : ¬ (x = i ∧ y = j ∧ z = t)) :
    updc (updc ch i j t v) x y z w = updc (updc ch x y z w) i j t v := by
  funext a b d
  unfold updc
  split <;> split <;> first | rfl | (exfalso; omega)
theorem updc_updc (ch : Chan M) (i j t : Nat) (v w) : updc (updc ch i j t v) i j t w = updc ch i j t w := by
  funext a b d
  unfold updc
  split <;> rfl

end Verif.Mpi
