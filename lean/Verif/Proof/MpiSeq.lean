import Verif.Proof.Mpi
import Verif.Spec.Comm
/-! Sequential composition of programs with communication: the ranks need not to wait for each other between the phases. -/
namespace Verif.Mpi

variable {M R S : Type}

/-- A run without buffering exists if the program completes. -/
theorem grun_of_completes {c f : Cfg M R} (h : Completes c f) : ∃ n, GRun n c f := by
  obtain ⟨_, ⟨n, hn⟩, hp⟩ := h
  have key : ∀ k l c', Exec l c c' → n < l + k → ∃ m, GRun m c' f := by
    intro k
    induction k with
    | zero =>
        intro l c' e hk
        have := hn l c' e
        omega
    | succ k ih =>
        intro l c' e hk
        rcases (hp l c' e).1 with rfl | ⟨w, c'', g⟩
        · exact ⟨0, .refl⟩
        · have hw : 1 ≤ w := by cases g <;> omega
          obtain ⟨m, r⟩ := ih (l + w) c'' (.step e (.g g)) (by omega)
          exact ⟨w + m, .step g r⟩
  exact key (n + 1) 0 c .refl (by omega)

/-- The programs of `c` continued by `Q`. -/
def Cfg.bind (c : Cfg M R) (Q : Nat → R → Prog M S) : Cfg M S := ⟨fun i => (c.p i).bind (Q i), c.ch⟩

theorem upd_bind (p : Nat → Prog M R) (Q : Nat → R → Prog M S) (i : Nat) (k : Prog M R) :
    (fun x => (upd p i k x).bind (Q x)) = upd (fun x => (p x).bind (Q x)) i (k.bind (Q i)) := by
  funext x
  unfold upd
  by_cases h : x = i
  · rw [if_pos h, if_pos h, h]
  · rw [if_neg h, if_neg h]

theorem gstep_bind {w : Nat} {c c' : Cfg M R} (g : GStep w c c') (Q : Nat → R → Prog M S) : GStep w (c.bind Q) (c'.bind Q) := by
  cases g with
  | @recv _ i j t m ms k hp hc =>
      refine gstep_congr (GStep.recv (c := c.bind Q) (i := i) (j := j) (t := t) (m := m) (ms := ms) (k := fun m => (k m).bind (Q j)) ?_ hc) ?_ rfl
      · show (c.p j).bind (Q j) = _
        rw [hp]; rfl
      · exact (upd_bind _ _ _ _).symm
  | @rdv _ i j t m k k' hp hp' hc =>
      refine gstep_congr (GStep.rdv (c := c.bind Q) (i := i) (j := j) (t := t) (m := m) (k := k.bind (Q i)) (k' := fun m => (k' m).bind (Q j)) ?_ ?_ hc) ?_ rfl
      · show (c.p i).bind (Q i) = _
        rw [hp]; rfl
      · show (c.p j).bind (Q j) = _
        rw [hp']; rfl
      · show upd (upd (fun x => (c.p x).bind (Q x)) i (k.bind (Q i))) j ((k' m).bind (Q j)) = fun x => (upd (upd c.p i k) j (k' m) x).bind (Q x)
        rw [upd_bind, upd_bind]
  | @isend _ i j t m k hp =>
      refine gstep_congr (GStep.isend (c := c.bind Q) (i := i) (j := j) (t := t) (m := m) (k := k.bind (Q i)) ?_) ?_ rfl
      · show (c.p i).bind (Q i) = _
        rw [hp]; rfl
      · exact (upd_bind _ _ _ _).symm
  | @wait _ i k hp hc =>
      refine gstep_congr (GStep.wait (c := c.bind Q) (i := i) (k := k.bind (Q i)) ?_ hc) ?_ rfl
      · show (c.p i).bind (Q i) = _
        rw [hp]; rfl
      · exact (upd_bind _ _ _ _).symm

theorem grun_bind {n : Nat} {c c' : Cfg M R} (g : GRun n c c') (Q : Nat → R → Prog M S) : GRun n (c.bind Q) (c'.bind Q) := by
  induction g with
  | refl => exact .refl
  | step g _ ih => exact .step (gstep_bind g Q) ih

theorem GRun.trans {a b : Nat} {c d e : Cfg M R} (h : GRun a c d) (h' : GRun b d e) : GRun (a + b) c e := by
  induction h with
  | refl => rw [Nat.zero_add]; exact h'
  | step g _ ih => rw [Nat.add_assoc]; exact .step g (ih h')

/-- If the programs `P` complete and their continuations complete, so do the composed programs. -/
theorem completes_bind {P : Nat → Prog M R} {res : Nat → R} {Q : Nat → R → Prog M S} {f : Cfg M S} (h1 : Completes (start P) (start fun i => .ret (res i)))
    (h2 : Completes (start fun i => Q i (res i)) f) : Completes (start fun i => (P i).bind (Q i)) f := by
  obtain ⟨n, r1⟩ := grun_of_completes h1
  obtain ⟨m, r2⟩ := grun_of_completes h2
  exact completes_of_grun (GRun.trans (grun_bind r1 Q) r2) h2.1

end Verif.Mpi

namespace Verif.Comm

open Verif.Mpi

variable {M R S : Type} [Inhabited R] [Inhabited S]

theorem world_congr {l r : Nat} {p q : Nat → Prog M R} (h : ∀ i, l ≤ i → i < r → p i = q i) : world l r p = world l r q := by
  unfold world
  congr 1
  funext i
  by_cases hi : l ≤ i ∧ i < r
  · rw [if_pos hi, if_pos hi, h i hi.1 hi.2]
  · rw [if_neg hi, if_neg hi]

theorem finished_congr {l r : Nat} {p q : Nat → R} (h : ∀ i, l ≤ i → i < r → p i = q i) : (finished l r p : Cfg M R) = finished l r q := by
  unfold finished
  congr 1
  funext i
  by_cases hi : l ≤ i ∧ i < r
  · rw [if_pos hi, if_pos hi, h i hi.1 hi.2]
  · rw [if_neg hi, if_neg hi]

/-- `completes_bind` for the ranks `l, …, r - 1`. -/
theorem world_bind {l r : Nat} {P : Nat → Prog M R} {res : Nat → R} {Q : Nat → R → Prog M S} {res' : Nat → S} (h1 : Completes (world l r P) (finished l r res))
    (h2 : Completes (world l r fun i => Q i (res i)) (finished l r res')) : Completes (world l r fun i => (P i).bind (Q i)) (finished l r res') := by
  have := completes_bind (Q := fun i s => if l ≤ i ∧ i < r then Q i s else .ret default) h1 (f := finished l r res') (by
    have e : (start fun i => (if l ≤ i ∧ i < r then Q i (if l ≤ i ∧ i < r then res i else default) else .ret default : Prog M S)) = world l r fun i => Q i (res i) := by
      unfold world
      congr 1
      funext i
      by_cases hi : l ≤ i ∧ i < r
      · rw [if_pos hi, if_pos hi, if_pos hi]
      · rw [if_neg hi, if_neg hi]
    rw [e]; exact h2)
  have e : (start fun i => (if l ≤ i ∧ i < r then P i else .ret default).bind fun s => if l ≤ i ∧ i < r then Q i s else .ret default) = world l r fun i => (P i).bind (Q i) := by
    unfold world
    congr 1
    funext i
    by_cases hi : l ≤ i ∧ i < r
    · simp only [if_pos hi]
    · simp only [if_neg hi]; rfl
  rw [e] at this
  exact this

/-- Ranks that return without communication. -/
theorem world_ret (l r : Nat) (res : Nat → R) : Completes (world l r fun i => (.ret (res i) : Prog M R)) (finished l r res) := by
  have : (world l r fun i => (.ret (res i) : Prog M R)) = finished l r res := by
    unfold world finished
    congr 1
    funext i
    by_cases hi : l ≤ i ∧ i < r
    · rw [if_pos hi, if_pos hi]
    · rw [if_neg hi, if_neg hi]
  rw [this]
  exact completes_of_grun .refl ⟨fun i => ⟨_, rfl⟩, fun _ _ _ => rfl⟩

end Verif.Comm
