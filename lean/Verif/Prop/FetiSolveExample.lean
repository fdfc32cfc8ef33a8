import Verif.Prop.FetiSolve
import Verif.Prop.CoarseProduct
import Verif.Prop.Comm
/-!
`MPI_Allreduce` in C69 may be the all-reduce of `communication.hpp` (C19); three processes with one domain each meet the hypotheses of C68 and C69.
-/
namespace Verif.Feti

open Verif.Csx Verif.Mpi Verif.Comm Verif.Dual Finset

/-- The sum of one number of all processes with `Communication::allReduce`. -/
def reduceSum {K : Type} [Field K] (t np p : Nat) (v : K) : Prog (List K) (Option K) :=
  andThen (allReduce t (· + ·) p 0 np [v] [v]) fun r => orFail r[0]? fun x => .ret (some x)

theorem foldl_sum {K : Type} [Field K] (v : Nat → K) (n : Nat) : ∀ (a : Nat) (s : K), ((List.range' a n).map v).foldl (· + ·) s = s + ∑ i ∈ range n, v (a + i) := by
  induction n with
  | zero => intro a s; simp
  | succ n ih =>
    intro a s
    rw [List.range'_succ, List.map_cons, List.foldl_cons, ih, Finset.sum_range_succ', Nat.add_zero]
    have : ∀ i, v (a + 1 + i) = v (a + (i + 1)) := fun i => by rw [Nat.add_right_comm, Nat.add_assoc]
    simp only [this]
    ring

/-- **C69.** The all-reduce of C19 meets the contract of `MPI_Allreduce`. -/
theorem C69_reduces {K : Type} [Field K] (t : Nat) {np : Nat} (hnp : 0 < np) : Reduces np (reduceSum (K := K) t np) := by
  intro v
  obtain ⟨r, hlen, hr, hc⟩ := C19_allReduce t (· + ·) (fun a b c : K => add_assoc a b c) (fun a b => add_comm a b) 0 np 1 hnp fun i _ => v i
  have hr0 : r[0]? = some (∑ p ∈ range np, v p) := by
    rw [hr 0 Nat.one_pos]
    unfold contributions
    obtain ⟨n, rfl⟩ : ∃ n, np = n + 1 := ⟨np - 1, by omega⟩
    rw [Nat.sub_zero, List.range'_succ, List.map_cons, combine, foldl_sum, Finset.sum_range_succ', add_comm]
    simp [Nat.add_comm]
  unfold reduceSum
  refine world_andThen _ hc ?_
  rw [world_congr (q := fun _ => Prog.ret (some (∑ p ∈ range np, v p)))]
  · exact world_ret _ _ _
  · intro p _ _
    rw [hr0]; rfl

/-! ### Three processes -/

/-- The gluing matrices of the example. -/
def chainGlue (p : Nat) : Glue Rat :=
  [[(⟨1, 2, [0, 1], [0], [1]⟩, [0])], [(⟨2, 2, [0, 1, 2], [1, 0], [-1, 1]⟩, [0, 1])], [(⟨1, 2, [0, 1], [0], [-1]⟩, [0])]].getD p []

/-- The matrix of the example. -/
def chainEntry (l d i : Nat) : Rat :=
  if l = 7 then (if d = 0 ∧ i = 0 then 1 else if d = 1 ∧ i = 1 then -1 else 0) else (if d = 1 ∧ i = 0 then 1 else if d = 2 ∧ i = 0 then -1 else 0)

theorem chain_glued : Glued 3 id (fun p => [[7], [7, 8], [8]].getD p []) (fun l => if l = 7 then [0, 1] else [1, 2]) (fun _ => 2) chainEntry chainGlue := by
  have hj : ∀ p, p < 3 → ∀ (j : Nat) (g : Csx Rat × List Nat), (chainGlue p)[j]? = some g →
      (p = 0 ∧ j = 0 ∧ g = (⟨1, 2, [0, 1], [0], [1]⟩, [0])) ∨ (p = 1 ∧ j = 0 ∧ g = (⟨2, 2, [0, 1, 2], [1, 0], [-1, 1]⟩, [0, 1])) ∨ (p = 2 ∧ j = 0 ∧ g = (⟨1, 2, [0, 1], [0], [-1]⟩, [0])) := by
    intro p hp j g hg
    have hp' : p = 0 ∨ p = 1 ∨ p = 2 := by omega
    rcases hp' with rfl | rfl | rfl <;> rcases j with _ | j <;> simp [chainGlue] at hg ⊢ <;> exact hg.symm
  have hwf : ∀ p, p < 3 → ∀ (j : Nat) (g : Csx Rat × List Nat), (chainGlue p)[j]? = some g → WellFormed g.1 ∧ g.2.length = g.1.np ∧
      (∀ k ∈ g.2, k < ([[7], [7, 8], [8]].getD p []).length) ∧ g.1.ns = 2 := by
    intro p hp j g hg
    rcases hj p hp j g hg with ⟨rfl, rfl, rfl⟩ | ⟨rfl, rfl, rfl⟩ | ⟨rfl, rfl, rfl⟩ <;> exact ⟨⟨by decide, by decide, by decide, by decide, by decide, by decide⟩, by decide, by decide, by decide⟩
  refine ⟨?_, fun p hp j g hg => (hwf p hp j g hg).1, fun p hp j g hg => (hwf p hp j g hg).2.1, fun p hp j g hg => (hwf p hp j g hg).2.2.1, fun p hp j g hg => (hwf p hp j g hg).2.2.2, ?_, ?_⟩
  · intro p hp
    have hp' : p = 0 ∨ p = 1 ∨ p = 2 := by omega
    rcases hp' with rfl | rfl | rfl <;> rfl
  · intro p hp j g hg k l hk i
    rcases hj p hp j g hg with ⟨rfl, rfl, rfl⟩ | ⟨rfl, rfl, rfl⟩ | ⟨rfl, rfl, rfl⟩
    · rcases k with _ | k <;> simp at hk
      subst hk
      rcases i with _ | i <;> simp [Csx.at, Csx.row, chainEntry]
    · rcases k with _ | _ | k <;> simp at hk <;> subst hk <;> rcases i with _ | _ | i <;> simp [Csx.at, Csx.row, chainEntry, Finset.sum_range_succ]
    · rcases k with _ | k <;> simp at hk
      subst hk
      rcases i with _ | i <;> simp [Csx.at, Csx.row, chainEntry]
  · intro l d i hd
    unfold chainEntry
    by_cases e : l = 7
    · rw [if_pos e] at hd ⊢
      rw [if_neg (fun h => hd (by simp [h.1])), if_neg (fun h => hd (by simp [h.1]))]
    · rw [if_neg e] at hd ⊢
      rw [if_neg (fun h => hd (by simp [h.1])), if_neg (fun h => hd (by simp [h.1]))]

/-- The domains 0 and 2 are fixed, the domain 1 floats. -/
def chainK (d i j : Nat) : Rat := if d = 1 then (if i = j then 1 else -1) else if i = j then 1 else 0

/-- `K⁺`. -/
def chainKp (d i j : Nat) : Rat := if d = 1 then (if i = 0 ∧ j = 0 then 1 else 0) else if i = j then 1 else 0

/-- The direct solver. -/
def chainSolve (d : Nat) (v : List Rat) : List Rat := (List.range 2).map fun i => ∑ j ∈ range 2, chainKp d i j * v.getD j 0

/-- The loads. -/
def chainF (d i : Nat) : Rat := if i = 0 then d + 1 else 2

/-- The gaps. -/
def chainC (l : Nat) : Rat := if l = 7 then 1 else 3

/-- The data of the process. -/
def chainProcess (p : Nat) : Process Rat :=
  { projector := exampleProjector p, glue := chainGlue p, solve := fun j => chainSolve (id p + j), f := localVectors id p (vectorOf (fun _ => 2) chainF),
    c := ([[7], [7, 8], [8]].getD p []).map chainC, goffsets := [exampleKoff p], precond := .none, reduce := reduceSum 9 3 p }

theorem chain_system : System 3 id (fun p => [[1, 2], [0, 2], [0, 1]].getD p []) (fun p => [[7], [7, 8], [8]].getD p []) (fun l => if l = 7 then [0, 1] else [1, 2]) 5
    (fun p => [[1, 2, 0, 1], [1, 2, 0, 1, 1, 2, 1, 2], [1, 2, 1, 2]].getD p []) (fun p => [[0, 1, 1, 0], [0, 1, 1, 0, 1, 2, 1, 1], [0, 1, 1, 1]].getD p [])
    (fun p => [[1, 0], [1, 1], [0, 1]].getD p []) (fun _ => 2) (fun d => if d = 1 then 1 else 0) exampleKoff chainEntry chainSolve (fun _ _ _ => 1) exampleG (fun _ _ => 1 / 2) chainF chainC
    (fun X => X) chainProcess := by
  have hc : ∀ p, p < 3 → p = 0 ∨ p = 1 ∨ p = 2 := by omega
  constructor
  · decide
  · rfl
  · exact example_shared
  · exact example_describes
  · intro p hp
    rcases hc p hp with rfl | rfl | rfl <;> decide
  · exact example_configured
  · exact example_kernels
  · exact chain_glued
  · intro p _; rfl
  · intro d v _; simp [chainSolve]
  · intro p _; rfl
  · intro p _; rfl
  · intro p hp j hj
    have : j = 0 := by simp at hj; omega
    subst this
    rfl
  · exact .none fun p _ => rfl
  · exact C69_reduces 9 (by decide)

theorem chain_solves : SolvesBy (fun _ => 2) chainKp chainSolve := fun _ _ _ => rfl

theorem chain_coarse : IsCoarse (fun _ => 2) (fun d => if d = 1 then 1 else 0) exampleKoff chainEntry (fun _ _ _ => 1) exampleG := by
  intro d kr hk l
  by_cases hd : d = 1
  · subst hd
    by_cases hl : l = 7 <;> simp [exampleG, chainEntry, hl, sum_range_succ]
  · simp [hd] at hk

theorem chain_pseudo : PseudoInverse 3 (fun _ => 2) (fun d => if d = 1 then 1 else 0) chainK chainKp fun _ _ _ => 1 := by
  constructor
  · intro d hd k hk i hi
    by_cases h : d = 1
    · have : i = 0 ∨ i = 1 := by omega
      rcases this with rfl | rfl <;> simp [chainK, h, sum_range_succ]
    · simp [h] at hk
  · intro d hd b hb i hi
    have : i = 0 ∨ i = 1 := by omega
    by_cases h : d = 1
    · have h0 := hb 0 (by rw [if_pos h]; decide)
      simp [sum_range_succ] at h0
      rcases this with rfl | rfl <;> simp [chainK, chainKp, h, sum_range_succ]
      linarith
    · rcases this with rfl | rfl <;> simp [chainK, chainKp, h, sum_range_succ]

theorem chain_regular : Regular 3 (fun _ => 2) (fun d => if d = 1 then 1 else 0) (allMults 3 fun p => [[7], [7, 8], [8]].getD p []) chainEntry chainK chainKp fun _ _ _ => 1 := by
  refine ⟨chain_pseudo, ?_, ?_, ?_, ?_⟩
  · intro d i j
    unfold chainK
    split <;> simp [eq_comm]
  · intro d hd v
    by_cases h : d = 1
    · simp [chainK, h, sum_range_succ]
      nlinarith [mul_self_nonneg (v 0 - v 1)]
    · simp [chainK, h, sum_range_succ]
      nlinarith [mul_self_nonneg (v 0), mul_self_nonneg (v 1)]
  · intro d i j
    unfold chainKp
    split
    · simp [and_comm]
    · simp [eq_comm]
  · intro X hX l hl
    have e : allMults 3 (fun p => [[7], [7, 8], [8]].getD p []) = {7, 8} := by decide
    rw [e] at hX hl
    have h7 := hX 0 (by decide) 0 (by decide)
    have h8 := hX 2 (by decide) 0 (by decide)
    simp [timesBt, chainEntry] at h7 h8
    simp at hl
    rcases hl with rfl | rfl
    · exact h7
    · exact h8

/-- The memory of the process. -/
def chainMemory (p : Nat) : Process.Memory Rat :=
  let n := [1, 2, 1].getD p 0
  let z := List.replicate n 0
  { s := ⟨⟨[0], [[], [0], []].getD p [], z, [0], ⟨[[[0], []], [[0], [0]], [[], [0]]].getD p [], [[[0], []], [[0], [0]], [[], [0]]].getD p []⟩⟩, [[0, 0]], [[0, 0]], [[0, 0]], [[0, 0]]⟩
    d := z, e := [0], l := z, v := ⟨z, z, z, z, z, z, z⟩, iKfBtL := [[0, 0]], BtL := [[0, 0]], Ra := [[0, 0]], x := [[0, 0]] }

theorem chain_sized (p : Nat) : Sized id (fun _ => 2) p [([0, 0] : List Rat)] := by
  refine ⟨by simp, fun j h => ?_⟩
  have : j = 0 := by simp at h; omega
  subst this
  rfl

theorem chain_memory : ∀ p, p < 3 → MemoryOk 3 id (fun p => [[7], [7, 8], [8]].getD p []) (fun p => [[1, 0], [1, 1], [0, 1]].getD p []) (fun _ => 2) exampleKoff p (chainMemory p) := by
  have hc : ∀ p, p < 3 → p = 0 ∨ p = 1 ∨ p = 2 := by omega
  intro p hp
  have h := chain_sized p
  refine ⟨⟨?_, h, h, h, h⟩, ?_, ?_, ?_, ?_, h, h, h, h⟩
  · rcases hc p hp with rfl | rfl | rfl <;> exact ⟨rfl, rfl, rfl, rfl, rfl, rfl⟩
  all_goals rcases hc p hp with rfl | rfl | rfl
  all_goals first
    | rfl
    | exact ⟨rfl, rfl, rfl, rfl, rfl, rfl, rfl⟩

/-- At most one iteration. -/
def chainConfig : Pcpg.Config Rat := ⟨.relative, 1 / 1000, 1, 1, id⟩

theorem one_iteration {V : Type} [AddCommGroup V] [Module Rat V] (o : Pcpg.Ops Rat V) : ∃ out, Pcpg.solve o chainConfig 1 = some (Pcpg.iter o (Pcpg.start o), out) := by
  unfold Pcpg.solve
  have hu : ∃ out, Pcpg.updateInfo chainConfig (Pcpg.setInfo chainConfig (Pcpg.start o).yw) (Pcpg.start o).yw = some out ∧ out.converged = true := by
    unfold Pcpg.updateInfo Pcpg.setInfo
    simp [chainConfig, wr]
    split
    · rfl
    · split
      · rfl
      · split
        · rfl
        · exact eq_true_of_ne_false ‹_›
  obtain ⟨out, h1, h2⟩ := hu
  refine ⟨out, ?_⟩
  have h0 : (Pcpg.setInfo chainConfig (Pcpg.start o).yw).converged = false := rfl
  rw [Pcpg.loop, if_neg (by rw [h0]; decide), h1]
  show Pcpg.loop o chainConfig 0 _ out = _
  rw [Pcpg.loop, if_pos h2]

/-- The operators of the example. -/
abbrev chainOps : Pcpg.Ops Rat (allMults 3 (fun p => [[7], [7, 8], [8]].getD p []) → Rat) :=
  dualOps 3 (allMults 3 fun p => [[7], [7, 8], [8]].getD p []) (fun _ => 2) (fun d => if d = 1 then 1 else 0) exampleKoff chainEntry chainSolve (fun _ _ _ => 1) exampleG (fun _ _ => 1 / 2)
    chainF chainC fun X => X

theorem chain_finite : (Pcpg.iter chainOps (Pcpg.start chainOps)).p ≠ none ∧ (Pcpg.iter chainOps (Pcpg.start chainOps)).w = some 0 ∧ (Pcpg.start chainOps).w ≠ some 0 := by
  decide +kernel

/-- The processes of the example end with the solution after one iteration. -/
example : ∃ (X : Nat → Rat) (u : Nat → Nat → Rat) (out : Pcpg.Info Rat),
    Completes (world 0 3 fun p => (chainProcess p).run chainConfig 1 (chainMemory p))
      (finished 0 3 fun p => some ⟨localVectors id p (vectorOf (fun _ => 2) u),
        localVectors id p (vectorOf (fun _ => 2) (timesBt (allMults 3 fun p => [[7], [7, 8], [8]].getD p []) chainEntry X)), ([[7], [7, 8], [8]].getD p []).map X, out⟩) ∧
    Solves 3 (fun _ => 2) (allMults 3 fun p => [[7], [7, 8], [8]].getD p []) chainEntry chainK chainF chainC u X := by
  obtain ⟨out, h⟩ := one_iteration chainOps
  obtain ⟨X, u, _, _, _, h1, _, _, h2⟩ := C69_solution chain_system chain_pseudo chain_solves chain_coarse example_inverse (linear_none _) chainConfig (by decide) 1 _ out h chain_finite.1 chainMemory
    chain_memory
  exact ⟨X, u, out, h1, h2.2 chain_finite.2.1⟩

example := C69_finite (f := chainF) (c := chainC) chain_regular chain_solves (koff := exampleKoff) ⟨example_kernels.zero, example_kernels.step⟩ chain_coarse example_inverse (linear_none _) (definite_none _)

end Verif.Feti
