import Verif.Prop.OrthoRun
/-!
C71: two processes that meet the hypotheses; the second call of `solve`, processes without own multipliers and processes with several intervals.
-/
namespace Verif.Feti

open Verif.Csx Verif.Dual Verif.Comm Verif.Mpi Finset

/-! ### Two processes -/

/-- The multipliers of the processes: 7 glues the domains 0 and 1, 8 fixes the domain 1 and 9 the domain 0. -/
def pierLam (p : Nat) : List Nat := [[7, 9], [7, 8]].getD p []

def pierDoms (l : Nat) : List Nat := if l = 7 then [0, 1] else if l = 8 then [1] else [0]

def pierNb (p : Nat) : List Nat := [[1], [0]].getD p []

def pierCmap (p : Nat) : List Nat := [[1, 2, 0, 1, 1, 1, 0], [1, 2, 0, 1, 1, 1, 1]].getD p []

/-- The gluing matrices. -/
def pierGlue (p : Nat) : Glue Rat :=
  [[(⟨2, 2, [0, 1, 2], [0, 1], [1, 1]⟩, [0, 1])], [(⟨2, 2, [0, 1, 2], [1, 0], [-1, 1]⟩, [0, 1])]].getD p []

/-- Their entries. -/
def pierEntry (l d i : Nat) : Rat :=
  if l = 7 then (if d = 0 ∧ i = 0 then 1 else if d = 1 ∧ i = 1 then -1 else 0) else if l = 8 then (if d = 1 ∧ i = 0 then 1 else 0) else if d = 0 ∧ i = 1 then 1 else 0

def pierG (_ l : Nat) : Rat := if l = 7 then 1 else if l = 8 then -1 else 0

/-- The domain 0 is fixed, the domain 1 floats. -/
def pierK (d i j : Nat) : Rat := if d = 1 then (if i = j then 1 else -1) else if i = j then (if i = 0 then 1 else 1 / 2) else 0

/-- `K⁺`. -/
def pierKp (d i j : Nat) : Rat := if d = 1 then (if i = 0 ∧ j = 0 then 1 else 0) else if i = j then (if i = 0 then 1 else 2) else 0

/-- The direct solver. -/
def pierSolve (d : Nat) (v : List Rat) : List Rat := (List.range 2).map fun i => ∑ j ∈ range 2, pierKp d i j * v.getD j 0

theorem pier_solves : SolvesBy (fun _ => 2) pierKp pierSolve := fun _ _ _ => rfl

theorem pier_shared : Shared 2 id pierNb pierLam pierDoms := by
  constructor
  · intro p; exact Nat.le_succ _
  all_goals first
    | decide
    | skip
  · intro p q hp hq
    have : ∀ p, p < 2 → ∀ q, q < 2 → p ≠ q → (pierLam p).filter (fun l => touches id q (pierDoms l)) = (pierLam q).filter (fun l => touches id p (pierDoms l)) := by decide
    exact this p hp q hq
  · intro p q hp
    have : ∀ p, p < 2 → ∀ q ∈ pierNb p, p ∈ pierNb q := by decide
    exact this p hp q

theorem pier_describes : ∀ p, p < 2 → Describes (pierCmap p) (pierLam p) pierDoms := by
  intro p hp
  match p, hp with
  | 0, _ => exact ⟨[(1, [0, 1]), (1, [0])], by decide, by decide, by decide⟩
  | 1, _ => exact ⟨[(1, [0, 1]), (1, [1])], by decide, by decide, by decide⟩

theorem pier_glued : Glued 2 id pierLam pierDoms (fun _ => 2) pierEntry pierGlue := by
  have hj : ∀ p, p < 2 → ∀ (j : Nat) (g : Csx Rat × List Nat), (pierGlue p)[j]? = some g →
      (p = 0 ∧ j = 0 ∧ g = (⟨2, 2, [0, 1, 2], [0, 1], [1, 1]⟩, [0, 1])) ∨ (p = 1 ∧ j = 0 ∧ g = (⟨2, 2, [0, 1, 2], [1, 0], [-1, 1]⟩, [0, 1])) := by
    intro p hp j g hg
    have hp' : p = 0 ∨ p = 1 := by omega
    rcases hp' with rfl | rfl <;> rcases j with _ | j <;> simp [pierGlue] at hg ⊢ <;> exact hg.symm
  have hwf : ∀ p, p < 2 → ∀ (j : Nat) (g : Csx Rat × List Nat), (pierGlue p)[j]? = some g → WellFormed g.1 ∧ g.2.length = g.1.np ∧
      (∀ k ∈ g.2, k < (pierLam p).length) ∧ g.1.ns = 2 := by
    intro p hp j g hg
    rcases hj p hp j g hg with ⟨rfl, rfl, rfl⟩ | ⟨rfl, rfl, rfl⟩ <;> exact ⟨⟨by decide, by decide, by decide, by decide, by decide, by decide⟩, by decide, by decide, by decide⟩
  refine ⟨?_, fun p hp j g hg => (hwf p hp j g hg).1, fun p hp j g hg => (hwf p hp j g hg).2.1, fun p hp j g hg => (hwf p hp j g hg).2.2.1, fun p hp j g hg => (hwf p hp j g hg).2.2.2, ?_, ?_⟩
  · intro p hp
    have hp' : p = 0 ∨ p = 1 := by omega
    rcases hp' with rfl | rfl <;> rfl
  · intro p hp j g hg k l hk i
    rcases hj p hp j g hg with ⟨rfl, rfl, rfl⟩ | ⟨rfl, rfl, rfl⟩
    · rcases k with _ | _ | k <;> simp [pierLam] at hk <;> subst hk <;> rcases i with _ | _ | i <;> simp [Csx.at, Csx.row, pierEntry, pierLam, Finset.sum_range_succ]
    · rcases k with _ | _ | k <;> simp [pierLam] at hk <;> subst hk <;> rcases i with _ | _ | i <;> simp [Csx.at, Csx.row, pierEntry, pierLam, Finset.sum_range_succ]
  · intro l d i hd
    unfold pierEntry
    unfold pierDoms at hd
    by_cases e : l = 7
    · rw [if_pos e] at hd ⊢
      rw [if_neg (fun h => hd (by simp [h.1])), if_neg (fun h => hd (by simp [h.1]))]
    · rw [if_neg e] at hd ⊢
      by_cases e' : l = 8
      · rw [if_pos e'] at hd ⊢
        rw [if_neg (fun h => hd (by simp [h.1]))]
      · rw [if_neg e'] at hd ⊢
        rw [if_neg (fun h => hd (by simp [h.1]))]

/-- The projector of the processes. -/
def pierProjector (p : Nat) : Projector Rat :=
  { rank := p, size := 2, tag := 5, nb := pierNb p, nmap := [0, 1, 1, 0], li := localIntervals ([[(0, 2)], [(1, 1)]].getD p []), threads := 2, dist := [[0, 0, 0], [0, 1, 1]].getD p [], roffset := 0,
    rsize := [0, 1].getD p 0, total := 1, G := [⟨0, 2, [0], [], []⟩, ⟨1, 2, [0, 2], [0, 1], [1, -1]⟩].getD p ⟨0, 0, [0], [], []⟩, factor := .ggt ([[], [1 / 2]].getD p []),
    Rs := [[⟨0, 2, []⟩], [⟨1, 2, [1, 1]⟩]].getD p [], offsets := [0] }

theorem pier_intervals (p : Nat) (hp : p < 2) : Intervals id p (pierLam p) pierDoms ([[(0, 2)], [(1, 1)]].getD p []) := by
  have hc : p = 0 ∨ p = 1 := by omega
  rcases hc with rfl | rfl
  · exact ⟨[([], [7, 9])], by decide, by decide, by decide⟩
  · exact ⟨[([7], [8])], by decide, by decide, by decide⟩

theorem pier_configured : Configured 2 id pierNb pierLam pierDoms 5 (fun p => exampleKoff (id p)) (fun _ => [0, 1, 1, 0]) pierG (fun _ _ => 1 / 2) pierProjector := by
  have hc : ∀ p, p < 2 → p = 0 ∨ p = 1 := by omega
  constructor
  · refine ⟨rfl, ?_, ?_⟩
    · intro p
      show exampleKoff p ≤ exampleKoff (p + 1)
      unfold exampleKoff
      split <;> split <;> omega
    · intro p hp k h1 h2 l hl hn
      rcases hc p hp with rfl | rfl
      · simp [exampleKoff] at h2
      · simp [pierLam] at hn
        simp [pierG, hn.1, hn.2]
  · intro p _; rfl
  · intro p _; rfl
  · intro p _; rfl
  · intro p _; rfl
  · intro p _; rfl
  · intro p hp
    exact ⟨_, pier_intervals p hp, rfl⟩
  · intro p hp
    refine ⟨by show 0 < 2; omega, 1, ?_⟩
    rcases hc p hp with rfl | rfl <;> decide
  · intro p hp; rcases hc p hp with rfl | rfl <;> rfl
  · intro p hp; rcases hc p hp with rfl | rfl <;> rfl
  · intro p hp; rfl
  · intro p hp
    rcases hc p hp with rfl | rfl <;> exact ⟨by decide, by decide, by decide, by decide, by decide, by decide⟩
  · intro p hp; rcases hc p hp with rfl | rfl <;> rfl
  · intro p hp; rcases hc p hp with rfl | rfl <;> rfl
  · intro p hp r hr k l hk
    rcases hc p hp with rfl | rfl
    · simp [exampleKoff] at hr
    · simp [exampleKoff] at hr
      subst hr
      rcases k with _ | _ | k <;> simp [pierLam] at hk <;> subst hk <;> decide +kernel
  · refine .ggt (fun p => [[], [1 / 2]].getD p []) ?_
    intro p hp
    refine ⟨rfl, ?_⟩
    rcases hc p hp with rfl | rfl <;> intro r hr c hcc <;> simp [exampleKoff] at hr hcc
    subst hr; subst hcc
    rfl

theorem pier_kernels : Kernels 2 id (fun _ => 2) (fun d => if d = 1 then 1 else 0) exampleKoff (fun _ _ _ => 1) pierProjector := by
  have hc : ∀ p, p < 2 → p = 0 ∨ p = 1 := by omega
  refine ⟨rfl, ?_, ?_, ?_, ?_⟩
  · intro d
    unfold exampleKoff
    split <;> split <;> split <;> omega
  · intro p hp; rcases hc p hp with rfl | rfl <;> exact ⟨rfl, rfl⟩
  · intro p hp j hj
    have : j = 0 := by simp at hj; omega
    subst this
    rfl
  · intro p hp j A hA
    rcases hc p hp with rfl | rfl <;> rcases j with _ | j <;> simp [pierProjector] at hA <;> subst hA
    · exact ⟨rfl, rfl, fun r hr => absurd hr (by show ¬r < 0; omega)⟩
    · refine ⟨rfl, rfl, fun r hr c hcc => ?_⟩
      have : r = 0 := by have : r < 1 := hr; omega
      subst this
      have : c = 0 ∨ c = 1 := by have : c < 2 := hcc; omega
      rcases this with rfl | rfl <;> rfl

/-- The data of the process. -/
def pierProcess (p : Nat) : Process Rat :=
  { projector := pierProjector p, glue := pierGlue p, solve := fun j => pierSolve (id p + j), f := localVectors id p (vectorOf (fun _ => 2) chainF),
    c := (pierLam p).map chainC, goffsets := [exampleKoff p], precond := .none, reduce := reduceSum 9 2 p }

theorem pier_system : System 2 id pierNb pierLam pierDoms 5 pierCmap (fun _ => [0, 1, 1, 0]) (fun _ => [1]) (fun _ => 2) (fun d => if d = 1 then 1 else 0) exampleKoff pierEntry pierSolve (fun _ _ _ => 1)
    pierG (fun _ _ => 1 / 2) chainF chainC (fun X => X) pierProcess := by
  have hc : ∀ p, p < 2 → p = 0 ∨ p = 1 := by omega
  constructor
  · decide
  · rfl
  · exact pier_shared
  · exact pier_describes
  · intro p hp
    rcases hc p hp with rfl | rfl <;> decide
  · exact pier_configured
  · exact pier_kernels
  · exact pier_glued
  · intro p _; rfl
  · intro d v _; simp [pierSolve]
  · intro p _; rfl
  · intro p _; rfl
  · intro p hp j hj
    have : j = 0 := by simp at hj; omega
    subst this
    rfl
  · exact .none fun p _ => rfl
  · exact C69_reduces 9 (by decide)

theorem pier_one : OneInterval 2 id pierLam pierDoms pierProcess := by
  intro p hp
  have hc : p = 0 ∨ p = 1 := by omega
  have h := pier_intervals p hp
  rcases hc with rfl | rfl
  · exact ⟨0, 2, by decide, h, rfl⟩
  · exact ⟨1, 1, by decide, h, rfl⟩

theorem pier_coarse : IsCoarse (fun _ => 2) (fun d => if d = 1 then 1 else 0) exampleKoff pierEntry (fun _ _ _ => 1) pierG := by
  intro d kr hk l
  by_cases hd : d = 1
  · subst hd
    by_cases hl : l = 7
    · simp [pierG, pierEntry, hl, sum_range_succ]
    · by_cases hl' : l = 8 <;> simp [pierG, pierEntry, hl, hl', sum_range_succ]
  · simp [hd] at hk

theorem pier_pseudo : PseudoInverse 2 (fun _ => 2) (fun d => if d = 1 then 1 else 0) pierK pierKp fun _ _ _ => 1 := by
  constructor
  · intro d hd k hk i hi
    by_cases h : d = 1
    · have : i = 0 ∨ i = 1 := by omega
      rcases this with rfl | rfl <;> simp [pierK, h, sum_range_succ]
    · simp [h] at hk
  · intro d hd b hb i hi
    have : i = 0 ∨ i = 1 := by omega
    by_cases h : d = 1
    · have h0 := hb 0 (by rw [if_pos h]; decide)
      simp [sum_range_succ] at h0
      rcases this with rfl | rfl <;> simp [pierK, pierKp, h, sum_range_succ]
      linarith
    · rcases this with rfl | rfl <;> simp [pierK, pierKp, h, sum_range_succ]

theorem pier_all : allMults 2 pierLam = {7, 8, 9} := by decide

theorem pier_inverse : IsInverse 1 (allMults 2 pierLam) pierG (fun _ _ => 1 / 2) := by
  intro k hk m hm
  have : k = 0 := by omega
  subst this
  have : m = 0 := by omega
  subst this
  decide +kernel

theorem pier_regular : Regular 2 (fun _ => 2) (fun d => if d = 1 then 1 else 0) (allMults 2 pierLam) pierEntry pierK pierKp fun _ _ _ => 1 := by
  refine ⟨pier_pseudo, ?_, ?_, ?_, ?_⟩
  · intro d i j
    unfold pierK
    split
    · simp [eq_comm]
    · by_cases h : i = j
      · subst h; rfl
      · rw [if_neg h, if_neg (Ne.symm h)]
  · intro d hd v
    by_cases h : d = 1
    · simp [pierK, h, sum_range_succ]
      nlinarith [mul_self_nonneg (v 0 - v 1)]
    · simp [pierK, h, sum_range_succ]
      nlinarith [mul_self_nonneg (v 0), mul_self_nonneg (v 1)]
  · intro d i j
    unfold pierKp
    split
    · simp [and_comm]
    · by_cases h : i = j
      · subst h; rfl
      · rw [if_neg h, if_neg (Ne.symm h)]
  intro X hX l hl
  rw [pier_all] at hX hl
  have h7 := hX 0 (by decide) 0 (by decide)
  have h9 := hX 0 (by decide) 1 (by decide)
  have h8 := hX 1 (by decide) 0 (by decide)
  simp [timesBt, pierEntry] at h7 h8 h9
  simp at hl
  rcases hl with rfl | rfl | rfl
  · exact h7
  · exact h8
  · exact h9

/-- The memory of the process. -/
def pierMemory (p : Nat) : Process.Memory Rat :=
  let z := List.replicate 2 0
  { s := ⟨⟨[0], [[], [0]].getD p [], z, [0], ⟨[[0]], [[0]]⟩⟩, [[0, 0]], [[0, 0]], [[0, 0]], [[0, 0]]⟩
    d := z, e := [0], l := z, v := ⟨z, z, z, z, z, z, z⟩, iKfBtL := [[0, 0]], BtL := [[0, 0]], Ra := [[0, 0]], x := [[0, 0]] }

theorem pier_memory : ∀ p, p < 2 → MemoryOk 2 id pierLam (fun _ => [1]) (fun _ => 2) exampleKoff p (pierMemory p) := by
  have hc : ∀ p, p < 2 → p = 0 ∨ p = 1 := by omega
  intro p hp
  have h := chain_sized p
  refine ⟨⟨?_, h, h, h, h⟩, ?_, ?_, ?_, ?_, h, h, h, h⟩
  · rcases hc p hp with rfl | rfl <;> exact ⟨rfl, rfl, rfl, rfl, rfl, rfl⟩
  all_goals rcases hc p hp with rfl | rfl
  all_goals first
    | rfl
    | exact ⟨rfl, rfl, rfl, rfl, rfl, rfl, rfl⟩

/-- The operators of the example. -/
abbrev pierOps : Pcpg.Ops Rat (allMults 2 pierLam → Rat) :=
  dualOps 2 (allMults 2 pierLam) (fun _ => 2) (fun d => if d = 1 then 1 else 0) exampleKoff pierEntry pierSolve (fun _ _ _ => 1) pierG (fun _ _ => 1 / 2) chainF chainC fun X => X

/-- At most two iterations. -/
def pierConfig : Pcpg.Config Rat := ⟨.relative, 1 / 1000, 10, 2, id⟩

/-- Two iterations are needed and made. -/
theorem pier_runs : (Pcpg.osolve pierOps pierConfig 2).map (fun r => (decide (r.1.w = 0), r.1.ps.length, r.2.iterations)) = some (true, 2, 2) ∧
    (Pcpg.oiterate pierOps 1).map (fun r => decide (r.w = 0)) = some false := by
  decide +kernel

/-- The processes of the example end with the solution after two iterations. -/
example : ∃ (X : Nat → Rat) (u : Nat → Nat → Rat) (out : Pcpg.Info Rat) (O : Nat → OrthoData Rat),
    Completes (world 0 2 fun p => (pierProcess p).orun (fun _ => 77) (fun v => allReduce 11 (· + ·) p 0 2 v v) pierConfig 2
        (OrthoData.update (fun _ => 77) ⟨⟨[], 0, 0, 0⟩, ⟨[], 0, 0, 0⟩, [], [], 0⟩ (pierLam p).length) (pierMemory p))
      (finished 0 2 fun p => some (⟨localVectors id p (vectorOf (fun _ => 2) u), localVectors id p (vectorOf (fun _ => 2) (timesBt (allMults 2 pierLam) pierEntry X)), (pierLam p).map X, out⟩, O p)) ∧
    Solves 2 (fun _ => 2) (allMults 2 pierLam) pierEntry pierK chainF chainC u X := by
  obtain ⟨⟨st, out⟩, hr, he⟩ := Option.map_eq_some_iff.1 pier_runs.1
  simp only [Prod.mk.injEq, decide_eq_true_eq] at he
  obtain ⟨X, u, _, O, _, _, h1, _, _, h2⟩ := C71_solution_partial pier_system pier_one (C71_reduces 11 (by decide)) pier_pseudo pier_solves pier_coarse pier_inverse (linear_none _) (fun _ _ => 77) pierConfig
    (by decide) 2 st out hr (fun _ => ⟨⟨[], 0, 0, 0⟩, ⟨[], 0, 0, 0⟩, [], [], 0⟩) (fun _ _ => ⟨rfl, rfl⟩) pierMemory pier_memory
  exact ⟨X, u, out, O, h1, h2.2 he.1⟩

example := C71_finite (f := chainF) (c := chainC) pier_regular pier_solves (koff := exampleKoff) ⟨pier_kernels.zero, pier_kernels.step⟩ pier_coarse pier_inverse (linear_none _) (definite_none _)

/-! ### The second call -/

/-- The result of a program that sends and receives nothing. -/
def alone {M R : Type} : Prog M R → Option R
  | .ret r => some r
  | .wait k => alone k
  | _ => none

theorem alone_completes {M R : Type} [Inhabited R] (p : Prog M R) (r : R) (h : alone p = some r) : Completes (world 0 1 fun _ => p) (finished 0 1 fun _ => r) := by
  have hg : ∃ n, GRun n (world 0 1 fun _ => p) (finished 0 1 fun _ => r) := by
    induction p with
    | ret v =>
      cases h
      refine ⟨0, ?_⟩
      have : world 0 1 (fun _ => (Prog.ret r : Prog M R)) = finished 0 1 fun _ => r := by
        unfold world finished
        congr 1
        funext i
        split <;> rfl
      rw [this]
      exact .refl
    | wait k ih =>
      obtain ⟨n, hn⟩ := ih h
      refine ⟨1 + n, .step (gstep_congr (d' := world 0 1 fun _ => k) (.wait (i := 0) (k := k) rfl fun _ _ => rfl) ?_ rfl) hn⟩
      funext i
      unfold Mpi.upd world Mpi.start
      dsimp only
      by_cases hi : i = 0
      · subst hi; rfl
      · rw [if_neg hi, if_neg (by omega), if_neg (by omega)]
    | send => cases h
    | isend => cases h
    | recv => cases h
  obtain ⟨n, hn⟩ := hg
  exact completes_of_grun hn ⟨fun i => ⟨_, rfl⟩, fun _ _ _ => rfl⟩

/-- The solver of the rod: the matrix is `diag (1, 1/2)`. -/
def rodSolve (_ : Nat) (v : List Rat) : List Rat := (List.range 2).map fun (i : Nat) => (i + 1 : Nat) * v.getD i 0

/-- One process with one domain with two unknowns, both fixed, and the loads `f`. -/
def rodProcess (f : Nat → Rat) : Process Rat where
  projector := { rank := 0, size := 1, tag := 5, nb := [], nmap := [], li := [(0, 2)], threads := 1, dist := [0, 0], roffset := 0, rsize := 0, total := 0, G := ⟨0, 2, [0], [], []⟩, factor := .ggt [], Rs := [⟨0, 2, []⟩], offsets := [0] }
  glue := [(⟨2, 2, [0, 1, 2], [0, 1], [1, 1]⟩, [0, 1])]
  solve := rodSolve
  f := [[f 0, f 1]]
  c := [0, 0]
  goffsets := [0]
  precond := .none
  reduce := fun v => .ret (some v)

/-- The gluing matrix: each multiplier fixes one unknown. -/
def rodB (l d i : Nat) : Rat := if d = 0 ∧ l = i ∧ l < 2 then 1 else 0

/-- The matrix of the domain. -/
def rodK (_ i j : Nat) : Rat := if i = j then 1 / (i + 1) else 0

theorem rod_glued : Glued 1 id (fun _ => [0, 1]) (fun _ => [0]) (fun _ => 2) rodB fun _ => [(⟨2, 2, [0, 1, 2], [0, 1], [1, 1]⟩, [0, 1])] := by
  have hj : ∀ p, p < 1 → ∀ (j : Nat) (g : Csx Rat × List Nat), [((⟨2, 2, [0, 1, 2], [0, 1], [1, 1]⟩, [0, 1]) : Csx Rat × List Nat)][j]? = some g →
      p = 0 ∧ j = 0 ∧ g = (⟨2, 2, [0, 1, 2], [0, 1], [1, 1]⟩, [0, 1]) := by
    intro p hp j g hg
    rcases j with _ | j
    · simp at hg
      exact ⟨by omega, rfl, hg.symm⟩
    · simp at hg
  have hwf : ∀ p, p < 1 → ∀ (j : Nat) (g : Csx Rat × List Nat), [((⟨2, 2, [0, 1, 2], [0, 1], [1, 1]⟩, [0, 1]) : Csx Rat × List Nat)][j]? = some g → WellFormed g.1 ∧ g.2.length = g.1.np ∧
      (∀ k ∈ g.2, k < [0, 1].length) ∧ g.1.ns = 2 := by
    intro p hp j g hg
    obtain ⟨rfl, rfl, rfl⟩ := hj p hp j g hg
    exact ⟨⟨by decide, by decide, by decide, by decide, by decide, by decide⟩, by decide, by decide, by decide⟩
  refine ⟨?_, fun p hp j g hg => (hwf p hp j g hg).1, fun p hp j g hg => (hwf p hp j g hg).2.1, fun p hp j g hg => (hwf p hp j g hg).2.2.1, fun p hp j g hg => (hwf p hp j g hg).2.2.2, ?_, ?_⟩
  · intro p hp
    obtain rfl : p = 0 := by omega
    rfl
  · intro p hp j g hg k l hk i
    obtain ⟨rfl, rfl, rfl⟩ := hj p hp j g hg
    rcases k with _ | _ | k <;> simp at hk <;> subst hk <;> rcases i with _ | _ | i <;> simp [Csx.at, Csx.row, rodB, Finset.sum_range_succ]
  · intro l d i hd
    unfold rodB
    rw [if_neg (fun h => hd (by simp [h.1]))]

theorem rod_configured (f : Nat → Rat) : Configured 1 id (fun _ => []) (fun _ => [0, 1]) (fun _ => [0]) 5 (fun _ => 0) (fun _ => []) (fun _ _ => 0) (fun _ _ => 0) fun _ => (rodProcess f).projector := by
  have hc : ∀ p, p < 1 → p = 0 := by omega
  constructor
  · exact ⟨rfl, fun _ => Nat.le_refl _, fun _ _ _ _ _ _ _ _ => rfl⟩
  · intro p hp; exact (hc p hp).symm
  · intro p _; rfl
  · intro p _; rfl
  · intro p _; rfl
  · intro p _; rfl
  · intro p hp
    obtain rfl := hc p hp
    exact ⟨[(0, 2)], ⟨[([], [0, 1])], by decide, by decide, by decide⟩, rfl⟩
  · intro p hp
    exact ⟨by show 0 < 1; omega, 1, rfl⟩
  · intro p hp; rfl
  · intro p hp; rfl
  · intro p hp; rfl
  · intro p hp
    exact (⟨by decide, by decide, by decide, by decide, by decide, by decide⟩ : WellFormed (⟨0, 2, [0], [], []⟩ : Csx Rat))
  · intro p hp; rfl
  · intro p hp; rfl
  · intro p hp r hr; exact absurd hr (by simp)
  · refine .ggt (fun _ => []) fun p hp => ⟨rfl, fun r hr => absurd hr (by simp)⟩

theorem rod_system (f : Nat → Rat) : System 1 id (fun _ => []) (fun _ => [0, 1]) (fun _ => [0]) 5 (fun _ => [2, 1, 0]) (fun _ => []) (fun _ => []) (fun _ => 2) (fun _ => 0) (fun _ => 0) rodB
    rodSolve (fun _ _ _ => 0) (fun _ _ => 0) (fun _ _ => 0) (fun _ => f) (fun _ => 0) (fun X => X) (fun _ => rodProcess f) := by
  have hc : ∀ p, p < 1 → p = 0 := by omega
  constructor
  · decide
  · rfl
  · constructor
    · intro p; exact Nat.le_succ _
    all_goals first
      | decide
      | skip
    · intro p q hp hq hne; omega
    · intro p q _ hq; simp at hq
  · intro p hp
    exact ⟨[(2, [0])], by decide, by decide, by decide⟩
  · intro p hp
    obtain rfl := hc p hp
    decide
  · exact rod_configured f
  · refine ⟨rfl, fun _ => rfl, ?_, ?_, ?_⟩
    · intro p hp
      obtain rfl := hc p hp
      exact ⟨rfl, rfl⟩
    · intro p hp j hj
      have : j = 0 := by simp at hj; omega
      subst this
      rfl
    · intro p hp j A hA
      rcases j with _ | j
      · simp [rodProcess] at hA
        subst hA
        exact ⟨rfl, rfl, fun r hr => absurd hr (by simp)⟩
      · simp [rodProcess] at hA
  · exact rod_glued
  · intro p hp
    rfl
  · intro d v _; simp [rodSolve]
  · intro p hp
    obtain rfl := hc p hp
    rfl
  · intro p _; rfl
  · intro p hp j hj
    have : j = 0 := by simp at hj; omega
    subst this
    rfl
  · exact .none fun p _ => rfl
  · intro v
    rw [Finset.sum_range_one]
    have := alone_completes (M := List Rat) (.ret (some (v 0))) (some (v 0)) rfl
    refine cast ?_ this
    congr 1
    refine world_congr fun p _ hp => ?_
    obtain rfl := hc p (by omega)
    rfl

/-- The memory of the process. -/
def rodMemory : Process.Memory Rat :=
  let z := List.replicate 2 0
  { s := ⟨⟨[], [], z, [], ⟨[], []⟩⟩, [z], [z], [z], [z]⟩, d := z, e := [], l := z, v := ⟨z, z, z, z, z, z, z⟩, iKfBtL := [z], BtL := [z], Ra := [z], x := [z] }

theorem rod_memory : MemoryOk 1 id (fun _ => [0, 1]) (fun _ => []) (fun _ => 2) (fun _ => 0) 0 rodMemory := by
  have h := chain_sized 0
  exact ⟨⟨⟨rfl, rfl, rfl, rfl, rfl, rfl⟩, h, h, h, h⟩, rfl, rfl, rfl, ⟨rfl, rfl, rfl, rfl, rfl, rfl, rfl⟩, h, h, h, h⟩

def rodConfig : Pcpg.Config Rat := ⟨.relative, 1 / 1000, 50, 2, id⟩

/-- The new solver. -/
def rodFresh : OrthoData Rat := ⟨⟨[], 0, 0, 0⟩, ⟨[], 0, 0, 0⟩, [], [], 0⟩

/-- `update` and `solve` with the loads `f`. -/
def rodRun (f : Nat → Rat) (O : OrthoData Rat) : Prog (List Rat) (Option (Process.Result Rat × OrthoData Rat)) :=
  (rodProcess f).orun (fun _ => 0) (fun v => .ret (some v)) rodConfig 2 (O.update (fun _ => 0) 2) rodMemory

/-- The three calls of `C71_second_solve`. -/
def rodRuns : Option (List Rat × List Rat × Bool × Bool) := do
  let a ← (← alone (rodRun (fun _ => 1) rodFresh))
  let b ← (← alone (rodRun (fun i => if i = 0 then 1 else 3) rodFresh))
  let c ← (← alone (rodRun (fun i => if i = 0 then 1 else 3) a.2))
  some (a.1.lambda, b.1.lambda, decide (c.1.lambda = [1, 3]), decide (c.1.info.iterations = b.1.info.iterations) && (c.1.info.converged == b.1.info.converged))

/-- The solution of the rod: the multipliers are the loads. -/
theorem rod_unique (f : Nat → Rat) (u : Nat → Nat → Rat) (X : Nat → Rat) (h : Solves 1 (fun _ => 2) (allMults 1 fun _ => [0, 1]) rodB rodK (fun _ => f) (fun _ => 0) u X) : X 0 = f 0 ∧ X 1 = f 1 := by
  have hall : allMults 1 (fun _ => [0, 1]) = ({0, 1} : Finset Nat) := by decide
  obtain ⟨h1, h2⟩ := h
  rw [hall] at h1 h2
  have e0 := h1 0 (by decide) 0 (by decide)
  have e1 := h1 0 (by decide) 1 (by decide)
  have c0 := h2 0 (by decide)
  have c1 := h2 1 (by decide)
  simp [timesB, timesBt, rodB, rodK, sum_range_succ] at e0 e1 c0 c1
  rw [c0] at e0
  rw [c1] at e1
  exact ⟨by linarith, by linarith⟩

/-- **C71 (negation).** The second call of `solve` of one solver ends with wrong multipliers: the loads `(1, 3)` need the multipliers `(1, 3)`, which a new solver finds; a solver that was used before, with other
loads, reports the same number of iterations and other multipliers, because `update` keeps the products `(p_i, F p_i)` of the earlier call. -/
theorem C71_second_solve : ∃ a b c : Process.Result Rat × OrthoData Rat,
    Completes (world 0 1 fun _ => rodRun (fun _ => 1) rodFresh) (finished 0 1 fun _ => some a) ∧
    Completes (world 0 1 fun _ => rodRun (fun i => if i = 0 then 1 else 3) rodFresh) (finished 0 1 fun _ => some b) ∧
    Completes (world 0 1 fun _ => rodRun (fun i => if i = 0 then 1 else 3) a.2) (finished 0 1 fun _ => some c) ∧
    a.1.lambda = [1, 1] ∧ b.1.lambda = [1, 3] ∧ c.1.lambda ≠ [1, 3] ∧ c.1.info.iterations = b.1.info.iterations ∧ c.1.info.converged = b.1.info.converged ∧
    ∀ u X, Solves 1 (fun _ => 2) (allMults 1 fun _ => [0, 1]) rodB rodK (fun _ i => if i = 0 then 1 else 3) (fun _ => 0) u X → X 0 = 1 ∧ X 1 = 3 := by
  have ev : rodRuns = some ([1, 1], [1, 3], false, true) := by decide +kernel
  simp only [rodRuns, Option.bind_eq_bind, Option.bind_eq_some_iff] at ev
  obtain ⟨_, ha, a, rfl, _, hb, b, rfl, _, hcc, c, rfl, e⟩ := ev
  simp only [Option.some.injEq, Prod.mk.injEq, decide_eq_false_iff_not, Bool.and_eq_true, decide_eq_true_eq, beq_iff_eq] at e
  obtain ⟨e1, e2, e3, e4, e5⟩ := e
  exact ⟨a, b, c, alone_completes _ _ ha, alone_completes _ _ hb, alone_completes _ _ hcc, e1, e2, e3, e4, e5, fun u X h => by
    have := rod_unique _ u X h
    simpa using this⟩

/-! ### The local products -/

/-- **C71 (negation).** A process whose only interval has no own multipliers leaves the vector of the products as it was: the coefficients of the last iteration are added to the sums of the other processes. -/
theorem C71_no_own_multipliers {K : Type} [Field K] (m : DualMatrix K) (lo : Nat) (hlo : 0 < lo) (x y : List K) : m.applyLocal [(lo, lo)] x y = some y := by
  unfold DualMatrix.applyLocal DualMatrix.gemv
  simp only [List.foldlM_cons, List.foldlM_nil, if_neg (Nat.ne_of_gt hlo), Nat.sub_self, or_true, if_true]
  rfl

/-- The products over the own multipliers would be zero. -/
example : DualMatrix.applyLocal (⟨[5, 6], 1, 2, 1⟩ : DualMatrix Rat) [(2, 2)] [1, 1] [9] = some [9] ∧ localDot [(2, 2)] [5, 6] [1, 1] = some (0 : Rat) := by decide +kernel

/-- **C71 (negation).** With several intervals only the products over the last one remain. -/
theorem C71_last_interval_only {K : Type} [Field K] {m : DualMatrix K} {N : Nat} {rows : List (List K)} (h : Holding m N rows) (a b lo cols : Nat) (hb : 0 < b) (hab : a + b ≤ N) (hc : 0 < cols) (hr : lo + cols ≤ N)
    (x y : List K) (hx : x.length = N) (hy : y.length = rows.length) :
    m.applyLocal [(a, a + b), (lo, lo + cols)] x y = m.applyLocal [(lo, lo + cols)] x y := by
  have hdot : ∀ lo cols, lo + cols ≤ N → ∀ i, ∃ d : K, (hi : i < rows.length) → localDot [(lo, lo + cols)] rows[i] x = some d := by
    intro lo cols hr i
    by_cases hi : i < rows.length
    · have hl := h.len _ (List.getElem_mem hi)
      refine ⟨∑ k ∈ range cols, rows[i].getD (lo + k) 0 * x.getD (lo + k) 0, fun _ => ?_⟩
      have := sum_loop cols (fun k => rows[i].getD (lo + k) 0 * x.getD (lo + k) 0) (fun k s => do
        let a ← rows[i][lo + k]?
        let b ← x[lo + k]?
        some (s + a * b)) (by
          intro k hk s
          simp [List.getElem?_eq_getElem (show lo + k < rows[i].length by omega), List.getElem?_eq_getElem (show lo + k < x.length by omega)])
      unfold localDot
      simp only [List.foldlM_cons, List.foldlM_nil, Nat.add_sub_cancel_left, this]
      simp
    · exact ⟨0, fun hi' => absurd hi' hi⟩
  choose d hd using hdot a b hab
  choose e he using hdot lo cols hr
  have h1 := applyLocal_spec h a b hb hab x y hy d (fun i hi => hd i hi)
  have h2 := applyLocal_spec h lo cols hc hr x y hy e (fun i hi => he i hi)
  have h3 := applyLocal_spec h lo cols hc hr x (mk rows.length d) (mk_length _ _) e (fun i hi => he i hi)
  rw [h2, ← h3]
  unfold DualMatrix.applyLocal at h1 ⊢
  rw [List.foldlM_cons]
  simp only [List.foldlM_cons, List.foldlM_nil, bind_pure] at h1
  rw [h1]
  rfl

example : Holding (⟨[1, 0, 3], 1, 3, 1⟩ : DualMatrix Rat) 3 [[1, 0, 3]] := ⟨rfl, rfl, by decide, by decide, by decide, by decide, [], rfl⟩

/-- The product over both intervals is 1 * 2 + 3 * 4. -/
example : DualMatrix.applyLocal (⟨[1, 0, 3], 1, 3, 1⟩ : DualMatrix Rat) [(0, 1), (2, 3)] [2, 7, 4] [0] = some [12] ∧ localDot [(0, 1), (2, 3)] [1, 0, 3] [2, 7, 4] = some (14 : Rat) := by decide +kernel

end Verif.Feti
