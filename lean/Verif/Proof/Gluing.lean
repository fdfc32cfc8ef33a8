import Verif.Model.Gluing
import Verif.Proof.CsxRow
import Verif.Proof.CsxConvert
import Verif.Proof.CsxEntries
import Mathlib.Algebra.BigOperators.Group.List.Basic
/-! Sequences of additions to a vector. -/
namespace Verif.Csx

variable {T σ : Type}

theorem foldlM_flatMap' {A B : Type} (f : σ → B → Option σ) (F : A → List B) : ∀ (l : List A) (s : σ),
    (l.flatMap F).foldlM f s = l.foldlM (fun s a => (F a).foldlM f s) s := by
  intro l
  induction l with
  | nil => intro s; rfl
  | cons a l ih =>
      intro s
      rw [List.flatMap_cons, List.foldlM_append, List.foldlM_cons]
      congr 1; funext s'; exact ih s'

theorem forLoop_range {n : Nat} (s : σ) (f : Nat → σ → Option σ) : forLoop 0 n s f = (List.range n).foldlM (fun s i => f i s) s := by
  unfold forLoop
  rw [List.range_eq_range']; rfl

/-- The common loop visits the entries in the order of storage. -/
theorem forEntries_entries {A : Csx T} (h : WellFormed A) (g : Nat → Nat → T → σ → Option σ) (s : σ) :
    forEntries A s (fun r i c s => A.vals[i]?.bind fun v => g r c v s) = A.entries.foldlM (fun s e => g e.1 e.2.1 e.2.2 s) s := by
  unfold forEntries Csx.entries
  rw [foldlM_flatMap', ← forLoop_range s fun p s => ((A.row p).map fun e => (p, e.1, e.2)).foldlM (fun s e => g e.1 e.2.1 e.2.2 s) s]
  apply forLoop_congr
  intro p s _ hp
  simp only [Option.bind_eq_bind]
  rw [wf_ptr h (by omega), wf_ptr h (by omega)]
  simp only [Option.bind_some]
  rw [row_loop' h hp (fun c v s => g p c v s), List.foldlM_map]

end Verif.Csx

namespace Verif.Feti

open Verif.Csx

variable {R : Type} [AddCommMonoid R]

/-- A sequence of additions. -/
def runOps (ops : List (Nat × R)) (v : List R) : Option (List R) := ops.foldlM (fun v op => addAt v op.1 op.2) v

/-- The total added to the cell `i`. -/
def total (ops : List (Nat × R)) (i : Nat) : R := ((ops.filter fun op => op.1 = i).map (·.2)).sum

theorem total_nil (i : Nat) : total ([] : List (Nat × R)) i = 0 := rfl

theorem total_cons (op : Nat × R) (ops : List (Nat × R)) (i : Nat) : total (op :: ops) i = (if op.1 = i then op.2 else 0) + total ops i := by
  unfold total
  by_cases h : op.1 = i
  · rw [List.filter_cons_of_pos (by simpa using h), if_pos h, List.map_cons, List.sum_cons]
  · rw [List.filter_cons_of_neg (by simpa using h), if_neg h, zero_add]

theorem total_append (a b : List (Nat × R)) (i : Nat) : total (a ++ b) i = total a i + total b i := by
  unfold total
  rw [List.filter_append, List.map_append, List.sum_append]

theorem total_perm {a b : List (Nat × R)} (h : a.Perm b) (i : Nat) : total a i = total b i := by
  unfold total
  exact ((h.filter _).map _).sum_eq

theorem total_flatMap {A : Type} (F : A → List (Nat × R)) (l : List A) (i : Nat) : total (l.flatMap F) i = (l.map fun a => total (F a) i).sum := by
  induction l with
  | nil => rfl
  | cons a l ih => rw [List.flatMap_cons, total_append, ih, List.map_cons, List.sum_cons]

theorem addAt_some {v : List R} {k : Nat} {a : R} (h : k < v.length) : addAt v k a = some (v.set k (v[k] + a)) := by
  unfold addAt
  rw [List.getElem?_eq_getElem h]
  exact wr_eq_some h

theorem addAt_none {v : List R} {k : Nat} {a : R} (h : ¬ k < v.length) : addAt v k a = none := by
  unfold addAt
  rw [List.getElem?_eq_none (by omega)]; rfl

theorem runOps_spec : ∀ (ops : List (Nat × R)) (v : List R), (∀ op ∈ ops, op.1 < v.length) →
    ∃ w, runOps ops v = some w ∧ w.length = v.length ∧ ∀ i, i < v.length → w[i]? = some (v.getD i 0 + total ops i) := by
  intro ops
  induction ops with
  | nil =>
      intro v _
      refine ⟨v, rfl, rfl, ?_⟩
      intro i hi
      rw [total_nil, add_zero, List.getD_eq_getElem?_getD, List.getElem?_eq_getElem hi]; rfl
  | cons op ops ih =>
      intro v h
      have hop := h op List.mem_cons_self
      obtain ⟨w, e1, e2, e3⟩ := ih (v.set op.1 (v[op.1] + op.2)) (by
        intro op' h'
        rw [List.length_set]; exact h op' (List.mem_cons_of_mem _ h'))
      refine ⟨w, ?_, by rw [e2, List.length_set], ?_⟩
      · unfold runOps
        rw [List.foldlM_cons, addAt_some hop]
        exact e1
      · intro i hi
        rw [e3 i (by rw [List.length_set]; exact hi), total_cons, List.getD_eq_getElem?_getD, getElem?_set' _ _ _ _ hop, List.getD_eq_getElem?_getD]
        congr 1
        by_cases hi' : op.1 = i
        · rw [if_pos hi', if_pos hi', ← hi', List.getElem?_eq_getElem hop]
          simp only [Option.getD_some]
          rw [add_assoc]
        · rw [if_neg hi', if_neg hi', zero_add]

theorem runOps_append (a b : List (Nat × R)) (v : List R) : runOps (a ++ b) v = (runOps a v).bind (runOps b) := by
  unfold runOps
  rw [List.foldlM_append]; rfl

theorem zeros_length (v : List R) : (zeros v).length = v.length := List.length_map _

theorem zeros_getD (v : List R) (i : Nat) : (zeros v).getD i 0 = 0 := by
  unfold zeros
  rw [List.getD_eq_getElem?_getD, List.getElem?_map]
  cases v[i]? <;> rfl

end Verif.Feti
