import Verif.Model.Direct
import Mathlib.Algebra.BigOperators.Ring.Finset
import Mathlib.Algebra.BigOperators.Group.Finset.Sigma
import Mathlib.Algebra.BigOperators.Group.Finset.Piecewise
import Mathlib.Algebra.Order.Field.Rat
import Mathlib.Tactic.Ring
import Mathlib.Tactic.LinearCombination
import Mathlib.Tactic.NormNum
/-!
C97: prescribed values in the direct solvers.
-/
namespace Verif.Direct

open Finset

variable {K : Type} [Field K]

/-- The entry of the matrix in the row `r` and the column `c`. -/
def entry (cols : Nat → List Nat) (vals : Nat → Nat → K) (r c : Nat) : K := ∑ k ∈ range (cols r).length, if (cols r).getD k 0 = c then vals r k else 0

/-- The product of the row `r` with a vector. -/
def rowTimes (cols : Nat → List Nat) (vals : Nat → Nat → K) (r : Nat) (x : Nat → K) : K := ∑ k ∈ range (cols r).length, vals r k * x ((cols r).getD k 0)

theorem foldl_succ {α : Type} (f : α → Nat → α) (a : α) (m : Nat) : (List.range (m + 1)).foldl f a = f ((List.range m).foldl f a) m := by
  rw [List.range_succ, List.foldl_append]
  rfl

theorem mem_cols (cols : Nat → List Nat) (r c : Nat) : c ∈ cols r ↔ ∃ k, k < (cols r).length ∧ colAt cols r k = c := by
  constructor
  · intro h
    obtain ⟨k, hk, e⟩ := List.getElem_of_mem h
    exact ⟨k, hk, by rw [colAt, List.getD_eq_getElem?_getD, List.getElem?_eq_getElem hk]; exact e⟩
  · rintro ⟨k, hk, e⟩
    rw [colAt, List.getD_eq_getElem?_getD, List.getElem?_eq_getElem hk] at e
    exact e ▸ List.getElem_mem hk

theorem clearColumn_spec (cols : Nat → List Nat) (d row : Nat) (hd : row ≠ d) (s : System K) :
    (∀ r k, (clearColumn cols d row s).vals r k = if r = row ∧ k < (cols row).length ∧ colAt cols row k = d then 0 else s.vals r k)
      ∧ ∀ r, (clearColumn cols d row s).b r = if r = row then s.b row - entry cols s.vals row d * s.b d else s.b r := by
  have main : ∀ m, let t := (List.range m).foldl (fun s c => if colAt cols row c = d then (s.setB row (s.b row - s.vals row c * s.b d)).setVal row c 0 else s) s
      (∀ r k, t.vals r k = if r = row ∧ k < m ∧ colAt cols row k = d then 0 else s.vals r k)
        ∧ ∀ r, t.b r = if r = row then s.b row - (∑ k ∈ range m, if colAt cols row k = d then s.vals row k else 0) * s.b d else s.b r := by
    intro m
    induction m with
    | zero =>
      refine ⟨fun r k => ?_, fun r => ?_⟩
      · simp
      · by_cases h : r = row
        · simp [h]
        · simp [h]
    | succ m ih =>
      intro t
      have ht : t = (fun s c => if colAt cols row c = d then (s.setB row (s.b row - s.vals row c * s.b d)).setVal row c 0 else s)
          ((List.range m).foldl (fun s c => if colAt cols row c = d then (s.setB row (s.b row - s.vals row c * s.b d)).setVal row c 0 else s) s) m := foldl_succ _ _ _
      obtain ⟨i1, i2⟩ := ih
      generalize (List.range m).foldl (fun s c => if colAt cols row c = d then (s.setB row (s.b row - s.vals row c * s.b d)).setVal row c 0 else s) s = q at ht i1 i2
      rw [ht]
      by_cases hc : colAt cols row m = d
      · simp only [hc, if_true]
        refine ⟨fun r k => ?_, fun r => ?_⟩
        · change (if r = row ∧ k = m then 0 else q.vals r k) = _
          rw [i1]
          by_cases hr : r = row
          · subst hr
            by_cases hk : k = m
            · subst hk
              simp [hc]
            · have : k < m + 1 ↔ k < m := by omega
              simp [hk, this]
          · simp [hr]
        · change (if r = row then q.b row - q.vals row m * q.b d else q.b r) = _
          by_cases hr : r = row
          · rw [if_pos hr, if_pos hr, i2, if_pos rfl, i2, if_neg (fun e => hd e.symm), i1, if_neg (by omega), sum_range_succ, if_pos hc]
            ring
          · rw [if_neg hr, if_neg hr, i2, if_neg hr]
      · simp only [hc, if_false]
        refine ⟨fun r k => ?_, fun r => ?_⟩
        · rw [i1]
          by_cases hk : k = m
          · subst hk
            simp [hc]
          · have : k < m + 1 ↔ k < m := by omega
            simp [this]
        · rw [i2, sum_range_succ, if_neg hc, add_zero]
  exact main (cols row).length

theorem fixDof_spec (cols : Nat → List Nat) (dofs : List Nat) (d : Nat) (hd : d ∈ dofs) (g : K) (s : System K) :
    (∀ r k, (fixDof cols dofs d g s).vals r k =
      if r = d then (if k < (cols d).length then (if colAt cols d k = d then 1 else 0) else s.vals r k)
      else if r ∉ dofs ∧ r ∈ cols d ∧ k < (cols r).length ∧ colAt cols r k = d then 0 else s.vals r k)
      ∧ ∀ r, (fixDof cols dofs d g s).b r = if r = d then g else if r ∉ dofs ∧ r ∈ cols d then s.b r - entry cols s.vals r d * g else s.b r := by
  have main : ∀ m, m ≤ (cols d).length → let t := (List.range m).foldl (fun s j =>
        if colAt cols d j = d then s.setVal d j 1
        else
          let s := s.setVal d j 0
          if colAt cols d j ∈ dofs then s else clearColumn cols d (colAt cols d j) s) (s.setB d g)
      (∀ r k, t.vals r k = if r = d then (if k < m then (if colAt cols d k = d then 1 else 0) else s.vals r k)
        else if r ∉ dofs ∧ (∃ j, j < m ∧ colAt cols d j = r) ∧ k < (cols r).length ∧ colAt cols r k = d then 0 else s.vals r k)
        ∧ ∀ r, t.b r = if r = d then g else if r ∉ dofs ∧ ∃ j, j < m ∧ colAt cols d j = r then s.b r - entry cols s.vals r d * g else s.b r := by
    intro m hm
    induction m with
    | zero =>
      refine ⟨fun r k => ?_, fun r => ?_⟩
      · by_cases h : r = d
        · simp [h, System.setB]
        · simp [h, System.setB]
      · simp [System.setB]
    | succ m ih =>
      intro t
      have ht := foldl_succ (fun (s : System K) j =>
        if colAt cols d j = d then s.setVal d j 1
        else
          let s := s.setVal d j 0
          if colAt cols d j ∈ dofs then s else clearColumn cols d (colAt cols d j) s) (s.setB d g) m
      change t = _ at ht
      obtain ⟨i1, i2⟩ := ih (by omega)
      generalize (List.range m).foldl (fun (s : System K) j =>
        if colAt cols d j = d then s.setVal d j 1
        else
          let s := s.setVal d j 0
          if colAt cols d j ∈ dofs then s else clearColumn cols d (colAt cols d j) s) (s.setB d g) = q at ht i1 i2
      dsimp only at ht
      rw [ht]
      clear ht t
      have ex : ∀ r, (∃ j, j < m + 1 ∧ colAt cols d j = r) ↔ (∃ j, j < m ∧ colAt cols d j = r) ∨ colAt cols d m = r := by
        intro r
        constructor
        · rintro ⟨j, hj, e⟩
          by_cases hjm : j = m
          · subst hjm
            exact Or.inr e
          · exact Or.inl ⟨j, by omega, e⟩
        · rintro (⟨j, hj, e⟩ | e)
          · exact ⟨j, by omega, e⟩
          · exact ⟨m, by omega, e⟩
      by_cases hc : colAt cols d m = d
      · rw [if_pos hc]
        have ex' : ∀ r, r ≠ d → ((∃ j, j < m + 1 ∧ colAt cols d j = r) ↔ ∃ j, j < m ∧ colAt cols d j = r) := by
          intro r hr
          rw [ex, hc]
          exact or_iff_left (fun e => hr e.symm)
        refine ⟨fun r k => ?_, fun r => ?_⟩
        · change (if r = d ∧ k = m then 1 else q.vals r k) = _
          by_cases hr : r = d
          · subst hr
            by_cases hk : k = m
            · subst hk
              simp [hc]
            · have : k < m + 1 ↔ k < m := by omega
              rw [if_neg (fun h => hk h.2), i1]
              simp [this]
          · rw [if_neg (fun h => hr h.1), i1]
            simp only [hr, if_false, ex' r hr]
        · change q.b r = _
          rw [i2]
          by_cases hr : r = d
          · simp [hr]
          · simp only [hr, if_false, ex' r hr]
      · rw [if_neg hc]
        have v1 : ∀ r k, (q.setVal d m 0).vals r k = if r = d ∧ k = m then 0 else q.vals r k := fun _ _ => rfl
        have b1 : (q.setVal d m 0).b = q.b := rfl
        have rowd : ∀ k, (if k = m then (0 : K) else q.vals d k) = if k < m + 1 then (if colAt cols d k = d then 1 else 0) else s.vals d k := by
          intro k
          by_cases hk : k = m
          · subst hk
            simp [hc]
          · have : k < m + 1 ↔ k < m := by omega
            rw [if_neg hk, i1]
            simp [this]
        by_cases hin : colAt cols d m ∈ dofs
        · rw [if_pos hin]
          have ex' : ∀ r, (r ∉ dofs ∧ ∃ j, j < m + 1 ∧ colAt cols d j = r) ↔ (r ∉ dofs ∧ ∃ j, j < m ∧ colAt cols d j = r) := by
            intro r
            rw [ex]
            constructor
            · rintro ⟨a, b | b⟩
              · exact ⟨a, b⟩
              · exact absurd (b ▸ hin) a
            · rintro ⟨a, b⟩
              exact ⟨a, Or.inl b⟩
          refine ⟨fun r k => ?_, fun r => ?_⟩
          · rw [v1]
            by_cases hr : r = d
            · subst hr
              simp only [true_and, if_true]
              exact rowd k
            · rw [if_neg (fun h => hr h.1), i1, if_neg hr, if_neg hr]
              congr 1
              rw [← and_assoc, ← and_assoc (a := r ∉ dofs), ex' r]
          · rw [b1, i2]
            by_cases hr : r = d
            · simp [hr]
            · simp only [hr, if_false, ex' r]
        · rw [if_neg hin]
          obtain ⟨c1, c2⟩ := clearColumn_spec cols d (colAt cols d m) hc (q.setVal d m 0)
          refine ⟨fun r k => ?_, fun r => ?_⟩
          · rw [c1, v1]
            by_cases hr : r = d
            · subst hr
              rw [if_neg (fun h => hc h.1.symm)]
              simp only [true_and, if_true]
              exact rowd k
            · rw [if_neg (c := r = d ∧ k = m) (fun h => hr h.1), i1, if_neg hr, if_neg hr]
              by_cases hrm : r = colAt cols d m
              · subst hrm
                by_cases hk : k < (cols (colAt cols d m)).length ∧ colAt cols (colAt cols d m) k = d
                · rw [if_pos ⟨rfl, hk⟩, if_pos ⟨hin, (ex _).2 (Or.inr rfl), hk⟩]
                · rw [if_neg (fun h => hk h.2), if_neg (fun h => hk h.2.2), if_neg (fun h => hk h.2.2)]
              · rw [if_neg (fun h => hrm h.1)]
                congr 1
                rw [ex, or_iff_left (fun e => hrm e.symm)]
          · rw [c2, b1]
            by_cases hrm : r = colAt cols d m
            · subst hrm
              rw [if_pos rfl, if_neg hc, if_pos ⟨hin, (ex _).2 (Or.inr rfl)⟩, i2 d, if_pos rfl, i2, if_neg hc]
              have en : entry cols (q.setVal d m 0).vals (colAt cols d m) d = if ∃ j, j < m ∧ colAt cols d j = colAt cols d m then 0 else entry cols s.vals (colAt cols d m) d := by
                unfold entry
                by_cases hj : ∃ j, j < m ∧ colAt cols d j = colAt cols d m
                · rw [if_pos hj]
                  refine sum_eq_zero fun k hk => ?_
                  by_cases hcd : (cols (colAt cols d m)).getD k 0 = d
                  · rw [if_pos hcd, v1, if_neg (fun h => hc h.1), i1, if_neg hc, if_pos ⟨hin, hj, mem_range.1 hk, hcd⟩]
                  · rw [if_neg hcd]
                · rw [if_neg hj]
                  refine sum_congr rfl fun k _ => ?_
                  rw [v1, if_neg (c := colAt cols d m = d ∧ k = m) (fun h => hc h.1), i1, if_neg hc,
                    if_neg (c := colAt cols d m ∉ dofs ∧ _) (fun h => hj h.2.1)]
              rw [en]
              by_cases hj : ∃ j, j < m ∧ colAt cols d j = colAt cols d m
              · rw [if_pos hj, if_pos ⟨hin, hj⟩]
                ring
              · rw [if_neg hj, if_neg (fun h => hj h.2)]
            · rw [if_neg hrm, i2]
              have : (∃ j, j < m + 1 ∧ colAt cols d j = r) ↔ ∃ j, j < m ∧ colAt cols d j = r := by
                rw [ex, or_iff_left (fun e => hrm e.symm)]
              simp only [this]
  obtain ⟨m1, m2⟩ := main (cols d).length le_rfl
  refine ⟨fun r k => ?_, fun r => ?_⟩
  · have := m1 r k
    simp only [← mem_cols] at this
    exact this
  · have := m2 r
    simp only [← mem_cols] at this
    exact this

/-- The matrix and the right-hand side after `setDirichlet`. -/
theorem setDirichlet_spec (cols : Nat → List Nat) (sym : ∀ r c, c ∈ cols r → r ∈ cols c) (dofs : List Nat) (nd : dofs.Nodup) (g : Nat → K) (s : System K) :
    (∀ r k, k < (cols r).length → (setDirichlet cols dofs g s).vals r k =
      if r ∈ dofs then (if colAt cols r k = r then 1 else 0) else if colAt cols r k ∈ dofs then 0 else s.vals r k)
      ∧ ∀ r, (setDirichlet cols dofs g s).b r = if r ∈ dofs then g r else s.b r - (dofs.map fun d => entry cols s.vals r d * g d).sum := by
  have main : ∀ todo done : List Nat, done ++ todo = dofs → ∀ q : System K,
      (∀ r k, k < (cols r).length → q.vals r k = if r ∈ done then (if colAt cols r k = r then 1 else 0) else if r ∉ dofs ∧ colAt cols r k ∈ done then 0 else s.vals r k) →
      (∀ r, q.b r = if r ∈ done then g r else if r ∈ dofs then s.b r else s.b r - (done.map fun d => entry cols s.vals r d * g d).sum) →
      (∀ r k, k < (cols r).length → (todo.foldl (fun s d => fixDof cols dofs d (g d) s) q).vals r k =
        if r ∈ dofs then (if colAt cols r k = r then 1 else 0) else if colAt cols r k ∈ dofs then 0 else s.vals r k)
        ∧ ∀ r, (todo.foldl (fun s d => fixDof cols dofs d (g d) s) q).b r = if r ∈ dofs then g r else s.b r - (dofs.map fun d => entry cols s.vals r d * g d).sum := by
    intro todo
    induction todo with
    | nil =>
      intro done e q hv hb
      rw [List.append_nil] at e
      subst e
      refine ⟨fun r k hk => ?_, fun r => ?_⟩
      · rw [List.foldl_nil, hv r k hk]
        by_cases hr : r ∈ done <;> simp [hr]
      · rw [List.foldl_nil, hb r]
        by_cases hr : r ∈ done <;> simp [hr]
    | cons d todo ih =>
      intro done e q hv hb
      rw [List.foldl_cons]
      have hd : d ∈ dofs := by rw [← e]; simp
      have hnd : d ∉ done := by
        rw [← e] at nd
        intro h
        exact (List.nodup_append.1 nd).2.2 d h d (by simp) rfl
      obtain ⟨f1, f2⟩ := fixDof_spec cols dofs d hd (g d) q
      refine ih (done ++ [d]) (by rw [List.append_assoc]; exact e) _ (fun r k hk => ?_) (fun r => ?_)
      · rw [f1]
        by_cases hr : r = d
        · subst hr
          simp [hk]
        · rw [if_neg hr]
          by_cases hrd : r ∈ dofs
          · rw [if_neg (fun h => h.1 hrd), hv r k hk]
            by_cases hdn : r ∈ done
            · simp [hdn]
            · simp [hdn, hr, hrd]
          · have hdn : r ∉ done := fun h => hrd (by rw [← e]; simp [h])
            by_cases hc : colAt cols r k = d
            · have hmem : r ∈ cols d := sym r d ((mem_cols cols r d).2 ⟨k, hk, hc⟩)
              rw [if_pos ⟨hrd, hmem, hk, hc⟩]
              simp [hdn, hr, hrd, hc]
            · rw [if_neg (fun h => hc h.2.2.2), hv r k hk]
              simp [hdn, hr, hrd, hc]
      · rw [f2]
        by_cases hr : r = d
        · subst hr
          simp
        · rw [if_neg hr]
          by_cases hrd : r ∈ dofs
          · rw [if_neg (fun h => h.1 hrd), hb]
            by_cases hdn : r ∈ done
            · simp [hdn]
            · simp [hdn, hr, hrd]
          · have hdn : r ∉ done := fun h => hrd (by rw [← e]; simp [h])
            have hen : entry cols q.vals r d = entry cols s.vals r d := by
              unfold entry
              refine sum_congr rfl fun k hk => ?_
              by_cases hc : (cols r).getD k 0 = d
              · rw [if_pos hc, if_pos hc, hv r k (mem_range.1 hk), if_neg hdn, if_neg]
                rintro ⟨_, h⟩
                exact hnd (hc ▸ h)
              · rw [if_neg hc, if_neg hc]
            have hq : q.b r = s.b r - (done.map fun d => entry cols s.vals r d * g d).sum := by rw [hb, if_neg hdn, if_neg hrd]
            have tgt : (if r ∈ done ++ [d] then g r else if r ∈ dofs then s.b r else s.b r - ((done ++ [d]).map fun d => entry cols s.vals r d * g d).sum)
                = s.b r - (done.map fun d => entry cols s.vals r d * g d).sum - entry cols s.vals r d * g d := by
              rw [if_neg (by simp [hdn, hr]), if_neg hrd]
              simp
              ring
            rw [tgt]
            by_cases hm : r ∈ cols d
            · rw [if_pos ⟨hrd, hm⟩, hen, hq]
            · rw [if_neg (fun h => hm h.2), hq]
              have : entry cols s.vals r d = 0 := by
                unfold entry
                refine sum_eq_zero fun k hk => ?_
                rw [if_neg]
                intro hc
                exact hm (sym r d ((mem_cols cols r d).2 ⟨k, mem_range.1 hk, hc⟩))
              rw [this]
              ring
  exact main dofs [] rfl s (fun r k _ => by simp) (fun r => by simp)


theorem count_range (cols : Nat → List Nat) (d : Nat) (v : K) (nd : (cols d).Nodup) (h : d ∈ cols d) :
    (∑ k ∈ range (cols d).length, if (cols d).getD k 0 = d then v else 0) = v := by
  obtain ⟨k, hk, e⟩ := (mem_cols cols d d).1 h
  rw [sum_eq_single k]
  · exact if_pos e
  · intro j hj hjk
    rw [if_neg]
    intro he
    have hj := mem_range.1 hj
    rw [colAt, List.getD_eq_getElem?_getD, List.getElem?_eq_getElem hk] at e
    rw [List.getD_eq_getElem?_getD, List.getElem?_eq_getElem hj] at he
    have : (cols d)[j] = (cols d)[k] := Eq.trans he (Eq.symm e)
    exact hjk ((List.Nodup.getElem_inj_iff nd).1 this)
  · intro hn
    exact absurd (mem_range.2 hk) hn

/-- The pattern of a matrix assembled from elements: the diagonal is stored, no column is stored twice, and the pattern is symmetric. -/
structure PatternOk (cols : Nat → List Nat) : Prop where
  once : ∀ r, (cols r).Nodup
  diagonal : ∀ r c, c ∈ cols r → c ∈ cols c
  symm : ∀ r c, c ∈ cols r → r ∈ cols c

/-- The solutions of the system with the prescribed values are exactly the vectors with the prescribed values that satisfy the original equations of the other degrees of freedom. -/
theorem C97_solution (cols : Nat → List Nat) (ok : PatternOk cols) (dofs : List Nat) (nd : dofs.Nodup) (stored : ∀ d ∈ dofs, d ∈ cols d) (g : Nat → K) (s : System K) (x : Nat → K) :
    (∀ r, rowTimes cols (setDirichlet cols dofs g s).vals r x = (setDirichlet cols dofs g s).b r)
      ↔ (∀ d ∈ dofs, x d = g d) ∧ ∀ r, r ∉ dofs → rowTimes cols s.vals r x = s.b r := by
  obtain ⟨f1, f2⟩ := setDirichlet_spec cols ok.symm dofs nd g s
  have fixedRow : ∀ r ∈ dofs, rowTimes cols (setDirichlet cols dofs g s).vals r x = x r := by
    intro r hr
    unfold rowTimes
    rw [← count_range cols r (x r) (ok.once r) (stored r hr)]
    refine sum_congr rfl fun k hk => ?_
    rw [f1 r k (mem_range.1 hk), if_pos hr]
    by_cases hc : (cols r).getD k 0 = r
    · rw [if_pos hc, if_pos (show colAt cols r k = r from hc), hc, one_mul]
    · rw [if_neg hc, if_neg (show ¬ colAt cols r k = r from hc), zero_mul]
  have freeRow : (∀ d ∈ dofs, x d = g d) → ∀ r, r ∉ dofs → rowTimes cols (setDirichlet cols dofs g s).vals r x
      = rowTimes cols s.vals r x - (dofs.map fun d => entry cols s.vals r d * g d).sum := by
    intro hx r hr
    have e2 : (dofs.map fun d => entry cols s.vals r d * g d).sum = ∑ k ∈ range (cols r).length, if (cols r).getD k 0 ∈ dofs then s.vals r k * x ((cols r).getD k 0) else 0 := by
      have : ∀ l : List Nat, l.Nodup → (∀ d ∈ l, x d = g d) → (l.map fun d => entry cols s.vals r d * g d).sum
          = ∑ k ∈ range (cols r).length, if (cols r).getD k 0 ∈ l then s.vals r k * x ((cols r).getD k 0) else 0 := by
        intro l
        induction l with
        | nil => intro _ _; simp
        | cons a l ih =>
          intro hn hl
          rw [List.map_cons, List.sum_cons, ih (List.nodup_cons.1 hn).2 (fun d hd => hl d (List.mem_cons_of_mem _ hd)), entry, sum_mul, ← sum_add_distrib]
          refine sum_congr rfl fun k _ => ?_
          by_cases ha : (cols r).getD k 0 = a
          · rw [if_pos ha, if_neg (fun h => (List.nodup_cons.1 hn).1 (ha ▸ h)), if_pos (by rw [ha]; exact List.mem_cons_self), ha, hl a List.mem_cons_self, add_zero]
          · rw [if_neg ha, zero_mul, zero_add]
            simp only [List.mem_cons, ha, false_or]
      exact this dofs nd hx
    rw [e2, rowTimes, rowTimes, ← sum_sub_distrib]
    refine sum_congr rfl fun k hk => ?_
    rw [f1 r k (mem_range.1 hk), if_neg hr]
    by_cases hc : (cols r).getD k 0 ∈ dofs
    · rw [if_pos hc, if_pos (show colAt cols r k ∈ dofs from hc)]
      ring
    · rw [if_neg hc, if_neg (show ¬ colAt cols r k ∈ dofs from hc)]
      ring
  constructor
  · intro h
    have hx : ∀ d ∈ dofs, x d = g d := by
      intro d hd
      rw [← fixedRow d hd, h d, f2 d, if_pos hd]
    refine ⟨hx, fun r hr => ?_⟩
    have := h r
    rw [freeRow hx r hr, f2 r, if_neg hr] at this
    linear_combination this
  · rintro ⟨hx, h⟩ r
    by_cases hr : r ∈ dofs
    · rw [fixedRow r hr, f2 r, if_pos hr, hx r hr]
    · rw [freeRow hx r hr, f2 r, if_neg hr, h r hr]

/-- The entries after `setDirichlet`: rows and columns of the prescribed degrees of freedom are those of the identity, the others are kept. -/
theorem C97_entries (cols : Nat → List Nat) (ok : PatternOk cols) (dofs : List Nat) (nd : dofs.Nodup) (stored : ∀ d ∈ dofs, d ∈ cols d) (g : Nat → K) (s : System K) (r c : Nat) :
    entry cols (setDirichlet cols dofs g s).vals r c = if r ∈ dofs ∨ c ∈ dofs then (if r = c then 1 else 0) else entry cols s.vals r c := by
  obtain ⟨f1, _⟩ := setDirichlet_spec cols ok.symm dofs nd g s
  by_cases hr : r ∈ dofs
  · rw [if_pos (Or.inl hr)]
    by_cases hrc : r = c
    · subst hrc
      rw [if_pos rfl, ← count_range cols r (1 : K) (ok.once r) (stored r hr)]
      refine sum_congr rfl fun k hk => ?_
      by_cases hc : (cols r).getD k 0 = r
      · rw [if_pos hc, if_pos hc, f1 r k (mem_range.1 hk), if_pos hr, if_pos (show colAt cols r k = r from hc)]
      · rw [if_neg hc, if_neg hc]
    · rw [if_neg hrc]
      refine sum_eq_zero fun k hk => ?_
      by_cases hc : (cols r).getD k 0 = c
      · rw [if_pos hc, f1 r k (mem_range.1 hk), if_pos hr, if_neg]
        intro h
        exact hrc (h.symm.trans hc)
      · rw [if_neg hc]
  · by_cases hcd : c ∈ dofs
    · rw [if_pos (Or.inr hcd), if_neg (fun h : r = c => hr (h ▸ hcd))]
      refine sum_eq_zero fun k hk => ?_
      by_cases hc : (cols r).getD k 0 = c
      · rw [if_pos hc, f1 r k (mem_range.1 hk), if_neg hr, if_pos (show colAt cols r k ∈ dofs by rw [colAt, hc]; exact hcd)]
      · rw [if_neg hc]
    · rw [if_neg (fun h => h.elim hr hcd)]
      refine sum_congr rfl fun k hk => ?_
      by_cases hc : (cols r).getD k 0 = c
      · rw [if_pos hc, if_pos hc, f1 r k (mem_range.1 hk), if_neg hr, if_neg (show ¬ colAt cols r k ∈ dofs by rw [colAt, hc]; exact hcd)]
      · rw [if_neg hc, if_neg hc]

/-- A symmetric matrix stays symmetric. -/
theorem C97_symmetric (cols : Nat → List Nat) (ok : PatternOk cols) (dofs : List Nat) (nd : dofs.Nodup) (stored : ∀ d ∈ dofs, d ∈ cols d) (g : Nat → K) (s : System K)
    (sym : ∀ r c, entry cols s.vals r c = entry cols s.vals c r) (r c : Nat) :
    entry cols (setDirichlet cols dofs g s).vals r c = entry cols (setDirichlet cols dofs g s).vals c r := by
  rw [C97_entries cols ok dofs nd stored, C97_entries cols ok dofs nd stored, sym r c]
  by_cases h : r ∈ dofs ∨ c ∈ dofs
  · rw [if_pos h, if_pos h.symm]
    by_cases e : r = c
    · rw [if_pos e, if_pos e.symm]
    · rw [if_neg e, if_neg (fun h => e h.symm)]
  · rw [if_neg h, if_neg (fun k => h k.symm)]

/-- The quadratic form on vectors that vanish at the prescribed degrees of freedom is kept, so a matrix that is definite there stays definite there: the products agree row by row. -/
theorem C97_restricted (cols : Nat → List Nat) (ok : PatternOk cols) (dofs : List Nat) (nd : dofs.Nodup) (g : Nat → K) (s : System K) (x : Nat → K) (hx : ∀ d ∈ dofs, x d = 0)
    (r : Nat) (hr : r ∉ dofs) : rowTimes cols (setDirichlet cols dofs g s).vals r x = rowTimes cols s.vals r x := by
  obtain ⟨f1, _⟩ := setDirichlet_spec cols ok.symm dofs nd g s
  refine sum_congr rfl fun k hk => ?_
  rw [f1 r k (mem_range.1 hk), if_neg hr]
  by_cases hc : colAt cols r k ∈ dofs
  · rw [if_pos hc, show (cols r).getD k 0 = colAt cols r k from rfl, hx _ hc, mul_zero, mul_zero]
  · rw [if_neg hc]

/-- The part handed to the solver for symmetric types is the upper triangle, entry by entry, in the order of the columns. -/
theorem C97_upper (cols : Nat → List Nat) (vals : Nat → Nat → K) (r c : Nat) :
    (((upperRow cols vals r).filter fun e => e.1 = c).map Prod.snd).sum = (if r ≤ c then entry cols vals r c else 0)
      ∧ ((upperRow cols vals r).map Prod.fst).Sublist (cols r) ∧ ∀ e ∈ upperRow cols vals r, r ≤ e.1 := by
  have main : ∀ m, m ≤ (cols r).length →
      let u := (List.range m).filterMap fun k => if r ≤ colAt cols r k then some (colAt cols r k, vals r k) else none
      ((u.filter fun e => e.1 = c).map Prod.snd).sum = (if r ≤ c then ∑ k ∈ range m, (if (cols r).getD k 0 = c then vals r k else 0) else 0)
        ∧ (u.map Prod.fst).Sublist ((cols r).take m) ∧ ∀ e ∈ u, r ≤ e.1 := by
    intro m hm
    induction m with
    | zero => simp
    | succ m ih =>
      obtain ⟨a, b, d⟩ := ih (by omega)
      intro u
      have hu : u = ((List.range m).filterMap fun k => if r ≤ colAt cols r k then some (colAt cols r k, vals r k) else none)
          ++ (if r ≤ colAt cols r m then [(colAt cols r m, vals r m)] else []) := by
        show (List.range (m + 1)).filterMap _ = _
        rw [List.range_succ, List.filterMap_append]
        congr 1
        by_cases h : r ≤ colAt cols r m <;> simp [h]
      have tk : (cols r).take (m + 1) = (cols r).take m ++ [colAt cols r m] := by
        rw [List.take_add_one, List.getElem?_eq_getElem (show m < (cols r).length by omega), colAt, List.getD_eq_getElem?_getD, List.getElem?_eq_getElem (show m < (cols r).length by omega)]
        rfl
      rw [hu, tk]
      refine ⟨?_, ?_, ?_⟩
      · rw [List.filter_append, List.map_append, List.sum_append, a, sum_range_succ]
        change _ = if r ≤ c then _ + (if colAt cols r m = c then vals r m else 0) else 0
        by_cases h : r ≤ colAt cols r m
        · by_cases hc : colAt cols r m = c
          · rw [if_pos h, if_pos (show r ≤ c from hc ▸ h), if_pos (show r ≤ c from hc ▸ h)]
            simp [hc]
          · rw [if_pos h]
            by_cases hrc : r ≤ c
            · simp [hc, hrc]
            · simp [hc, hrc]
        · rw [if_neg h]
          by_cases hrc : r ≤ c
          · have hc : colAt cols r m ≠ c := fun e => h (e ▸ hrc)
            simp [hc, hrc]
          · simp [hrc]
      · rw [List.map_append]
        by_cases h : r ≤ colAt cols r m
        · rw [if_pos h]
          exact b.append (List.Sublist.refl _)
        · rw [if_neg h]
          simpa using b.append (List.nil_sublist [colAt cols r m])
      · intro e he
        rcases List.mem_append.1 he with h | h
        · exact d e h
        · by_cases hh : r ≤ colAt cols r m
          · rw [if_pos hh, List.mem_singleton] at h
            rw [h]
            exact hh
          · rw [if_neg hh] at h
            exact absurd h (by simp)
  have := main (cols r).length le_rfl
  rw [List.take_length] at this
  exact this

/-- A bar of two elements; the rows are those of its three nodes. -/
def bar : Nat → List Nat
  | 0 => [0, 1]
  | 1 => [0, 1, 2]
  | 2 => [1, 2]
  | _ => []

def barValues : Nat → Nat → Rat
  | 0, 0 => 1
  | 0, 1 => -1
  | 1, 0 => -1
  | 1, 1 => 2
  | 1, 2 => -1
  | 2, 0 => -1
  | 2, 1 => 1
  | _, _ => 0

theorem bar_ok : PatternOk bar := by
  refine ⟨?_, ?_, ?_⟩
  · intro r
    rcases r with _ | _ | _ | r <;> simp [bar]
  · intro r c
    rcases r with _ | _ | _ | r <;> simp [bar] <;> rintro (h | h | h) <;> simp_all [bar]
  · intro r c
    rcases r with _ | _ | _ | r <;> simp [bar] <;> rintro (h | h | h) <;> simp_all [bar]

/-- The bar held at the value 3 at its first node and loaded by 5 at the last one. -/
example : (∀ r, rowTimes bar (setDirichlet bar [0] (fun _ => 3) ⟨barValues, fun r => if r = 2 then 5 else 0⟩).vals r (fun r => if r = 0 then 3 else if r = 1 then 8 else 13)
      = (setDirichlet bar [0] (fun _ => 3) ⟨barValues, fun r => if r = 2 then 5 else 0⟩).b r) := by
  rw [C97_solution bar bar_ok [0] (by decide) (by simp [bar])]
  refine ⟨by simp, fun r hr => ?_⟩
  rcases r with _ | _ | _ | r
  · exact absurd (by simp) hr
  · simp [rowTimes, bar, barValues, sum_range_succ]
    norm_num
  · simp [rowTimes, bar, barValues, sum_range_succ]
    norm_num
  · simp [rowTimes, bar]

/-- The right-hand side of the neighbour of the held node changes. -/
example : (setDirichlet bar [0] (fun _ => 3) ⟨barValues, fun r => if r = 2 then 5 else 0⟩).b 1 = 3
    ∧ upperRow bar (setDirichlet bar [0] (fun _ => 3) ⟨barValues, fun r => if r = 2 then 5 else 0⟩).vals 0 = [(0, 1), (1, 0)]
    ∧ upperRow bar (setDirichlet bar [0] (fun _ => 3) ⟨barValues, fun r => if r = 2 then 5 else 0⟩).vals 1 = [(1, 2), (2, -1)] := by decide +kernel

end Verif.Direct
