import Verif.Model.CsxPerm
import Verif.Proof.CsxSub
import Verif.Proof.CsxEntries
/-! The loops of the permutations. -/
namespace Verif.Csx

variable {T P σ : Type}

theorem loop_shift (a b : Nat) (s : σ) (f : Nat → σ → Option σ) : forLoop a b s (fun i s => f (i - a) s) = forLoop 0 (b - a) s f := by
  unfold forLoop
  rw [List.range'_eq_map_range, foldlM_map', Nat.sub_zero, List.range_eq_range']
  congr 1
  funext s i
  show f (a + i - a) s = f i s
  rw [Nat.add_sub_cancel_left]

/-- A loop with an additional state that has no influence on the result. -/
theorem loop_extra {X : Type} (inv : X → Prop) (n : Nat) (body : Nat → X × σ → Option (X × σ)) (g : Nat → σ → Option σ)
    (h : ∀ i, i < n → ∀ x, inv x → ∀ s, ∃ x', inv x' ∧ body i (x, s) = (g i s).map fun s' => (x', s')) (x : X) (hx : inv x) (s : σ) :
    ∃ x', inv x' ∧ forLoop 0 n (x, s) body = (forLoop 0 n s g).map fun s' => (x', s') := by
  unfold forLoop
  have gen : ∀ (l : List Nat), (∀ i ∈ l, i < n) → ∀ x, inv x → ∀ s, ∃ x', inv x' ∧ l.foldlM (fun s i => body i s) (x, s) = (l.foldlM (fun s i => g i s) s).map fun s' => (x', s') := by
    intro l
    induction l with
    | nil => intro _ x hx s; exact ⟨x, hx, rfl⟩
    | cons a l ih =>
        intro hl x hx s
        obtain ⟨x1, hx1, e1⟩ := h a (hl a List.mem_cons_self) x hx s
        rw [List.foldlM_cons, List.foldlM_cons, e1]
        cases hg : g a s with
        | none => exact ⟨x1, hx1, rfl⟩
        | some s1 =>
            obtain ⟨x2, hx2, e2⟩ := ih (fun i hi => hl i (List.mem_cons_of_mem _ hi)) x1 hx1 s1
            exact ⟨x2, hx2, e2⟩
  exact gen _ (fun i hi => by have := List.mem_range'_1.1 hi; omega) x hx s

/-- Filling the buffer. -/
theorem load_all {A : Type} : ∀ (l : List A) (k start : Nat) (ivs : List A), k + l.length ≤ ivs.length → 
    ∃ ivs', (l.zipIdx (start + k)).foldlM (fun ivs x => wr ivs (x.2 - start) x.1) ivs = some ivs' ∧ ivs'.length = ivs.length ∧ ivs'.take (k + l.length) = ivs.take k ++ l := by
  intro l
  induction l with
  | nil => intro k start ivs _; exact ⟨ivs, rfl, rfl, by simp⟩
  | cons a l ih =>
      intro k start ivs h
      rw [List.length_cons] at h
      obtain ⟨ivs', e, hl, ht⟩ := ih (k + 1) start (ivs.set k a) (by rw [List.length_set]; omega)
      refine ⟨ivs', ?_, by rw [hl, List.length_set], ?_⟩
      · rw [List.zipIdx_cons, List.foldlM_cons]
        show Option.bind (wr ivs (start + k - start) a) _ = _
        rw [Nat.add_sub_cancel_left, wr_eq_some (by omega)]
        exact e
      · rw [List.length_cons, show k + (l.length + 1) = k + 1 + l.length by omega, ht, List.take_add_one, List.getElem?_set, if_pos rfl, if_pos (by omega),
          List.take_set_of_le (Nat.le_refl _)]
        simp

/-- The new content of the slice `p`, before sorting. -/
def movedRow (A : Csx T) (Q : Perm) (p : Nat) : List (Nat × T) := (A.row p).map fun e => (Q.s2d.getD e.1 0, e.2)

theorem row_range {A : Csx T} (hA : WellFormed A) {p : Nat} (hp : p < A.np) {e : Nat × T} (he : e ∈ A.row p) : e.1 < A.ns :=
  wf_cols hA (A.row p) (by unfold Csx.rows; exact List.mem_map.2 ⟨p, List.mem_range.2 hp, rfl⟩) e he

theorem loadSlice_spec {A : Csx T} (hA : WellFormed A) {Q : Perm} (hQ : Q.s2d.length = A.ns) {p : Nat} (hp : p < A.np) (ivs : List (Nat × T)) (hi : (A.row p).length ≤ ivs.length) :
    ∃ ivs', loadSlice A Q (A.ptrs.getD p 0) (A.ptrs.getD (p + 1) 0) ivs = some ivs' ∧ ivs'.length = ivs.length ∧ ivs'.take (A.row p).length = movedRow A Q p := by
  obtain ⟨ivs', e, hl, ht⟩ := load_all (movedRow A Q p) 0 (A.ptrs.getD p 0) ivs (by unfold movedRow; rw [List.length_map]; omega)
  have hml : (movedRow A Q p).length = (A.row p).length := List.length_map _
  refine ⟨ivs', ?_, hl, by rw [hml, Nat.zero_add] at ht; simpa using ht⟩
  unfold loadSlice
  simp only [Option.bind_eq_bind]
  rw [row_loop hA hp (fun (i c : Nat) (v : T) (ivs : List (Nat × T)) => Q.s2d[c]?.bind fun isd => wr ivs (i - A.ptrs.getD p 0) (isd, v)), ← e]
  unfold movedRow
  rw [List.zipIdx_map, foldlM_map', Nat.add_zero]
  apply foldlM_congr
  intro x hx s
  have hx' : x.1 ∈ A.row p := List.fst_mem_of_mem_zipIdx hx
  have := row_range hA hp hx'
  rw [getD_some (by omega)]
  rfl

theorem longest_spec {A : Csx T} (hA : WellFormed A) : ∃ m, longest A = some m ∧ ∀ p, p < A.np → (A.row p).length ≤ m := by
  unfold longest
  obtain ⟨m, e, h⟩ := forLoop_inv (Nat.zero_le A.np) 0 (fun p m => do
    let start ← A.ptrs[p]?
    let stop ← A.ptrs[p + 1]?
    some (max m (stop - start))) (fun k m => ∀ p, p < k → (A.row p).length ≤ m) (by intro p hp; omega) (by
    intro k _ hk m hm
    rw [wf_ptr hA (by omega), wf_ptr hA (by omega)]
    refine ⟨_, rfl, ?_⟩
    intro p hp
    by_cases hpk : p = k
    · subst hpk
      rw [wf_row_length hA hk]; exact Nat.le_max_right _ _
    · exact Nat.le_trans (hm p (by omega)) (Nat.le_max_left _ _))
  exact ⟨m, e, h⟩

/-- Storing the sorted buffer. -/
theorem store_loop (start stop : Nat) (ivs l : List (Nat × T)) (hl : l.length = stop - start) (h : ivs.take l.length = l) (st : σ) (f : Nat × T → σ → Option σ) :
    forLoop start stop st (fun i st => ivs[i - start]?.bind fun e => f e st) = l.foldlM (fun st e => f e st) st := by
  rw [loop_shift start stop st (fun k st => ivs[k]?.bind fun e => f e st), ← hl, ← forLoop_list]
  apply forLoop_congr
  intro k s _ hk
  rw [← h, List.getElem?_take, if_pos hk]

/-- The slice `p` in its final form. -/
def sortedRow (sort : List (Nat × T) → List (Nat × T)) (A : Csx T) (Q : Perm) (p : Nat) : List (Nat × T) := sort (movedRow A Q p)

theorem sortedRow_length {sort : List (Nat × T) → List (Nat × T)} (hs : IsSort sort) (A : Csx T) (Q : Perm) (p : Nat) : (sortedRow sort A Q p).length = (A.row p).length := by
  unfold sortedRow movedRow
  rw [(hs.perm _).length_eq, List.length_map]

/-- Load, sort, store. -/
theorem slice_spec {sort : List (Nat × T) → List (Nat × T)} (hs : IsSort sort) {A : Csx T} (hA : WellFormed A) {Q : Perm} (hQ : Q.s2d.length = A.ns) {p : Nat} (hp : p < A.np)
    (ivs : List (Nat × T)) (hi : (A.row p).length ≤ ivs.length) :
    ∃ ivs1 ivs2, loadSlice A Q (A.ptrs.getD p 0) (A.ptrs.getD (p + 1) 0) ivs = some ivs1 ∧
      sortPrefix sort (A.ptrs.getD (p + 1) 0 - A.ptrs.getD p 0) ivs1 = some ivs2 ∧ ivs2.length = ivs.length ∧
      ∀ (σ : Type) (st : σ) (f : Nat × T → σ → Option σ), forLoop (A.ptrs.getD p 0) (A.ptrs.getD (p + 1) 0) st (fun i st => ivs2[i - A.ptrs.getD p 0]?.bind fun e => f e st) =
        (sortedRow sort A Q p).foldlM (fun st e => f e st) st := by
  obtain ⟨ivs1, e1, l1, t1⟩ := loadSlice_spec hA hQ hp ivs hi
  have hlen := wf_row_length hA hp
  have hsl := sortedRow_length hs A Q p
  refine ⟨ivs1, sort (ivs1.take (A.row p).length) ++ ivs1.drop (A.row p).length, e1, ?_, ?_, ?_⟩
  · unfold sortPrefix
    rw [← hlen, if_pos (by omega)]
  · rw [List.length_append, (hs.perm _).length_eq, List.length_take, List.length_drop]; omega
  · intro σ st f
    apply store_loop
    · rw [hsl, hlen]
    · rw [t1]
      exact List.take_left

end Verif.Csx
