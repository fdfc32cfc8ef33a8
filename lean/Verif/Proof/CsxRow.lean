import Verif.Proof.CsxEntries
/-! Loops over one slice. -/
namespace Verif.Csx

variable {T σ : Type}

theorem wf_ptr {A : Csx T} (h : WellFormed A) {p : Nat} (hp : p ≤ A.np) : A.ptrs[p]? = some (A.ptrs.getD p 0) := getD_some (by rw [h.plen]; omega)

theorem wf_ptr_le {A : Csx T} (h : WellFormed A) {p : Nat} (hp : p ≤ A.np) : A.ptrs.getD p 0 ≤ A.idxs.length := by
  have := wf_mono h hp (Nat.le_refl _)
  rw [h.last] at this; exact this

theorem wf_split {A : Csx T} (h : WellFormed A) {p : Nat} (hp : p < A.np) :
    A.idxs.zip A.vals = (A.idxs.zip A.vals).take (A.ptrs.getD p 0) ++ A.row p ++ (A.idxs.zip A.vals).drop (A.ptrs.getD (p + 1) 0) := by
  have h1 := wf_mono h (show p ≤ p + 1 by omega) (by omega)
  unfold Csx.row
  rw [← List.take_add, show A.ptrs.getD p 0 + (A.ptrs.getD (p + 1) 0 - A.ptrs.getD p 0) = A.ptrs.getD (p + 1) 0 by omega, List.take_append_drop]

theorem zip_get {A : Csx T} (h : WellFormed A) (i : Nat) (F : Nat × T → Option σ) :
    ((A.idxs.zip A.vals)[i]?.bind F) = A.idxs[i]?.bind fun c => A.vals[i]?.bind fun v => F (c, v) := by
  by_cases hi : i < A.idxs.length
  · have hv : i < A.vals.length := by rw [h.vlen]; exact hi
    rw [List.getElem?_eq_getElem (by rw [List.length_zip]; omega), List.getElem?_eq_getElem hi, List.getElem?_eq_getElem hv, List.getElem_zip]
    rfl
  · rw [List.getElem?_eq_none (by rw [List.length_zip]; omega), List.getElem?_eq_none (by omega)]
    rfl

/-- A loop over the slice `p`. -/
theorem row_loop {A : Csx T} (h : WellFormed A) {p : Nat} (hp : p < A.np) (f : Nat → Nat → T → σ → Option σ) (s : σ) :
    forLoop (A.ptrs.getD p 0) (A.ptrs.getD (p + 1) 0) s (fun i s => A.idxs[i]?.bind fun c => A.vals[i]?.bind fun v => f i c v s) =
      ((A.row p).zipIdx (A.ptrs.getD p 0)).foldlM (fun s x => f x.2 x.1.1 x.1.2 s) s := by
  have hs := wf_split h hp
  have hl : ((A.idxs.zip A.vals).take (A.ptrs.getD p 0)).length = A.ptrs.getD p 0 := by
    rw [List.length_take, List.length_zip, h.vlen]
    have := wf_ptr_le h (show p ≤ A.np by omega); omega
  have hr := wf_row_length h hp
  have hm := wf_mono h (show p ≤ p + 1 by omega) (by omega)
  have := forLoop_read (fun i (x : Nat × T) (s : σ) => f i x.1 x.2 s) (A.row p) ((A.idxs.zip A.vals).take (A.ptrs.getD p 0)) ((A.idxs.zip A.vals).drop (A.ptrs.getD (p + 1) 0)) s
  rw [← hs, hl, hr, show A.ptrs.getD p 0 + (A.ptrs.getD (p + 1) 0 - A.ptrs.getD p 0) = A.ptrs.getD (p + 1) 0 by omega] at this
  rw [← this]
  congr 1
  funext i s
  exact (zip_get h i fun x => f i x.1 x.2 s).symm

/-- The position does not matter. -/
theorem foldlM_zipIdx {A : Type} (f : A → σ → Option σ) : ∀ (l : List A) (k : Nat) (s : σ), (l.zipIdx k).foldlM (fun s x => f x.1 s) s = l.foldlM (fun s x => f x s) s := by
  intro l
  induction l with
  | nil => intro k s; rfl
  | cons a l ih =>
      intro k s
      rw [List.zipIdx_cons, List.foldlM_cons, List.foldlM_cons]
      congr 1; funext s'
      exact ih (k + 1) s'

theorem row_loop' {A : Csx T} (h : WellFormed A) {p : Nat} (hp : p < A.np) (f : Nat → T → σ → Option σ) (s : σ) :
    forLoop (A.ptrs.getD p 0) (A.ptrs.getD (p + 1) 0) s (fun i s => A.idxs[i]?.bind fun c => A.vals[i]?.bind fun v => f c v s) =
      (A.row p).foldlM (fun s x => f x.1 x.2 s) s := by
  rw [row_loop h hp fun _ c v s => f c v s]
  exact foldlM_zipIdx (fun (x : Nat × T) s => f x.1 x.2 s) _ _ _

/-- The entry at a position of a slice. -/
theorem row_get {A : Csx T} (h : WellFormed A) {p k : Nat} (hp : p < A.np) {c : Nat} {v : T} (hk : (A.row p)[k]? = some (c, v)) :
    A.idxs[A.ptrs.getD p 0 + k]? = some c ∧ A.vals[A.ptrs.getD p 0 + k]? = some v := by
  have hlen := wf_row_length h hp
  have hkl := (List.getElem?_eq_some_iff.1 hk).1
  unfold Csx.row at hk
  rw [List.getElem?_take, if_pos (by omega), List.getElem?_drop] at hk
  have := List.getElem?_zip_eq_some.1 hk
  exact this

end Verif.Csx
