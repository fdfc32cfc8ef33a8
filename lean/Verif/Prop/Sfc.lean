import Verif.Proof.Sfc
/-! Property C14: bucket iteration of a space-filling curve. -/
namespace Verif.Sfc

/-- C14.  For every well-formed refinement and every interval between two leaf borders, `iterateBuckets` makes no undefined access,
terminates, calls back exactly once for consecutive leaves of the refinement tree, and these leaves cover exactly the
buckets of the interval in increasing order (no gap, no overlap, nothing empty: every leaf has positive width). -/
theorem C14_iterateBuckets_cover (s : Curve) (hdim : s.dim = 2 ∨ s.dim = 3)
    (hwf : WF (bucketSize s.dim) s.depth s.refined) (begin stop : Nat) (hle : begin ≤ stop)
    (hb : LeafStart (bucketSize s.dim) s.depth s.refined begin) (he : LeafStart (bucketSize s.dim) s.depth s.refined stop) :
    ∃ out, iterateBuckets s begin stop = some out ∧
      (∀ c ∈ out, Leaf (bucketSize s.dim) s.depth s.refined c.1 c.2 ∧ 0 < width (bucketSize s.dim) s.depth c.1) ∧
      covered (bucketSize s.dim) s.depth out = List.range' begin (stop - begin) := by
  obtain ⟨its, e, hat⟩ := initIters_spec hdim hwf begin
  obtain ⟨out, e2, h1, h2⟩ := iterLoop_spec hdim hwf he _ begin begin its [] rfl hle hb hat
    ⟨Nat.le_refl _, fun i _ x _ h1 h2 => by omega⟩
  refine ⟨out, ?_, fun c hc => ⟨h1 c hc, width_pos (bucketSize_ge _) _ _⟩, h2⟩
  simp only [iterateBuckets, e, Option.bind_eq_bind, Option.bind_some, e2, List.nil_append]

/-- C14, the whole domain: the first bucket and the one behind the last bucket are always leaf borders. -/
theorem C14_iterateBuckets_all (s : Curve) (hdim : s.dim = 2 ∨ s.dim = 3) (hwf : WF (bucketSize s.dim) s.depth s.refined) :
    ∃ out, iterateBuckets s 0 (buckets s.dim s.depth) = some out ∧
      (∀ c ∈ out, Leaf (bucketSize s.dim) s.depth s.refined c.1 c.2) ∧
      covered (bucketSize s.dim) s.depth out = List.range (buckets s.dim s.depth) := by
  have hstart : ∀ b, (∀ d, d ≤ s.depth → width (bucketSize s.dim) s.depth d ∣ b) →
      LeafStart (bucketSize s.dim) s.depth s.refined b := by
    intro b hb
    obtain ⟨its, -, hat⟩ := initIters_spec hdim hwf b
    obtain ⟨d, -, hleaf⟩ := descend_spec hwf hat s.depth 0 (by omega) (by omega) (fun j h => by omega)
    exact (leafStart_iff (bucketSize_ge _) hleaf).2 (hb d hleaf.1)
  obtain ⟨out, e, h1, h2⟩ := C14_iterateBuckets_cover s hdim hwf 0 (buckets s.dim s.depth) (by omega)
    (hstart 0 (fun d _ => Nat.dvd_zero _))
    (hstart _ (fun d hd => by rw [buckets_eq hdim]; exact ⟨_, width_split (by omega) hd⟩))
  exact ⟨out, e, fun c hc => (h1 c hc).1, by rw [h2, List.range_eq_range', Nat.sub_zero]⟩

/-! Concrete instance: 2D, depth 2, the root and cell 1 refined. -/
theorem example_wf : WF (bucketSize 2) 2 [[0], [1]] where
  sorted := by decide
  parent := by
    intro i x h
    match i with
    | 0 => simp [lv] at h ⊢; subst h; decide
    | i + 1 => simp [lv] at h
  levels := by decide
  last := by intro h; simp at h
example := C14_iterateBuckets_all ⟨2, 2, [[0], [1]]⟩ (Or.inl rfl) example_wf
/-- Bucket 4 starts the finest leaf `(2, 4)`, bucket 8 the unrefined leaf `(1, 2)`. -/
example := C14_iterateBuckets_cover ⟨2, 2, [[0], [1]]⟩ (Or.inl rfl) example_wf 4 8 (by omega)
  ⟨2, 4, ⟨by decide, by
    intro j hj
    match j with
    | 0 => simp [lv, bucketSize]
    | 1 => simp [lv, bucketSize]
    | j + 2 => omega, Or.inl rfl⟩, by decide⟩
  ⟨1, 2, ⟨by decide, by
    intro j hj
    match j with
    | 0 => simp [lv, bucketSize]
    | j + 1 => omega, Or.inr (by simp [lv])⟩, by decide⟩

end Verif.Sfc
