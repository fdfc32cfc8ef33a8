import Verif.Proof.Packing
/-
C01, C02, C03: binary packing.
-/
namespace Verif.Packing

/-- C01.  Packing writes exactly `packedSize` bytes (its own window of the buffer only, never outside), and unpacking these
bytes — wherever they are placed, whatever precedes or follows them, whatever the target held before — gives the value back
and moves the cursor exactly behind them. -/
theorem C01_pack_roundtrip (t : Ty) (v : t.Val) (hv : Fits t v) :
    ∃ bytes : List Byte, bytes.length = packedSize t v ∧
      (∀ a gap b : List Byte, gap.length = packedSize t v →
        pack t v (a ++ gap ++ b, a.length) = some (a ++ bytes ++ b, a.length + packedSize t v)) ∧
      (∀ (a b : List Byte) (old : t.Val),
        unpack (a ++ bytes ++ b) t old a.length = some (v, a.length + packedSize t v)) := by
  refine ⟨enc t v, length_enc t v, ?_, ?_⟩
  · intro a gap b h
    rw [← length_enc] at h ⊢
    exact pack_spec t v a gap b h
  · intro a b old
    rw [← length_enc]
    exact unpack_spec t v hv a b old

/-- C02.  A `Packer` (any list of fields, also built with `+=`): `pack` stays inside the buffer it allocates and fills it
completely, and `unpack` into a `Packer` with the same field shapes restores every field in order. -/
theorem C02_packer_roundtrip (fs gs : List Field) (junk : Nat → Byte)
    (hf : ∀ f ∈ fs ++ gs, Fits f.1 f.2) :
    ∃ buf : List Byte, packerPack (fs ++ gs) junk = some (buf, packerSize (fs ++ gs)) ∧
      buf.length = packerSize fs + packerSize gs ∧
      ∀ olds : List Field, olds.map Sigma.fst = (fs ++ gs).map Sigma.fst →
        packerUnpack buf olds 0 = some (fs ++ gs, buf.length) := by
  refine ⟨(fs ++ gs).flatMap fun f => enc f.1 f.2, ?_, ?_, ?_⟩
  · have := packer_loop (fs ++ gs) [] ((List.range (packerSize (fs ++ gs))).map junk)
      (by simp [packerSize_eq])
    simp only [List.nil_append, List.length_nil, List.length_map, List.length_range] at this
    simp only [packerPack, this, Nat.zero_add]
  · rw [packerSize_eq, packerSize_eq]; simp
  · intro olds ho
    have := packer_unpack_loop (fs ++ gs) [] [] olds ho hf
    simpa using this

/-- C03.  The result of `unpack` does not depend on the previous content of the target, on any buffer (well-formed or not). -/
theorem C03_unpack_ignores_target (buf : List Byte) (t : Ty) (old₁ old₂ : t.Val) (p : Nat) :
    unpack buf t old₁ p = unpack buf t old₂ p := unpack_old buf t old₁ old₂ p

/-- C03.  After unpacking a packed value the target equals that value, whatever it held before. -/
theorem C03_unpack_replaces (t : Ty) (v old : t.Val) (hv : Fits t v) (out : Out)
    (h : pack t v (List.replicate (packedSize t v) 0, 0) = some out) :
    unpack out.1 t old 0 = some (v, packedSize t v) := by
  obtain ⟨bytes, hl, hp, hu⟩ := C01_pack_roundtrip t v hv
  have h1 := hp [] (List.replicate (packedSize t v) 0) [] (by simp)
  simp only [List.append_nil, List.nil_append, List.length_nil, Nat.zero_add] at h1
  rw [h1] at h
  cases h
  simpa using hu [] [] old

/-- The body of the explicit `vector<string>` specialisation (packing.h 107-120) would violate C03: an empty list unpacked into
a non-empty one leaves the old content.  It is not selected by overload resolution (see the model header). -/
theorem C03_specialisation_body_keeps_stale_content :
    unpackVecStrSpecialisation (encSize 0) [[65]] 0 = some ([[65]], 8) ∧
    unpack (encSize 0) (.vec .str) ([[65]] : List (List Byte)) 0 = some (([] : List (List Byte)), 8) := by
  constructor <;> rfl

/-! Non-vacuity. -/
example : Fits (.vec (.vec .str)) ([[[1, 2], []], []] : List (List (List Byte))) := by
  simp [Fits]
example : packedSize (.vec (.vec .str)) ([[[1, 2], []], []] : List (List (List Byte))) = 42 := by
  decide
example : ∀ f ∈ ([⟨.pod 2, ⟨[1, 2], rfl⟩⟩, ⟨.str, ([7] : List Byte)⟩] : List Field), Fits f.1 f.2 := by
  simp [Fits]

end Verif.Packing
