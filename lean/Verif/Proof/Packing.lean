import Verif.Model.Packing
namespace Verif.Packing

/-- All sizes inside the value fit into `size_t`. -/
def Fits : (t : Ty) → t.Val → Prop
  | .pod _, _ => True
  | .str, (s : List Byte) => s.length < 2 ^ 64
  | .vec t, (v : List t.Val) => v.length < 2 ^ 64 ∧ ∀ x ∈ v, Fits t x

/-- Auxiliary: the byte string `pack` writes. -/
def enc : (t : Ty) → t.Val → List Byte
  | .pod _, d => d.1
  | .str, (s : List Byte) => encSize s.length ++ s
  | .vec t, (v : List t.Val) => encSize v.length ++ v.flatMap (enc t)

@[simp] theorem length_encSize (n : Nat) : (encSize n).length = 8 := by simp [encSize]

theorem decSize_encSize {n : Nat} (h : n < 2 ^ 64) : decSize (encSize n) = n := by
  simp [encSize, List.range_succ, decSize, UInt8.toNat_ofNat']
  omega

theorem foldl_size {α : Type} (f : α → Nat) (l : List α) (s : Nat) :
    l.foldl (fun a x => a + f x) s = s + (l.map f).sum := by
  induction l generalizing s with
  | nil => simp
  | cons x xs ih => simp [ih]; omega

theorem length_enc : (t : Ty) → (v : t.Val) → (enc t v).length = packedSize t v
  | .pod _, d => d.2
  | .str, (s : List Byte) => by simp [enc, packedSize]
  | .vec t, (v : List t.Val) => by
      have ih := length_enc t
      simp only [enc, packedSize, foldl_size, List.length_append, length_encSize, List.length_flatMap]
      congr 2
      exact List.map_congr_left fun x _ => ih x

theorem put_spec (a gap b src : List Byte) (h : gap.length = src.length) :
    put src (a ++ gap ++ b, a.length) = some (a ++ src ++ b, a.length + src.length) := by
  simp only [put, memcpyTo_append a gap b src h, Option.map_some]

theorem pack_spec : (t : Ty) → (v : t.Val) → (a gap b : List Byte) →
    gap.length = (enc t v).length →
    pack t v (a ++ gap ++ b, a.length) = some (a ++ enc t v ++ b, a.length + (enc t v).length)
  | .pod n, d, a, gap, b, h => by
      simp only [pack, enc] at *; exact put_spec a gap b _ h
  | .str, (s : List Byte), a, gap, b, h => by
      simp only [pack, enc, List.length_append, length_encSize] at *
      have e : a ++ gap ++ b = a ++ gap.take 8 ++ (gap.drop 8 ++ b) := by
        simp only [List.append_assoc]; rw [← List.append_assoc (gap.take 8), List.take_append_drop]
      rw [e, put_spec a (gap.take 8) _ (encSize s.length) (by simp; omega)]
      simp only [Option.bind_eq_bind, Option.bind_some]
      have := put_spec (a ++ encSize s.length) (gap.drop 8) b s (by simp; omega)
      simp only [List.append_assoc, List.length_append, length_encSize] at this ⊢
      rw [this]; simp; omega
  | .vec t, (v : List t.Val), a, gap, b, h => by
      have ih := pack_spec t
      have loop : ∀ (v : List t.Val) (a gap b : List Byte), gap.length = (v.flatMap (enc t)).length →
          v.foldlM (fun o x => pack t x o) (a ++ gap ++ b, a.length)
            = some (a ++ v.flatMap (enc t) ++ b, a.length + (v.flatMap (enc t)).length) := by
        intro v
        induction v with
        | nil => intro a gap b h; simp at h; subst h; simp
        | cons x xs ihx =>
            intro a gap b h
            simp only [List.flatMap_cons, List.length_append] at h
            have e : a ++ gap ++ b = a ++ gap.take (enc t x).length ++ (gap.drop (enc t x).length ++ b) := by
              simp only [List.append_assoc]
              rw [← List.append_assoc (gap.take _), List.take_append_drop]
            rw [List.foldlM_cons, e, ih x a _ _ (by simp; omega)]
            simp only [Option.bind_eq_bind, Option.bind_some]
            have := ihx (a ++ enc t x) (gap.drop (enc t x).length) b (by simp only [List.length_drop]; omega)
            simp only [List.append_assoc, List.length_append] at this ⊢
            rw [this]; simp [Nat.add_assoc]
      simp only [pack, enc, List.length_append, length_encSize] at *
      have e : a ++ gap ++ b = a ++ gap.take 8 ++ (gap.drop 8 ++ b) := by
        simp only [List.append_assoc]; rw [← List.append_assoc (gap.take 8), List.take_append_drop]
      rw [e, put_spec a (gap.take 8) _ (encSize v.length) (by simp; omega)]
      simp only [Option.bind_eq_bind, Option.bind_some]
      have := loop v (a ++ encSize v.length) (gap.drop 8) b (by simp only [List.length_drop]; omega)
      simp only [List.append_assoc, List.length_append, length_encSize] at this ⊢
      rw [this]; simp; omega

theorem get_spec (a s b : List Byte) (n : Nat) (h : s.length = n) :
    get (a ++ s ++ b) a.length n = some (s, a.length + n) := by
  subst h; simp only [get, memcpyFrom_append, Option.map_some]

theorem length_resize {α : Type} (d : α) (v : List α) (n : Nat) : (resize d v n).length = n := by
  simp [resize]; omega

theorem unpack_spec : (t : Ty) → (v : t.Val) → Fits t v → (a b : List Byte) → (old : t.Val) →
    unpack (a ++ enc t v ++ b) t old a.length = some (v, a.length + (enc t v).length)
  | .pod n, d, _, a, b, _ => by
      have hd : d.1.length = n := d.2
      rw [unpack, dif_pos (by simp [enc, hd])]
      have e : (enc (.pod n) d) = d.1 := rfl
      have e2 : (List.drop a.length (a ++ enc (Ty.pod n) d ++ b)).take n = d.1 := by
        simp [e, ← hd]
      simp only [Option.some.injEq, Prod.mk.injEq]
      exact ⟨Subtype.ext e2, by rw [e, hd]⟩
  | .str, (s : List Byte), hf, a, b, _ => by
      have hf : s.length < 2 ^ 64 := hf
      simp only [unpack, enc]
      have e : a ++ (encSize s.length ++ s) ++ b = a ++ encSize s.length ++ (s ++ b) := by simp
      rw [e, get_spec _ _ _ 8 (by simp)]
      simp only [Option.bind_eq_bind, Option.bind_some, decSize_encSize hf]
      have := get_spec (a ++ encSize s.length) s b s.length rfl
      simp only [List.append_assoc, List.length_append, length_encSize] at this ⊢
      rw [this]; simp; omega
  | .vec t, (v : List t.Val), hf, a, b, (old : List t.Val) => by
      have ih := unpack_spec t
      have hl : v.length < 2 ^ 64 := hf.1
      have hx : ∀ x ∈ v, Fits t x := hf.2
      have loop : ∀ (v : List t.Val) (a b : List Byte) (olds : List t.Val), olds.length = v.length →
          (∀ x ∈ v, Fits t x) →
          unpackAll (unpack (a ++ v.flatMap (enc t) ++ b) t) olds a.length
            = some (v, a.length + (v.flatMap (enc t)).length) := by
        intro v
        induction v with
        | nil => intro a b olds h _; have : olds = [] := by simpa using h
                 subst this; simp [unpackAll]
        | cons x xs ihx =>
            intro a b olds h hf
            match olds, h with
            | o :: os, h =>
              simp only [unpackAll, List.flatMap_cons]
              have e : a ++ (enc t x ++ xs.flatMap (enc t)) ++ b = a ++ enc t x ++ (xs.flatMap (enc t) ++ b) := by simp
              rw [e, ih x (hf x (by simp)) a _ o]
              simp only [Option.bind_eq_bind, Option.bind_some]
              have := ihx (a ++ enc t x) b os (by simpa using h) (fun y hy => hf y (by simp [hy]))
              simp only [List.append_assoc, List.length_append] at this ⊢
              rw [this]; simp [Nat.add_assoc]
      simp only [unpack, enc]
      have e : a ++ (encSize v.length ++ v.flatMap (enc t)) ++ b
          = a ++ encSize v.length ++ (v.flatMap (enc t) ++ b) := by simp
      rw [e, get_spec _ _ _ 8 (by simp)]
      simp only [Option.bind_eq_bind, Option.bind_some, decSize_encSize hl]
      have := loop v (a ++ encSize v.length) b (resize t.default old v.length) (length_resize _ _ _) hx
      simp only [List.append_assoc, List.length_append, length_encSize] at this ⊢
      rw [this]; simp; omega

theorem unpackAll_congr {α : Type} (f : α → Nat → Option (α × Nat)) (hf : ∀ x y p, f x p = f y p) :
    ∀ (l m : List α) (p : Nat), l.length = m.length → unpackAll f l p = unpackAll f m p
  | [], [], _, _ => rfl
  | x :: xs, y :: ys, p, h => by
      have ih := fun p => unpackAll_congr f hf xs ys p (by simpa using h)
      simp only [unpackAll, hf x y p, ih]

theorem unpack_old (buf : List Byte) : (t : Ty) → (o₁ o₂ : t.Val) → (p : Nat) →
    unpack buf t o₁ p = unpack buf t o₂ p
  | .pod _, _, _, _ => rfl
  | .str, _, _, _ => rfl
  | .vec t, (o₁ : List t.Val), (o₂ : List t.Val), p => by
      have ih := unpack_old buf t
      simp only [unpack]
      congr 1; funext x
      exact unpackAll_congr _ ih _ _ _ (by rw [length_resize, length_resize])

theorem packerSize_eq (fs : List Field) :
    packerSize fs = (fs.flatMap fun f => enc f.1 f.2).length := by
  simp only [packerSize, foldl_size, List.length_flatMap, length_enc, Nat.zero_add]

theorem packer_loop (fs : List Field) : ∀ (a gap : List Byte),
    gap.length = (fs.flatMap fun f => enc f.1 f.2).length →
    fs.foldlM (fun o (f : Field) => pack f.1 f.2 o) (a ++ gap, a.length)
      = some (a ++ (fs.flatMap fun f => enc f.1 f.2), a.length + gap.length) := by
  induction fs with
  | nil => intro a gap h; simp at h; subst h; simp
  | cons f fs ih =>
      intro a gap h
      simp only [List.flatMap_cons, List.length_append] at h
      have e : a ++ gap = a ++ gap.take (enc f.1 f.2).length ++ gap.drop (enc f.1 f.2).length := by
        simp
      rw [List.foldlM_cons, e, pack_spec f.1 f.2 a _ _ (by simp; omega)]
      simp only [Option.bind_eq_bind, Option.bind_some]
      have := ih (a ++ enc f.1 f.2) (gap.drop (enc f.1 f.2).length) (by simp only [List.length_drop]; omega)
      simp only [List.append_assoc, List.length_append] at this ⊢
      rw [this]; simp; omega

theorem packer_unpack_loop (fs : List Field) : ∀ (a b : List Byte) (olds : List Field),
    olds.map Sigma.fst = fs.map Sigma.fst → (∀ f ∈ fs, Fits f.1 f.2) →
    packerUnpack (a ++ (fs.flatMap fun f => enc f.1 f.2) ++ b) olds a.length
      = some (fs, a.length + (fs.flatMap fun f => enc f.1 f.2).length) := by
  induction fs with
  | nil => intro a b olds h _; have : olds = [] := by simpa using h
           subst this; simp [packerUnpack]
  | cons f fs ih =>
      intro a b olds h hf
      match olds, h with
      | ⟨t, o⟩ :: os, h =>
        simp only [List.map_cons, List.cons.injEq] at h
        obtain ⟨h1, h2⟩ := h
        obtain ⟨ft, fv⟩ := f
        simp only at h1
        subst h1
        simp only [packerUnpack, List.flatMap_cons]
        have e : a ++ (enc t fv ++ (fs.flatMap fun f => enc f.1 f.2)) ++ b
            = a ++ enc t fv ++ ((fs.flatMap fun f => enc f.1 f.2) ++ b) := by simp
        rw [e, unpack_spec t fv (hf ⟨t, fv⟩ (by simp)) a _ o]
        simp only [Option.bind_eq_bind, Option.bind_some]
        have := ih (a ++ enc t fv) b os h2 (fun g hg => hf g (by simp [hg]))
        simp only [List.append_assoc, List.length_append] at this ⊢
        rw [this]; simp [Nat.add_assoc]

end Verif.Packing
