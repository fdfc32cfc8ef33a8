import Verif.Model.TArray
import Verif.Proof.Packing
/-
C50: packing of thread arrays and of serialized data.
-/
namespace Verif.TArr
open Verif.Packing

/-- Invariant of a constructed array: when it has elements, the bytes of all of them are allocated at the offset; a distribution is
never empty; sizes fit `size_t`. -/
structure TA.Valid (sz : Nat) (a : TA) : Prop where
  mem : a.size ≠ 0 → ∃ b, a.buf = some b ∧ a.off + a.size * sz ≤ b.length
  dist : a.dist ≠ []
  fitd : a.dist.length < 2 ^ 64
  fits : a.size < 2 ^ 64
  fit : ∀ x ∈ a.dist, x < 2 ^ 64

theorem align_offset (align addr : Nat) (h : 0 < align) : (align - addr % align) % align < align ∧
    (addr + (align - addr % align) % align) % align = 0 := by
  refine ⟨Nat.mod_lt _ h, ?_⟩
  rw [Nat.add_mod_mod]
  have h1 := Nat.mod_lt addr h
  have h2 := Nat.div_add_mod addr align
  have : addr + (align - addr % align) = align * (addr / align + 1) := by rw [Nat.mul_succ]; omega
  rw [this, Nat.mul_mod_right]

/-- C50.  `allocate` never fails: whatever address the allocator returns, the requested bytes hold all elements behind the offset,
and the data start at the first multiple of the alignment. -/
theorem C50_allocate (sz : Nat) (hs : 0 < sz) (a : TA) (addr : Nat) (junk : Nat → Byte) :
    ∃ a', allocate sz a addr junk = some a' ∧ a'.size = a.size ∧ a'.dist = a.dist ∧ a'.align = a.align ∧
      (∃ b, a'.buf = some b ∧ a'.off + a.size * sz ≤ b.length) ∧ (a.align ≠ 0 → (addr + a'.off) % a.align = 0 ∧ a'.off < a.align) ∧
      (a.align = 0 → a'.off = 0) := by
  unfold allocate
  by_cases h : a.align ≠ 0
  · have hp : 0 < a.align := Nat.pos_of_ne_zero h
    obtain ⟨h1, h2⟩ := align_offset a.align addr hp
    have hfit : (a.align - addr % a.align) % a.align + a.size * sz ≤ allocBytes sz a.size a.align := by
      unfold allocBytes
      rw [if_pos h, Nat.add_assoc, Nat.add_mul]
      have h3 := Nat.div_add_mod (a.align - 1) sz
      have h4 := Nat.mod_lt (a.align - 1) hs
      have h5 : ((a.align - 1) / sz + 1) * sz = sz * ((a.align - 1) / sz) + sz := by rw [Nat.add_mul, Nat.mul_comm, Nat.one_mul]
      omega
    rw [if_pos h]
    unfold stdAlign
    rw [if_pos hfit]
    exact ⟨_, rfl, rfl, rfl, rfl, ⟨_, rfl, by simpa using hfit⟩, fun _ => ⟨h2, h1⟩, fun h' => absurd h' h⟩
  · rw [if_neg h]
    refine ⟨_, rfl, rfl, rfl, rfl, ⟨_, rfl, ?_⟩, fun h' => absurd h' h, fun _ => rfl⟩
    simp [allocBytes, h]

/-- The bytes `pack` writes when `_data` is not shifted. -/
def enc (sz : Nat) (a : TA) : List Byte := encSize a.dist.length ++ a.dist.flatMap encSize ++ encSize a.size ++ a.view sz

theorem length_flatMap_encSize (l : List Nat) : (l.flatMap encSize).length = l.length * 8 := by
  induction l with
  | nil => rfl
  | cons x l ih => rw [List.flatMap_cons, List.length_append, ih, length_encSize, List.length_cons]; omega

theorem length_view (sz : Nat) (a : TA) (h : a.Valid sz) : (a.view sz).length = a.size * sz := by
  unfold TA.view
  by_cases h0 : a.size = 0
  · simp [h0]
  · obtain ⟨b, hb, hl⟩ := h.mem h0
    rw [hb]
    simp only [Option.getD_some, List.length_take, List.length_drop]
    omega

theorem length_enc (sz : Nat) (a : TA) (h : a.Valid sz) : (enc sz a).length = packedSize sz a := by
  simp only [enc, packedSize, List.length_append, length_encSize, length_flatMap_encSize, length_view sz a h]

theorem split_gap (a gap b : List Byte) (n : Nat) : a ++ gap ++ b = a ++ gap.take n ++ (gap.drop n ++ b) := by
  simp only [List.append_assoc]; rw [← List.append_assoc (gap.take n), List.take_append_drop]

/-- Writing several pieces one after the other. -/
theorem put_step (pre src : List Byte) (gap b : List Byte) (h : src.length ≤ gap.length) :
    put src (pre ++ gap ++ b, pre.length) = some ((pre ++ src) ++ gap.drop src.length ++ b, (pre ++ src).length) := by
  rw [split_gap pre gap b src.length, put_spec _ _ _ _ (by rw [List.length_take]; omega), List.length_append]
  simp

theorem pack_eq (sz : Nat) (a : TA) (hv : a.Valid sz) (h0 : a.off = 0) (pre gap b : List Byte) (hg : gap.length = packedSize sz a) :
    pack sz a (pre ++ gap ++ b, pre.length) = some (pre ++ enc sz a ++ b, (pre ++ enc sz a).length) := by
  have hd := length_flatMap_encSize a.dist
  unfold packedSize at hg
  unfold pack
  rw [put_step _ _ _ _ (by rw [length_encSize]; omega)]
  simp only [Option.bind_eq_bind, Option.bind_some, length_encSize]
  rw [put_step _ _ _ _ (by rw [List.length_drop]; omega), Option.bind_some,
    put_step _ _ _ _ (by rw [length_encSize, List.length_drop, List.length_drop]; omega), Option.bind_some]
  by_cases hz : a.size = 0
  · rw [if_neg (by simp [hz])]
    have hview : a.view sz = [] := List.eq_nil_of_length_eq_zero (by rw [length_view sz a hv, hz, Nat.zero_mul])
    rw [List.drop_of_length_le (l := List.drop _ _) (by
      rw [List.length_drop, List.length_drop, length_encSize, hd]; rw [hz, Nat.zero_mul] at hg; omega)]
    unfold enc
    rw [hview]
    simp
  · rw [if_pos hz]
    obtain ⟨bb, hb, hl⟩ := hv.mem hz
    have hview : a.view sz = bb.take (a.size * sz) := by unfold TA.view; rw [hb, h0]; rfl
    have hcp : memcpyFrom bb 0 (a.size * sz) = some (a.view sz) := by
      unfold memcpyFrom
      rw [if_pos (by omega), hview, List.drop_zero]
    rw [hb, Option.bind_some, hcp, Option.bind_some]
    have hvl := length_view sz a hv
    rw [put_step _ _ _ _ (by simp only [List.length_drop, length_encSize]; omega)]
    rw [List.drop_of_length_le (l := List.drop _ _) (by simp only [List.length_drop, length_encSize]; omega)]
    unfold enc
    simp

theorem getSizes_spec (l : List Nat) : ∀ (a b : List Byte), (∀ x ∈ l, x < 2 ^ 64) →
    getSizes (a ++ l.flatMap encSize ++ b) l.length a.length = some (l, (a ++ l.flatMap encSize).length) := by
  induction l with
  | nil => intro a b _; simp [getSizes]
  | cons x l ih =>
      intro a b h
      have e : a ++ (x :: l).flatMap encSize ++ b = a ++ encSize x ++ (l.flatMap encSize ++ b) := by simp
      rw [List.length_cons, getSizes, e, get_spec _ _ _ 8 (by simp)]
      simp only [Option.bind_eq_bind, Option.bind_some]
      have := ih (a ++ encSize x) b (fun y hy => h y (by simp [hy]))
      rw [List.append_assoc, List.length_append, length_encSize] at this
      simp only [List.append_assoc] at this ⊢
      rw [this, Option.bind_some, decSize_encSize (h x (by simp))]
      simp

/-- The array `a'` holds the same elements as `a`. -/
def Same (sz : Nat) (a a' : TA) : Prop := a'.size = a.size ∧ a'.dist = a.dist ∧ a'.view sz = a.view sz

theorem unpack_eq (sz : Nat) (hs : 0 < sz) (a : TA) (hv : a.Valid sz) (old : TA) (addr : Nat) (junk : Nat → Byte)
    (hoff : old.align ≠ 0 → addr % old.align = 0) (pre b : List Byte) :
    ∃ a', unpack sz (pre ++ enc sz a ++ b) old addr junk pre.length = some (a', (pre ++ enc sz a).length) ∧ Same sz a a' := by
  have e1 : pre ++ enc sz a ++ b = pre ++ encSize a.dist.length ++ (a.dist.flatMap encSize ++ encSize a.size ++ a.view sz ++ b) := by
    simp [enc]
  have e2 : pre ++ enc sz a ++ b = (pre ++ encSize a.dist.length) ++ a.dist.flatMap encSize ++ (encSize a.size ++ a.view sz ++ b) := by
    simp [enc]
  have e3 : pre ++ enc sz a ++ b = (pre ++ encSize a.dist.length ++ a.dist.flatMap encSize) ++ encSize a.size ++ (a.view sz ++ b) := by
    simp [enc]
  have e4 : pre ++ enc sz a ++ b = (pre ++ encSize a.dist.length ++ a.dist.flatMap encSize ++ encSize a.size) ++ a.view sz ++ b := by
    simp [enc]
  have g1 : get (pre ++ enc sz a ++ b) pre.length 8 = some (encSize a.dist.length, (pre ++ encSize a.dist.length).length) := by
    rw [e1, get_spec _ _ _ 8 (by simp)]; simp
  have g2 : getSizes (pre ++ enc sz a ++ b) a.dist.length (pre ++ encSize a.dist.length).length =
      some (a.dist, (pre ++ encSize a.dist.length ++ a.dist.flatMap encSize).length) := by
    rw [e2, getSizes_spec _ _ _ hv.fit]
  have g3 : get (pre ++ enc sz a ++ b) (pre ++ encSize a.dist.length ++ a.dist.flatMap encSize).length 8 =
      some (encSize a.size, (pre ++ encSize a.dist.length ++ a.dist.flatMap encSize ++ encSize a.size).length) := by
    rw [e3, get_spec _ _ _ 8 (by simp), List.length_append (bs := encSize a.size), length_encSize]
  have g4 : get (pre ++ enc sz a ++ b) (pre ++ encSize a.dist.length ++ a.dist.flatMap encSize ++ encSize a.size).length (a.size * sz) =
      some (a.view sz, (pre ++ enc sz a).length) := by
    rw [e4, get_spec _ _ _ _ (length_view sz a hv)]
    rw [← length_view sz a hv, ← List.length_append]; simp [enc]
  unfold unpack
  rw [g1]
  simp only [Option.bind_eq_bind, Option.bind_some]
  rw [decSize_encSize hv.fitd, g2]
  simp only [Option.bind_some]
  rw [g3]
  simp only [Option.bind_some]
  rw [decSize_encSize hv.fits]
  have hrel : ∃ r, release { old with dist := a.dist, size := a.size } = some r ∧ r.size = a.size ∧ r.dist = a.dist ∧ r.align = old.align := by
    unfold release
    cases hb : old.buf with
    | none => exact ⟨_, rfl, rfl, rfl, rfl⟩
    | some x =>
        simp only []
        rw [List.getLast?_eq_some_getLast hv.dist]
        simp only [Option.bind_eq_bind, Option.bind_some]
        by_cases hbk : a.dist.getLast hv.dist ≠ a.size
        · rw [if_pos hbk]; exact ⟨_, rfl, rfl, rfl, rfl⟩
        · rw [if_neg hbk]; exact ⟨_, rfl, rfl, rfl, rfl⟩
  obtain ⟨r, er, hr1, hr2, hr3⟩ := hrel
  rw [er]
  simp only [Option.bind_some]
  by_cases hz : r.size = 0
  · rw [if_neg (by simp [hz])]
    have hz' : a.size = 0 := by omega
    have hv0 : a.view sz = [] := List.eq_nil_of_length_eq_zero (by rw [length_view sz a hv, hz', Nat.zero_mul])
    refine ⟨r, ?_, hr1, hr2, by rw [hv0]; simp [TA.view, hz]⟩
    simp [enc, hv0]
  · rw [if_pos hz]
    obtain ⟨a', ea, h1, h2, h3, ⟨bb, hb, hbl⟩, h5, h6⟩ := C50_allocate sz hs r addr junk
    rw [ea, Option.bind_some, h1, hr1, g4]
    simp only [Option.bind_some]
    rw [hb, Option.bind_some]
    have hvl := length_view sz a hv
    have ho : a'.off = 0 := by
      by_cases hal : r.align = 0
      · exact h6 hal
      · have hal' : old.align ≠ 0 := by rw [← hr3]; exact hal
        have := hoff hal'
        obtain ⟨h7, h8⟩ := h5 hal
        rw [← hr3] at this
        rw [Nat.add_mod, this, Nat.zero_add, Nat.mod_mod, Nat.mod_eq_of_lt h8] at h7
        exact h7
    have hmc : memcpyTo bb 0 (a.view sz) = some (a.view sz ++ bb.drop (a.view sz).length) := by
      unfold memcpyTo
      rw [if_pos (by rw [hvl]; rw [hr1] at hbl; omega)]
      simp
    rw [hmc, Option.bind_some]
    refine ⟨_, rfl, rfl, by show a'.dist = _; rw [h2, hr2], ?_⟩
    show (List.drop a'.off (a.view sz ++ bb.drop (a.view sz).length)).take (a.size * sz) = a.view sz
    rw [ho, List.drop_zero, ← hvl, List.take_left]

/-- C50.  Arrays whose data are not shifted by an alignment (every array without alignment request, or with an address that is
aligned already): for every content, element size, previous state of the target and position in the buffer, packing writes exactly
`packedSize` bytes and unpacking them restores size, distribution and data and leaves the cursor behind them.
Missing: an alignment request with an address that is not aligned, where data are lost, see `C50_aligned_lost`. -/
theorem C50_roundtrip_partial (sz : Nat) (hs : 0 < sz) (a : TA) (hv : a.Valid sz) (h0 : a.off = 0) (old : TA) (addr : Nat)
    (junk : Nat → Byte) (hoff : old.align ≠ 0 → addr % old.align = 0) (pre gap b : List Byte) (hg : gap.length = packedSize sz a) :
    ∃ buf a', pack sz a (pre ++ gap ++ b, pre.length) = some (buf, pre.length + packedSize sz a) ∧
      (∃ mid, buf = pre ++ mid ++ b ∧ mid.length = gap.length) ∧
      unpack sz buf old addr junk pre.length = some (a', pre.length + packedSize sz a) ∧ Same sz a a' := by
  obtain ⟨a', e, hsame⟩ := unpack_eq sz hs a hv old addr junk hoff pre b
  have hl := length_enc sz a hv
  refine ⟨_, a', ?_, ⟨enc sz a, rfl, by rw [hl, hg]⟩, ?_, hsame⟩
  · rw [pack_eq sz a hv h0 pre gap b hg, List.length_append, hl]
  · rw [e, List.length_append, hl]

/-- C50, the defect.  One-byte elements 7, 8 in memory allocated at the address 1 with alignment 4 (so shifted by 3): the packed bytes
are the unused ones in front of the data. -/
theorem C50_aligned_lost :
    ∃ (a : TA) (buf : List Byte) (p : Nat) (a' : TA), a.Valid 1 ∧ allocate 1 ⟨2, 4, [0, 2], none, 0⟩ 1 (fun _ => 0) =
        some { a with buf := some [0, 0, 0, 0, 0, 0] } ∧ a.view 1 = [7, 8] ∧
      pack 1 a (List.replicate (packedSize 1 a) 0, 0) = some (buf, p) ∧
      unpack 1 buf TA.empty 0 (fun _ => 0) 0 = some (a', p) ∧ a'.view 1 = [0, 0] := by
  refine ⟨⟨2, 4, [0, 2], some [0, 0, 0, 7, 8, 0], 3⟩, _, _, ⟨2, 0, [0, 2], some [0, 0], 0⟩, ⟨?_, by decide, by decide, by decide, by decide⟩,
    by decide, by decide, rfl, by decide, by decide⟩
  intro _
  exact ⟨_, rfl, by decide⟩

/-- The same elements of serialized data. -/
def SD.Same (sb sd : Nat) (x y : SD) : Prop := y.es = x.es ∧ TArr.Same sb x.bnd y.bnd ∧ TArr.Same sd x.data y.data

def encSD (sb sd : Nat) (x : SD) : List Byte := x.es ++ enc sb x.bnd ++ enc sd x.data

theorem SD.pack_eq (w sb sd : Nat) (x : SD) (hw : x.es.length = w) (hb : x.bnd.Valid sb) (hd : x.data.Valid sd) (hb0 : x.bnd.off = 0)
    (hd0 : x.data.off = 0) (pre gap b : List Byte) (hg : gap.length = x.packedSize w sb sd) :
    x.pack sb sd (pre ++ gap ++ b, pre.length) = some (pre ++ encSD sb sd x ++ b, (pre ++ encSD sb sd x).length) := by
  unfold SD.packedSize at hg
  unfold SD.pack
  rw [put_step _ _ _ _ (by omega)]
  simp only [Option.bind_eq_bind, Option.bind_some]
  have hgl : (gap.drop x.es.length).length = TArr.packedSize sb x.bnd + TArr.packedSize sd x.data := by rw [List.length_drop]; omega
  rw [split_gap (pre ++ x.es) (gap.drop x.es.length) b (TArr.packedSize sb x.bnd),
    TArr.pack_eq sb x.bnd hb hb0 _ _ _ (by rw [List.length_take]; omega), Option.bind_some, ← List.append_assoc,
    TArr.pack_eq sd x.data hd hd0 _ _ _ (by rw [List.length_drop]; omega)]
  simp [encSD]

theorem SD.unpack_eq (w sb sd : Nat) (hsb : 0 < sb) (hsd : 0 < sd) (x : SD) (hw : x.es.length = w) (hb : x.bnd.Valid sb)
    (hd : x.data.Valid sd) (old : SD) (addr : Nat × Nat) (junk : Nat → Byte) (ho1 : old.bnd.align ≠ 0 → addr.1 % old.bnd.align = 0)
    (ho2 : old.data.align ≠ 0 → addr.2 % old.data.align = 0) (pre b : List Byte) :
    ∃ y, SD.unpack w sb sd (pre ++ encSD sb sd x ++ b) old addr junk pre.length = some (y, (pre ++ encSD sb sd x).length) ∧
      SD.Same sb sd x y := by
  have e1 : pre ++ encSD sb sd x ++ b = pre ++ x.es ++ (enc sb x.bnd ++ enc sd x.data ++ b) := by simp [encSD]
  have e2 : pre ++ encSD sb sd x ++ b = (pre ++ x.es) ++ enc sb x.bnd ++ (enc sd x.data ++ b) := by simp [encSD]
  have e3 : pre ++ encSD sb sd x ++ b = (pre ++ x.es ++ enc sb x.bnd) ++ enc sd x.data ++ b := by simp [encSD]
  obtain ⟨b', eb, hb'⟩ := TArr.unpack_eq sb hsb x.bnd hb old.bnd addr.1 junk ho1 (pre ++ x.es) (enc sd x.data ++ b)
  obtain ⟨d', ed, hd'⟩ := TArr.unpack_eq sd hsd x.data hd old.data addr.2 junk ho2 (pre ++ x.es ++ enc sb x.bnd) b
  rw [← e2] at eb
  rw [← e3] at ed
  have g1 : get (pre ++ encSD sb sd x ++ b) pre.length w = some (x.es, (pre ++ x.es).length) := by
    rw [e1, get_spec _ _ _ w hw, List.length_append, hw]
  refine ⟨⟨x.es, b', d'⟩, ?_, rfl, hb', hd'⟩
  unfold SD.unpack
  rw [g1]
  simp only [Option.bind_eq_bind, Option.bind_some]
  rw [eb]
  simp only [Option.bind_some]
  rw [ed]
  simp only [Option.bind_some]
  have e4 : (pre ++ x.es ++ enc sb x.bnd ++ enc sd x.data).length = (pre ++ encSD sb sd x).length := by simp [encSD]
  rw [e4]

/-- C50.  A pointer to serialized data: a null pointer comes back as a null pointer and data come back as equal data, whatever was in the
target before; exactly `packedSize` bytes are used. -/
theorem C50_serialized_partial (w sb sd : Nat) (hsb : 0 < sb) (hsd : 0 < sd) (x : Option SD)
    (hx : ∀ y, x = some y → y.es.length = w ∧ y.bnd.Valid sb ∧ y.data.Valid sd ∧ y.bnd.off = 0 ∧ y.data.off = 0)
    (old : Option SD) (addr : Nat × Nat) (junk : Nat → Byte) (pre gap b : List Byte) (hg : gap.length = ptrPackedSize w sb sd x) :
    ∃ buf r, ptrPack sb sd x (pre ++ gap ++ b, pre.length) = some (buf, pre.length + ptrPackedSize w sb sd x) ∧
      (∃ mid, buf = pre ++ mid ++ b ∧ mid.length = gap.length) ∧
      ptrUnpack w sb sd buf old addr junk pre.length = some (r, pre.length + ptrPackedSize w sb sd x) ∧
      (x = none → r = none) ∧ ∀ y, x = some y → ∃ z, r = some z ∧ SD.Same sb sd y z := by
  cases x with
  | none =>
      have hg : gap.length = 1 := hg
      refine ⟨pre ++ [0] ++ b, none, ?_, ⟨[0], rfl, by rw [hg]; rfl⟩, ?_, fun _ => rfl, by intro y h; cases h⟩
      · show put [0] _ = _
        rw [put_spec _ _ _ _ (by rw [hg]; rfl)]; rfl
      · unfold ptrUnpack
        rw [get_spec pre [0] b 1 rfl]
        simp only [Option.bind_eq_bind, Option.bind_some]
        rw [if_neg (by simp)]; rfl
  | some x =>
      obtain ⟨hw, hb, hd, hb0, hd0⟩ := hx x rfl
      have hg : gap.length = 1 + x.packedSize w sb sd := hg
      have hps : ptrPackedSize w sb sd (some x) = 1 + x.packedSize w sb sd := rfl
      rw [hps]
      have hlen : (encSD sb sd x).length = x.packedSize w sb sd := by
        simp only [encSD, SD.packedSize, List.length_append, hw, length_enc _ _ hb, length_enc _ _ hd]
      obtain ⟨z, ez, hz⟩ := SD.unpack_eq w sb sd hsb hsd x hw hb hd ⟨[], TA.empty, TA.empty⟩ addr junk
        (by intro h; exact absurd rfl h) (by intro h; exact absurd rfl h) (pre ++ [1]) b
      have e1 : pre ++ ([1] ++ encSD sb sd x) ++ b = pre ++ [1] ++ (encSD sb sd x ++ b) := by simp
      have e2 : pre ++ ([1] ++ encSD sb sd x) ++ b = pre ++ [1] ++ encSD sb sd x ++ b := by simp
      refine ⟨pre ++ ([1] ++ encSD sb sd x) ++ b, some z, ?_, ⟨_, rfl, by rw [List.length_append, hlen, hg]; rfl⟩, ?_,
        (by intro h; cases h), by intro y h; cases h; exact ⟨z, rfl, hz⟩⟩
      · show ((put [1] (pre ++ gap ++ b, pre.length)).bind fun o => x.pack sb sd o) = _
        rw [put_step _ _ _ _ (by simp; omega)]
        simp only [Option.bind_some]
        rw [SD.pack_eq w sb sd x hw hb hd hb0 hd0 _ _ _ (by rw [List.length_drop, hg]; simp), ← e2]
        simp [hlen]; omega
      · unfold ptrUnpack
        rw [e1, get_spec _ _ _ 1 rfl]
        simp only [Option.bind_eq_bind, Option.bind_some]
        rw [if_pos (by decide), ← e1, e2, show pre.length + 1 = (pre ++ [(1 : Byte)]).length by simp, ez]
        simp [hlen]; omega

/-- The hypotheses are met: three two-byte elements on two threads. -/
example : (⟨3, 0, [0, 2, 3], some [1, 2, 3, 4, 5, 6], 0⟩ : TA).Valid 2 :=
  ⟨fun _ => ⟨_, rfl, by decide⟩, by decide, by decide, by decide, by decide⟩
example : (do
    let (buf, _) ← pack 2 ⟨3, 0, [0, 2, 3], some [1, 2, 3, 4, 5, 6], 0⟩ (List.replicate 46 9, 0)
    let (a, p) ← unpack 2 buf ⟨1, 0, [0, 5], some [7, 7], 0⟩ 0 (fun _ => 0) 0
    some (a.size, a.dist, a.view 2, p)) = some (3, [0, 2, 3], [1, 2, 3, 4, 5, 6], 46) := by decide

end Verif.TArr
