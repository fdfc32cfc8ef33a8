import Verif.Proof.SerialItems
import Verif.Proof.Distribute
/-
C48: balancing serialized data over threads.
-/
namespace Verif.Serial
variable {D : Type _}

/-- C48.  Uniform items of `esize` values: for every contents of the threads and every distribution of the items the balancing stays
inside the vectors, keeps the sequence of all values and leaves thread `t` with the values of exactly its items. -/
theorem C48_uniform (esize : Nat) (data : List (List D)) (d : List Nat) (hd : Distribution d data.length)
    (htot : ∀ b, d.getLast? = some b → data.flatten.length = esize * b) :
    ∃ data', balanceUniformBy esize data d = some data' ∧ data'.length = data.length ∧ data'.flatten = data.flatten ∧
      ∀ t x, data'[t]? = some x → ∃ a b, d[t]? = some a ∧ d[t + 1]? = some b ∧ x.length = esize * (b - a) ∧
        x = (data.flatten.take (esize * b)).drop (esize * a) := by
  obtain ⟨data', e, hl, hf, hp⟩ := balanceUniformBy_spec esize data d hd (by
    intro b hb
    apply htot
    rw [List.getLast?_eq_getElem?, hd.length, Nat.add_sub_cancel, hb])
  refine ⟨data', e, hl, hf, ?_⟩
  have hpre : ∀ t a, t ≤ data'.length → d[t]? = some a → (data'.take t).flatten.length = esize * a := by
    intro t
    induction t with
    | zero => intro a _ ha; rw [hd.zero] at ha; cases ha; simp
    | succ t ih =>
        intro b ht hb
        have hg : data'[t]? = some (data'[t]'(by omega)) := List.getElem?_eq_getElem _
        obtain ⟨a, b', ha, hb', hx⟩ := hp t _ hg
        rw [hb] at hb'
        cases hb'
        rw [List.take_add_one, hg, List.flatten_append, List.length_append, ih a (by omega) ha]
        simp only [Option.toList_some, List.flatten_cons, List.flatten_nil, List.append_nil, hx]
        have := Nat.mul_le_mul_left esize (hd.get_le (Nat.le_succ t) ha hb)
        rw [Nat.mul_sub]; omega
  intro t x hx
  obtain ⟨a, b, ha, hb, hab⟩ := hp t x hx
  refine ⟨a, b, ha, hb, hab, ?_⟩
  have htl := (List.getElem?_eq_some_iff.1 hx).1
  have h1 := hpre t a (by omega) ha
  have h2 := hpre (t + 1) b (by omega) hb
  have e1 : data'.flatten = (data'.take (t + 1)).flatten ++ (data'.drop (t + 1)).flatten := by
    rw [← List.flatten_append, List.take_append_drop]
  have e2 : (data'.take (t + 1)).flatten = (data'.take t).flatten ++ x := by
    rw [List.take_add_one, hx]; simp
  rw [← hf, e1, List.take_append_of_le_length (by omega), List.take_of_length_le (by omega), e2, ← h1]
  simp

theorem distribution_distribute (threads size : Nat) (ht : 0 < threads) :
    ∃ d, Utils.distribute threads size 0 = some d ∧ Distribution d threads ∧ d.getLast? = some size ∧ ZeroSuffix d := by
  generalize hc : Utils.chunkSize threads size 0 = c
  obtain ⟨d, e, hl, h1, h2⟩ := Utils.distributeChunk_spec threads size c ht
  have hlast : d.getLast? = some size := by
    rw [List.getLast?_eq_getElem?, hl, Nat.add_sub_cancel, h2]
  refine ⟨d, by unfold Utils.distribute; rw [hc]; exact e, ⟨hl, by rw [h1 0 ht]; simp, ?_⟩, hlast, ?_⟩
  · rw [List.pairwise_iff_getElem]
    intro i j hi hj hij
    have gi : d[i]? = some d[i] := List.getElem?_eq_getElem hi
    have gj : d[j]? = some d[j] := List.getElem?_eq_getElem hj
    have hi' : i < threads := by omega
    rw [h1 i hi'] at gi
    simp only [Option.some.injEq] at gi
    by_cases hj' : j < threads
    · rw [h1 j hj'] at gj
      simp only [Option.some.injEq] at gj
      have := Nat.mul_le_mul_right c (show i ≤ j by omega)
      omega
    · have : j = threads := by omega
      subst this
      rw [h2] at gj
      simp only [Option.some.injEq] at gj
      omega
  · intro t a h0 ha hb
    rw [hlast]
    have htl := (List.getElem?_eq_some_iff.1 hb).1
    have ht' : t < threads := by omega
    rw [h1 t ht'] at ha
    simp only [Option.some.injEq] at ha
    have hm : (t + 1) * c = t * c + c := by rw [Nat.add_mul, Nat.one_mul]
    by_cases hlt : t + 1 < threads
    · rw [h1 _ hlt] at hb
      simp only [Option.some.injEq] at hb
      by_cases hc0 : c = 0
      · -- a zero chunk: there is nothing to distribute
        have : size = 0 := by
          unfold Utils.chunkSize at hc
          rw [hc0] at hc
          have h3 : (size + threads - 1) / threads = 0 := by
            have h6 := Nat.le_max_left ((size + threads - 1) / threads) 0
            rw [hc] at h6
            exact Nat.le_zero.1 h6
          have h4 := Nat.div_add_mod (size + threads - 1) threads
          have h5 := Nat.mod_lt (size + threads - 1) ht
          rw [h3] at h4
          omega
        congr 1; omega
      · congr 1; omega
    · have : t + 1 = threads := by omega
      rw [this, h2] at hb
      exact hb

/-- C48.  Without a given distribution and with single values as items, the values are split by `tarray::distribute`. -/
theorem C48_uniform_default (data : List (List D)) (hne : data ≠ []) :
    ∃ d data', Utils.distribute data.length data.flatten.length 0 = some d ∧ balanceUniform 1 data = some data' ∧
      data'.length = data.length ∧ data'.flatten = data.flatten ∧
      ∀ t x, data'[t]? = some x → ∃ a b, d[t]? = some a ∧ d[t + 1]? = some b ∧ x.length = b - a := by
  obtain ⟨d, e, hd, hlast, -⟩ := distribution_distribute data.length data.flatten.length (List.length_pos_iff.2 hne)
  obtain ⟨data', e', hl, hf, hp⟩ := C48_uniform 1 data d hd (by intro b hb; rw [hlast] at hb; cases hb; omega)
  refine ⟨d, data', e, ?_, hl, hf, ?_⟩
  · unfold balanceUniform
    rw [← List.length_flatten, e]
    exact e'
  · intro t x hx
    obtain ⟨a, b, ha, hb, hab, -⟩ := hp t x hx
    exact ⟨a, b, ha, hb, by omega⟩

/-- C48, a defect.  Without a given distribution the number of *values* is distributed, but `esize` times as many are requested:
for items of two values (one thread, one item) the loop leaves the vectors. -/
theorem C48_uniform_default_undefined : balanceUniform 2 [[1, 2]] = (none : Option (List (List Nat))) := by decide

/-- C48.  Items given by boundaries.  For every contents of the threads that fit, and every distribution of all the items in which
only the first thread and a run of last threads may be empty, the balancing stays inside the vectors, keeps the sequence of
boundaries and the sequence of values, gives thread `t` the boundaries of exactly its items (and the leading zero to thread 0), and
boundaries and values of the threads fit again: each thread owns the values of whole items.
Missing: distributions that leave a thread in the middle without items, see `C48_items_undefined`. -/
theorem C48_items_partial {D : Type} (bnd : List (List Nat)) (data : List (List D)) (d : List Nat) (h : Consistent bnd data)
    (hd : Distribution d data.length) (hz : ZeroSuffix d) (htot : d.getLast? = some (bnd.flatten.length - 1)) :
    ∃ bnd' data', balanceItemsBy bnd data d = some (bnd', data') ∧ bnd'.flatten = bnd.flatten ∧ data'.flatten = data.flatten ∧
      Consistent bnd' data' ∧ bnd'.length = bnd.length ∧
      ∀ t x, bnd'[t]? = some x → ∃ a b, d[t]? = some a ∧ d[t + 1]? = some b ∧
        x.length = (b - a) + if t = 0 then 1 else 0 :=
  balanceItemsBy_spec bnd data d h hd hz htot

/-- C48.  Without a given distribution the items are split by `tarray::distribute` and no restriction is needed. -/
theorem C48_items_default {D : Type} (bnd : List (List Nat)) (data : List (List D)) (h : Consistent bnd data) :
    ∃ d bnd' data', Utils.distribute data.length (bnd.flatten.length - 1) 0 = some d ∧
      balanceItems bnd data = some (bnd', data') ∧ bnd'.flatten = bnd.flatten ∧ data'.flatten = data.flatten ∧
      Consistent bnd' data' ∧ bnd'.length = bnd.length ∧
      ∀ t x, bnd'[t]? = some x → ∃ a b, d[t]? = some a ∧ d[t + 1]? = some b ∧
        x.length = (b - a) + if t = 0 then 1 else 0 := by
  obtain ⟨l, bs, hb⟩ := h.first
  have hpos : 0 < data.length := by rw [← h.length, hb]; simp
  obtain ⟨d, e, hd, hlast, hz⟩ := distribution_distribute data.length (bnd.flatten.length - 1) hpos
  obtain ⟨bnd', data', e', h1, h2, h3, h4, h5⟩ := balanceItemsBy_spec bnd data d h hd hz hlast
  refine ⟨d, bnd', data', e, ?_, h1, h2, h3, h4, h5⟩
  unfold balanceItems
  have hs : (bnd.map List.length).sum ≠ 0 := by rw [hb]; simp
  rw [if_neg hs, ← List.length_flatten, e]
  exact e'

/-- C48, a defect.  Three threads, one item in each; a distribution that leaves the thread in the middle without items makes the code
read in front of the boundaries of that thread. -/
theorem C48_items_undefined :
    Consistent [[0, 1], [2], [3]] [[10], [20], [30]] ∧ Distribution [0, 1, 1, 3] 3 ∧
      balanceItemsBy [[0, 1], [2], [3]] [[10], [20], [30]] [0, 1, 1, 3] = none := by
  refine ⟨⟨rfl, ⟨_, _, rfl⟩, by decide, ?_⟩, ⟨rfl, rfl, by decide⟩, by decide⟩
  intro t ht
  revert ht
  show t < 3 → _
  revert t
  decide

/-- The hypotheses are met: two threads without any item, all items in the last one, items of different sizes (one of them empty). -/
example : Consistent [[0], [], [2, 2, 5]] [[], [], [10, 20, 30, 40, 50]] :=
  ⟨rfl, ⟨_, _, rfl⟩, by decide, by intro t ht; revert ht; show t < 3 → _; revert t; decide⟩
example : balanceItems [[0], [], [2, 2, 5]] [[], [], [10, 20, 30, 40, 50]] =
    some ([[0, 2], [2], [5]], [[10, 20], [], [30, 40, 50]]) := by decide
example : balanceItemsBy [[0, 2, 2], [5], []] [[10, 20], [30, 40, 50], []] [0, 0, 1, 3] =
    some ([[0], [2], [2, 5]], [[], [10, 20], [30, 40, 50]]) := by decide
example : Distribution [0, 0, 1, 3] 3 ∧ ZeroSuffix [0, 0, 1, 3] := by
  refine ⟨⟨rfl, rfl, by decide⟩, ?_⟩
  intro t a h0 h1 h2
  rcases t with _ | _ | _ | _ | t
  · omega
  · have e1 : 0 = a := by simpa using h1
    have e2 : 1 = a := by simpa using h2
    omega
  · have e1 : 1 = a := by simpa using h1
    have e2 : 3 = a := by simpa using h2
    omega
  · simp at h2
  · simp at h2
example : balanceUniformBy 2 [[], [1, 2, 3, 4, 5, 6, 7, 8], []] [0, 1, 3, 4] = some [[1, 2], [3, 4, 5, 6], [7, 8]] := by decide

end Verif.Serial
