import Verif.Proof.SerialPermute
/-
C58: iteration over the items of a thread visits exactly the items of the thread.
-/
namespace Verif.Serial
variable {D : Type}

/-- The iterator at item (or end) `i`. -/
def itAt (ebnd : List Nat) (i : Nat) : It := ⟨some i, ebnd.getD i 0, if i + 1 < ebnd.length then ebnd.getD (i + 1) 0 else ebnd.getD i 0⟩

theorem getD_get {l : List Nat} {i : Nat} (h : i < l.length) : l[i]? = some (l.getD i 0) := by
  rw [List.getD_eq_getElem?_getD, List.getElem?_eq_getElem h]; rfl

theorem getD_mono {l : List Nat} (hm : l.Pairwise (· ≤ ·)) {i j : Nat} (hij : i ≤ j) (hj : j < l.length) : l.getD i 0 ≤ l.getD j 0 := by
  rw [List.getD_eq_getElem?_getD, List.getD_eq_getElem?_getD, List.getElem?_eq_getElem hj, List.getElem?_eq_getElem (by omega)]
  rcases Nat.lt_or_eq_of_le hij with h1 | h1
  · exact List.pairwise_iff_getElem.1 hm i j _ _ h1
  · subst h1; exact Nat.le_refl _

theorem move_eq (ebnd : List Nat) (hm : ebnd.Pairwise (· ≤ ·)) (i j e : Nat) (n : Int) (hij : (i : Int) + n = j) (hi : i < ebnd.length)
    (hj : j < ebnd.length) :
    It.move ebnd (ebnd.length - 1) ⟨some i, ebnd.getD i 0, e⟩ n = some (itAt ebnd j) := by
  unfold It.move
  simp only [hij]
  rw [if_neg (by omega), Int.toNat_natCast, getD_get hj, getD_get hi]
  simp only [Option.bind_eq_bind, Option.bind_some]
  have hb : ebnd.getD i 0 + ebnd.getD j 0 - ebnd.getD i 0 = ebnd.getD j 0 := by omega
  rw [hb]
  unfold itAt
  by_cases hl : j = ebnd.length - 1
  · rw [if_neg (by simp [hl]), if_neg (by omega)]
  · rw [if_pos hl, if_pos (by omega), getD_get (by omega), Option.bind_some]
    have := getD_mono hm (show j ≤ j + 1 by omega) (by omega)
    rw [show ebnd.getD j 0 + ebnd.getD (j + 1) 0 - ebnd.getD j 0 = ebnd.getD (j + 1) 0 by omega]

theorem firstItem_eq (ebnd : List Nat) (hm : ebnd.Pairwise (· ≤ ·)) (h0 : ebnd[0]? = some 0) : firstItem ebnd = some (itAt ebnd 0) := by
  have hl := (List.getElem?_eq_some_iff.1 h0).1
  have hz : ebnd.getD 0 0 = 0 := by rw [List.getD_eq_getElem?_getD, h0]; rfl
  unfold firstItem
  rw [if_neg (by rintro rfl; simp at hl)]
  have := move_eq ebnd hm 0 0 0 0 rfl hl hl
  rw [hz] at this
  exact this

/-- Index of the first item of thread `t`: thread 0 holds the leading boundary. -/
def firstOf (bdist : List Nat) (t : Nat) : Nat := bdist.getD t 0 - 1

theorem initItems_eq (ebnd bdist : List Nat) (threads : Nat) (hm : ebnd.Pairwise (· ≤ ·)) (h0 : ebnd[0]? = some 0)
    (hd : Distribution bdist threads) (hlast : bdist.getLast? = some ebnd.length) (hpos : ∀ t a, 0 < t → bdist[t]? = some a → 0 < a) :
    initItems ebnd bdist threads = some ((List.range (threads + 1)).map fun t => itAt ebnd (firstOf bdist t)) := by
  unfold initItems
  rw [firstItem_eq ebnd hm h0]
  simp only [Option.bind_eq_bind, Option.bind_some]
  have hl := (List.getElem?_eq_some_iff.1 h0).1
  have hf0 : firstOf bdist 0 = 0 := by unfold firstOf; rw [List.getD_eq_getElem?_getD, hd.zero]; rfl
  obtain ⟨s, e, hs⟩ := forLoop_inv (show 1 ≤ threads + 1 by omega) (List.replicate (threads + 1) (itAt ebnd 0)) (fun t its => do
      let d ← bdist[t]?
      let it ← its[t]?
      let it ← it.move ebnd (ebnd.length - 1) ((d : Int) - 1)
      wr its t it)
    (fun t s => s = ((List.range t).map fun t => itAt ebnd (firstOf bdist t)) ++ List.replicate (threads + 1 - t) (itAt ebnd 0))
    (by
      rw [List.range_one, List.map_singleton, hf0, Nat.add_sub_cancel, List.replicate_succ]; rfl)
    (by
      rintro t h1 h2 s rfl
      obtain ⟨a, ha⟩ := hd.get (t := t) (by omega)
      obtain ⟨c, hc⟩ := hd.get (t := threads) (by omega)
      have hac := hd.get_le (by omega) ha hc
      have hap := hpos t a (by omega) ha
      rw [List.getLast?_eq_getElem?, hd.length, Nat.add_sub_cancel, hc] at hlast
      cases hlast
      have hfa : firstOf bdist t = a - 1 := by unfold firstOf; rw [List.getD_eq_getElem?_getD, ha]; rfl
      have hr : List.replicate (threads + 1 - t) (itAt ebnd 0) = itAt ebnd 0 :: List.replicate (threads + 1 - (t + 1)) (itAt ebnd 0) := by
        rw [show threads + 1 - t = (threads + 1 - (t + 1)) + 1 by omega, List.replicate_succ]
      refine ⟨_, ?_, rfl⟩
      rw [ha, hr, get_at' _ _ _ _ (by simp)]
      simp only [Option.bind_eq_bind, Option.bind_some]
      have hm' : It.move ebnd (ebnd.length - 1) (itAt ebnd 0) ((a : Int) - 1) = some (itAt ebnd (a - 1)) :=
        move_eq ebnd hm 0 (a - 1) _ _ (by omega) hl (by omega)
      rw [hm', Option.bind_some, wr_at' _ _ _ _ _ (by simp), List.range_succ, List.map_append, List.map_singleton, hfa]
      simp)
  simp only [Option.bind_eq_bind] at e
  rw [e, hs]
  simp

theorem iterate_items (ebnd : List Nat) (hm : ebnd.Pairwise (· ≤ ·)) (k : Nat) : ∀ (i fuel : Nat), i + k < ebnd.length → k ≤ fuel →
    iterate ebnd (ebnd.length - 1) (itAt ebnd (i + k)) fuel (itAt ebnd i) =
      some ((List.range' i k).map fun j => (ebnd.getD j 0, ebnd.getD (j + 1) 0)) := by
  induction k with
  | zero =>
      intro i fuel _ _
      cases fuel <;> simp [iterate]
  | succ k ih =>
      intro i fuel h hf
      obtain ⟨fuel, rfl⟩ : ∃ f, fuel = f + 1 := ⟨fuel - 1, by omega⟩
      rw [iterate, if_neg (by simp [itAt])]
      have hmv : It.move ebnd (ebnd.length - 1) (itAt ebnd i) 1 = some (itAt ebnd (i + 1)) :=
        move_eq ebnd hm i (i + 1) _ 1 (by omega) (by omega) (by omega)
      have := ih (i + 1) fuel (by omega) (by omega)
      rw [show i + 1 + k = i + (k + 1) by omega] at this
      simp only [Option.bind_eq_bind]
      rw [hmv, Option.bind_some, this, Option.bind_some, List.range'_succ, List.map_cons]
      congr 2
      unfold itAt
      simp only [if_pos (show i + 1 < ebnd.length by omega)]

/-- C58.  Items with boundaries.  For all boundaries and every distribution of the boundaries to threads in which thread 0 holds the
leading one, the iterators are set up without leaving the arrays, and a loop from `begin(t)` to `end(t)` visits exactly the items
`d t - 1, ..., d (t + 1) - 2` (thread 0 starts with item 0), each with the range of its values; all threads together visit each item once. -/
theorem C58_items_partial (ebnd : List Nat) (edata : List D) (h : Items ebnd edata) (bdist : List Nat) (threads : Nat)
    (hd : Distribution bdist threads) (hlast : bdist.getLast? = some ebnd.length) (hpos : ∀ t a, 0 < t → bdist[t]? = some a → 0 < a) :
    ∃ its, initItems ebnd bdist threads = some its ∧ its.length = threads + 1 ∧
      (∀ t, t < threads → ∃ b e a c l, its[t]? = some b ∧ its[t + 1]? = some e ∧ bdist[t]? = some a ∧ bdist[t + 1]? = some c ∧
        (∀ fuel, edata.length + ebnd.length ≤ fuel → iterate ebnd (ebnd.length - 1) e fuel b = some l) ∧ l.length = (c - 1) - (a - 1) ∧
        ∀ k r, l[k]? = some r → ebnd[a - 1 + k]? = some r.1 ∧ ebnd[a - 1 + k + 1]? = some r.2) ∧
      ∀ i, i + 1 < ebnd.length → ∃ t a c, t < threads ∧ bdist[t]? = some a ∧ bdist[t + 1]? = some c ∧ a - 1 ≤ i ∧ i < c - 1 := by
  refine ⟨_, initItems_eq ebnd bdist threads h.mono h.zero hd hlast hpos, by simp, ?_, ?_⟩
  · intro t htt
    obtain ⟨a, ha⟩ := hd.get (t := t) (by omega)
    obtain ⟨c, hc⟩ := hd.get (t := t + 1) (by omega)
    obtain ⟨z, hz⟩ := hd.get (t := threads) (by omega)
    have hac := hd.get_le (by omega) ha hc
    have hcz := hd.get_le (by omega) hc hz
    have hcp := hpos (t + 1) c (by omega) hc
    rw [List.getLast?_eq_getElem?, hd.length, Nat.add_sub_cancel, hz] at hlast
    cases hlast
    have hfa : firstOf bdist t = a - 1 := by unfold firstOf; rw [List.getD_eq_getElem?_getD, ha]; rfl
    have hfc : firstOf bdist (t + 1) = c - 1 := by unfold firstOf; rw [List.getD_eq_getElem?_getD, hc]; rfl
    refine ⟨itAt ebnd (a - 1), itAt ebnd (c - 1), a, c,
      (List.range' (a - 1) ((c - 1) - (a - 1))).map (fun j => (ebnd.getD j 0, ebnd.getD (j + 1) 0)), ?_, ?_, ha, hc, ?_, by simp, ?_⟩
    · rw [List.getElem?_map, List.getElem?_range (by omega), Option.map_some, hfa]
    · rw [List.getElem?_map, List.getElem?_range (by omega), Option.map_some, hfc]
    · intro fuel hf
      have := iterate_items ebnd h.mono ((c - 1) - (a - 1)) (a - 1) fuel (by omega) (by omega)
      rw [show a - 1 + (c - 1 - (a - 1)) = c - 1 by omega] at this
      exact this
    · intro k r hr
      have hk := (List.getElem?_eq_some_iff.1 hr).1
      simp only [List.length_map, List.length_range'] at hk
      rw [List.getElem?_map, List.getElem?_range' hk, Option.map_some, Nat.one_mul, Option.some.injEq] at hr
      rw [← hr]
      exact ⟨getD_get (by omega), getD_get (by omega)⟩
  · intro i hi
    have key : ∀ t, t ≤ threads → ∀ z, bdist[t]? = some z → i < z - 1 →
        ∃ s a c, s < t ∧ bdist[s]? = some a ∧ bdist[s + 1]? = some c ∧ a - 1 ≤ i ∧ i < c - 1 := by
      intro t
      induction t with
      | zero => intro _ z hz hi; rw [hd.zero] at hz; cases hz; omega
      | succ t ih =>
          intro htt z hz hi
          obtain ⟨a, ha⟩ := hd.get (t := t) (by omega)
          by_cases hlt : i < a - 1
          · obtain ⟨s, a', c', h1, h2⟩ := ih (by omega) a ha hlt
            exact ⟨s, a', c', by omega, h2⟩
          · exact ⟨t, a, z, by omega, ha, hz, by omega, hi⟩
    rw [List.getLast?_eq_getElem?, hd.length, Nat.add_sub_cancel] at hlast
    exact key threads (Nat.le_refl _) _ hlast (by omega)

theorem moveU (esize : Nat) (i : Nat) (ebnd : List Nat) (last n : Nat) :
    It.move ebnd last ⟨none, esize * i, esize * (i + 1)⟩ (n : Int) = some ⟨none, esize * (i + n), esize * (i + n + 1)⟩ := by
  unfold It.move
  have h1 : esize * (i + 1) - esize * i = esize := by rw [Nat.mul_succ]; omega
  simp only [h1]
  congr 2
  · rw [← Int.natCast_mul, ← Int.natCast_add, Int.toNat_natCast, Nat.mul_add, Nat.mul_comm n]
  · rw [← Int.natCast_mul, ← Int.natCast_add, Int.toNat_natCast, Nat.mul_comm n, ← Nat.mul_add]; congr 1; omega

theorem iterate_uniform (esize : Nat) (hs : 0 < esize) (k : Nat) : ∀ (i fuel : Nat), k ≤ fuel →
    iterate [] 0 ⟨none, esize * (i + k), esize * (i + k + 1)⟩ fuel ⟨none, esize * i, esize * (i + 1)⟩ =
      some ((List.range' i k).map fun j => (esize * j, esize * (j + 1))) := by
  induction k with
  | zero => intro i fuel _; cases fuel <;> simp [iterate]
  | succ k ih =>
      intro i fuel hf
      obtain ⟨fuel, rfl⟩ : ∃ f, fuel = f + 1 := ⟨fuel - 1, by omega⟩
      have hlt : esize * i < esize * (i + (k + 1)) := Nat.mul_lt_mul_of_pos_left (by omega) hs
      rw [iterate, if_neg (by simp; omega)]
      have hmv := moveU esize i [] 0 1
      have := ih (i + 1) fuel (by omega)
      rw [show i + 1 + k = i + (k + 1) by omega] at this
      simp only [Option.bind_eq_bind]
      rw [Int.natCast_one] at hmv
      rw [hmv, Option.bind_some, this, Option.bind_some, List.range'_succ, List.map_cons]

/-- C58.  Uniform items of `esize > 0` values, values split to threads at whole items. -/
theorem C58_uniform_partial (esize : Nat) (hs : 0 < esize) (d : List Nat) (threads : Nat) (hd : Distribution d threads) :
    ∃ its, initUniform esize (d.map (esize * ·)) threads = some its ∧ its.length = threads + 1 ∧
      ∀ t, t < threads → ∃ b e a c l, its[t]? = some b ∧ its[t + 1]? = some e ∧ d[t]? = some a ∧ d[t + 1]? = some c ∧
        (∀ fuel, c ≤ fuel → iterate [] 0 e fuel b = some l) ∧ l.length = c - a ∧
        ∀ k r, l[k]? = some r → r = (esize * (a + k), esize * (a + k + 1)) := by
  have hinit : initUniform esize (d.map (esize * ·)) threads =
      some ((List.range (threads + 1)).map fun t => (⟨none, esize * d.getD t 0, esize * (d.getD t 0 + 1)⟩ : It)) := by
    unfold initUniform
    rw [if_neg (by omega)]
    obtain ⟨s, e, hs'⟩ := forLoop_inv (show 1 ≤ threads + 1 by omega) (List.replicate (threads + 1) (⟨none, 0, esize⟩ : It)) (fun t its => do
        let d ← (d.map (esize * ·))[t]?
        let it ← its[t]?
        let it ← it.move [] 0 ((d / esize : Nat) : Int)
        wr its t it)
      (fun t s => s = ((List.range t).map fun t => (⟨none, esize * d.getD t 0, esize * (d.getD t 0 + 1)⟩ : It)) ++
        List.replicate (threads + 1 - t) ⟨none, 0, esize⟩)
      (by
        rw [List.range_one, List.map_singleton, List.getD_eq_getElem?_getD, hd.zero, Nat.add_sub_cancel, List.replicate_succ]
        simp)
      (by
        rintro t h1 h2 s rfl
        obtain ⟨a, ha⟩ := hd.get (t := t) (by omega)
        have hr : List.replicate (threads + 1 - t) (⟨none, 0, esize⟩ : It) =
            ⟨none, 0, esize⟩ :: List.replicate (threads + 1 - (t + 1)) ⟨none, 0, esize⟩ := by
          rw [show threads + 1 - t = (threads + 1 - (t + 1)) + 1 by omega, List.replicate_succ]
        refine ⟨_, ?_, rfl⟩
        rw [List.getElem?_map, ha, hr, get_at' _ _ _ _ (by simp)]
        simp only [Option.map_some, Option.bind_eq_bind, Option.bind_some]
        have := moveU esize 0 [] 0 (esize * a / esize)
        rw [Nat.mul_zero, Nat.zero_add, Nat.mul_one] at this
        rw [this, Option.bind_some, wr_at' _ _ _ _ _ (by simp), List.range_succ, List.map_append, List.map_singleton,
          List.getD_eq_getElem?_getD, ha, Nat.mul_div_cancel_left _ hs]
        simp)
    simp only [Option.bind_eq_bind] at e
    simp only [Option.bind_eq_bind]
    rw [e, hs']
    simp
  refine ⟨_, hinit, by simp, ?_⟩
  intro t ht
  obtain ⟨a, ha⟩ := hd.get (t := t) (by omega)
  obtain ⟨c, hc⟩ := hd.get (t := t + 1) (by omega)
  have hac := hd.get_le (by omega) ha hc
  have hga : d.getD t 0 = a := by rw [List.getD_eq_getElem?_getD, ha]; rfl
  have hgc : d.getD (t + 1) 0 = c := by rw [List.getD_eq_getElem?_getD, hc]; rfl
  refine ⟨⟨none, esize * a, esize * (a + 1)⟩, ⟨none, esize * c, esize * (c + 1)⟩, a, c,
    (List.range' a (c - a)).map (fun j => (esize * j, esize * (j + 1))), ?_, ?_, ha, hc, ?_, by simp, ?_⟩
  · rw [List.getElem?_map, List.getElem?_range (by omega), Option.map_some, hga]
  · rw [List.getElem?_map, List.getElem?_range (by omega), Option.map_some, hgc]
  · intro fuel hf
    have := iterate_uniform esize hs (c - a) a fuel (by omega)
    rw [show a + (c - a) = c by omega] at this
    exact this
  · intro k r hr
    have hk := (List.getElem?_eq_some_iff.1 hr).1
    simp only [List.length_map, List.length_range'] at hk
    rw [List.getElem?_map, List.getElem?_range' hk, Option.map_some, Nat.one_mul, Option.some.injEq] at hr
    exact hr.symm

/-- C58, a defect.  The move constructor and both assignments (serializededata.h 221-243) call `inititerators()` also for uniform data,
whose boundaries are `tarray(0, 0)` with the distribution of zero threads (`[0]`): with one or more threads the distribution is
read out of range. -/
theorem C58_assigned_uniform_undefined (threads : Nat) (h : 0 < threads) : initItems [] [0] threads = none := by
  unfold initItems
  simp only [firstItem, if_true, Option.bind_eq_bind, Option.bind_some]
  rw [forLoop_lt _ _ (by omega)]
  rfl

/-- The hypotheses are met: items of sizes 2, 0, 3 on three threads, the second one without items. -/
example : Distribution [0, 2, 2, 4] 3 ∧ Items [0, 2, 2, 5] [10, 20, 30, 40, 50] := ⟨⟨rfl, rfl, by decide⟩, rfl, by decide, rfl⟩
example : (initItems [0, 2, 2, 5] [0, 2, 2, 4] 3).bind (fun its => do
    let b ← its[2]?
    let e ← its[3]?
    iterate [0, 2, 2, 5] 3 e 9 b) = some [(2, 2), (2, 5)] := by decide
example : (initUniform 2 [0, 2, 6] 2).bind (fun its => do
    let b ← its[1]?
    let e ← its[2]?
    iterate [] 0 e 9 b) = some [(2, 4), (4, 6)] := by decide

end Verif.Serial
