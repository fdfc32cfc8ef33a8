import Verif.Proof.Flags
/-!
C36: printing and parsing values with a table of options.
-/
namespace Verif.Flags

open Verif.Parser (split strip caseInsensitiveEq join Free)
open Verif.Config (Str SameName)

/-- The bits from `i` of a value within the table select a name. -/
theorem chosen_ne_nil (value : Nat) (i : Nat) (ns : List Str) (k : Nat) (hk : k < ns.length) (hb : value.testBit (i + k) = true) : chosen value i ns ≠ [] := by
  induction ns generalizing i k with
  | nil => simp at hk
  | cons n ns ih =>
    unfold chosen
    by_cases ht : value.testBit i = true
    · rw [if_pos ht]; simp
    · rw [if_neg ht]
      cases k with
      | zero => exact absurd hb ht
      | succ k => exact ih (i + 1) k (by simpa using hk) (by rw [← hb]; congr 1; omega)

/-- C36: for every table of at most 31 options with proper names that differ regardless of letter case, and every set of flags that is not empty, the printed text is parsed to the same set,
whatever the value was before.  Missing: the empty set (`C36_empty_set`), other names (`C36_same_names`, `C36_bar`). -/
theorem C36_roundtrip_partial (low : Char → Nat) (number : Str → Option Nat) (names : List Str) (value old : Nat) (hn : TableOk low names) (hlen : names.length ≤ 31)
    (hv : value < 2 ^ names.length) (h0 : value ≠ 0) : ∃ text, getValue true names value = some text ∧ setValue low number true names old text = some (value, true) := by
  refine ⟨_, by unfold getValue; rw [if_pos rfl, printLoop_spec value 0 names (by omega) (fun n h => (hn.proper n h).ne) [], if_pos rfl], ?_⟩
  obtain ⟨k, hk⟩ := Nat.exists_testBit_of_ne_zero h0
  have hkl : k < names.length := by
    rcases Nat.lt_or_ge k names.length with h | h
    · exact h
    · rw [Nat.testBit_lt_two_pow (Nat.lt_of_lt_of_le hv (Nat.pow_le_pow_right (by omega) h))] at hk
      cases hk
  have hne := chosen_ne_nil value 0 names k hkl (by rw [Nat.zero_add]; exact hk)
  have hok : ∀ n ∈ chosen value 0 names, NameOk n := fun n h => hn.proper n (chosen_sub value 0 names n h)
  unfold setValue
  rw [if_pos ⟨rfl, split_ne_nil _ _ _⟩]
  cases hc : chosen value 0 names with
  | nil => exact absurd hc hne
  | cons v l =>
    rw [hc] at hok
    rw [split_names v l hok]
    have := parseLoop_spec low names value hn.distinct hlen names 0 rfl (pads [] v l) (by rw [strip_pads [] v l (by simp) hok, hc])
    rw [Nat.pow_zero, Nat.mod_one, Nat.zero_add, Nat.mod_eq_of_lt hv] at this
    exact this

/-- C36: whatever text was accepted, the value it gave survives printing and parsing (so the empty set never comes from a text). -/
theorem C36_accepted_partial (low : Char → Nat) (number : Str → Option Nat) (names : List Str) (value old old' : Nat) (hn : TableOk low names) (hlen : names.length ≤ 31) (text : Str)
    (h : setValue low number true names old text = some (value, true)) :
    ∃ text', getValue true names value = some text' ∧ setValue low number true names old' text' = some (value, true) := by
  unfold setValue at h
  rw [if_pos ⟨rfl, split_ne_nil _ _ _⟩] at h
  obtain ⟨a, b⟩ := parseLoop_bound low names _ 0 value (Nat.two_pow_pos _) h
  exact C36_roundtrip_partial low number names value old' hn hlen a
    (b (Or.inl (fun h => split_ne_nil text ['|'] true (by rw [h]; rfl))))

/-- C36: the same for parameters with exactly one option: the name of the option is parsed to the option. -/
theorem C36_option (low : Char → Nat) (number : Str → Option Nat) (names : List Str) (value old : Nat) (hn : TableOk low names) (hv : value < names.length) :
    ∃ text, getValue false names value = some text ∧ setValue low number false names old text = some (value, true) := by
  refine ⟨names[value], by unfold getValue; simp [hv], ?_⟩
  have hs : strip names[value] = names[value] := by
    have := strip_pad [] names[value] [] (hn.proper _ (List.getElem_mem hv)) (by simp) (by simp)
    simpa using this
  unfold setValue
  rw [if_neg (by simp), indexLoop_spec low names[value] 0 names value (by rw [hs, List.getElem?_eq_getElem hv]) hn.distinct]
  simp

theorem split_nil : split [] ['|'] true = [[]] := rfl

/-- C36 is false for the empty set: it is printed as the empty text, which is rejected (for every table of options with proper names). -/
theorem C36_empty_set (low : Char → Nat) (number : Str → Option Nat) (names : List Str) (old : Nat) (hn : TableOk low names) (hlen : names.length ≤ 31) :
    getValue true names 0 = some [] ∧ setValue low number true names old [] = some (0, false) := by
  have hc : ∀ i ns, chosen 0 i ns = [] := by
    intro i ns
    induction ns generalizing i with
    | nil => rfl
    | cons n ns ih => unfold chosen; rw [if_neg (by simp), ih]
  refine ⟨by unfold getValue; rw [if_pos rfl, printLoop_spec 0 0 names (by omega) (fun n h => (hn.proper n h).ne) [], if_pos rfl, hc]; rfl, ?_⟩
  unfold setValue
  rw [if_pos ⟨rfl, split_ne_nil _ _ _⟩, split_nil]
  have hm : ∀ j (ns : List Str), (∀ n ∈ ns, n ≠ []) → matchLoop low [] 0 j ns = some 0 := by
    intro j ns
    induction ns generalizing j with
    | nil => intro _; rfl
    | cons n ns ih =>
      intro h
      unfold matchLoop
      rw [Verif.Config.eq_spec]
      have : ¬ SameName low [] n := by
        intro hs
        unfold SameName at hs
        exact h n List.mem_cons_self (List.map_eq_nil_iff.1 hs.symm)
      simp only [Option.bind_eq_bind, Option.bind_some, this, decide_false, Bool.false_eq_true, if_false]
      exact ih (j + 1) fun m hm => h m (List.mem_cons_of_mem _ hm)
  have hstrip : strip [] = [] := rfl
  unfold parseLoop
  rw [hstrip, hm 0 names fun n h => (hn.proper n h).ne]
  rfl

/-- Lower case of letters. -/
def lower (c : Char) : Nat := c.toLower.toNat

/-- Names that differ in letter case only break the round trip: the second option is read as the first one. -/
theorem C36_same_names : getValue true ["on".toList, "ON".toList] 2 = some "ON".toList ∧
    parseLoop lower ["on".toList, "ON".toList] ["ON".toList] 0 = some (1, true) := by decide +kernel

/-- A bar in a name breaks the round trip: the printed name is rejected. -/
theorem C36_bar (number : Str → Option Nat) (old : Nat) : getValue true [['a', '|', 'b']] 1 = some ['a', '|', 'b'] ∧
    setValue lower number true [['a', '|', 'b']] old ['a', '|', 'b'] = some (0, false) := by
  refine ⟨by decide +kernel, ?_⟩
  have hs : split ['a', '|', 'b'] ['|'] true = [['a'], ['b']] :=
    Verif.Parser.C30_split_join ['|'] ['|'] [['a'], ['b']] (by simp) (by simp) (by unfold Free; simp) (by simp)
  unfold setValue
  rw [if_pos ⟨rfl, split_ne_nil _ _ _⟩, hs]
  decide +kernel

/-- A table that meets the assumptions. -/
theorem sample_ok : TableOk lower ["STEPS".toList, "Log".toList, "x y".toList] := by
  refine ⟨?_, by decide +kernel⟩
  intro n hn
  simp only [List.mem_cons, List.not_mem_nil, or_false] at hn
  rcases hn with rfl | rfl | rfl <;>
    exact ⟨by decide, by decide, fun c hc => (by revert c; simp; try decide), fun c hc => (by revert c; simp; try decide)⟩

example : getValue true ["STEPS".toList, "Log".toList, "x y".toList] 5 = some "STEPS | x y".toList := by decide +kernel

example : ∃ text, getValue true ["STEPS".toList, "Log".toList, "x y".toList] 5 = some text ∧
    setValue lower (fun _ => none) true ["STEPS".toList, "Log".toList, "x y".toList] 7 text = some (5, true) :=
  C36_roundtrip_partial _ _ _ 5 7 sample_ok (by decide) (by decide) (by decide)

end Verif.Flags
