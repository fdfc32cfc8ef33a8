import Verif.Model.Parser
/-!
C55: `Parser::stringwithcommas`.  C56: `StringCompare`.
-/
namespace Verif.Parser

/-! ### C55 -/

/-- Groups separated by commas. -/
def withCommas : List Str → Str
  | [] => []
  | [g] => g
  | g :: gs => g ++ ',' :: withCommas gs

/-- Three digits of a number below 1000. -/
theorem digits3 {x : Nat} (hx : x < 1000) :
    List.replicate (3 - (toStr x).length) '0' ++ toStr x = [Nat.digitChar (x / 100), Nat.digitChar (x / 10 % 10), Nat.digitChar (x % 10)] := by
  unfold toStr
  by_cases h1 : x < 10
  · rw [Nat.toDigits_of_lt_base h1, show x / 100 = 0 by omega, show x / 10 % 10 = 0 by omega, show x % 10 = x by omega]; rfl
  · rw [Nat.toDigits_of_base_le (by omega) (show 10 ≤ x by omega)]
    by_cases h2 : x < 100
    · rw [Nat.toDigits_of_lt_base (show x / 10 < 10 by omega), show x / 100 = 0 by omega, show x / 10 % 10 = x / 10 by omega]; rfl
    · rw [Nat.toDigits_of_base_le (by omega) (show 10 ≤ x / 10 by omega), Nat.toDigits_of_lt_base (show x / 10 / 10 < 10 by omega), show x / 10 / 10 = x / 100 by omega]; rfl

theorem digits_append {a x : Nat} (ha : 0 < a) (hx : x < 1000) :
    toStr (1000 * a + x) = toStr a ++ (List.replicate (3 - (toStr x).length) '0' ++ toStr x) := by
  rw [digits3 hx]
  unfold toStr
  rw [Nat.toDigits_of_base_le (by omega) (show 10 ≤ 1000 * a + x by omega), Nat.toDigits_of_base_le (by omega) (show 10 ≤ (1000 * a + x) / 10 by omega),
    Nat.toDigits_of_base_le (by omega) (show 10 ≤ (1000 * a + x) / 10 / 10 by omega)]
  rw [show (1000 * a + x) / 10 / 10 / 10 = a by omega, show (1000 * a + x) / 10 / 10 % 10 = x / 100 by omega, show (1000 * a + x) / 10 % 10 = x / 10 % 10 by omega,
    show (1000 * a + x) % 10 = x % 10 by omega]
  simp

/-- A later group. -/
def pad (x : Nat) : Str := List.replicate (3 - (toStr x).length) '0' ++ toStr x

theorem pad_length {x : Nat} (hx : x < 1000) : (pad x).length = 3 := by unfold pad; rw [digits3 hx]; rfl

theorem toStr_length {x : Nat} (hx : x < 1000) : 0 < (toStr x).length ∧ (toStr x).length ≤ 3 :=
  ⟨Nat.length_toDigits_pos, (Nat.length_toDigits_le_iff (by omega) (by omega)).2 (by omega)⟩

theorem step_zeros {result : Str} {number value : Nat} (_ : number / value < 1000) :
    commasStep (result, true, number, value) = (result ++ pad (number / value) ++ [','], true, number % value, value / 1000) := by
  unfold commasStep
  simp only [if_true]
  by_cases h : number / value ≠ 0
  · rw [if_pos h, if_pos h]
    unfold pad
    simp
  · have h0 : number / value = 0 := by omega
    rw [if_neg h, if_neg h, h0]
    simp only [List.append_assoc]
    rfl

theorem step_first {result : Str} {number value : Nat} (h : number / value ≠ 0) :
    commasStep (result, false, number, value) = (result ++ toStr (number / value) ++ [','], true, number % value, value / 1000) := by
  unfold commasStep
  simp only [Bool.false_eq_true, if_false]
  rw [if_pos h]

theorem step_none {result : Str} {number value : Nat} (h : number / value = 0) :
    commasStep (result, false, number, value) = (result, false, number % value, value / 1000) := by
  unfold commasStep
  simp only [Bool.false_eq_true, if_false]
  rw [if_neg (by omega)]

/-- C55: the groups are the digits of the number, every group behind a comma has three digits, the first one is not empty and for numbers below
10^12 it has at most three digits. -/
theorem C55_stringwithcommas_partial (n : Nat) : ∃ first rest, stringwithcommas n = withCommas (first :: rest) ∧ (first :: rest).flatten = Nat.toDigits 10 n ∧
    (∀ g ∈ rest, g.length = 3) ∧ 0 < first.length ∧ (n < 10 ^ 12 → first.length ≤ 3) := by
  have hb : n % 1000000000 / 1000000 < 1000 := by omega
  have hc : n % 1000000000 % 1000000 / 1000 < 1000 := by omega
  have hx : n % 1000000000 % 1000000 % 1000 < 1000 := by omega
  unfold stringwithcommas
  show ∃ first rest, _ ∧ (first :: rest).flatten = toStr n ∧ _
  by_cases ha : n / 1000000000 = 0
  · have s1 : commasStep ([], false, n, 1000000000) = ([], false, n % 1000000000, 1000000) := step_none ha
    rw [s1]
    have hn : n % 1000000000 = n := by omega
    rw [hn] at hb hc hx ⊢
    by_cases hb0 : n / 1000000 = 0
    · have s2 : commasStep ([], false, n, 1000000) = ([], false, n % 1000000, 1000) := step_none hb0
      rw [s2]
      have hn : n % 1000000 = n := by omega
      rw [hn] at hc hx ⊢
      by_cases hc0 : n / 1000 = 0
      · have s3 : commasStep ([], false, n, 1000) = ([], false, n % 1000, 1) := step_none hc0
        rw [s3]
        have hn : n % 1000 = n := by omega
        rw [hn] at hx ⊢
        exact ⟨toStr n, [], rfl, by simp, by simp, (toStr_length hx).1, fun _ => (toStr_length hx).2⟩
      · have s3 : commasStep ([], false, n, 1000) = ([] ++ toStr (n / 1000) ++ [','], true, n % 1000, 1) := step_first hc0
        rw [s3]
        refine ⟨toStr (n / 1000), [pad (n % 1000)], ?_, ?_, ?_, (toStr_length hc).1, fun _ => (toStr_length hc).2⟩
        · simp [withCommas, pad]
        · have := digits_append (a := n / 1000) (x := n % 1000) (by omega) hx
          rw [show 1000 * (n / 1000) + n % 1000 = n by omega] at this
          rw [this]; simp [pad]
        · intro g hg; rw [List.mem_singleton] at hg; rw [hg]; exact pad_length hx
    · have s2 : commasStep ([], false, n, 1000000) = ([] ++ toStr (n / 1000000) ++ [','], true, n % 1000000, 1000) := step_first hb0
      have s3 : commasStep ([] ++ toStr (n / 1000000) ++ [','], true, n % 1000000, 1000) =
        ([] ++ toStr (n / 1000000) ++ [','] ++ pad (n % 1000000 / 1000) ++ [','], true, n % 1000000 % 1000, 1) := step_zeros hc
      rw [s2, s3]
      refine ⟨toStr (n / 1000000), [pad (n % 1000000 / 1000), pad (n % 1000000 % 1000)], ?_, ?_, ?_, (toStr_length hb).1, fun _ => (toStr_length hb).2⟩
      · simp [withCommas, pad]
      · have h1 := digits_append (a := n / 1000) (x := n % 1000000 % 1000) (by omega) hx
        have h2 := digits_append (a := n / 1000000) (x := n % 1000000 / 1000) (by omega) hc
        rw [show 1000 * (n / 1000) + n % 1000000 % 1000 = n by omega] at h1
        rw [show 1000 * (n / 1000000) + n % 1000000 / 1000 = n / 1000 by omega] at h2
        rw [h1, h2]; simp [pad]
      · intro g hg
        simp only [List.mem_cons, List.not_mem_nil, or_false] at hg
        rcases hg with rfl | rfl
        · exact pad_length hc
        · exact pad_length hx
  · have s1 : commasStep ([], false, n, 1000000000) = ([] ++ toStr (n / 1000000000) ++ [','], true, n % 1000000000, 1000000) := step_first ha
    have s2 : commasStep ([] ++ toStr (n / 1000000000) ++ [','], true, n % 1000000000, 1000000) =
      ([] ++ toStr (n / 1000000000) ++ [','] ++ pad (n % 1000000000 / 1000000) ++ [','], true, n % 1000000000 % 1000000, 1000) := step_zeros hb
    have s3 : commasStep ([] ++ toStr (n / 1000000000) ++ [','] ++ pad (n % 1000000000 / 1000000) ++ [','], true, n % 1000000000 % 1000000, 1000) =
      ([] ++ toStr (n / 1000000000) ++ [','] ++ pad (n % 1000000000 / 1000000) ++ [','] ++ pad (n % 1000000000 % 1000000 / 1000) ++ [','], true,
        n % 1000000000 % 1000000 % 1000, 1) := step_zeros hc
    rw [s1, s2, s3]
    refine ⟨toStr (n / 1000000000), [pad (n % 1000000000 / 1000000), pad (n % 1000000000 % 1000000 / 1000), pad (n % 1000000000 % 1000000 % 1000)], ?_, ?_, ?_,
      Nat.length_toDigits_pos, fun h => (toStr_length (by omega)).2⟩
    · simp [withCommas, pad]
    · have h1 := digits_append (a := n / 1000) (x := n % 1000000000 % 1000000 % 1000) (by omega) hx
      have h2 := digits_append (a := n / 1000000) (x := n % 1000000000 % 1000000 / 1000) (by omega) hc
      have h3 := digits_append (a := n / 1000000000) (x := n % 1000000000 / 1000000) (by omega) hb
      rw [show 1000 * (n / 1000) + n % 1000000000 % 1000000 % 1000 = n by omega] at h1
      rw [show 1000 * (n / 1000000) + n % 1000000000 % 1000000 / 1000 = n / 1000 by omega] at h2
      rw [show 1000 * (n / 1000000000) + n % 1000000000 / 1000000 = n / 1000000 by omega] at h3
      rw [h1, h2, h3]; simp [pad]
    · intro g hg
      simp only [List.mem_cons, List.not_mem_nil, or_false] at hg
      rcases hg with rfl | rfl | rfl
      · exact pad_length hb
      · exact pad_length hc
      · exact pad_length hx

/-- From 10^12 on the first group has more than three digits. -/
theorem C55_large_group : stringwithcommas (10 ^ 12) = "1000,000,000,000".toList := by decide

example : stringwithcommas 1000020 = "1,000,020".toList := by decide

/-! ### C56 -/

/-- The comparison is the lexicographic order of the strings in lower case. -/
theorem caseInsensitive_iff (tolower : Char → Nat) (s1 s2 : Str) : caseInsensitive tolower s1 s2 = true ↔ s1.map tolower < s2.map tolower := by
  unfold caseInsensitive
  induction s1 generalizing s2 with
  | nil => cases s2 <;> simp [lexCompare]
  | cons a s1 ih =>
      cases s2 with
      | nil => simp [lexCompare]
      | cons b s2 =>
          unfold lexCompare
          rw [List.map_cons, List.map_cons, List.cons_lt_cons_iff]
          by_cases h1 : tolower a < tolower b
          · simp [h1]
          · by_cases h2 : tolower b < tolower a
            · simp only [h1, h2, decide_true, decide_false, if_true]
              simp; omega
            · have : tolower a = tolower b := by omega
              simp only [decide_false, this, Nat.lt_irrefl]
              simpa using ih s2

/-- C56: the comparator is a strict weak ordering. -/
theorem C56_irreflexive (tolower : Char → Nat) (s : Str) : caseInsensitive tolower s s = false := by
  rw [← Bool.not_eq_true, caseInsensitive_iff]
  exact List.lt_irrefl _

theorem C56_transitive (tolower : Char → Nat) (s1 s2 s3 : Str) (h1 : caseInsensitive tolower s1 s2 = true) (h2 : caseInsensitive tolower s2 s3 = true) :
    caseInsensitive tolower s1 s3 = true := by
  rw [caseInsensitive_iff] at *
  exact List.lt_trans h1 h2

theorem equalRange_iff (tolower : Char → Nat) {s1 s2 : Str} (h : s1.length ≤ s2.length) :
    equalRange (fun a b => tolower a == tolower b) s1 s2 = some (decide ((s2.take s1.length).map tolower = s1.map tolower)) := by
  induction s1 generalizing s2 with
  | nil => simp [equalRange]
  | cons a s1 ih =>
      cases s2 with
      | nil => simp at h
      | cons b s2 =>
          unfold equalRange
          simp only [List.length_cons, Nat.add_le_add_iff_right] at h
          by_cases hab : tolower a = tolower b
          · simp [hab, ih h]
          · simp [hab, Ne.symm hab]

/-- C56: two strings are equivalent for the comparator exactly when `caseInsensitiveEq` says so, which is equality in lower case. -/
theorem C56_equivalence (tolower : Char → Nat) (s1 s2 : Str) :
    caseInsensitiveEq tolower s1 s2 = some (!caseInsensitive tolower s1 s2 && !caseInsensitive tolower s2 s1) ∧
    (caseInsensitiveEq tolower s1 s2 = some true ↔ s1.map tolower = s2.map tolower) := by
  have e2 : caseInsensitiveEq tolower s1 s2 = some (decide (s1.map tolower = s2.map tolower)) := by
    unfold caseInsensitiveEq
    by_cases h : s1.length = s2.length
    · rw [if_pos h, equalRange_iff tolower (by omega), h, List.take_length]
      congr 2
      exact propext ⟨Eq.symm, Eq.symm⟩
    · rw [if_neg h]
      congr 1
      symm
      rw [decide_eq_false_iff_not]
      intro e
      have := congrArg List.length e
      simp at this; exact h this
  refine ⟨?_, by rw [e2]; simp⟩
  rw [e2]
  congr 1
  rw [Bool.eq_iff_iff]
  simp only [decide_eq_true_eq, Bool.and_eq_true, Bool.not_eq_true', ← Bool.not_eq_true, caseInsensitive_iff]
  constructor
  · intro e; rw [e]; exact ⟨List.lt_irrefl _, List.lt_irrefl _⟩
  · rintro ⟨h1, h2⟩
    exact List.le_antisymm (List.not_lt.1 h2) (List.not_lt.1 h1)

/-- C56: `caseInsensitivePreffix`. -/
theorem C56_prefix (tolower : Char → Nat) (s1 s2 : Str) :
    ∃ b, caseInsensitivePreffix tolower s1 s2 = some b ∧ (b = true ↔ ∃ p t, s2 = p ++ t ∧ p.map tolower = s1.map tolower) := by
  unfold caseInsensitivePreffix
  by_cases h : s1.length ≤ s2.length
  · rw [if_pos h, equalRange_iff tolower h]
    refine ⟨_, rfl, ?_⟩
    rw [decide_eq_true_eq]
    constructor
    · intro e; exact ⟨s2.take s1.length, s2.drop s1.length, (List.take_append_drop _ _).symm, e⟩
    · rintro ⟨p, t, rfl, e⟩
      have hl := congrArg List.length e
      simp only [List.length_map] at hl
      rw [← hl, List.take_left, e]
  · rw [if_neg h]
    refine ⟨false, rfl, by simp, ?_⟩
    rintro ⟨p, t, rfl, e⟩
    have hl := congrArg List.length e
    simp only [List.length_map] at hl
    rw [List.length_append] at h; omega

/-- C56: `caseInsensitiveSuffix`. -/
theorem C56_suffix (tolower : Char → Nat) (s1 s2 : Str) :
    ∃ b, caseInsensitiveSuffix tolower s1 s2 = some b ∧ (b = true ↔ ∃ p t, s1 = p ++ t ∧ t.map tolower = s2.map tolower) := by
  unfold caseInsensitiveSuffix
  by_cases h : s1.length ≥ s2.length
  · have hl : (s1.drop (s1.length - s2.length)).length = s2.length := by rw [List.length_drop]; omega
    rw [if_pos h, equalRange_iff tolower (by omega), hl, List.take_length]
    refine ⟨_, rfl, ?_⟩
    rw [decide_eq_true_eq]
    constructor
    · intro e; exact ⟨s1.take (s1.length - s2.length), s1.drop (s1.length - s2.length), (List.take_append_drop _ _).symm, e.symm⟩
    · rintro ⟨p, t, rfl, e⟩
      have hl := congrArg List.length e
      simp only [List.length_map] at hl
      rw [List.length_append, hl, Nat.add_sub_cancel, List.drop_left, e]
  · rw [if_neg h]
    refine ⟨false, rfl, by simp, ?_⟩
    rintro ⟨p, t, rfl, e⟩
    have hl := congrArg List.length e
    simp only [List.length_map] at hl
    rw [List.length_append] at h; omega

/-- `caseSensitivePreffix` does not check the sizes: it reads behind a shorter second string. -/
theorem C56_caseSensitivePreffix_undefined : caseSensitivePreffix "ab".toList "a".toList = none := by decide

example : caseInsensitive (fun c => c.toLower.toNat) "aB".toList "AC".toList = true ∧ caseInsensitiveEq (fun c => c.toLower.toNat) "aB".toList "Ab".toList = some true := by decide

end Verif.Parser
