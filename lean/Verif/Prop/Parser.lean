import Verif.Model.Parser
import Verif.Spec.Parser
import Mathlib.Data.List.DropRight
/-!
C30: `Parser::split` and `join`.  C31: `Parser::strip`, `removecomments`.
-/
namespace Verif.Parser

/-! ### Positions and prefixes -/

theorem substr0_eq (s tags : Str) : substr0 s (findFirstOf s tags) = s.takeWhile fun c => !tags.contains c := by
  unfold findFirstOf
  induction s with
  | nil => rfl
  | cons a s ih =>
      rw [List.findIdx?_cons, List.takeWhile_cons]
      by_cases h : tags.contains a = true
      · rw [if_pos h, h]; rfl
      · rw [if_neg h, (Bool.not_eq_true _).mp h, ← ih]
        cases s.findIdx? fun c => tags.contains c <;> rfl

theorem erase0_eq (s tags : Str) : erase0 s (findFirstNotOf s tags) = s.dropWhile fun c => tags.contains c := by
  unfold findFirstNotOf
  induction s with
  | nil => rfl
  | cons a s ih =>
      rw [List.findIdx?_cons, List.dropWhile_cons]
      by_cases h : tags.contains a = true
      · rw [if_neg (by rw [h]; decide), if_pos h, ← ih]
        cases s.findIdx? fun c => !tags.contains c <;> rfl
      · rw [if_pos (by simpa using h), if_neg h]; rfl

theorem findIdx?_dropWhile {A : Type} (p : A → Bool) (l : List A) :
    l.dropWhile p = match l.findIdx? (fun c => !p c) with | none => [] | some k => l.drop k := by
  induction l with
  | nil => rfl
  | cons a s ih =>
      rw [List.findIdx?_cons, List.dropWhile_cons]
      by_cases h : p a = true
      · rw [if_pos h, if_neg (show ¬ (!p a) = true by rw [h]; decide), ih]
        cases s.findIdx? fun c => !p c <;> rfl
      · rw [if_neg h, if_pos (show (!p a) = true by simpa using h)]; rfl

theorem take_last_eq (s tags : Str) : s.take (endOfLast s tags) = s.rdropWhile fun c => tags.contains c := by
  unfold endOfLast findLastNotOf List.rdropWhile
  rw [findIdx?_dropWhile]
  cases h : s.reverse.findIdx? fun c => !tags.contains c with
  | none => rfl
  | some k =>
      obtain ⟨hl, _, _⟩ := List.findIdx?_eq_some_iff_getElem.1 h
      rw [List.length_reverse] at hl
      simp only [Option.map_some]
      rw [List.drop_reverse, List.reverse_reverse]
      congr 1; omega

/-! ### C31 -/

theorem strip_eq (line : Str) :
    strip line = ((line.dropWhile fun c => white.contains c).rdropWhile fun c => white.contains c).takeWhile fun c => !['#'].contains c := by
  unfold strip
  rw [erase0_eq]
  simp only
  rw [take_last_eq, substr0_eq]

theorem before_takeWhile (tags line : Str) : Before tags line (line.takeWhile fun c => !tags.contains c) := by
  refine ⟨?_, ?_⟩
  · intro c hc
    have := List.mem_takeWhile_imp hc
    simpa using this
  · induction line with
    | nil => left; rfl
    | cons a s ih =>
        rw [List.takeWhile_cons]
        by_cases h : tags.contains a = true
        · right
          rw [h]
          exact ⟨a, s, by simpa using h, rfl⟩
        · rw [(Bool.not_eq_true _).mp h]
          rcases ih with ih | ⟨c, b, hc, ih⟩
          · left; simp only [Bool.not_false, if_true]; rw [ih]
          · right
            refine ⟨c, b, hc, ?_⟩
            simp only [Bool.not_false, if_true, List.cons_append]
            rw [← ih]

theorem trimmed_spec (line : Str) : Trimmed white line ((line.dropWhile fun c => white.contains c).rdropWhile fun c => white.contains c) := by
  refine ⟨⟨line.takeWhile fun c => white.contains c, (line.dropWhile fun c => white.contains c).rtakeWhile fun c => white.contains c, ?_, ?_, ?_⟩, ?_, ?_⟩
  · rw [List.append_assoc, List.rdropWhile_append_rtakeWhile, List.takeWhile_append_dropWhile]
  · intro c hc
    simpa using List.mem_takeWhile_imp hc
  · intro c hc
    simpa using List.mem_rtakeWhile_imp hc
  · intro c hc
    have hp : (line.dropWhile fun c => white.contains c).rdropWhile (fun c => white.contains c) <+: line.dropWhile fun c => white.contains c := List.rdropWhile_prefix _ _
    obtain ⟨t, ht⟩ := hp
    have : (line.dropWhile fun c => white.contains c).head? = some c := by
      rw [← ht]
      cases hh : (line.dropWhile fun c => white.contains c).rdropWhile (fun c => white.contains c) with
      | nil => rw [hh] at hc; simp at hc
      | cons a l => rw [hh] at hc; exact hc
    have h2 := List.head?_dropWhile_not (fun c => white.contains c) line
    rw [this] at h2
    simpa using h2
  · intro c hc
    have hne : (line.dropWhile fun c => white.contains c).rdropWhile (fun c => white.contains c) ≠ [] := by
      intro h; rw [h] at hc; simp at hc
    have := List.rdropWhile_last_not _ _ hne
    rw [List.getLast?_eq_some_getLast hne] at hc
    cases hc
    simpa using this

/-- C31, the part that holds: `strip` trims the line and then takes the part before the first `#` of what is left. In particular the result has no `#`, it does not begin with
white space, and without `#` it is just the trimmed line.  Missing (see `C31_strip_not_idempotent`): with a comment, the white space before `#` stays. -/
theorem C31_strip_partial (line : Str) : ∃ core, Trimmed blank line core ∧ Before ['#'] core (strip line) ∧ ('#' ∉ line → strip line = core ∧ strip (strip line) = strip line) := by
  refine ⟨_, trimmed_spec line, by rw [strip_eq]; exact before_takeWhile _ _, ?_⟩
  intro h
  have key : ∀ l : Str, '#' ∉ l → strip l = (l.dropWhile fun c => white.contains c).rdropWhile fun c => white.contains c := by
    intro l hl
    rw [strip_eq]
    apply List.takeWhile_eq_self_iff.2
    intro c hc
    have h1 := (List.rdropWhile_prefix (fun c => white.contains c) (l.dropWhile fun c => white.contains c)).subset hc
    have h2 := (List.dropWhile_sublist _).subset h1
    by_cases hcc : c = '#'
    · exact absurd (hcc ▸ h2) hl
    · simpa using hcc
  refine ⟨key line h, ?_⟩
  have hs : '#' ∉ strip line := by
    rw [strip_eq]
    intro hm
    have := List.mem_takeWhile_imp hm
    simp at this
  rw [key (strip line) hs]
  have tr := trimmed_spec line
  rw [← key line h] at tr
  generalize strip line = s at *
  have e1 : (s.dropWhile fun c => white.contains c) = s := by
    cases s with
    | nil => rfl
    | cons a l =>
        rw [List.dropWhile_cons_of_neg]
        have := tr.head a rfl
        simpa using this
  rw [e1]
  apply List.rdropWhile_eq_self_iff.2
  intro hl
  have := tr.last _ (List.getLast?_eq_some_getLast hl)
  simpa using this

/-- C31 does not hold in full: the white space between the text and a comment is left, so `strip` is not idempotent. -/
theorem C31_strip_not_idempotent : ∃ line, strip (strip line) ≠ strip line := ⟨"a #b".toList, by decide⟩

/-- Some lines. -/
example : strip " \t a b \r\n".toList = "a b".toList := by decide
example : strip "  # comment".toList = [] := by decide
example : strip "a # b".toList = "a ".toList := by decide

/-- C31: `removecomments` returns the part before the first of the given characters. -/
theorem C31_removecomments (line tags : Str) : Before tags line (removecomments line tags) := by
  unfold removecomments
  rw [substr0_eq]
  exact before_takeWhile tags line

/-- `Before` determines the result. -/
theorem Before.unique {tags line a b : Str} (ha : Before tags line a) (hb : Before tags line b) : a = b := by
  have key : ∀ p, Before tags line p → p = line.takeWhile fun c => !tags.contains c := by
    intro p hp
    have hpos : ∀ c ∈ p, (!tags.contains c) = true := fun c hc => by simpa using hp.free c hc
    rcases hp.rest with h | ⟨c, b, hc, h⟩
    · rw [← h]; exact (List.takeWhile_eq_self_iff.2 hpos).symm
    · rw [h, List.takeWhile_append_of_pos hpos, List.takeWhile_cons_of_neg (by simpa using hc), List.append_nil]
  rw [key a ha, key b hb]

/-- `getLine` returns the text up to the first end of line. -/
theorem C31_getLine (text line : Str) (h : getLine text = some line) : ∃ l b, line = l ++ ['\n'] ∧ text = line ++ b ∧ '\n' ∉ l := by
  induction text generalizing line with
  | nil => simp [getLine] at h
  | cons c s ih =>
      unfold getLine at h
      by_cases hc : c = '\n'
      · rw [if_pos hc] at h
        cases h
        exact ⟨[], s, by rw [hc]; rfl, rfl, by simp⟩
      · rw [if_neg hc, Option.map_eq_some_iff] at h
        obtain ⟨line', h1, rfl⟩ := h
        obtain ⟨l, b, e1, e2, e3⟩ := ih line' h1
        refine ⟨c :: l, b, by rw [e1]; rfl, by rw [e2]; rfl, ?_⟩
        simp only [List.mem_cons, not_or]
        exact ⟨Ne.symm hc, e3⟩

/-! ### C30 -/

theorem rest_eq (s sep : Str) (skip : Bool) : rest s sep skip =
    if skip then (s.dropWhile fun c => !sep.contains c).dropWhile fun c => sep.contains c else (s.dropWhile fun c => !sep.contains c).drop 1 := by
  have e : (s.dropWhile fun c => !sep.contains c) = match findFirstOf s sep with | none => [] | some k => s.drop k := by
    rw [findIdx?_dropWhile]
    simp only [Bool.not_not]
    rfl
  unfold rest
  rw [e]
  cases h : findFirstOf s sep with
  | none => cases skip <;> rfl
  | some k =>
      cases skip with
      | false => simp only [Bool.false_eq_true, if_false]; rw [List.drop_drop]
      | true => simp only [if_true]; rw [erase0_eq]

theorem splitLoop_nil (sep : Str) (skip : Bool) : splitLoop sep skip [] = [] := by
  unfold splitLoop; simp

theorem splitLoop_ne {sep s : Str} {skip : Bool} (h : s ≠ []) :
    splitLoop sep skip s = (s.takeWhile fun c => !sep.contains c) :: splitLoop sep skip (rest s sep skip) := by
  rw [splitLoop, dif_neg h, substr0_eq]

/-- Induction over the loop of `split`. -/
theorem split_induction {sep : Str} {skip : Bool} {P : Str → Prop} (h0 : P []) (hs : ∀ s, s ≠ [] → P (rest s sep skip) → P s) (s : Str) : P s := by
  induction hn : s.length using Nat.strongRecOn generalizing s with
  | ind n ih =>
      by_cases h : s = []
      · rw [h]; exact h0
      · exact hs s h (ih _ (by rw [← hn]; exact rest_lt h) _ rfl)

/-- C30: no piece contains a separator, and the pieces have all other characters of the line, in order. -/
theorem C30_split (line sep : Str) (skip : Bool) :
    (∀ p ∈ split line sep skip, Free sep p) ∧ (split line sep skip).flatten = line.filter fun c => !sep.contains c := by
  have key : (∀ p ∈ splitLoop sep skip line, Free sep p) ∧ (splitLoop sep skip line).flatten = line.filter fun c => !sep.contains c := by
    refine split_induction (sep := sep) (skip := skip) (P := fun line => (∀ p ∈ splitLoop sep skip line, Free sep p) ∧
      (splitLoop sep skip line).flatten = line.filter fun c => !sep.contains c) ?_ ?_ line
    · rw [splitLoop_nil]; exact ⟨by simp, rfl⟩
    · intro s hs ih
      rw [splitLoop_ne hs]
      refine ⟨?_, ?_⟩
      · intro p hp
        rcases List.mem_cons.1 hp with rfl | hp
        · exact (before_takeWhile sep s).free
        · exact ih.1 p hp
      · rw [List.flatten_cons, ih.2, rest_eq]
        conv => rhs; rw [← List.takeWhile_append_dropWhile (p := fun c => !sep.contains c) (l := s)]
        rw [List.filter_append, (List.filter_eq_self (p := fun c => !sep.contains c) (l := s.takeWhile fun c => !sep.contains c)).2 (fun c hc => by simpa using (before_takeWhile sep s).free c hc)]
        congr 1
        generalize hd : (s.dropWhile fun c => !sep.contains c) = d
        cases skip with
        | true =>
            simp only [if_true]
            conv => rhs; rw [← List.takeWhile_append_dropWhile (p := fun c => sep.contains c) (l := d)]
            rw [List.filter_append]
            have : (d.takeWhile fun c => sep.contains c).filter (fun c => !sep.contains c) = [] := by
              rw [List.filter_eq_nil_iff]
              intro c hc
              have := List.mem_takeWhile_imp hc
              simpa using this
            rw [this, List.nil_append]
        | false =>
            simp only [Bool.false_eq_true, if_false]
            cases d with
            | nil => rfl
            | cons a d =>
                have : (!sep.contains a) = false := by
                  have h2 := List.head?_dropWhile_not (fun c => !sep.contains c) s
                  rw [hd] at h2
                  simpa using h2
                rw [List.filter_cons_of_neg (by rw [this]; decide)]; rfl
  unfold split
  by_cases h : line = []
  · rw [if_pos h, h]
    refine ⟨?_, rfl⟩
    intro p hp
    rw [List.mem_singleton] at hp
    rw [hp]; intro c hc; simp at hc
  · rw [if_neg h]; exact key

/-- C30: with `skipMultiple`, only the first piece can be empty (when the line begins with a separator or is empty). -/
theorem C30_split_nonempty (line sep : Str) : ∀ p ∈ (split line sep true).tail, p ≠ [] := by
  have key : ∀ s : Str, (∀ c, s.head? = some c → c ∉ sep) → ∀ p ∈ splitLoop sep true s, p ≠ [] := by
    intro s
    refine split_induction (sep := sep) (skip := true) (P := fun s => (∀ c, s.head? = some c → c ∉ sep) → ∀ p ∈ splitLoop sep true s, p ≠ []) ?_ ?_ s
    · intro _ p hp; rw [splitLoop_nil] at hp; simp at hp
    · intro s hs ih hh p hp
      rw [splitLoop_ne hs] at hp
      rcases List.mem_cons.1 hp with rfl | hp
      · cases s with
        | nil => exact absurd rfl hs
        | cons a s =>
            rw [List.takeWhile_cons_of_pos (by simpa using hh a rfl)]
            simp
      · refine ih ?_ p hp
        intro c hc
        rw [rest_eq, if_pos rfl] at hc
        have h2 := List.head?_dropWhile_not (fun c => sep.contains c) (s.dropWhile fun c => !sep.contains c)
        rw [hc] at h2
        simpa using h2
  intro p hp
  unfold split at hp
  by_cases h : line = []
  · rw [if_pos h] at hp; simp at hp
  · rw [if_neg h, splitLoop_ne h, List.tail_cons] at hp
    refine key _ ?_ p hp
    intro c hc
    rw [rest_eq, if_pos rfl] at hc
    have h2 := List.head?_dropWhile_not (fun c => sep.contains c) (line.dropWhile fun c => !sep.contains c)
    rw [hc] at h2
    simpa using h2

theorem join_cons (sep v w : Str) (l : List Str) : join sep (v :: w :: l) = v ++ sep ++ join sep (w :: l) := by
  have key : ∀ (l : List Str) (a b : Str), l.foldl (fun r v => r ++ (sep ++ v)) (a ++ b) = a ++ l.foldl (fun r v => r ++ (sep ++ v)) b := by
    intro l
    induction l with
    | nil => intros; rfl
    | cons x l ih => intro a b; rw [List.foldl_cons, List.foldl_cons, List.append_assoc, ih]
  show l.foldl _ (v ++ (sep ++ w)) = _
  rw [← List.append_assoc, key]; rfl

theorem takeWhile_free {sep p t : Str} (hp : Free sep p) (ht : ∀ c, t.head? = some c → c ∈ sep) :
    (p ++ t).takeWhile (fun c => !sep.contains c) = p ∧ (p ++ t).dropWhile (fun c => !sep.contains c) = t := by
  have hpos : ∀ c ∈ p, (!sep.contains c) = true := fun c hc => by simpa using hp c hc
  cases t with
  | nil =>
      rw [List.append_nil]
      exact ⟨List.takeWhile_eq_self_iff.2 hpos, List.dropWhile_eq_nil_iff.2 hpos⟩
  | cons a t =>
      have ha : ¬ (!sep.contains a) = true := by simpa using ht a rfl
      exact ⟨by rw [List.takeWhile_append_of_pos hpos, List.takeWhile_cons_of_neg (p := fun c => !sep.contains c) ha, List.append_nil],
        by rw [List.dropWhile_append_of_pos hpos, List.dropWhile_cons_of_neg (p := fun c => !sep.contains c) ha]⟩

/-- C30: `split` returns what has been joined with a string of separators, if the pieces are without separators and not empty. -/
theorem C30_split_join (sep glue : Str) (pieces : List Str) (hg : glue ≠ []) (hgs : ∀ c ∈ glue, c ∈ sep) (hp : ∀ p ∈ pieces, p ≠ [] ∧ Free sep p)
    (hne : pieces ≠ []) : split (join glue pieces) sep true = pieces := by
  have hj : ∀ v l, v ≠ [] → join glue (v :: l) ≠ [] := by
    intro v l hv
    cases l with
    | nil => exact hv
    | cons w l => rw [join_cons]; simp [hv]
  have key : ∀ (l : List Str) (v : Str), (∀ p ∈ v :: l, p ≠ [] ∧ Free sep p) → splitLoop sep true (join glue (v :: l)) = v :: l := by
    intro l
    induction l with
    | nil =>
        intro v h
        have hv := h v (by simp)
        show splitLoop sep true v = [v]
        obtain ⟨t1, t2⟩ := takeWhile_free (t := []) hv.2 (by simp)
        rw [List.append_nil] at t1 t2
        rw [splitLoop_ne hv.1, rest_eq, t1, t2]
        show v :: splitLoop sep true [] = _
        rw [splitLoop_nil]
    | cons w l ih =>
        intro v h
        have hv := h v (by simp)
        have hw := h w (by simp)
        obtain ⟨t1, t2⟩ := takeWhile_free (t := glue ++ join glue (w :: l)) hv.2 (by
          intro c hc
          cases glue with
          | nil => exact absurd rfl hg
          | cons a g => simp at hc; subst hc; exact hgs _ (by simp))
        rw [splitLoop_ne (hj v _ hv.1), rest_eq, join_cons, List.append_assoc, t1, t2, if_pos rfl]
        congr 1
        have hgp : ∀ c ∈ glue, sep.contains c = true := fun c hc => by simpa using hgs c hc
        rw [List.dropWhile_append_of_pos hgp, List.dropWhile_eq_self_iff.2]
        · exact ih w (fun p hp => h p (by simp [List.mem_cons.1 hp]))
        · intro hl
          have hhead : ∀ c, (join glue (w :: l)).head? = some c → c ∉ sep := by
            intro c hc
            cases w with
            | nil => exact absurd rfl hw.1
            | cons a w =>
                have : c = a := by
                  cases l with
                  | nil => exact (Option.some.inj hc).symm
                  | cons x l => rw [join_cons] at hc; exact (Option.some.inj hc).symm
                rw [this]; exact hw.2 a (by simp)
          have := hhead _ (List.head?_eq_getElem? ▸ List.getElem?_eq_getElem hl)
          simpa using this
  cases pieces with
  | nil => exact absurd rfl hne
  | cons v l =>
      unfold split
      rw [if_neg (hj v l (hp v (by simp)).1)]
      exact key l v hp

/-- C30: without `skipMultiple` empty pieces are kept, too; only an empty piece at the end is lost. -/
theorem C30_split_join_all (sep : Str) (c : Char) (hc : c ∈ sep) (pieces : List Str) (hp : ∀ p ∈ pieces, Free sep p) (last : Str) (hlast : last ≠ [])
    (hlf : Free sep last) : split (join [c] (pieces ++ [last])) sep false = pieces ++ [last] := by
  have hj : ∀ l : List Str, join [c] (l ++ [last]) ≠ [] := by
    intro l
    cases l with
    | nil => exact hlast
    | cons w l =>
        cases l with
        | nil => show join [c] [w, last] ≠ []; rw [join_cons]; simp
        | cons x l => show join [c] (w :: x :: (l ++ [last])) ≠ []; rw [join_cons]; simp
  have key : ∀ l : List Str, (∀ p ∈ l, Free sep p) → splitLoop sep false (join [c] (l ++ [last])) = l ++ [last] := by
    intro l
    induction l with
    | nil =>
        intro _
        show splitLoop sep false last = [last]
        obtain ⟨t1, t2⟩ := takeWhile_free (t := []) hlf (by simp)
        rw [List.append_nil] at t1 t2
        rw [splitLoop_ne hlast, rest_eq, t1, t2]
        show last :: splitLoop sep false [] = _
        rw [splitLoop_nil]
    | cons v l ih =>
        intro h
        have e : join [c] (v :: l ++ [last]) = v ++ (c :: join [c] (l ++ [last])) := by
          cases l with
          | nil => show join [c] [v, last] = _; rw [join_cons, List.append_assoc]; rfl
          | cons x l => show join [c] (v :: x :: (l ++ [last])) = _; rw [join_cons, List.append_assoc]; rfl
        obtain ⟨t1, t2⟩ := takeWhile_free (t := c :: join [c] (l ++ [last])) (h v (by simp)) (by
          intro d hd; simp at hd; rw [← hd]; exact hc)
        rw [splitLoop_ne (hj (v :: l)), rest_eq, e, t1, t2]
        show v :: splitLoop sep false (join [c] (l ++ [last])) = _
        rw [ih (fun p hp => h p (by simp [hp]))]; rfl
  unfold split
  rw [if_neg (hj pieces)]
  exact key pieces hp

/-- Instances of the hypotheses, and what happens with empty pieces. -/
example : split (join ", ".toList ["ab".toList, "c".toList]) ", ".toList true = ["ab".toList, "c".toList] :=
  C30_split_join ", ".toList ", ".toList _ (by decide) (by decide) (by intro p hp; simp at hp; rcases hp with rfl | rfl <;> exact ⟨by decide, by unfold Free; decide⟩) (by decide)
example : split (join ",".toList ["a".toList, [], "b".toList]) ",".toList false = ["a".toList, [], "b".toList] :=
  C30_split_join_all ",".toList ',' (by decide) ["a".toList, []] (by intro p hp; simp at hp; rcases hp with rfl | rfl <;> (unfold Free; decide)) "b".toList (by decide)
    (by unfold Free; decide)
/-- The empty piece at the end is lost. -/
theorem C30_split_last_lost : split (join ",".toList ["a".toList, []]) ",".toList false = ["a".toList] := by
  have e : join ",".toList ["a".toList, []] = ['a', ','] := rfl
  rw [e]
  unfold split
  rw [if_neg (by decide), splitLoop_ne (by decide), rest_eq]
  show _ :: splitLoop _ _ [] = _
  rw [splitLoop_nil]; rfl

end Verif.Parser
