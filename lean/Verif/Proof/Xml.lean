import Verif.Model.Xml
/-!
Proofs about printing and loading XML (C33).
-/
namespace Verif.Xml

/-- A situation of the loader. -/
structure Conf where
  s : State
  b : List Char
  r : List Char

/-- The main loop gets from one situation to another, reading at least one character a round. -/
def Reach (x y : Conf) : Prop := ∃ n, n + y.r.length ≤ x.r.length ∧ ∀ f, loadLoop (f + n) x.s x.b x.r = loadLoop f y.s y.b y.r

theorem Reach.refl (x : Conf) : Reach x x := ⟨0, by omega, fun _ => rfl⟩

theorem Reach.trans {x y z : Conf} (h : Reach x y) (h' : Reach y z) : Reach x z := by
  obtain ⟨n, hn, h⟩ := h
  obtain ⟨m, hm, h'⟩ := h'
  refine ⟨m + n, by omega, fun f => ?_⟩
  rw [← Nat.add_assoc, h, h']

/-- One plain character. -/
theorem reach_char (s : State) (b : List Char) (c : Char) (r : List Char) (hc : c ≠ '<') :
    Reach ⟨s, b, c :: r⟩ ⟨s, if !b.isEmpty || !blank c then b ++ [c] else b, r⟩ := by
  refine ⟨1, by simp; omega, fun f => ?_⟩
  simp only [loadLoop, if_neg hc]

theorem blank_ne {c : Char} (h : blank c = true) : c ≠ '<' := by
  rintro rfl
  revert h
  decide

/-- Blanks without a text before. -/
theorem reach_blanks (s : State) (bl r : List Char) (h : ∀ c ∈ bl, blank c = true) : Reach ⟨s, [], bl ++ r⟩ ⟨s, [], r⟩ := by
  induction bl with
  | nil => exact .refl _
  | cons c bl ih =>
    refine .trans ?_ (ih fun c hc => h c (List.mem_cons_of_mem _ hc))
    have := reach_char s [] c (bl ++ r) (blank_ne (h c List.mem_cons_self))
    simpa [h c List.mem_cons_self] using this

/-- Characters after the begin of a text. -/
theorem reach_text (s : State) (b t r : List Char) (hb : b ≠ []) (h : ∀ c ∈ t, c ≠ '<') : Reach ⟨s, b, t ++ r⟩ ⟨s, b ++ t, r⟩ := by
  induction t generalizing b with
  | nil => simpa using Reach.refl _
  | cons c t ih =>
    have h1 := reach_char s b c (t ++ r) (h c List.mem_cons_self)
    have h2 := ih (b ++ [c]) (by simp) fun c hc => h c (List.mem_cons_of_mem _ hc)
    have e : (if !b.isEmpty || !blank c then b ++ [c] else b) = b ++ [c] := by
      rw [if_pos]; simp [hb]
    rw [e] at h1
    simpa using h1.trans h2

/-- A text. -/
theorem reach_value (s : State) (v r : List Char) (h : ValueOk v) : Reach ⟨s, [], v ++ r⟩ ⟨s, v, r⟩ := by
  cases v with
  | nil => exact .refl _
  | cons c v =>
    have h1 := reach_char s [] c (v ++ r) (h.1 c List.mem_cons_self)
    rw [h.2.1 c rfl] at h1
    exact h1.trans (reach_text s [c] v r (by simp) fun c hc => h.1 c (List.mem_cons_of_mem _ hc))

/-- A tag. -/
theorem reach_tag (s s' : State) (b r r' : List Char) (h : tag s b r = some (r', s')) (hl : r'.length ≤ r.length) : Reach ⟨s, b, '<' :: r⟩ ⟨s', [], r'⟩ := by
  refine ⟨1, by simp; omega, fun f => ?_⟩
  simp only [loadLoop, if_pos]
  rw [h]
  rfl

theorem upTo_append (p : Char → Bool) (n : List Char) (c : Char) (r : List Char) (hn : ∀ c ∈ n, p c = false) (hc : p c = true) : upTo p (n ++ c :: r) = some (n, c, r) := by
  induction n with
  | nil => simp [upTo, hc]
  | cons d n ih =>
    simp only [List.cons_append, upTo, hn d List.mem_cons_self]
    rw [ih fun c hc => hn c (List.mem_cons_of_mem _ hc)]
    rfl

theorem trimEnd_text (v bl : List Char) (hv : ValueOk v) (hb : ∀ c ∈ bl, blank c = true) : trimEnd (v ++ bl) = v := by
  unfold trimEnd
  rw [List.reverse_append, List.dropWhile_append_of_pos (by simpa using hb)]
  cases h : v.reverse with
  | nil => simp [List.reverse_eq_nil_iff.1 h]
  | cons c w =>
    have : v.getLast? = some c := by rw [← List.head?_reverse, h]; rfl
    rw [List.dropWhile_cons_of_neg (by simp [hv.2.2 c this]), ← h, List.reverse_reverse]

theorem skipBlank_of_not (c : Char) (r : List Char) (h : blank c = false) : skipBlank c r = some (c, r) := by
  cases r <;> simp [skipBlank, h]

theorem skipBlank_space (c : Char) (r : List Char) (h : blank c = false) : skipBlank ' ' (c :: r) = some (c, r) := by
  rw [skipBlank, if_pos (by decide)]
  exact skipBlank_of_not c r h

theorem filter_name (n : List Char) (h : ∀ c ∈ n, blank c = false) : n.filter (fun c => !blank c) = n := by
  rw [List.filter_eq_self]
  intro c hc
  simp [h c hc]

/-- The attributes of the current element. -/
def addAttrs (as : List (List Char × List Char)) : Tree → Tree
  | .node n v bs cs => .node n v (bs ++ as) cs

theorem addAttrs_addAttr (a : List Char × List Char) (as : List (List Char × List Char)) (t : Tree) : addAttrs as (addAttr a t) = addAttrs (a :: as) t := by
  cases t; simp [addAttrs, addAttr]

theorem printAttr_length (a : List Char × List Char) : (printAttr a).length = a.1.length + a.2.length + 4 := by
  simp [printAttr]; omega

/-- The printed attributes after the first character: `c` is the first character of a name (or the space before it in the first round), `e` ends the attributes. -/
theorem attrLoop_attrs (as : List (List Char × List Char)) (e : Char) (r : List Char) (he : e = '>' ∨ e = '/') (has : ∀ a ∈ as, AttrOk a) (a : List Char × List Char) (ha : AttrOk a)
    (d : Tree → State) (hd : ∀ t f, (d t).onTop f = some (d (f t))) (t : Tree) (f : Nat) (hf : as.length + 2 ≤ f) :
    (∀ c n, a.1 = c :: n → attrLoop f c (n ++ '=' :: '"' :: a.2 ++ '"' :: as.flatMap printAttr ++ e :: r) (d t) = some (e, r, d (addAttrs (a :: as) t))) ∧
      attrLoop f ' ' (a.1 ++ '=' :: '"' :: a.2 ++ '"' :: as.flatMap printAttr ++ e :: r) (d t) = some (e, r, d (addAttrs (a :: as) t)) := by
  induction as generalizing a t f with
  | nil =>
    have hb : blank e = false := by rcases he with rfl | rfl <;> rfl
    obtain ⟨f, rfl⟩ : ∃ g, f = g + 2 := ⟨f - 2, by simp at hf; omega⟩
    have last : ∀ t, attrLoop (f + 1) e r (d t) = some (e, r, d t) := by
      intro t
      simp only [attrLoop]
      rw [if_neg (by rcases he with rfl | rfl <;> simp)]
    constructor
    · intro c n hcn
      have hc := ha.2.1 c (by simp [hcn])
      have hn : ∀ x ∈ n, blank x = false ∧ x ≠ '=' ∧ x ≠ '/' ∧ x ≠ '>' := fun x hx => ha.2.1 x (by simp [hcn, hx])
      rw [attrLoop]
      rw [if_pos ⟨hc.2.2.2, hc.2.2.1, by
        cases n with
        | nil => simp
        | cons x n => simpa using (hn x List.mem_cons_self).2.2.1⟩]
      have h1 := upTo_append (· == '=') n '=' ('"' :: a.2 ++ '"' :: ([] : List (List Char × List Char)).flatMap printAttr ++ e :: r) (fun x hx => by simp [(hn x hx).2.1]) rfl
      have h2 := upTo_append (· == '"') a.2 '"' (e :: r) (fun x hx => by simp [ha.2.2 x hx]) rfl
      simp only [List.flatMap_nil, List.append_assoc, List.cons_append, List.nil_append] at h1 ⊢
      rw [h1]
      simp only [Option.bind_eq_bind, Option.bind_some, List.tail_cons]
      rw [h2]
      simp only [Option.bind_some]
      rw [hd, filter_name n fun x hx => (hn x hx).1]
      simp only [Option.bind_some, hc.1]
      rw [skipBlank_of_not e r hb]
      simp only [Option.bind_some]
      rw [last]
      cases t
      simp [addAttr, addAttrs, ← hcn]
    · have hn := ha.2.1
      rw [attrLoop]
      rw [if_pos ⟨by decide, by decide, by
        cases h : a.1 with
        | nil => exact absurd h ha.1
        | cons x n => simpa using (hn x (by simp [h])).2.2.1⟩]
      have h1 := upTo_append (· == '=') a.1 '=' ('"' :: a.2 ++ '"' :: ([] : List (List Char × List Char)).flatMap printAttr ++ e :: r) (fun x hx => by simp [(hn x hx).2.1]) rfl
      have h2 := upTo_append (· == '"') a.2 '"' (e :: r) (fun x hx => by simp [ha.2.2 x hx]) rfl
      simp only [List.flatMap_nil, List.append_assoc, List.cons_append, List.nil_append] at h1 ⊢
      rw [h1]
      simp only [Option.bind_eq_bind, Option.bind_some, List.tail_cons]
      rw [h2]
      simp only [Option.bind_some]
      rw [hd, filter_name a.1 fun x hx => (hn x hx).1]
      simp only [Option.bind_some]
      rw [skipBlank_of_not e r hb]
      simp only [Option.bind_some]
      rw [last]
      cases t
      simp [addAttr, addAttrs, blank]
  | cons a' as ih =>
    have ha' := has a' List.mem_cons_self
    obtain ⟨f, rfl⟩ : ∃ g, f = g + 1 := ⟨f - 1, by simp at hf; omega⟩
    obtain ⟨c', n', hcn'⟩ : ∃ c n, a'.1 = c :: n := by
      cases h : a'.1 with
      | nil => exact absurd h ha'.1
      | cons c n => exact ⟨c, n, rfl⟩
    have hc' := ha'.2.1 c' (by simp [hcn'])
    have next := fun t => (ih (fun x hx => has x (List.mem_cons_of_mem _ hx)) a' ha' t f (by simp at hf ⊢; omega)).1 c' n' hcn'
    have hflat : (a' :: as).flatMap printAttr ++ e :: r = ' ' :: c' :: (n' ++ '=' :: '"' :: a'.2 ++ '"' :: as.flatMap printAttr ++ e :: r) := by
      simp [List.flatMap_cons, printAttr, hcn']
    constructor
    · intro c n hcn
      have hc := ha.2.1 c (by simp [hcn])
      have hn : ∀ x ∈ n, blank x = false ∧ x ≠ '=' ∧ x ≠ '/' ∧ x ≠ '>' := fun x hx => ha.2.1 x (by simp [hcn, hx])
      rw [attrLoop]
      rw [if_pos ⟨hc.2.2.2, hc.2.2.1, by
        cases n with
        | nil => simp
        | cons x n => simpa using (hn x List.mem_cons_self).2.2.1⟩]
      have h1 := upTo_append (· == '=') n '=' ('"' :: (a.2 ++ '"' :: ((a' :: as).flatMap printAttr ++ e :: r))) (fun x hx => by simp [(hn x hx).2.1]) rfl
      have h2 := upTo_append (· == '"') a.2 '"' ((a' :: as).flatMap printAttr ++ e :: r) (fun x hx => by simp [ha.2.2 x hx]) rfl
      simp only [List.append_assoc, List.cons_append] at h1 ⊢
      rw [h1]
      simp only [Option.bind_eq_bind, Option.bind_some, List.tail_cons]
      rw [h2]
      simp only [Option.bind_some]
      rw [hd, filter_name n fun x hx => (hn x hx).1]
      simp only [Option.bind_some, hc.1]
      rw [hflat]
      dsimp only
      rw [skipBlank_space _ _ hc'.1]
      simp only [Option.bind_some]
      rw [next]
      cases t
      simp [addAttr, addAttrs, ← hcn]
    · have hn := ha.2.1
      rw [attrLoop]
      rw [if_pos ⟨by decide, by decide, by
        cases h : a.1 with
        | nil => exact absurd h ha.1
        | cons x n => simpa using (hn x (by simp [h])).2.2.1⟩]
      have h1 := upTo_append (· == '=') a.1 '=' ('"' :: (a.2 ++ '"' :: ((a' :: as).flatMap printAttr ++ e :: r))) (fun x hx => by simp [(hn x hx).2.1]) rfl
      have h2 := upTo_append (· == '"') a.2 '"' ((a' :: as).flatMap printAttr ++ e :: r) (fun x hx => by simp [ha.2.2 x hx]) rfl
      simp only [List.append_assoc, List.cons_append] at h1 ⊢
      rw [h1]
      simp only [Option.bind_eq_bind, Option.bind_some, List.tail_cons]
      rw [h2]
      simp only [Option.bind_some]
      rw [hd, filter_name a.1 fun x hx => (hn x hx).1]
      simp only [Option.bind_some]
      rw [hflat]
      dsimp only
      rw [skipBlank_space _ _ hc'.1]
      simp only [Option.bind_some]
      rw [next]
      cases t
      simp [addAttr, addAttrs, blank]

/-- The state with the stack `t :: st`. -/
def State.with (s : State) (t : Tree) : State := { s with stack := t :: s.stack }

theorem with_onTop (s : State) (t : Tree) (f : Tree → Tree) : (s.with t).onTop f = some (s.with (f t)) := rfl

/-- A finished element gets to its place. -/
def State.attach (s : State) (t : Tree) : State :=
  match s.stack with
  | [] => { s with root := t }
  | p :: st => { s with stack := addChild t p :: st }

theorem with_pop (s : State) (t : Tree) : (s.with t).pop = some (s.attach t) := by
  obtain ⟨d, r, st⟩ := s
  cases st <;> rfl

/-- The tag of an element: `se` is the end of the tag (`>` or `/>`). -/
theorem element_open (s : State) (n : List Char) (as : List (List Char × List Char)) (r : List Char) (hs : s.stack = [] → s.root = .node [] [] [] []) (hn : NameOk n)
    (has : ∀ a ∈ as, AttrOk a) : element s (n ++ as.flatMap printAttr ++ '>' :: r) = some (r, s.with (.node n [] as [])) := by
  have ho : s.open' = s.with (.node [] [] [] []) := by
    obtain ⟨d, rt, st⟩ := s
    cases st with
    | nil => simp only at hs; simp [State.open', State.with, hs]
    | cons => rfl
  have hp : ∀ c ∈ n, (c == ' ' || c == '/' || c == '>') = false := by
    intro c hc
    have := hn.1 c hc
    simp [this]
  unfold element
  cases as with
  | nil =>
    have h1 := upTo_append (fun c => c == ' ' || c == '/' || c == '>') n '>' r hp rfl
    simp only [List.flatMap_nil, List.append_nil]
    rw [h1]
    simp only [ho, with_onTop, Option.bind_eq_bind, Option.bind_some]
    rfl
  | cons a as =>
    have ha := has a List.mem_cons_self
    have h1 := upTo_append (fun c => c == ' ' || c == '/' || c == '>') n ' ' (a.1 ++ '=' :: '"' :: a.2 ++ '"' :: as.flatMap printAttr ++ '>' :: r) hp rfl
    have e : n ++ (a :: as).flatMap printAttr ++ '>' :: r = n ++ ' ' :: (a.1 ++ '=' :: '"' :: a.2 ++ '"' :: as.flatMap printAttr ++ '>' :: r) := by
      simp [List.flatMap_cons, printAttr]
    rw [e, h1]
    simp only [ho, with_onTop, Option.bind_eq_bind, Option.bind_some, if_true, setName]
    have hsk : skipPeek ' ' (a.1 ++ '=' :: '"' :: a.2 ++ '"' :: as.flatMap printAttr ++ '>' :: r) = (' ', a.1 ++ '=' :: '"' :: a.2 ++ '"' :: as.flatMap printAttr ++ '>' :: r) := by
      cases h : a.1 with
      | nil => exact absurd h ha.1
      | cons x m =>
        have := (ha.2.1 x (by simp [h])).1
        simp [skipPeek, this]
    rw [hsk]
    dsimp only
    have hlen : as.length ≤ (as.flatMap printAttr).length := by
      clear e h1 hsk has
      induction as with
      | nil => simp
      | cons b as ih => rw [List.flatMap_cons, List.length_append, printAttr_length, List.length_cons]; omega
    rw [(attrLoop_attrs as '>' r (Or.inl rfl) (fun x hx => has x (List.mem_cons_of_mem _ hx)) a ha s.with (with_onTop s) _ _ (by simp only [List.length_append, List.length_cons]; omega)).2]
    simp only [Option.bind_some]
    cases r <;> rfl

/-- The tag of an empty element with attributes. -/
theorem element_closed (s : State) (n : List Char) (a : List Char × List Char) (as : List (List Char × List Char)) (r : List Char) (hs : s.stack = [] → s.root = .node [] [] [] []) (hn : NameOk n)
    (has : ∀ x ∈ a :: as, AttrOk x) : element s (n ++ (a :: as).flatMap printAttr ++ '/' :: '>' :: r) = some (r, s.attach (.node n [] (a :: as) [])) := by
  have ho : s.open' = s.with (.node [] [] [] []) := by
    obtain ⟨d, rt, st⟩ := s
    cases st with
    | nil => simp only at hs; simp [State.open', State.with, hs]
    | cons => rfl
  have hp : ∀ c ∈ n, (c == ' ' || c == '/' || c == '>') = false := by
    intro c hc
    have := hn.1 c hc
    simp [this]
  unfold element
  have ha := has a List.mem_cons_self
  have h1 := upTo_append (fun c => c == ' ' || c == '/' || c == '>') n ' ' (a.1 ++ '=' :: '"' :: a.2 ++ '"' :: as.flatMap printAttr ++ '/' :: '>' :: r) hp rfl
  have e : n ++ (a :: as).flatMap printAttr ++ '/' :: '>' :: r = n ++ ' ' :: (a.1 ++ '=' :: '"' :: a.2 ++ '"' :: as.flatMap printAttr ++ '/' :: '>' :: r) := by
    simp [List.flatMap_cons, printAttr]
  rw [e, h1]
  simp only [ho, with_onTop, Option.bind_eq_bind, Option.bind_some, if_true, setName]
  have hsk : skipPeek ' ' (a.1 ++ '=' :: '"' :: a.2 ++ '"' :: as.flatMap printAttr ++ '/' :: '>' :: r) = (' ', a.1 ++ '=' :: '"' :: a.2 ++ '"' :: as.flatMap printAttr ++ '/' :: '>' :: r) := by
    cases h : a.1 with
    | nil => exact absurd h ha.1
    | cons x m =>
      have := (ha.2.1 x (by simp [h])).1
      simp [skipPeek, this]
  rw [hsk]
  dsimp only
  have hlen : as.length ≤ (as.flatMap printAttr).length := by
    clear e h1 hsk has
    induction as with
    | nil => simp
    | cons b as ih => rw [List.flatMap_cons, List.length_append, printAttr_length, List.length_cons]; omega
  rw [(attrLoop_attrs as '/' ('>' :: r) (Or.inr rfl) (fun x hx => has x (List.mem_cons_of_mem _ hx)) a ha s.with (with_onTop s) _ _ (by simp only [List.length_append, List.length_cons]; omega)).2]
  simp only [Option.bind_some]
  rw [tagEnd, if_pos (by decide), if_pos rfl, with_pop]
  simp only [Option.bind_eq_bind, Option.bind_some]
  cases r <;> rfl

/-- A text waiting in the buffer. -/
def Pending (s s' : State) (b : List Char) : Prop := flush s b = some s' ∧ ∀ bl : List Char, (∀ c ∈ bl, blank c = true) → b ≠ [] → flush s (b ++ bl) = some s'

theorem reach_indent (s s' : State) (b bl r : List Char) (hp : Pending s s' b) (hb : ∀ c ∈ bl, blank c = true) :
    ∃ b', flush s b' = some s' ∧ Reach ⟨s, b, bl ++ r⟩ ⟨s, b', r⟩ := by
  by_cases h : b = []
  · subst h
    exact ⟨[], hp.1, reach_blanks s bl r hb⟩
  · exact ⟨b ++ bl, hp.2 bl hb h, reach_text s b bl r h fun c hc => blank_ne (hb c hc)⟩

theorem pending_nil (s : State) : Pending s s [] := ⟨rfl, fun _ _ h => absurd rfl h⟩

theorem pending_value (s : State) (n v : List Char) (as : List (List Char × List Char)) (bl : List Char) (hv : ValueOk v) (h0 : v ≠ []) (hb : ∀ c ∈ bl, blank c = true) :
    Pending (s.with (.node n [] as [])) (s.with (.node n v as [])) (v ++ bl) := by
  have key : ∀ bl : List Char, (∀ c ∈ bl, blank c = true) → flush (s.with (.node n [] as [])) (v ++ bl) = some (s.with (.node n v as [])) := by
    intro bl hb
    unfold flush
    rw [if_neg (by simp [h0]), with_onTop, trimEnd_text v bl hv hb]
    rfl
  refine ⟨key bl hb, fun bl' hb' _ => ?_⟩
  rw [List.append_assoc]
  refine key _ fun c hc => ?_
  rcases List.mem_append.1 hc with h | h
  · exact hb c h
  · exact hb' c h

theorem tag_flush (s s' : State) (b r : List Char) (h : flush s b = some s') : tag s b r = tag s' [] r := by
  unfold tag
  rw [h]
  rfl

theorem replicate_blank (k : Nat) : ∀ c ∈ List.replicate k ' ', blank c = true := by
  intro c hc
  rw [(List.mem_replicate.1 hc).2]
  rfl

theorem tag_element (s : State) (r : List Char) (h1 : r.head? ≠ some '?') (h2 : r.head? ≠ some '/') : tag s [] r = element s r := by
  unfold tag
  simp only [flush, List.isEmpty_nil, if_true, Option.bind_eq_bind, Option.bind_some]
  split
  · simp at h1
  · simp at h2
  · rfl

theorem tag_close (s : State) (t : Tree) (n r : List Char) (hn : NameOk n) : tag (s.with t) [] ('/' :: n ++ '>' :: r) = some (r, s.attach t) := by
  unfold tag
  simp only [flush, List.isEmpty_nil, if_true, Option.bind_eq_bind, Option.bind_some, List.cons_append]
  rw [upTo_append (· == '>') n '>' r (fun c hc => by simp [(hn.1 c hc).2.2]) rfl]
  simp only [Option.bind_some]
  rw [with_pop]
  rfl

/-- The elements of `cs` are added one by one. -/
def State.attachAll (s : State) : List Tree → State
  | [] => s
  | t :: ts => (s.attach t).attachAll ts

theorem attachAll_with (s : State) (n v : List Char) (as : List (List Char × List Char)) (cs cs' : List Tree) :
    (s.with (.node n v as cs)).attachAll cs' = s.with (.node n v as (cs ++ cs')) := by
  induction cs' generalizing cs with
  | nil => simp [State.attachAll]
  | cons t ts ih =>
    have : (s.with (.node n v as cs)).attach t = s.with (.node n v as (cs ++ [t])) := rfl
    rw [State.attachAll, this, ih]
    simp

theorem newline_blank : ∀ c ∈ ['\n'], blank c = true := by simp [blank]

mutual
/-- A printed element is read as this element. -/
theorem reach_tree (t : Tree) (k : Nat) (s s' : State) (b r : List Char) (ht : TreeOk t) (hp : Pending s s' b) (hs : s'.stack = [] → s'.root = .node [] [] [] []) :
    Reach ⟨s, b, printTree k t ++ r⟩ ⟨s'.attach t, [], r⟩ := by
  match t, ht with
  | .node n v as cs, ht =>
  unfold TreeOk at ht
  obtain ⟨hn, hv, has, hne, hcs⟩ := ht
  have hhead : ∀ (x : List Char) (y : Char), y ≠ '?' → y ≠ '/' → (as.flatMap printAttr = [] → x.head? = some y) →
      (n ++ as.flatMap printAttr ++ x).head? ≠ some '?' ∧ ((n ++ as.flatMap printAttr) ≠ [] ∨ True → (n ++ as.flatMap printAttr ++ x).head? ≠ some '/') := by
    intro x y hy hy' hx
    cases hn' : n with
    | cons c n =>
      have h1 := hn.2
      have h2 := hn.1 c (by simp [hn'])
      rw [hn'] at h1
      simp only [List.head?_cons] at h1
      simp [h2]
      simpa using h1
    | nil =>
      cases has' : as with
      | cons a as => simp [List.flatMap_cons, printAttr]
      | nil =>
        have := hx (by simp [has'])
        simp [this, hy, hy']
  obtain ⟨b', hb', hreach⟩ := reach_indent s s' b (List.replicate (2 * k) ' ')
    ('<' :: n ++ as.flatMap printAttr ++
        (if cs.isEmpty && v.isEmpty then ['/', '>', '\n']
         else ['>', '\n'] ++ (if v.isEmpty then [] else List.replicate (2 * (k + 1)) ' ' ++ v ++ ['\n']) ++ printForest (k + 1) cs ++ List.replicate (2 * k) ' ' ++ ['<', '/'] ++ n ++ ['>', '\n']) ++ r)
    hp (replicate_blank _)
  have e0 : printTree k (.node n v as cs) ++ r = List.replicate (2 * k) ' ' ++ ('<' :: n ++ as.flatMap printAttr ++
        (if cs.isEmpty && v.isEmpty then ['/', '>', '\n']
         else ['>', '\n'] ++ (if v.isEmpty then [] else List.replicate (2 * (k + 1)) ' ' ++ v ++ ['\n']) ++ printForest (k + 1) cs ++ List.replicate (2 * k) ' ' ++ ['<', '/'] ++ n ++ ['>', '\n']) ++ r) := by
    rw [printTree]
    simp only [List.append_assoc]
  rw [e0]
  refine hreach.trans ?_
  by_cases hc : cs = [] ∧ v = []
  · obtain ⟨rfl, rfl⟩ := hc
    obtain ⟨a, as', rfl⟩ : ∃ a as', as = a :: as' := by
      cases as with
      | nil => simp at hne
      | cons a as' => exact ⟨a, as', rfl⟩
    have hh := hhead ('/' :: '>' :: '\n' :: r) 'x' (by decide) (by decide) (by simp [List.flatMap_cons, printAttr])
    have htag : tag s b' (n ++ (a :: as').flatMap printAttr ++ '/' :: '>' :: '\n' :: r) = some ('\n' :: r, s'.attach (.node n [] (a :: as') [])) := by
      rw [tag_flush s s' b' _ hb', tag_element _ _ hh.1 (hh.2 (Or.inr trivial)), element_closed s' n a as' _ hs hn has]
    have h1 := reach_tag s _ b' _ _ htag (by simp; omega)
    have h2 := reach_blanks (s'.attach (.node n [] (a :: as') [])) ['\n'] r newline_blank
    have e1 : '<' :: n ++ List.flatMap printAttr (a :: as') ++
        (if ([] : List Tree).isEmpty && ([] : List Char).isEmpty then ['/', '>', '\n']
         else ['>', '\n'] ++ (if ([] : List Char).isEmpty then [] else List.replicate (2 * (k + 1)) ' ' ++ [] ++ ['\n']) ++ printForest (k + 1) [] ++ List.replicate (2 * k) ' ' ++ ['<', '/'] ++ n ++ ['>', '\n']) ++ r
        = '<' :: (n ++ (a :: as').flatMap printAttr ++ '/' :: '>' :: '\n' :: r) := by simp
    rw [e1]
    exact h1.trans h2
  · -- the rest after the tag
    let tail : List Char := List.replicate (2 * k) ' ' ++ '<' :: ('/' :: n ++ '>' :: '\n' :: r)
    let body : List Char := printForest (k + 1) cs ++ tail
    have e1 : '<' :: n ++ as.flatMap printAttr ++
        (if cs.isEmpty && v.isEmpty then ['/', '>', '\n']
         else ['>', '\n'] ++ (if v.isEmpty then [] else List.replicate (2 * (k + 1)) ' ' ++ v ++ ['\n']) ++ printForest (k + 1) cs ++ List.replicate (2 * k) ' ' ++ ['<', '/'] ++ n ++ ['>', '\n']) ++ r
        = '<' :: (n ++ as.flatMap printAttr ++ '>' :: '\n' :: ((if v.isEmpty then [] else List.replicate (2 * (k + 1)) ' ' ++ v ++ ['\n']) ++ body)) := by
      rw [if_neg (by simpa [List.isEmpty_iff] using hc)]
      simp [body, tail]
    rw [e1]
    have hh := hhead ('>' :: '\n' :: ((if v.isEmpty then [] else List.replicate (2 * (k + 1)) ' ' ++ v ++ ['\n']) ++ body)) '>' (by decide) (by decide) (fun _ => rfl)
    have htag : tag s b' (n ++ as.flatMap printAttr ++ '>' :: '\n' :: ((if v.isEmpty then [] else List.replicate (2 * (k + 1)) ' ' ++ v ++ ['\n']) ++ body))
        = some ('\n' :: ((if v.isEmpty then [] else List.replicate (2 * (k + 1)) ' ' ++ v ++ ['\n']) ++ body), s'.with (.node n [] as [])) := by
      rw [tag_flush s s' b' _ hb', tag_element _ _ hh.1 (hh.2 (Or.inr trivial)), element_open s' n as _ hs hn has]
    have h1 := reach_tag s _ b' _ _ htag (by simp; omega)
    refine h1.trans ?_
    -- the text
    obtain ⟨b2, hb2, h2⟩ : ∃ b2, Pending (s'.with (.node n [] as [])) (s'.with (.node n v as [])) b2 ∧
        Reach ⟨s'.with (.node n [] as []), [], '\n' :: ((if v.isEmpty then [] else List.replicate (2 * (k + 1)) ' ' ++ v ++ ['\n']) ++ body)⟩ ⟨s'.with (.node n [] as []), b2, body⟩ := by
      by_cases hv0 : v = []
      · subst hv0
        exact ⟨[], pending_nil _, reach_blanks _ ['\n'] body newline_blank⟩
      · refine ⟨v ++ ['\n'], pending_value s' n v as ['\n'] hv hv0 newline_blank, ?_⟩
        rw [if_neg (by simpa [List.isEmpty_iff] using hv0)]
        have a1 := reach_blanks (s'.with (.node n [] as [])) ('\n' :: List.replicate (2 * (k + 1)) ' ') (v ++ ('\n' :: body)) (by
          intro c hc
          rcases List.mem_cons.1 hc with rfl | h
          · rfl
          · exact replicate_blank _ c h)
        have a2 := reach_value (s'.with (.node n [] as [])) v ('\n' :: body) hv
        have a3 := reach_text (s'.with (.node n [] as [])) v ['\n'] body hv0 (by simp)
        have := (a1.trans a2).trans a3
        simpa [List.append_assoc] using this
    refine h2.trans ?_
    -- the nested elements
    obtain ⟨b3, hb3, h3⟩ := reach_forest cs (k + 1) (s'.with (.node n [] as [])) (s'.with (.node n v as [])) b2 tail hcs hb2 (by simp [State.with])
    refine h3.trans ?_
    rw [attachAll_with] at hb3 ⊢
    -- the end of the element
    obtain ⟨b4, hb4, h4⟩ := reach_indent _ _ b3 (List.replicate (2 * k) ' ') ('<' :: ('/' :: n ++ '>' :: '\n' :: r)) hb3 (replicate_blank _)
    refine h4.trans ?_
    have htag2 := tag_close s' (.node n v as ([] ++ cs)) n ('\n' :: r) hn
    rw [← tag_flush _ _ b4 _ hb4] at htag2
    have h5 := reach_tag _ _ b4 _ _ htag2 (by simp; omega)
    have h6 := reach_blanks (s'.attach (.node n v as cs)) ['\n'] r newline_blank
    exact h5.trans h6

/-- Printed elements are read one by one. -/
theorem reach_forest (ts : List Tree) (k : Nat) (s s' : State) (b r : List Char) (ht : ForestOk ts) (hp : Pending s s' b) (hs : s'.stack ≠ []) :
    ∃ b', Pending (if ts = [] then s else s'.attachAll ts) (s'.attachAll ts) b' ∧ Reach ⟨s, b, printForest k ts ++ r⟩ ⟨if ts = [] then s else s'.attachAll ts, b', r⟩ := by
  match ts, ht with
  | [], _ => exact ⟨b, hp, .refl _⟩
  | t :: ts, ht =>
    unfold ForestOk at ht
    have h1 := reach_tree t k s s' b (printForest k ts ++ r) ht.1 hp (fun h => absurd h hs)
    have hs' : (s'.attach t).stack ≠ [] := by
      obtain ⟨d, rt, st⟩ := s'
      cases st with
      | nil => exact absurd rfl hs
      | cons p st => simp [State.attach]
    obtain ⟨b', hb', h2⟩ := reach_forest ts k (s'.attach t) (s'.attach t) [] r ht.2 (pending_nil _) hs'
    have e : (if ts = [] then s'.attach t else (s'.attach t).attachAll ts) = (s'.attach t).attachAll ts := by
      split
      · next h => subst h; rfl
      · rfl
    rw [e] at hb' h2
    refine ⟨b', ?_, ?_⟩
    · rw [if_neg (by simp)]
      exact hb'
    · rw [if_neg (by simp), printForest, List.append_assoc]
      exact h1.trans h2
end

/-- A document printed and loaded is the same document. -/
theorem load_print (d : List Char) (t : Tree) (hd : ∃ w, d = '<' :: '?' :: w ++ ['>'] ∧ ∀ c ∈ w, c ≠ '>') (ht : TreeOk t) : load (print d t) = some (d, t) := by
  obtain ⟨w, rfl, hw⟩ := hd
  let s0 : State := ⟨"<?xml version=\"1.0\" encoding=\"UTF-8\"?>".toList, .node [] [] [] [], []⟩
  let s1 : State := ⟨'<' :: '?' :: w ++ ['>'], .node [] [] [] [], []⟩
  have htag : tag s0 [] ('?' :: w ++ '>' :: '\n' :: printTree 0 t) = some ('\n' :: printTree 0 t, s1) := by
    unfold tag
    simp only [flush, List.isEmpty_nil, if_true, Option.bind_eq_bind, Option.bind_some, List.cons_append]
    have := upTo_append (· == '>') ('?' :: w) '>' ('\n' :: printTree 0 t) (by
      intro c hc
      rcases List.mem_cons.1 hc with rfl | h
      · rfl
      · simp [hw c h]) rfl
    rw [List.cons_append] at this
    rw [this]
    rfl
  have h1 := reach_tag s0 s1 [] _ _ htag (by simp; omega)
  have h2 := reach_blanks s1 ['\n'] (printTree 0 t) newline_blank
  have h3 := reach_tree t 0 s1 s1 [] [] ht (pending_nil _) (fun _ => rfl)
  rw [List.append_nil] at h3
  obtain ⟨n, hn, h⟩ := (h1.trans h2).trans h3
  have e : print ('<' :: '?' :: w ++ ['>']) t = '<' :: ('?' :: w ++ '>' :: '\n' :: printTree 0 t) := by
    simp [print]
  unfold load
  rw [e]
  have hl := h (('<' :: ('?' :: w ++ '>' :: '\n' :: printTree 0 t)).length - n)
  have hn' : n ≤ ('<' :: ('?' :: w ++ '>' :: '\n' :: printTree 0 t)).length := by simpa using hn
  rw [Nat.sub_add_cancel hn'] at hl
  simp only [s0] at hl
  rw [hl]
  cases hk : ('<' :: ('?' :: w ++ '>' :: '\n' :: printTree 0 t)).length - n <;> rfl

end Verif.Xml
