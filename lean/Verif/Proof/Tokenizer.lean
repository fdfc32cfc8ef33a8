import Verif.Model.Tokenizer
/-!
Proofs about the tokenizer (C34).
-/
namespace Verif.Tokenizer

theorem ok_bind {α β : Type} (x : α) (f : α → Except Fail β) : (Except.ok x >>= f) = f x := rfl
theorem error_bind {α β : Type} (x : Fail) (f : α → Except Fail β) : ((Except.error x : Except Fail α) >>= f) = .error x := rfl

theorem skipWS_length (over : Option Char) (r r' : List Char) (h : skipWS over r = .ok r') : r'.length ≤ r.length := by
  induction r with
  | nil =>
    unfold skipWS at h
    split at h
    · cases h; simp
    · cases h
  | cons c r ih =>
    unfold skipWS at h
    split at h
    · have := ih h
      simp; omega
    · cases h; simp

theorem dropWhile_length {α : Type} (p : α → Bool) (r : List α) : (r.dropWhile p).length ≤ r.length :=
  (List.dropWhile_sublist p).length_le

theorem skipLine_length (r : List Char) : (skipLine r).length ≤ r.length :=
  Nat.le_trans (dropWhile_length _ _) (dropWhile_length _ _)

theorem commentLoop_length (last : Char) (r r' : List Char) (h : commentLoop last r = .ok r') : r'.length ≤ r.length := by
  induction r generalizing last with
  | nil => cases h
  | cons c r ih =>
    unfold commentLoop at h
    split at h
    · cases h; simp
    · have := ih _ h
      simp; omega

theorem comment_length (r r' : List Char) (h : comment r = .ok r') : r'.length ≤ r.length := by
  cases r with
  | nil => cases h
  | cons c r =>
    have := commentLoop_length c r r' h
    simp; omega

theorem loop_cons (over : Option Char) (n : Nat) (c : Char) (r buf : List Char) : loop over (n + 1) (c :: r) buf = round over (loop over n) c r buf := rfl

theorem round_congr (over : Option Char) (k k' : List Char → List Char → Except Fail (Token × List Char × List Char)) (c : Char) (r buf : List Char)
    (h : ∀ r', r'.length ≤ r.length → ∀ b, k r' b = k' r' b) : round over k c r buf = round over k' c r buf := by
  unfold round
  split
  · split
    · cases hs : skipWS over (skipLine r) with
      | error e => rfl
      | ok r' => exact h r' (Nat.le_trans (skipWS_length _ _ _ hs) (skipLine_length r)) _
    · rfl
  · split
    · split
      · cases hs : skipWS over (skipLine r) with
        | error e => rfl
        | ok r' => exact h r' (Nat.le_trans (skipWS_length _ _ _ hs) (skipLine_length r)) _
      · rfl
    · split
      · cases hc : comment r with
        | error e => rfl
        | ok r1 =>
          simp only [ok_bind]
          cases hs : skipWS over r1 with
          | error e => rfl
          | ok r' => exact h r' (Nat.le_trans (skipWS_length _ _ _ hs) (comment_length _ _ hc)) _
      · split
        · rfl
        · split
          · rfl
          · split
            · rfl
            · split
              · rfl
              · split
                · rfl
                · exact h r (Nat.le_refl _) _

/-- The loop with enough fuel. -/
def run (over : Option Char) (r buf : List Char) : Except Fail (Token × List Char × List Char) := loop over (r.length + 1) r buf

theorem loop_fuel (over : Option Char) (n : Nat) (r buf : List Char) (h : r.length < n) : loop over n r buf = run over r buf := by
  induction n using Nat.strongRecOn generalizing r buf with
  | ind n ih =>
    obtain ⟨n, rfl⟩ : ∃ m, n = m + 1 := ⟨n - 1, by omega⟩
    cases r with
    | nil => rfl
    | cons c r =>
      unfold run
      rw [List.length_cons, loop_cons, loop_cons]
      refine round_congr over _ _ c r buf fun r' hr' b => ?_
      simp only [List.length_cons] at h
      rw [ih n (by omega) r' b (by omega)]
      by_cases hn : r.length + 1 < n + 1
      · rw [ih (r.length + 1) hn r' b (by omega)]
      · have : n = r.length + 1 := by omega
        rw [← this, ih n (by omega) r' b (by omega)]

theorem run_nil (over : Option Char) (buf : List Char) : run over [] buf = .ok (if buf.isEmpty then .endOfFile else .string, buf, []) := rfl

theorem run_cons (over : Option Char) (c : Char) (r buf : List Char) : run over (c :: r) buf = round over (run over) c r buf := by
  unfold run
  rw [List.length_cons, loop_cons]
  refine round_congr over _ _ c r buf fun r' hr' b => ?_
  exact loop_fuel over _ r' b (by omega)

theorem next_cons (over : Option Char) (r : List Char) (h : r ≠ []) : next over r = skipWS over r >>= fun r' => run over r' [] := by
  unfold next
  rw [if_neg (by simpa using h)]
  cases hs : skipWS over r with
  | error e => rfl
  | ok r' => exact loop_fuel over _ r' [] (by have := skipWS_length _ _ _ hs; omega)

/-! Every token takes some characters. -/

theorem linkLoop_length (over : Option Char) (st : Nat) (buf r b r' : List Char) (h : linkLoop over st buf r = .ok (b, r')) : r'.length < r.length := by
  induction r generalizing st buf with
  | nil =>
    unfold linkLoop at h
    split at h
    · cases h
    · split at h <;> cases h
  | cons c r ih =>
    unfold linkLoop at h
    split at h
    · cases h; simp
    · have := ih _ _ h
      simp; omega

theorem envLoop_length (over : Option Char) (buf r b r' : List Char) (h : envLoop over buf r = .ok (b, r')) : r'.length < r.length := by
  induction r generalizing buf with
  | nil =>
    unfold envLoop at h
    split at h <;> cases h
  | cons c r ih =>
    unfold envLoop at h
    split at h
    · cases h; simp
    · split at h
      · cases h
      · have := ih _ h
        simp; omega

theorem quoteLoop_length (over : Option Char) (buf r b : List Char) (q : Char) (r' : List Char) (h : quoteLoop over buf r = .ok (b, q, r')) : r'.length < r.length := by
  induction r generalizing buf with
  | nil =>
    unfold quoteLoop at h
    split at h
    · cases h
    · split at h <;> cases h
  | cons c r ih =>
    unfold quoteLoop at h
    split at h
    · cases h; simp
    · have := ih _ h
      simp; omega

theorem quoteToken_length (over : Option Char) (buf : List Char) (c : Char) (r : List Char) (t : Token) (b r' : List Char) (h : quoteToken over buf c r = .ok (t, b, r')) :
    r'.length < r.length := by
  unfold quoteToken at h
  cases hq : quoteLoop over (if buf.isEmpty then [] else buf ++ [c]) r with
  | error e => rw [hq] at h; cases h
  | ok x =>
    rw [hq] at h
    cases h
    exact quoteLoop_length _ _ _ _ _ _ hq

theorem envToken_length (over : Option Char) (buf r : List Char) (t : Token) (b r' : List Char) (h : envToken over buf r = .ok (t, b, r')) : r'.length < r.length := by
  cases r with
  | nil =>
    simp only [envToken] at h
    split at h
    · cases h
    · split at h <;> cases h
  | cons c r =>
    simp only [envToken] at h
    split at h
    · cases hq : envLoop over buf r with
      | error e => rw [hq] at h; cases h
      | ok x =>
        rw [hq] at h
        cases h
        have := envLoop_length _ _ _ _ _ hq
        simp; omega
    · cases h

/-- A token takes at least one character: either from the text or those already in the buffer. -/
theorem run_length (over : Option Char) (r buf : List Char) (t : Token) (b r' : List Char) (h : run over r buf = .ok (t, b, r')) (ht : t ≠ .endOfFile) :
    r'.length < r.length + buf.length := by
  induction hl : r.length using Nat.strongRecOn generalizing r buf with
  | ind n ih =>
    cases r with
    | nil =>
      rw [run_nil] at h
      simp only [Except.ok.injEq, Prod.mk.injEq] at h
      obtain ⟨h1, rfl, rfl⟩ := h
      cases buf with
      | nil => exact absurd h1.symm ht
      | cons x buf => simp; omega
    | cons c r =>
      rw [run_cons] at h
      simp only [List.length_cons] at hl
      unfold round at h
      have hbuf : ∀ (x : Char), buf.getLast? = some x → buf.length = buf.dropLast.length + 1 := by
        intro x hx
        cases buf with
        | nil => cases hx
        | cons y buf => simp
      split at h
      · split at h
        · cases hs : skipWS over (skipLine r) with
          | error e => rw [hs] at h; cases h
          | ok r1 =>
            rw [hs, ok_bind] at h
            have h1 := Nat.le_trans (skipWS_length _ _ _ hs) (skipLine_length r)
            have := ih r1.length (by omega) r1 buf h rfl
            omega
        · cases h
          have := skipLine_length r
          omega
      · split at h
        · next hc =>
          have hb := hbuf _ hc.1
          split at h
          · cases hs : skipWS over (skipLine r) with
            | error e => rw [hs] at h; cases h
            | ok r1 =>
              rw [hs, ok_bind] at h
              have h1 := Nat.le_trans (skipWS_length _ _ _ hs) (skipLine_length r)
              have := ih r1.length (by omega) r1 _ h rfl
              omega
          · cases h
            have := skipLine_length r
            omega
        · split at h
          · next hc =>
            have hb := hbuf _ hc.1
            cases hcm : comment r with
            | error e => rw [hcm] at h; cases h
            | ok r0 =>
              rw [hcm, ok_bind] at h
              cases hs : skipWS over r0 with
              | error e => rw [hs] at h; cases h
              | ok r1 =>
                rw [hs, ok_bind] at h
                have h1 := Nat.le_trans (skipWS_length _ _ _ hs) (comment_length _ _ hcm)
                have := ih r1.length (by omega) r1 _ h rfl
                omega
          · split at h
            · cases h
              omega
            · have hpos : buf.isEmpty = false → 0 < buf.length := by
                intro hb
                cases buf with
                | nil => cases hb
                | cons => simp
              split at h
              · split at h
                · cases h; omega
                · next hb =>
                  cases h
                  have := hpos (by simpa using hb)
                  simp only [List.length_cons]
                  omega
              · split at h
                · split at h
                  · cases hq : linkLoop over 0 [] r with
                    | error e => rw [hq] at h; cases h
                    | ok x =>
                      rw [hq] at h
                      cases h
                      have := linkLoop_length _ _ _ _ _ _ hq
                      omega
                  · next hb =>
                    cases h
                    have := hpos (by simpa using hb)
                    simp only [List.length_cons]
                    omega
                · split at h
                  · have := envToken_length _ _ _ _ _ _ h
                    omega
                  · split at h
                    · have := quoteToken_length _ _ _ _ _ _ _ h
                      omega
                    · have := ih r.length (by omega) r _ h rfl
                      simp only [List.length_append, List.length_cons, List.length_nil] at this
                      omega

theorem next_length (over : Option Char) (r : List Char) (t : Token) (b r' : List Char) (h : next over r = .ok (t, b, r')) (ht : t ≠ .endOfFile) : r'.length < r.length := by
  by_cases hr : r = []
  · subst hr
    cases h
    exact absurd rfl ht
  · rw [next_cons over r hr] at h
    cases hs : skipWS over r with
    | error e => rw [hs] at h; cases h
    | ok r1 =>
      rw [hs, ok_bind] at h
      have h1 := skipWS_length _ _ _ hs
      have := run_length over r1 [] t b r' h ht
      simp at this
      omega

/-- One step of `tokens`. -/
theorem tokenize_fuel (over : Option Char) (n : Nat) (r : List Char) (h : r.length < n) : tokenize over n r = tokens over r := by
  unfold tokens
  induction n using Nat.strongRecOn generalizing r with
  | ind n ih =>
    obtain ⟨n, rfl⟩ : ∃ m, n = m + 1 := ⟨n - 1, by omega⟩
    unfold tokenize
    cases hn : next over r with
    | error e => rfl
    | ok x =>
      obtain ⟨t, b, r'⟩ := x
      simp only [ok_bind]
      by_cases ht : t = .endOfFile
      · rw [if_pos ht, if_pos ht]
      · rw [if_neg ht, if_neg ht]
        have hl := next_length over r t b r' hn ht
        rw [ih n (by omega) r' (by omega)]
        by_cases hn : r.length < n
        · rw [ih r.length (by omega) r' (by omega)]
        · have : r.length = n := by omega
          rw [this, ih n (by omega) r' (by omega)]

theorem tokens_eq (over : Option Char) (r : List Char) : tokens over r = next over r >>= fun x => if x.1 = .endOfFile then .ok [] else tokens over x.2.2 >>= fun ts => .ok ((x.1, x.2.1) :: ts) := by
  conv => lhs; unfold tokens tokenize
  cases hn : next over r with
  | error e => rfl
  | ok x =>
    obtain ⟨t, b, r'⟩ := x
    simp only [ok_bind]
    by_cases ht : t = .endOfFile
    · rw [if_pos ht, if_pos ht]
    · rw [if_neg ht, if_neg ht, tokenize_fuel over r.length r' (next_length over r t b r' hn ht)]

/-! The tokenizer terminates. -/

theorem skipWS_ne (over : Option Char) (r : List Char) : skipWS over r ≠ .error .fuel := by
  induction r with
  | nil => unfold skipWS; split <;> simp
  | cons c r ih =>
    unfold skipWS
    split
    · exact ih
    · simp

theorem commentLoop_ne (last : Char) (r : List Char) : commentLoop last r ≠ .error .fuel := by
  induction r generalizing last with
  | nil => simp [commentLoop]
  | cons c r ih =>
    unfold commentLoop
    split
    · simp
    · exact ih c

theorem comment_ne (r : List Char) : comment r ≠ .error .fuel := by
  cases r with
  | nil => simp [comment]
  | cons c r => exact commentLoop_ne c r

theorem linkLoop_ne (over : Option Char) (st : Nat) (buf r : List Char) : linkLoop over st buf r ≠ .error .fuel := by
  induction r generalizing st buf with
  | nil =>
    unfold linkLoop
    split
    · simp
    · split <;> simp
  | cons c r ih =>
    unfold linkLoop
    split
    · simp
    · exact ih _ _

theorem envLoop_ne (over : Option Char) (buf r : List Char) : envLoop over buf r ≠ .error .fuel := by
  induction r generalizing buf with
  | nil => unfold envLoop; split <;> simp
  | cons c r ih =>
    unfold envLoop
    split
    · simp
    · split
      · simp
      · exact ih _

theorem quoteLoop_ne (over : Option Char) (buf r : List Char) : quoteLoop over buf r ≠ .error .fuel := by
  induction r generalizing buf with
  | nil =>
    unfold quoteLoop
    split
    · simp
    · split <;> simp
  | cons c r ih =>
    unfold quoteLoop
    split
    · simp
    · exact ih _

theorem bind_ne {α β : Type} (x : Except Fail α) (f : α → Except Fail β) (hx : x ≠ .error .fuel) (hf : ∀ a, x = .ok a → f a ≠ .error .fuel) : (x >>= f) ≠ .error .fuel := by
  cases x with
  | error e => simpa [error_bind] using hx
  | ok a => exact hf a rfl

theorem run_ne (over : Option Char) (r buf : List Char) : run over r buf ≠ .error .fuel := by
  induction hl : r.length using Nat.strongRecOn generalizing r buf with
  | ind n ih =>
    cases r with
    | nil => rw [run_nil]; simp
    | cons c r =>
      rw [run_cons]
      simp only [List.length_cons] at hl
      unfold round
      split
      · split
        · refine bind_ne _ _ (skipWS_ne _ _) fun r1 h1 => ih r1.length ?_ r1 _ rfl
          have := Nat.le_trans (skipWS_length _ _ _ h1) (skipLine_length r)
          omega
        · simp
      · split
        · split
          · refine bind_ne _ _ (skipWS_ne _ _) fun r1 h1 => ih r1.length ?_ r1 _ rfl
            have := Nat.le_trans (skipWS_length _ _ _ h1) (skipLine_length r)
            omega
          · simp
        · split
          · refine bind_ne _ _ (comment_ne _) fun r0 h0 => bind_ne _ _ (skipWS_ne _ _) fun r1 h1 => ih r1.length ?_ r1 _ rfl
            have := Nat.le_trans (skipWS_length _ _ _ h1) (comment_length _ _ h0)
            omega
          · split
            · simp
            · split
              · split <;> simp
              · split
                · split
                  · exact bind_ne _ _ (linkLoop_ne _ _ _ _) fun x _ => by simp
                  · simp
                · split
                  · unfold envToken
                    split
                    · split
                      · simp
                      · split <;> simp
                    · split
                      · exact bind_ne _ _ (envLoop_ne _ _ _) fun x _ => by simp
                      · simp
                  · split
                    · exact bind_ne _ _ (quoteLoop_ne _ _ _) fun x _ => by simp
                    · exact ih r.length (by omega) r _ rfl

theorem next_ne (over : Option Char) (r : List Char) : next over r ≠ .error .fuel := by
  by_cases hr : r = []
  · subst hr; simp [next]
  · rw [next_cons over r hr]
    exact bind_ne _ _ (skipWS_ne _ _) fun r' _ => run_ne _ _ _

theorem tokens_ne (over : Option Char) (r : List Char) : tokens over r ≠ .error .fuel := by
  induction hl : r.length using Nat.strongRecOn generalizing r with
  | ind n ih =>
    rw [tokens_eq]
    refine bind_ne _ _ (next_ne _ _) fun x hx => ?_
    split
    · simp
    · next ht =>
      refine bind_ne _ _ (ih x.2.2.length ?_ _ rfl) fun _ _ => by simp
      have := next_length over r x.1 x.2.1 x.2.2 hx ht
      omega

/-! Separators. -/

/-- The tokenizer does not read past the end when it skips white space in `r`: either such a read is harmless or there is something else than white space. -/
def Safe (over : Option Char) (r : List Char) : Prop := over.isSome = true ∨ ∃ c ∈ r, white c = false

/-- `skipWS` and the loop. -/
def start (over : Option Char) (r : List Char) : Except Fail (Token × List Char × List Char) := skipWS over r >>= fun r' => run over r' []

theorem next_start (over : Option Char) (r : List Char) (h : Safe over r) : next over r = start over r := by
  by_cases hr : r = []
  · subst hr
    rcases h with h | ⟨c, hc, _⟩
    · unfold next start skipWS
      rw [h]
      rfl
    · cases hc
  · exact next_cons over r hr

theorem skipLine_line (s e rest : List Char) (h : LineOk s e rest) : skipLine (s ++ e ++ rest) = rest := by
  obtain ⟨hs, he, h0, hr⟩ := h
  unfold skipLine
  rw [List.append_assoc, List.dropWhile_append_of_pos (by intro c hc; simp [hs c hc])]
  have hd : (e ++ rest).dropWhile (fun c => !newline c) = e ++ rest := by
    cases e with
    | nil => rw [h0 rfl]; rfl
    | cons c e => simp [he c List.mem_cons_self]
  rw [hd, List.dropWhile_append_of_pos (by intro c hc; simp [he c hc])]
  cases rest with
  | nil => rfl
  | cons c rest => simp [hr c rfl]

theorem commentLoop_end (s : List Char) (last : Char) (rest : List Char) (h : ¬ ['*', '/'] <:+: last :: s) : commentLoop last (s ++ '*' :: '/' :: rest) = .ok rest := by
  induction s generalizing last with
  | nil =>
    simp only [List.nil_append]
    rw [commentLoop, if_neg (by simp), commentLoop, if_pos ⟨rfl, rfl⟩]
  | cons c s ih =>
    rw [List.cons_append, commentLoop, if_neg]
    · exact ih c fun hh => h (List.infix_cons hh)
    · rintro ⟨rfl, rfl⟩
      exact h ⟨[], s, by simp⟩

theorem comment_end (s rest : List Char) (h : ¬ ['*', '/'] <:+: s) : comment (s ++ '*' :: '/' :: rest) = .ok rest := by
  cases s with
  | nil =>
    simp only [List.nil_append, comment]
    rw [commentLoop, if_pos ⟨rfl, rfl⟩]
  | cons c s => exact commentLoop_end s c rest h

theorem start_white (over : Option Char) (c : Char) (r : List Char) (h : white c = true) : start over (c :: r) = start over r := by
  unfold start
  rw [skipWS, if_pos h]

theorem start_notwhite (over : Option Char) (c : Char) (r : List Char) (h : white c = false) : start over (c :: r) = round over (run over) c r [] := by
  unfold start
  rw [skipWS, if_neg (by simp [h]), ok_bind, run_cons]

theorem start_hash (over : Option Char) (r : List Char) : start over ('#' :: r) = start over (skipLine r) := by
  rw [start_notwhite over _ _ (by decide)]
  rfl

theorem start_slash (over : Option Char) (r : List Char) : start over ('/' :: r) = run over r ['/'] := by
  rw [start_notwhite over _ _ (by decide)]
  rfl

theorem start_slashes (over : Option Char) (r : List Char) : start over ('/' :: '/' :: r) = start over (skipLine r) := by
  rw [start_slash, run_cons]
  rfl

theorem start_multi (over : Option Char) (r : List Char) : start over ('/' :: '*' :: r) = comment r >>= start over := by
  rw [start_slash, run_cons]
  rfl

/-- A separator does not change the next token. -/
theorem start_sep (over : Option Char) (s : Sep) (r : List Char) (h : s.Ok r) : start over (s.text ++ r) = start over r := by
  cases s with
  | white c => exact start_white over c r h
  | hash s e =>
    have := skipLine_line s e r h
    simp only [Sep.text, List.cons_append, start_hash]
    rw [this]
  | slashes s e =>
    have := skipLine_line s e r h
    simp only [Sep.text, List.cons_append, start_slashes]
    rw [this]
  | multi s =>
    have := comment_end s r h
    simp only [Sep.text, List.cons_append, start_multi, List.append_assoc, List.nil_append]
    rw [this, ok_bind]

theorem Safe.append (over : Option Char) (s r : List Char) (h : Safe over r) : Safe over (s ++ r) := by
  rcases h with h | ⟨c, hc, hw⟩
  · exact Or.inl h
  · exact Or.inr ⟨c, List.mem_append_right _ hc, hw⟩

theorem tokens_congr (over : Option Char) (r r' : List Char) (h : next over r = next over r') : tokens over r = tokens over r' := by
  rw [tokens_eq, h, ← tokens_eq]

/-- A separator does not change the tokens. -/
theorem tokens_sep (over : Option Char) (s : Sep) (r : List Char) (h : s.Ok r) (hs : Safe over r) : tokens over (s.text ++ r) = tokens over r := by
  refine tokens_congr over _ _ ?_
  rw [next_start over _ (hs.append over s.text), next_start over r hs, start_sep over s r h]

/-! Tokens. -/

theorem linkLoop_balanced (over : Option Char) (s : List Char) (h : Balanced s) (st : Nat) (buf rest : List Char) : linkLoop over st buf (s ++ rest) = linkLoop over st (buf ++ s) rest := by
  induction h generalizing st buf rest with
  | nil => simp
  | char c s h1 h2 _ ih =>
    rw [List.cons_append, linkLoop, if_neg (by simp [h2]), if_neg h1, if_neg h2, ih]
    simp
  | nest s t _ _ ih1 ih2 =>
    have e : '[' :: s ++ ']' :: t ++ rest = '[' :: (s ++ (']' :: (t ++ rest))) := by simp
    rw [e, linkLoop, if_neg (by simp), if_pos rfl, ih1, linkLoop, if_neg (by simp), if_neg (by decide), if_pos rfl, Nat.add_sub_cancel, ih2]
    simp

theorem quoteLoop_text (over : Option Char) (s : List Char) (h : ∀ c ∈ s, quote c = false) (q : Char) (hq : quote q = true) (buf rest : List Char) :
    quoteLoop over buf (s ++ q :: rest) = .ok (buf ++ s, q, rest) := by
  induction s generalizing buf with
  | nil => simp [quoteLoop, hq]
  | cons c s ih =>
    rw [List.cons_append, quoteLoop, if_neg (by simp [h c List.mem_cons_self]), ih fun c hc => h c (List.mem_cons_of_mem _ hc)]
    simp

theorem envLoop_text (over : Option Char) (s : List Char) (h : ∀ c ∈ s, c ≠ '}' ∧ c ≠ '\n') (buf rest : List Char) : envLoop over buf (s ++ '}' :: rest) = .ok (buf ++ s, rest) := by
  induction s generalizing buf with
  | nil => simp [envLoop]
  | cons c s ih =>
    have := h c List.mem_cons_self
    rw [List.cons_append, envLoop, if_neg this.1, if_neg this.2, ih fun c hc => h c (List.mem_cons_of_mem _ hc)]
    simp

/-- Where the text continues after a word. -/
def afterWord : List Char → List Char
  | [] => []
  | c :: r => if white c then r else if c = '#' then skipLine r else c :: r

theorem special_white (c : Char) (h : white c = true) : special c = none := by
  unfold white at h
  simp only [Bool.or_eq_true, beq_iff_eq] at h
  rcases h with (rfl | rfl) | rfl <;> decide

theorem run_word_end (over : Option Char) (w rest : List Char) (hw : w ≠ []) (h : Follow rest) : run over rest w = .ok (.string, w, afterWord rest) := by
  have he : w.isEmpty = false := by simpa using hw
  cases rest with
  | nil => rw [run_nil, he]; rfl
  | cons c r =>
    rw [run_cons]
    unfold round
    have hc := h c rfl
    have hns : ¬ (w.getLast? = some '/' ∧ c = '/') := by
      rintro ⟨_, rfl⟩
      rcases hc with h | h | h | h <;> revert h <;> decide
    have hnm : ¬ (w.getLast? = some '/' ∧ c = '*') := by
      rintro ⟨_, rfl⟩
      rcases hc with h | h | h | h <;> revert h <;> decide
    simp only [afterWord]
    by_cases h1 : c = '#'
    · subst h1
      rw [if_pos rfl, he]
      rfl
    · rw [if_neg h1, if_neg hns, if_neg hnm, if_neg h1]
      by_cases h2 : white c = true
      · rw [if_pos (by simp [he, h2]), if_pos h2]
      · rw [if_neg (by simp [h2]), if_neg h2]
        rcases hc with h | h | h | h
        · exact absurd h h2
        · cases hsp : special c with
          | none => exact absurd hsp h
          | some t => simp [he]
        · subst h
          simp [special, he]
        · exact absurd h h1

theorem run_word (over : Option Char) (w : List Char) (hw : ∀ c ∈ w, wordChar c) (u : List Char) (h1 : ¬ ['/', '/'] <:+: u ++ w) (h2 : ¬ ['/', '*'] <:+: u ++ w) (rest : List Char) :
    run over (w ++ rest) u = run over rest (u ++ w) := by
  induction w generalizing u with
  | nil => simp
  | cons c w ih =>
    obtain ⟨a1, a2, a3, a4, a5, a6⟩ := hw c List.mem_cons_self
    have infx : ∀ x, u.getLast? = some '/' → c = x → ['/', x] <:+: u ++ c :: w := by
      intro x hu hc
      subst hc
      have hne : u ≠ [] := by rintro rfl; cases hu
      have := List.dropLast_concat_getLast hne
      rw [List.getLast?_eq_some_getLast hne] at hu
      rw [Option.some.inj hu] at this
      exact ⟨u.dropLast, w, by conv => rhs; rw [← this]
                               simp⟩
    rw [List.cons_append, run_cons]
    unfold round
    rw [if_neg a6, if_neg (fun h => h1 (infx '/' h.1 h.2)), if_neg (fun h => h2 (infx '*' h.1 h.2)), if_neg (by simp [a1]), a2]
    dsimp only
    rw [if_neg a3, if_neg a4, if_neg (by simp [a5]), ih (fun c hc => hw c (List.mem_cons_of_mem _ hc)) (u ++ [c]) (by simpa using h1) (by simpa using h2)]
    simp

/-- The first character of a token is not white. -/
theorem Tok.text_head (t : Tok) (rest : List Char) (h : t.Ok rest) : ∃ c r, t.text = c :: r ∧ Verif.Tokenizer.white c = false := by
  cases t with
  | word w =>
    cases w with
    | nil => exact absurd rfl h.1
    | cons c w => exact ⟨c, w, rfl, (h.2.1 c List.mem_cons_self).1⟩
  | quoted p q s =>
    refine ⟨p, s ++ [q], rfl, ?_⟩
    have := h.1
    unfold quote at this
    simp only [Bool.or_eq_true, beq_iff_eq] at this
    rcases this with rfl | rfl <;> decide
  | link s => exact ⟨'[', s ++ [']'], rfl, by decide⟩
  | env s => exact ⟨'$', '{' :: s ++ ['}'], rfl, by decide⟩
  | single c t =>
    refine ⟨c, [], rfl, ?_⟩
    cases hw : Verif.Tokenizer.white c with
    | false => rfl
    | true => rw [Tok.Ok, special_white c hw] at h; cases h

theorem single_ne (c : Char) (t : Token) (h : special c = some t) : c ≠ '#' := by
  rintro rfl
  cases h

theorem special_ne_end (c : Char) (t : Token) (h : special c = some t) : t ≠ .endOfFile := by
  rintro rfl
  unfold special at h
  repeat' split at h <;> try cases h

theorem quote_facts (p : Char) (h : quote p = true) : p ≠ '#' ∧ white p = false ∧ special p = none ∧ p ≠ '[' ∧ p ≠ '$' := by
  unfold quote at h
  simp only [Bool.or_eq_true, beq_iff_eq] at h
  rcases h with rfl | rfl <;> decide

/-- Where the text continues after a token. -/
def Tok.rest (rest : List Char) : Tok → List Char
  | .word _ => afterWord rest
  | _ => rest

/-- The next token is the first one. -/
theorem start_tok (over : Option Char) (t : Tok) (rest : List Char) (h : t.Ok rest) :
    start over (t.text ++ rest) = .ok (t.out.1, t.out.2, t.rest rest) := by
  obtain ⟨c, r, hcr, hw⟩ := t.text_head rest h
  have hs : start over (t.text ++ rest) = run over (t.text ++ rest) [] := by
    rw [hcr, List.cons_append]
    unfold start
    rw [skipWS, if_neg (by simp [hw]), ok_bind]
  rw [hs]
  cases t with
  | word w =>
    simp only [Tok.rest, Tok.text, Tok.out]
    rw [run_word over w h.2.1 [] (by simpa using h.2.2.1) (by simpa using h.2.2.2.1), List.nil_append, run_word_end over w rest h.1 h.2.2.2.2]
  | quoted p q s =>
    obtain ⟨a1, a2, a3, a4, a5⟩ := quote_facts p h.1
    simp only [Tok.rest, Tok.text, Tok.out, List.cons_append, List.append_assoc]
    rw [run_cons]
    unfold round
    rw [if_neg a1, if_neg (by simp), if_neg (by simp), if_neg (by simp), a3]
    dsimp only
    rw [if_neg a4, if_neg a5, if_pos h.1]
    unfold quoteToken
    have := quoteLoop_text over s h.2.2 q h.2.1 [] rest
    simp only [List.isEmpty_nil, if_true, List.nil_append] at this ⊢
    rw [this]
    rfl
  | link s =>
    simp only [Tok.rest, Tok.text, Tok.out, List.cons_append, List.append_assoc]
    rw [run_cons]
    unfold round
    rw [if_neg (by decide), if_neg (by simp), if_neg (by simp), if_neg (by simp)]
    have e : special '[' = none := by decide
    rw [e]
    dsimp only
    have := linkLoop_balanced over s h 0 [] (']' :: rest)
    simp only [List.isEmpty_nil, if_true, List.nil_append] at this ⊢
    rw [this, linkLoop, if_pos ⟨rfl, rfl⟩]
    rfl
  | env s =>
    simp only [Tok.rest, Tok.text, Tok.out, List.cons_append, List.append_assoc]
    rw [run_cons]
    unfold round
    rw [if_neg (by decide), if_neg (by simp), if_neg (by simp), if_neg (by simp)]
    have e : special '$' = none := by decide
    rw [e]
    dsimp only
    rw [if_neg (by decide), if_pos rfl]
    unfold envToken
    have := envLoop_text over s h [] rest
    simp only [if_true, List.nil_append] at this ⊢
    rw [this]
    rfl
  | single c t =>
    simp only [Tok.rest, Tok.text, Tok.out, List.cons_append, List.nil_append]
    rw [run_cons]
    unfold round
    rw [if_neg (single_ne c t h), if_neg (by simp), if_neg (by simp), if_neg (by simp), h]
    rfl

theorem out_ne_end (t : Tok) (rest : List Char) (h : t.Ok rest) : t.out.1 ≠ .endOfFile := by
  cases t with
  | single c t => exact special_ne_end c t h
  | _ => simp [Tok.out]

theorem Tok.head_ne (t : Tok) (rest : List Char) (h : t.Ok rest) (r : List Char) : t.text ≠ '#' :: r := by
  intro he
  cases t with
  | word w => exact (h.2.1 '#' (by rw [show w = '#' :: r from he]; exact List.mem_cons_self)).2.2.2.2.2 rfl
  | quoted p q s => exact (quote_facts p h.1).1 (List.cons.inj he).1
  | link s => exact absurd (List.cons.inj he).1 (by decide)
  | env s => exact absurd (List.cons.inj he).1 (by decide)
  | single c t => exact single_ne c t h (List.cons.inj he).1

/-- A word takes at most one separator with it. -/
theorem afterWord_items (is : List Item) (h : ItemsOk is) (hf : Follow (render is)) : afterWord (render is) = render is ∨ ∃ s is', is = .sep s :: is' ∧ afterWord (render is) = render is' := by
  cases is with
  | nil => exact Or.inl rfl
  | cons i is =>
    cases i with
    | sep s =>
      cases s with
      | white c => exact Or.inr ⟨_, is, rfl, by
          have : white c = true := h.1
          simp [render, Item.text, Sep.text, afterWord, this]⟩
      | hash s e => exact Or.inr ⟨_, is, rfl, by
          have := skipLine_line s e (render is) h.1
          simp only [render, Item.text, Sep.text, afterWord, List.cons_append]
          rw [if_neg (by decide), if_true, this]⟩
      | slashes s e =>
        exfalso
        have := hf '/' rfl
        rcases this with h | h | h | h <;> revert h <;> decide
      | multi s =>
        exfalso
        have := hf '/' rfl
        rcases this with h | h | h | h <;> revert h <;> decide
    | tok t =>
      left
      obtain ⟨c, r, hcr, hw⟩ := t.text_head _ h.1
      have hne : c ≠ '#' := by
        rintro rfl
        exact t.head_ne _ h.1 r hcr
      simp only [render, Item.text, hcr, List.cons_append, afterWord]
      rw [if_neg (by simp [hw]), if_neg hne]

/-- The last item is a token. -/
def EndsWithToken (is : List Item) : Prop := ∀ s, is.getLast? ≠ some (.sep s)

theorem safe_items (over : Option Char) (is : List Item) (h : ItemsOk is) (h0 : is ≠ []) (hs : over.isSome = true ∨ EndsWithToken is) : Safe over (render is) := by
  rcases hs with hs | hs
  · exact Or.inl hs
  · induction is with
    | nil => exact absurd rfl h0
    | cons i is ih =>
      by_cases hi : is = []
      · subst hi
        cases i with
        | sep s => exact absurd rfl (hs s)
        | tok t =>
          obtain ⟨c, r, hcr, hw⟩ := t.text_head _ h.1
          exact Or.inr ⟨c, by simp [render, Item.text, hcr], hw⟩
      · have : EndsWithToken is := by
          intro s hh
          refine hs s ?_
          rw [List.getLast?_cons_of_ne_nil hi]
          exact hh
        exact (ih h.2 hi this).append over _

theorem ends_tail (i : Item) (is : List Item) (h : EndsWithToken (i :: is)) : EndsWithToken is := by
  intro s hh
  have : is ≠ [] := by rintro rfl; cases hh
  refine h s ?_
  rw [List.getLast?_cons_of_ne_nil this]
  exact hh

/-- The tokens of the text of a sequence are the tokens of the sequence. -/
theorem tokens_items (over : Option Char) (is : List Item) (h : ItemsOk is) (hs : over.isSome = true ∨ EndsWithToken is) : tokens over (render is) = .ok (outs is) := by
  induction hl : is.length using Nat.strongRecOn generalizing is with
  | ind n ih =>
    cases is with
    | nil => rfl
    | cons i is =>
      simp only [List.length_cons] at hl
      have hs' : over.isSome = true ∨ EndsWithToken is := hs.imp id (ends_tail i is)
      cases i with
      | sep s =>
        have : Safe over (render is) := by
          rcases hs with hs | hs
          · exact Or.inl hs
          · refine safe_items over is h.2 ?_ (Or.inr (ends_tail _ is hs))
            rintro rfl
            exact hs s rfl
        simp only [render, Item.text, outs]
        rw [tokens_sep over s _ h.1 this]
        exact ih is.length (by omega) is h.2 hs' rfl
      | tok t =>
        have hsafe := safe_items over (.tok t :: is) h (by simp) hs
        have hst := start_tok over t (render is) h.1
        simp only [render, Item.text, outs] at hsafe ⊢
        rw [tokens_eq, next_start over _ hsafe, hst, ok_bind, if_neg (out_ne_end t _ h.1)]
        have : tokens over (t.rest (render is)) = .ok (outs is) := by
          have hrest := ih is.length (by omega) is h.2 hs' rfl
          cases t with
          | word w =>
            rcases afterWord_items is h.2 h.1.2.2.2.2 with e | ⟨s, is', rfl, e⟩
            · simp only [Tok.rest, e]; exact hrest
            · simp only [Tok.rest, e]
              exact ih is'.length (by simp at hl; omega) is' h.2.2 (hs'.imp id (ends_tail _ is')) rfl
          | _ => exact hrest
        rw [this]
        rfl

end Verif.Tokenizer
