import Verif.Proof.Tokenizer
/-!
C34: the tokenizer of configuration files.
-/
namespace Verif.Tokenizer

/-- C34: the tokenizer ends for every text (also with an error or undefined behaviour): neither a call of `next` nor the sequence of calls takes more rounds than there are characters. -/
theorem C34_terminates (over : Option Char) (text : List Char) : tokens over text ≠ .error .fuel := tokens_ne over text

/-- C34 (partial): white space and a comment in front of any text do not change its tokens, whatever follows (also errors are the same), provided that the tokenizer may look at the
character behind the end of the text (see `C34_reads_past`) or there is something else than white space.  Comments directly behind a word are not covered (see `C34_comment_joins`). -/
theorem C34_separators_partial (over : Option Char) (s : Sep) (text : List Char) (h : s.Ok text) (hs : over.isSome = true ∨ ∃ c ∈ text, white c = false) :
    tokens over (s.text ++ text) = tokens over text := tokens_sep over s text h hs

/-- C34 (partial): the tokens of a text built from separators and tokens are exactly these tokens with their content; nothing past the end is read if the last item is a token. -/
theorem C34_tokens_partial (over : Option Char) (is : List Item) (h : ItemsOk is) (hs : over.isSome = true ∨ ∀ s, is.getLast? ≠ some (.sep s)) :
    tokens over (render is) = .ok (outs is) := tokens_items over is h hs

/-- C34: the unrestricted claim is false.  A text with a space or a comment at the end makes the tokenizer read past the text. -/
theorem C34_reads_past : tokens none "A; ".toList = .error .undef ∧ tokens none "A 1;\n# the last line\n".toList = .error .undef := ⟨rfl, rfl⟩

/-- C34: unfinished comments, texts, links and names make the tokenizer read past the text as well; a comment or a name never ends, whatever is behind the text. -/
theorem C34_unfinished (c : Char) (hc : c ≠ '\n') :
    tokens none "A [B".toList = .error .undef ∧ tokens none "A \"B".toList = .error .undef ∧
      tokens (some c) "A /* B".toList = .error .undef ∧ tokens (some c) "A ${B".toList = .error .undef := by
  refine ⟨rfl, rfl, rfl, ?_⟩
  have : tokens (some c) "A ${B".toList = (if some c = some '\n' then .error .error else .error .undef) := by
    rw [if_neg (by simpa using hc)]
    simp [tokens, tokenize, next, skipWS, loop, round, white, special, quote, envToken, envLoop, hc, ok_bind, error_bind]
  rw [this, if_neg (by simpa using hc)]

/-- C34: white space between words is lost behind a comment that directly follows a word: two words are one token. -/
theorem C34_comment_joins : tokens (some 'x') "A/* comment */ B;".toList = .ok [(.string, ['A', 'B']), (.expressionEnd, [';'])] ∧
    tokens (some 'x') "A /* comment */ B;".toList = .ok [(.string, ['A']), (.string, ['B']), (.expressionEnd, [';'])] := ⟨rfl, rfl⟩

/-- C34: a comment to the end of line takes the following ends of lines with it: the statement on the line is not finished. -/
theorem C34_comment_takes_lines : tokens (some 'x') "A # one\n\n\nB".toList = .ok [(.string, ['A']), (.string, ['B'])] ∧
    tokens (some 'x') "A \n\n\nB".toList = .ok [(.string, ['A']), (.lineEnd, ['\n']), (.lineEnd, ['\n']), (.lineEnd, ['\n']), (.string, ['B'])] := ⟨rfl, rfl⟩

/-! A text with all kinds of items. -/
def sample : List Item :=
  [.sep (.hash ['c', 'o'] ['\n', '\n']), .tok (.word ['S', 'Z']), .sep (.white ' '), .sep (.multi ['a', '*', ' ', '/']), .tok (.quoted '"' '"' ['x', '=', '#', ';']),
   .tok (.single ',' .delimiter), .tok (.link ['A', '[', '1', ']', ' ', 'B']), .tok (.single ';' .expressionEnd), .sep (.slashes ['e'] ['\r', '\n']), .tok (.env ['H']),
   .tok (.single '\n' .lineEnd)]

example : render sample = "#co\n\nSZ /*a* /*/\"x=#;\",[A[1] B];//e\r\n${H}\n".toList := by decide +kernel

theorem sample_ok : ItemsOk sample := by
  have hb : Balanced ['A', '[', '1', ']', ' ', 'B'] :=
    .char _ _ (by decide) (by decide) (.nest ['1'] [' ', 'B'] (.char _ _ (by decide) (by decide) .nil) (.char _ _ (by decide) (by decide) (.char _ _ (by decide) (by decide) .nil)))
  have hw : ∀ c ∈ ['S', 'Z'], wordChar c := by simp [wordChar, white, special, quote]
  have line : ∀ (s e rest : List Char) (c : Char), (∀ c ∈ s, newline c = false) → (∀ c ∈ e, newline c = true) → e ≠ [] → newline c = false → LineOk s e (c :: rest) :=
    fun s e rest c h1 h2 h3 h4 => ⟨h1, h2, fun h => absurd h h3, fun d hd => by rw [← Option.some.inj hd]; exact h4⟩
  refine ⟨line _ _ _ _ (by decide) (by decide) (by decide) (by decide), ⟨by decide, hw, by decide, by decide, fun c hc => Or.inl ?_⟩, (by decide : white ' ' = true),
    (by decide : ¬ ['*', '/'] <:+: ['a', '*', ' ', '/']), ⟨by decide, by decide, by decide⟩, (by decide : special ',' = some .delimiter), hb, (by decide : special ';' = some .expressionEnd),
    line _ _ _ _ (by decide) (by decide) (by decide) (by decide), (by decide : ∀ c ∈ ['H'], c ≠ '}' ∧ c ≠ '\n'), (by decide : special '\n' = some .lineEnd), trivial⟩
  rw [← Option.some.inj hc]
  decide

example : tokens none (render sample) = .ok
    [(.string, ['S', 'Z']), (.string, ['x', '=', '#', ';']), (.delimiter, [',']), (.link, ['A', '[', '1', ']', ' ', 'B']), (.expressionEnd, [';']), (.env, ['H']), (.lineEnd, ['\n'])] :=
  C34_tokens_partial none sample sample_ok (Or.inr (by simp [sample]))

end Verif.Tokenizer
