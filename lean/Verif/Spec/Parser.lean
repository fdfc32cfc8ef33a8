/-! Specification of the string functions. -/
namespace Verif.Parser

/-- No character of `s` is one of `tags`. -/
def Free (tags s : List Char) : Prop := ∀ c ∈ s, c ∉ tags

/-- White space: blank, carriage return, tabulator, end of line. -/
def blank : List Char := [' ', '\r', '\t', '\n']

/-- The line without white space at its beginning and at its end: `line = a ++ core ++ b`. -/
structure Trimmed (white line core : List Char) : Prop where
  decomposition : ∃ a b, line = a ++ core ++ b ∧ (∀ c ∈ a, c ∈ white) ∧ (∀ c ∈ b, c ∈ white)
  head : ∀ c, core.head? = some c → c ∉ white
  last : ∀ c, core.getLast? = some c → c ∉ white

/-- The part before the first character from `tags`. -/
structure Before (tags line part : List Char) : Prop where
  free : Free tags part
  rest : part = line ∨ ∃ c b, c ∈ tags ∧ line = part ++ c :: b

end Verif.Parser
