/-!
Specification of configuration texts (C34): a text is a sequence of separators (white space and comments) and tokens.  Independent of the code.
-/
namespace Verif.Tokenizer

/-- Kinds of tokens (`tokenizer.h` 36-47). -/
inductive Token
  | string | link | env | delimiter | assign | objectOpen | objectClose | expressionEnd | lineEnd | endOfFile
  deriving DecidableEq, Repr

/-- White space; the end of line is a token. -/
def white (c : Char) : Bool := c == ' ' || c == '\t' || c == '\r'

/-- Characters of the end of a line. -/
def newline (c : Char) : Bool := c == '\n' || c == '\r'

/-- Quotes. -/
def quote (c : Char) : Bool := c == '"' || c == '\''

/-- Characters that are tokens. -/
def special (c : Char) : Option Token :=
  if c = ',' then some .delimiter
  else if c = '=' then some .assign
  else if c = ';' then some .expressionEnd
  else if c = '\n' then some .lineEnd
  else if c = '{' then some .objectOpen
  else if c = '}' then some .objectClose
  else none

/-- Characters of plain words. -/
def wordChar (c : Char) : Prop := white c = false ∧ special c = none ∧ c ≠ '[' ∧ c ≠ '$' ∧ quote c = false ∧ c ≠ '#'

/-- Texts with matching brackets. -/
inductive Balanced : List Char → Prop
  | nil : Balanced []
  | char (c : Char) (s : List Char) : c ≠ '[' → c ≠ ']' → Balanced s → Balanced (c :: s)
  | nest (s t : List Char) : Balanced s → Balanced t → Balanced ('[' :: s ++ ']' :: t)

/-- Separators: white space, line comments (a text and the following ends of lines) and comments in the style of C. -/
inductive Sep
  | white (c : Char)
  | hash (s e : List Char)
  | slashes (s e : List Char)
  | multi (s : List Char)

def Sep.text : Sep → List Char
  | .white c => [c]
  | .hash s e => '#' :: s ++ e
  | .slashes s e => '/' :: '/' :: s ++ e
  | .multi s => '/' :: '*' :: s ++ ['*', '/']

/-- A line comment ends with all following ends of lines or with the text. -/
def LineOk (s e rest : List Char) : Prop :=
  (∀ c ∈ s, newline c = false) ∧ (∀ c ∈ e, newline c = true) ∧ (e = [] → rest = []) ∧ ∀ c, rest.head? = some c → newline c = false

def Sep.Ok (rest : List Char) : Sep → Prop
  | .white c => Verif.Tokenizer.white c = true
  | .hash s e => LineOk s e rest
  | .slashes s e => LineOk s e rest
  | .multi s => ¬ ['*', '/'] <:+: s

/-- Tokens: plain words, quoted texts, links in brackets, names of environment variables and single characters. -/
inductive Tok
  | word (w : List Char)
  | quoted (p q : Char) (s : List Char)
  | link (s : List Char)
  | env (s : List Char)
  | single (c : Char) (t : Token)

def Tok.text : Tok → List Char
  | .word w => w
  | .quoted p q s => p :: s ++ [q]
  | .link s => '[' :: s ++ [']']
  | .env s => '$' :: '{' :: s ++ ['}']
  | .single c _ => [c]

/-- The kind and the value of a token. -/
def Tok.out : Tok → Token × List Char
  | .word w => (.string, w)
  | .quoted _ _ s => (.string, s)
  | .link s => (.link, s)
  | .env s => (.env, s)
  | .single c t => (t, [c])

/-- A word is followed by white space, a token of a single character, a link, a comment with `#` or the end of the text. -/
def Follow (rest : List Char) : Prop := ∀ c, rest.head? = some c → white c = true ∨ special c ≠ none ∨ c = '[' ∨ c = '#'

def Tok.Ok (rest : List Char) : Tok → Prop
  | .word w => w ≠ [] ∧ (∀ c ∈ w, wordChar c) ∧ ¬ ['/', '/'] <:+: w ∧ ¬ ['/', '*'] <:+: w ∧ Follow rest
  | .quoted p q s => quote p = true ∧ quote q = true ∧ ∀ c ∈ s, quote c = false
  | .link s => Balanced s
  | .env s => ∀ c ∈ s, c ≠ '}' ∧ c ≠ '\n'
  | .single c t => special c = some t

inductive Item
  | sep (s : Sep)
  | tok (t : Tok)

def Item.text : Item → List Char
  | .sep s => s.text
  | .tok t => t.text

def Item.Ok (rest : List Char) : Item → Prop
  | .sep s => s.Ok rest
  | .tok t => t.Ok rest

/-- The text of a sequence. -/
def render : List Item → List Char
  | [] => []
  | i :: is => i.text ++ render is

/-- All items fit to what follows. -/
def ItemsOk : List Item → Prop
  | [] => True
  | i :: is => i.Ok (render is) ∧ ItemsOk is

/-- The tokens of a sequence. -/
def outs : List Item → List (Token × List Char)
  | [] => []
  | .sep _ :: is => outs is
  | .tok t :: is => t.out :: outs is

end Verif.Tokenizer
