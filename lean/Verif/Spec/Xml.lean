/-!
Specification for XML trees (C33), independent of the code: an element has a name, a text, attributes and nested elements.
-/
namespace Verif.Xml

/-- An element. -/
inductive Tree
  | node (name value : List Char) (attrs : List (List Char × List Char)) (children : List Tree)

/-- Blank characters. -/
def blank (c : Char) : Bool := c == ' ' || c == '\n' || c == '\t' || c == '\r'

/-- An element name: it does not contain the characters that end it and does not look like a declaration. -/
def NameOk (n : List Char) : Prop := (∀ c ∈ n, c ≠ ' ' ∧ c ≠ '/' ∧ c ≠ '>') ∧ n.head? ≠ some '?'

/-- A text: without the begin of a tag, no blanks at the ends. -/
def ValueOk (v : List Char) : Prop := (∀ c ∈ v, c ≠ '<') ∧ (∀ c, v.head? = some c → blank c = false) ∧ ∀ c, v.getLast? = some c → blank c = false

/-- An attribute: a name without blanks and markup, a value without quotes. -/
def AttrOk (a : List Char × List Char) : Prop := a.1 ≠ [] ∧ (∀ c ∈ a.1, blank c = false ∧ c ≠ '=' ∧ c ≠ '/' ∧ c ≠ '>') ∧ ∀ c ∈ a.2, c ≠ '"'

mutual
/-- Names, texts and attributes are free of markup and no element is completely empty (without attributes, text and nested elements). -/
def TreeOk : Tree → Prop
  | .node n v as cs => NameOk n ∧ ValueOk v ∧ (∀ a ∈ as, AttrOk a) ∧ (as ≠ [] ∨ v ≠ [] ∨ cs ≠ []) ∧ ForestOk cs
def ForestOk : List Tree → Prop
  | [] => True
  | t :: ts => TreeOk t ∧ ForestOk ts
end

end Verif.Xml
