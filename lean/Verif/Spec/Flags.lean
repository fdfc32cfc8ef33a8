import Verif.Spec.Parser
import Verif.Spec.Config
/-!
Specification of option tables (C36).
-/
namespace Verif.Flags

open Verif.Config (Str SameName)

/-- A name that can be written in a list of names separated by `|`: not empty, without `|` and `#`, without white space at its ends. -/
structure NameOk (name : Str) : Prop where
  ne : name ≠ []
  free : ∀ c ∈ name, c ≠ '|' ∧ c ≠ '#'
  first : ∀ c, name.head? = some c → c ∉ Verif.Parser.blank
  last : ∀ c, name.getLast? = some c → c ∉ Verif.Parser.blank

/-- A table of options: proper names, different regardless of letter case. -/
structure TableOk (low : Char → Nat) (names : List Str) : Prop where
  proper : ∀ n ∈ names, NameOk n
  distinct : names.Pairwise fun a b => ¬ SameName low a b

/-- The options in the set given by bits. -/
def members (names : List Str) (v : Nat) : List Nat := (List.range names.length).filter fun i => v.testBit i

end Verif.Flags
