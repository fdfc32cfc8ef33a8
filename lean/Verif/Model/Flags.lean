import Verif.Model.Parser
/-!
`ECFEnumHolder` (`src/config/holders/valueholder.h` 137-211): values of parameters with a table of options.

Simplifications: a value is a natural number (of the type `int`); the options are their names only; `ECFValueHolder<size_t>::_setValue` (a number instead of a name) is the parameter `number`.
`none` is undefined behaviour (a shift by 31 or more, an index out of the table).
-/
namespace Verif.Flags

open Verif.Parser (Str split strip caseInsensitiveEq)

/-- `1 << i` of `int`. -/
def bit (i : Nat) : Option Nat := if i < 31 then some (1 <<< i) else none

/-- The loop over options of `getValue` (149-156) from the option `i`. -/
def printLoop (value : Nat) : Nat → List Str → Str → Option Str
  | _, [], flags => some flags
  | i, name :: names, flags => do
      let b ← bit i
      let flags := if value &&& b ≠ 0 then (if flags ≠ [] then flags ++ " | ".toList else flags) ++ name else flags
      printLoop value (i + 1) names flags

/-- `getValue` (142-160). -/
def getValue (flags : Bool) (names : List Str) (value : Nat) : Option Str := if flags then printLoop value 0 names [] else names[value]?

/-- The loop over options (170-175). -/
def matchLoop (low : Char → Nat) (piece : Str) (value : Nat) : Nat → List Str → Option Nat
  | _, [] => some value
  | j, name :: names => do
      let eq ← caseInsensitiveEq low piece name
      if eq then do
        let b ← bit j
        some (value ||| b)
      else matchLoop low piece value (j + 1) names

/-- The loop over pieces (167-180); the new value and the result. -/
def parseLoop (low : Char → Nat) (names : List Str) : List Str → Nat → Option (Nat × Bool)
  | [], value => some (value, true)
  | piece :: pieces, value => do
      let value' ← matchLoop low (strip piece) value 0 names
      if value' = value then some (value', false) else parseLoop low names pieces value'

/-- The loop that searches the name (184-189). -/
def indexLoop (low : Char → Nat) (text : Str) : Nat → List Str → Option (Option Nat)
  | _, [] => some none
  | i, name :: names => do
      let eq ← caseInsensitiveEq low (strip text) name
      if eq then some (some i) else indexLoop low text (i + 1) names

/-- `_setValue` (162-207). -/
def setValue (low : Char → Nat) (number : Str → Option Nat) (flags : Bool) (names : List Str) (old : Nat) (text : Str) : Option (Nat × Bool) :=
  if flags ∧ (split text ['|'] true).length ≠ 0 then parseLoop low names (split text ['|'] true) 0
  else do
    let index ← indexLoop low text 0 names
    match (match index with | some i => some i | none => number text) with
    | none => some (old, false)
    | some i => if flags then (bit i).map fun b => (b, true) else some (i, true)

end Verif.Flags
