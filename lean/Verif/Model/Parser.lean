import Verif.Base.Loop
/-
Model of `src/basis/utilities/parser.cpp` and of `StringCompare` (`src/basis/utilities/parser.h`).
A `std::string` is a `List Char`; `std::string::npos` is `none`.
-/
namespace Verif.Parser

abbrev Str := List Char

/-- `s.find_first_of(tags)`. -/
def findFirstOf (s tags : Str) : Option Nat := s.findIdx? fun c => tags.contains c

/-- `s.find_first_not_of(tags)`. -/
def findFirstNotOf (s tags : Str) : Option Nat := s.findIdx? fun c => !tags.contains c

/-- `s.find_last_not_of(tags)`: searched from the end. -/
def findLastNotOf (s tags : Str) : Option Nat := (s.reverse.findIdx? fun c => !tags.contains c).map fun k => s.length - 1 - k

/-- `s.substr(0, n)`. -/
def substr0 (s : Str) : Option Nat → Str
  | none => s
  | some n => s.take n

/-- `s.erase(0, n)`. -/
def erase0 (s : Str) : Option Nat → Str
  | none => []
  | some n => s.drop n

/-- `Parser::getLine` (parser.cpp, 6-11); `none` when the text has no end of line: reads behind the text. -/
def getLine : Str → Option Str
  | [] => none
  | c :: s => if c = '\n' then some [c] else (getLine s).map (c :: ·)

/-- `Parser::removecomments` (19-22). -/
def removecomments (line tags : Str) : Str := substr0 line (findFirstOf line tags)

/-- `" \r\t\n"`. -/
def white : Str := [' ', '\r', '\t', '\n']

/-- `s.find_last_not_of(tags) + 1`, 0 for `npos`. -/
def endOfLast (s tags : Str) : Nat :=
  match findLastNotOf s tags with
  | none => 0
  | some k => k + 1

/-- `Parser::strip` (24-30). -/
def strip (line : Str) : Str :=
  let result := erase0 line (findFirstNotOf line white)
  let result := result.take (endOfLast result white)
  substr0 result (findFirstOf result ['#'])

/-- The part of the string behind the separator(s) (44-53). -/
def rest (reminder separator : Str) (skipMultiple : Bool) : Str :=
  match findFirstOf reminder separator with
  | none => []
  | some k =>
      if skipMultiple then
        let reminder := reminder.drop k
        erase0 reminder (findFirstNotOf reminder separator)
      else reminder.drop (k + 1)

theorem rest_lt {reminder separator : Str} {skipMultiple : Bool} (h : reminder ≠ []) : (rest reminder separator skipMultiple).length < reminder.length := by
  have h0 : 0 < reminder.length := List.length_pos_iff.2 h
  unfold rest
  split
  · simpa using h0
  · rename_i k hk
    obtain ⟨hkl, hp, _⟩ := List.findIdx?_eq_some_iff_getElem.1 hk
    split
    · dsimp only
      unfold erase0
      split
      · simpa using h0
      · rename_i m hm
        obtain ⟨hml, hq, _⟩ := List.findIdx?_eq_some_iff_getElem.1 hm
        have : m ≠ 0 := by
          rintro rfl
          rw [List.getElem_drop] at hq
          simp only [Nat.add_zero] at hq
          rw [hp] at hq
          simp at hq
        simp only [List.length_drop]
        omega
    · simp only [List.length_drop]; omega

/-- `while (reminder.size())` of `Parser::split` (41-54). -/
def splitLoop (separator : Str) (skipMultiple : Bool) (reminder : Str) : List Str :=
  if _h : reminder = [] then []
  else substr0 reminder (findFirstOf reminder separator) :: splitLoop separator skipMultiple (rest reminder separator skipMultiple)
  termination_by reminder.length
  decreasing_by exact rest_lt _h

/-- `Parser::split` (32-56). -/
def split (line separator : Str) (skipMultiple : Bool) : List Str := if line = [] then [[]] else splitLoop separator skipMultiple line

/-- `Parser::join` (88-98). -/
def join (separator : Str) : List Str → Str
  | [] => []
  | v :: values => values.foldl (fun result v => result ++ (separator ++ v)) v

/-- `std::to_string`. -/
def toStr (n : Nat) : Str := Nat.toDigits 10 n

/-- The body of the loop of `Parser::stringwithcommas` (64-78). -/
def commasStep (s : Str × Bool × Nat × Nat) : Str × Bool × Nat × Nat :=
  let (result, zeros, number, value) := s
  let result := if zeros then (if number / value ≠ 0 then result ++ List.replicate (3 - (toStr (number / value)).length) '0' else result ++ "000,".toList) else result
  let (result, zeros) := if number / value ≠ 0 then (result ++ toStr (number / value) ++ [','], true) else (result, zeros)
  (result, zeros, number % value, value / 1000)

/-- `Parser::stringwithcommas` (59-86). -/
def stringwithcommas (number : Nat) : Str :=
  let (result, zeros, number, _) := commasStep (commasStep (commasStep ([], false, number, 1000000000)))
  let result := if zeros then result ++ List.replicate (3 - (toStr number).length) '0' else result
  result ++ toStr number

/-! `StringCompare` (parser.h, 9-91). `tolower` is a parameter (it depends on the locale); it is called with characters of the strings only. -/

/-- `std::lexicographical_compare`. -/
def lexCompare {A : Type} (lt : A → A → Bool) : List A → List A → Bool
  | _, [] => false
  | [], _ :: _ => true
  | a :: as, b :: bs => if lt a b then true else if lt b a then false else lexCompare lt as bs

/-- `caseInsensitive` (parser.h, 31-34 with 82-85), also `operator()`. -/
def caseInsensitive (tolower : Char → Nat) (s1 s2 : Str) : Bool := lexCompare (fun a b => decide (tolower a < tolower b)) s1 s2

/-- `std::equal(b1, e1, b2, eq)`: `none` when the second range is shorter. -/
def equalRange (eq : Char → Char → Bool) : Str → Str → Option Bool
  | [], _ => some true
  | _ :: _, [] => none
  | a :: as, b :: bs => if eq a b then equalRange eq as bs else some false

/-- `caseInsensitiveEq` (parser.h, 21-24). -/
def caseInsensitiveEq (tolower : Char → Nat) (s1 s2 : Str) : Option Bool :=
  if s1.length = s2.length then equalRange (fun a b => tolower a == tolower b) s1 s2 else some false

/-- `caseInsensitivePreffix` (parser.h, 41-47). -/
def caseInsensitivePreffix (tolower : Char → Nat) (s1 s2 : Str) : Option Bool :=
  if s1.length ≤ s2.length then equalRange (fun a b => tolower a == tolower b) s1 s2 else some false

/-- `caseSensitivePreffix` (parser.h, 36-39): no check of the sizes. -/
def caseSensitivePreffix (s1 s2 : Str) : Option Bool := equalRange (fun a b => a == b) s1 s2

/-- `caseInsensitiveSuffix` (parser.h, 57-63). -/
def caseInsensitiveSuffix (tolower : Char → Nat) (s1 s2 : Str) : Option Bool :=
  if s1.length ≥ s2.length then equalRange (fun a b => tolower a == tolower b) (s1.drop (s1.length - s2.length)) s2 else some false

end Verif.Parser
