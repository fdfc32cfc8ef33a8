import Verif.Spec.Tokenizer
/-!
The tokenizer of configuration files (`src/config/reader/tokenizer.cpp`, `tokenizer.h`).

Simplifications: the file is the list of the remaining characters (`_data` from `_p`), the counter of lines (used in messages only) and `lastLines` are not modelled.  A read of the character
after the last one (`_data[_p]` with `_p == size`) is undefined; the parameter `over` tells whether the model stops there (`none`) or continues with some character from the memory behind the
vector (`some c`).  Moving behind the end (`get` at the end) is always `undef`: from then on `eof` (`_p == size`) never holds.  `eslog::globalerror` ends the program (`error`).
-/
namespace Verif.Tokenizer

/-- Ends without a token: undefined behaviour, an error message, the fuel of the model is not sufficient. -/
inductive Fail
  | undef | error | fuel
  deriving DecidableEq, Repr

/-- `skipWhiteSpaces` (127-132): `peek` is called before the test of the end. -/
def skipWS (over : Option Char) : List Char → Except Fail (List Char)
  | [] => if over.isSome then .ok [] else .error .undef
  | c :: r => if white c then skipWS over r else .ok (c :: r)

/-- `skipLine` (150-160). -/
def skipLine (r : List Char) : List Char := (r.dropWhile fun c => !newline c).dropWhile newline

/-- The loop over a comment (184-190); `last` is the last character. -/
def commentLoop (last : Char) : List Char → Except Fail (List Char)
  | [] => .error .undef
  | c :: r => if last = '*' ∧ c = '/' then .ok r else commentLoop c r

/-- A comment after its first two characters (183-190). -/
def comment : List Char → Except Fail (List Char)
  | [] => .error .undef
  | c :: r => commentLoop c r

/-- The loop over a link (223-235). -/
def linkLoop (over : Option Char) : Nat → List Char → List Char → Except Fail (List Char × List Char)
  | stacked, _, [] =>
      match over with
      | none => .error .undef
      | some c => if c = ']' ∧ stacked = 0 then .error .undef else .error .error
  | stacked, buf, c :: r =>
      if c = ']' ∧ stacked = 0 then .ok (buf, r)
      else linkLoop over (if c = '[' then stacked + 1 else if c = ']' then stacked - 1 else stacked) (buf ++ [c]) r

/-- The loop over the name of an environment variable (242-248). -/
def envLoop (over : Option Char) : List Char → List Char → Except Fail (List Char × List Char)
  | _, [] => if over = some '\n' then .error .error else .error .undef
  | buf, c :: r =>
      if c = '}' then .ok (buf, r)
      else if c = '\n' then .error .error
      else envLoop over (buf ++ [c]) r

/-- The loop over a quoted text (261-272) and the closing quote; `stacked` is always zero as the same characters open and close a text. -/
def quoteLoop (over : Option Char) : List Char → List Char → Except Fail (List Char × Char × List Char)
  | _, [] =>
      match over with
      | none => .error .undef
      | some c => if quote c then .error .undef else .error .error
  | buf, c :: r => if quote c then .ok (buf, c, r) else quoteLoop over (buf ++ [c]) r

/-- `$` (239-252). -/
def envToken (over : Option Char) (buf : List Char) : List Char → Except Fail (Token × List Char × List Char)
  | [] =>
      match over with
      | none => .error .undef
      | some c => if c = '{' then .error .undef else .error .error
  | c :: r =>
      if c = '{' then do
        let (buf, r) ← envLoop over buf r
        .ok (.env, buf, r)
      else .error .error

/-- A quoted text after the first quote `c` (255-278): the quotes are kept if the text follows other characters. -/
def quoteToken (over : Option Char) (buf : List Char) (c : Char) (r : List Char) : Except Fail (Token × List Char × List Char) := do
  let (b, q, r) ← quoteLoop over (if buf.isEmpty then [] else buf ++ [c]) r
  .ok (.string, if buf.isEmpty then b else b ++ [q], r)

/-- One round of the main loop (163-280) with the character `c` (`peek`), the text `r` behind it and the buffer; `k` continues the loop.  The result is the token, the buffer and the rest of
the text. -/
def round (over : Option Char) (k : List Char → List Char → Except Fail (Token × List Char × List Char)) (c : Char) (r buf : List Char) : Except Fail (Token × List Char × List Char) :=
  if c = '#' then
    if buf.isEmpty then do
      let r ← skipWS over (skipLine r)
      k r buf
    else .ok (.string, buf, skipLine r)
  else if buf.getLast? = some '/' ∧ c = '/' then
    if buf.dropLast.isEmpty then do
      let r ← skipWS over (skipLine r)
      k r buf.dropLast
    else .ok (.string, buf.dropLast, skipLine r)
  else if buf.getLast? = some '/' ∧ c = '*' then do
    let r ← comment r
    let r ← skipWS over r
    k r buf.dropLast
  else if !buf.isEmpty ∧ white c then .ok (.string, buf, r)
  else
    match special c with
    | some t => if buf.isEmpty then .ok (t, [c], r) else .ok (.string, buf, c :: r)
    | none =>
        if c = '[' then
          if buf.isEmpty then do
            let (buf, r) ← linkLoop over 0 [] r
            .ok (.link, buf, r)
          else .ok (.string, buf, c :: r)
        else if c = '$' then envToken over buf r
        else if quote c then quoteToken over buf c r
        else k r (buf ++ [c])

/-- The main loop (162-283): the text, the buffer. -/
def loop (over : Option Char) : Nat → List Char → List Char → Except Fail (Token × List Char × List Char)
  | 0, _, _ => .error .fuel
  | _ + 1, [], buf => .ok (if buf.isEmpty then .endOfFile else .string, buf, [])
  | n + 1, c :: r, buf => round over (loop over n) c r buf

/-- `Tokenizer::_next` (134-284). -/
def next (over : Option Char) (r : List Char) : Except Fail (Token × List Char × List Char) :=
  if r.isEmpty then .ok (.endOfFile, [], [])
  else do
    let r' ← skipWS over r
    loop over (r.length + 1) r' []

/-- Calls of `next` up to the end: kinds and values (`value()`). -/
def tokenize (over : Option Char) : Nat → List Char → Except Fail (List (Token × List Char))
  | 0, _ => .error .fuel
  | n + 1, r => do
      let (t, b, r) ← next over r
      if t = .endOfFile then .ok []
      else do
        let ts ← tokenize over n r
        .ok ((t, b) :: ts)

/-- All tokens of a text: every token takes at least one character. -/
def tokens (over : Option Char) (text : List Char) : Except Fail (List (Token × List Char)) := tokenize over (text.length + 1) text

end Verif.Tokenizer
