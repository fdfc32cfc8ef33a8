import Verif.Base.Mem
import Verif.Model.Parser
import Verif.Spec.Config
/-!
Configuration objects (`src/config/configuration.cpp`, `configuration.h`).

Simplifications: pointers to parameters are positions in the list `heap` of all created parameters; variables bound by reference are positions in `mem`.  A holder (`_setValue` of
`ECFValueHolder` and others) is a function from the old value and the text to the new value and the result (a rejected text may change the value too).  Listeners are numbers; their calls
with the argument are recorded in `trace`; what they do is not modelled.  Nested objects, patterns and metadata are not modelled.  `none` is undefined behaviour or a fatal error.
-/
namespace Verif.Config

open Verif.Parser (caseInsensitiveEq)

/-- `ECFParameter` with a value (`configuration.h` 11-48). -/
structure Param (V : Type) where
  name : Str
  var : Nat
  parse : V → Str → V × Bool
  onSet : List Nat

/-- An `ECFObject` with its surroundings. -/
structure State (V : Type) where
  heap : List (Param V)
  parameters : List Nat
  onGet : List Nat
  mem : List V
  trace : List (Nat × Str)

variable {V : Type}

/-- `ECFObject::_getNamedParameter` (99-107): the loop over parameters. -/
def getNamed (low : Char → Nat) (heap : List (Param V)) (name : Str) : List Nat → Option (Option Nat)
  | [] => some none
  | p :: ps => do
      let q ← heap[p]?
      let eq ← caseInsensitiveEq low name q.name
      if eq then some (some p) else getNamed low heap name ps

/-- Calls of listeners in a loop (37-39, 48-50). -/
def callAll (arg : Str) (ls : List Nat) (trace : List (Nat × Str)) : List (Nat × Str) := ls.foldl (fun t l => t ++ [(l, arg)]) trace

/-- `ECFParameter::getParameter` of the object (45-58). -/
def getParameter (low : Char → Nat) (st : State V) (name : Str) : Option (Option Nat × State V) := do
  let r ← getNamed low st.heap name st.parameters
  match r with
  | none => some (none, st)
  | some p => do
      let q ← st.heap[p]?
      some (some p, { st with trace := callAll q.name st.onGet st.trace })

/-- `ECFParameter::setValue` (34-43). -/
def setValue (st : State V) (p : Nat) (value : Str) : Option (Bool × State V) := do
  let q ← st.heap[p]?
  let x ← st.mem[q.var]?
  let mem ← wr st.mem q.var (q.parse x value).1
  if (q.parse x value).2 then some (true, { st with mem := mem, trace := callAll value q.onSet st.trace })
  else some (false, { st with mem := mem })

/-- `registerParameter` (169-177) with a new holder. -/
def register (st : State V) (name : Str) (var : Nat) (parse : V → Str → V × Bool) : State V :=
  { st with heap := st.heap ++ [⟨name, var, parse, []⟩], parameters := st.parameters ++ [st.heap.length] }

/-- `registerAdditionalParameter` (127-131). -/
def registerAdditional (st : State V) (p : Nat) : Option (State V) := if p < st.heap.length then some { st with parameters := st.parameters ++ [p] } else none

/-- `dropParameter` (133-142). -/
def dropLoop (p : Nat) : List Nat → Option (List Nat)
  | [] => none
  | q :: ps => if q = p then some ps else (dropLoop p ps).map (q :: ·)

/-- `std::find(begin, end, p)`. -/
def findPtr (p : Nat) : List Nat → Nat
  | [] => 0
  | q :: ps => if q = p then 0 else findPtr p ps + 1

/-- `moveLastBefore` (161-167); `none` also when the iterator points to the removed last parameter. -/
def moveLastBefore (low : Char → Nat) (st : State V) (name : Str) : Option (State V) := do
  let last ← st.parameters.getLast?
  let r ← getNamed low st.heap name st.parameters
  let p ← r
  let position := findPtr p st.parameters
  let ps := st.parameters.dropLast
  if position < ps.length then some { st with parameters := ps.insertIdx position last } else none

/-- `addListener` with `VALUE_SET` (70-75). -/
def addListener (st : State V) (p : Nat) (id : Nat) : Option (State V) := do
  let q ← st.heap[p]?
  let heap ← wr st.heap p { q with onSet := q.onSet ++ [id] }
  some { st with heap := heap }

/-- Operations; an assignment looks the parameter up and sets it (as `ECFReader` does), nothing is done for unknown names. -/
def step (low : Char → Nat) (st : State V) : Op V → Option (State V)
  | .register n v f => some (register st n v f)
  | .additional p => registerAdditional st p
  | .drop p => do
      let ps ← dropLoop p st.parameters
      some { st with parameters := ps }
  | .moveLast n => moveLastBefore low st n
  | .listen p id => addListener st p id
  | .listenGet id => some { st with onGet := st.onGet ++ [id] }
  | .set n v => do
      let (r, st) ← getParameter low st n
      match r with
      | none => some st
      | some p => do
          let (_, st) ← setValue st p v
          some st

/-- A history from an object without parameters. -/
def run (low : Char → Nat) (mem : List V) (hist : List (Op V)) : Option (State V) := hist.foldlM (step low) ⟨[], [], [], mem, []⟩

end Verif.Config
