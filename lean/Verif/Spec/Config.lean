/-!
Specification of configuration objects (C35): what a history of registrations, listeners and assignments means.  Independent of the code.
-/
namespace Verif.Config

abbrev Str := List Char

/-- Operations of the user of a configuration object; parameters are numbered in the order of their registration. -/
inductive Op (V : Type)
  /-- a new parameter with the name, the variable with the value and the way of parsing (old value, text to the new value and acceptance) -/
  | register (name : Str) (var : Nat) (parse : V → Str → V × Bool)
  /-- a registered parameter once more -/
  | additional (p : Nat)
  | drop (p : Nat)
  /-- the last parameter is moved before the given one -/
  | moveLast (name : Str)
  /-- a listener of assignments to a parameter -/
  | listen (p : Nat) (id : Nat)
  /-- a listener of accesses to parameters of the object -/
  | listenGet (id : Nat)
  /-- an assignment to the parameter with the name -/
  | set (name : Str) (value : Str)

structure Registered (V : Type) where
  name : Str
  var : Nat
  parse : V → Str → V × Bool

/-- Registered parameters. -/
def registered {V : Type} (hist : List (Op V)) : List (Registered V) :=
  hist.filterMap fun
    | .register n v f => some ⟨n, v, f⟩
    | _ => none

/-- Listeners of the parameter in the order of their registration. -/
def listeners {V : Type} (p : Nat) (hist : List (Op V)) : List Nat :=
  hist.filterMap fun
    | .listen q id => if q = p then some id else none
    | _ => none

/-- Listeners of accesses. -/
def getListeners {V : Type} (hist : List (Op V)) : List Nat :=
  hist.filterMap fun
    | .listenGet id => some id
    | _ => none

/-- Equality of names regardless of the case of letters. -/
def SameName (low : Char → Nat) (a b : Str) : Prop := a.map low = b.map low

instance (low : Char → Nat) (a b : Str) : Decidable (SameName low a b) := inferInstanceAs (Decidable (_ = _))

/-- The parameter `p` has the name. -/
def hasName {V : Type} (low : Char → Nat) (hist : List (Op V)) (name : Str) (p : Nat) : Bool :=
  match (registered hist)[p]? with
  | some r => decide (SameName low name r.name)
  | none => false

/-- The order of the parameters after one more operation. -/
def orderStep {V : Type} (low : Char → Nat) (hist : List (Op V)) (order : List Nat) : Op V → List Nat
  | .register _ _ _ => order ++ [(registered hist).length]
  | .additional p => order ++ [p]
  | .drop p => order.erase p
  | .moveLast name =>
      match order.getLast? with
      | none => order
      | some l => (order.dropLast.takeWhile fun p => !hasName low hist name p) ++ l :: (order.dropLast.dropWhile fun p => !hasName low hist name p)
  | _ => order

/-- The order of the parameters after a history given in reverse. -/
def orderRev {V : Type} (low : Char → Nat) : List (Op V) → List Nat
  | [] => []
  | op :: hist => orderStep low hist.reverse (orderRev low hist) op

/-- The parameters of the object. -/
def order {V : Type} (low : Char → Nat) (hist : List (Op V)) : List Nat := orderRev low hist.reverse

/-- The first parameter of the object with the name. -/
def find {V : Type} (low : Char → Nat) (hist : List (Op V)) (name : Str) : Option Nat := (order low hist).find? (hasName low hist name)

end Verif.Config
