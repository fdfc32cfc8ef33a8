import Verif.Spec.Xml
/-!
Printing and loading of XML (`src/basis/utilities/xml.cpp`).

Simplifications: files are lists of characters; `xml.get(c)` at the end of the file fails and keeps `c`.  `none` is a dereference of the null pointer, `attributes.back()` of no attributes or a
loop that never ends (several loops wait for a character that does not come).  The pointers `e` and `e->parent` are a stack of open elements (the current one first); the children get their
place in the parent when they are closed, which is not observable as elements are only appended to the current one.  An element open at the end of the file is closed by the model.
-/
namespace Verif.Xml

/-- `os << " " << attr->first << "=\"" << attr->second << "\""` (130). -/
def printAttr (a : List Char × List Char) : List Char := ' ' :: a.1 ++ '=' :: '"' :: a.2 ++ ['"']

mutual
/-- `_print` (127-146) of an element in the depth `k` (`stack.size() - 1`). -/
def printTree (k : Nat) : Tree → List Char
  | .node n v as cs =>
      List.replicate (2 * k) ' ' ++ '<' :: n ++ as.flatMap printAttr ++
        (if cs.isEmpty && v.isEmpty then ['/', '>', '\n']
         else ['>', '\n'] ++ (if v.isEmpty then [] else List.replicate (2 * (k + 1)) ' ' ++ v ++ ['\n']) ++ printForest (k + 1) cs ++ List.replicate (2 * k) ' ' ++ ['<', '/'] ++ n ++ ['>', '\n'])
/-- The loop over the nested elements (139-143). -/
def printForest (k : Nat) : List Tree → List Char
  | [] => []
  | t :: ts => printTree k t ++ printForest k ts
end

/-- `XML::print` (124-150). -/
def print (declaration : List Char) (t : Tree) : List Char := declaration ++ '\n' :: printTree 0 t

/-- The loader: `declaration`, `root`, the open elements (`e` first). -/
structure State where
  decl : List Char
  root : Tree
  stack : List Tree

/-- `e->value = v` (180). -/
def setValue (v : List Char) : Tree → Tree
  | .node n _ as cs => .node n v as cs

/-- `e->name = n` (210). -/
def setName (n : List Char) : Tree → Tree
  | .node _ v as cs => .node n v as cs

/-- `e->attribute(...)` (227) with the value (242). -/
def addAttr (a : List Char × List Char) : Tree → Tree
  | .node n v as cs => .node n v (as ++ [a]) cs

/-- `e->element(...)` (79-84). -/
def addChild (t : Tree) : Tree → Tree
  | .node n v as cs => .node n v as (cs ++ [t])

/-- The current element. -/
def State.onTop (s : State) (f : Tree → Tree) : Option State :=
  match s.stack with
  | [] => none
  | e :: st => some { s with stack := f e :: st }

/-- `e = e->parent` (199, 250). -/
def State.pop (s : State) : Option State :=
  match s.stack with
  | [] => none
  | [e] => some { s with root := e, stack := [] }
  | e :: p :: st => some { s with stack := addChild e p :: st }

/-- A new element (203-207): nested in the current one or the root. -/
def State.open' (s : State) : State :=
  match s.stack with
  | [] => { s with stack := [s.root] }
  | st => { s with stack := .node [] [] [] [] :: st }

/-- The text without the blanks at its end (176-179). -/
def trimEnd (b : List Char) : List Char := (b.reverse.dropWhile blank).reverse

/-- A non-empty buffer is the value of the current element (175-182). -/
def flush (s : State) (b : List Char) : Option State := if b.isEmpty then some s else s.onTop (setValue (trimEnd b))

/-- Reading up to a character that satisfies `p`: the characters before, the character and the rest. -/
def upTo (p : Char → Bool) : List Char → Option (List Char × Char × List Char)
  | [] => none
  | c :: r => if p c then some ([], c, r) else (upTo p r).map fun x => (c :: x.1, x.2)

/-- `while (isblank(c)) xml.get(c)` (244-246) with the current character. -/
def skipBlank : Char → List Char → Option (Char × List Char)
  | c, [] => if blank c then none else some (c, [])
  | c, x :: r => if blank c then skipBlank x r else some (c, x :: r)

/-- The loop over attributes (220-247); `c` is the current character; `fuel` more than the number of remaining characters is enough as every attribute reads some.  Running out of the
file means a loop without end. -/
def attrLoop : Nat → Char → List Char → State → Option (Char × List Char × State)
  | 0, _, _, _ => none
  | fuel + 1, c, r, s =>
      if c ≠ '>' ∧ c ≠ '/' ∧ r.head? ≠ some '/' then do
        let x ← upTo (· == '=') r
        let name := (if blank c then [] else [c]) ++ x.1.filter fun c => !blank c
        let y := x.2.2.tail
        let z ← upTo (· == '"') y
        let s ← s.onTop (addAttr (name, z.1))
        let (c, r) ← (match z.2.2 with
          | [] => none
          | c :: r => skipBlank c r)
        attrLoop fuel c r s
      else some (c, r, s)

/-- The end of a tag with attributes (248-253): every `/` closes an element. -/
def tagEnd : Char → List Char → State → Option (List Char × State)
  | c, [], s => if c ≠ '>' then none else some ([], s)
  | c, x :: r, s =>
      if c ≠ '>' then do
        let s ← (if c = '/' then s.pop else some s)
        tagEnd x r s
      else some (x :: r, s)

/-- `while (isblank(xml.peek())) xml.get(c)` (217-219). -/
def skipPeek : Char → List Char → Char × List Char
  | c, [] => (c, [])
  | c, x :: r => if blank x then skipPeek x r else (c, x :: r)

/-- A new element after `<` (203-254). -/
def element (s : State) (r : List Char) : Option (List Char × State) :=
  let s := s.open'
  match upTo (fun c => c == ' ' || c == '/' || c == '>') r with
  | none => some ([], s)
  | some (n, c, r) => do
      let s ← s.onTop (setName n)
      if c = ' ' then do
        let (c, r) := skipPeek c r
        let (c, r, s) ← attrLoop (r.length + 2) c r s
        tagEnd c r s
      else some (r, s)

/-- The body of the main loop after reading `<` (174-254): the rest of the file and the state; the buffer is empty. -/
def tag (s : State) (b : List Char) (r : List Char) : Option (List Char × State) := do
  let s ← flush s b
  match r with
  | '?' :: _ => do
      let (d, c, r) ← upTo (· == '>') r
      some (r, { s with decl := '<' :: d ++ [c] })
  | '/' :: r => do
      let (_, _, r) ← upTo (· == '>') r
      let s ← s.pop
      some (r, s)
  | r => element s r

/-- The main loop (173-260); every round reads at least one character, so the length of the file is enough for `fuel`. -/
def loadLoop : Nat → State → List Char → List Char → Option State
  | _, s, _, [] => some s
  | 0, _, _, _ :: _ => none
  | fuel + 1, s, b, c :: r =>
      if c = '<' then do
        let (r, s) ← tag s b r
        loadLoop fuel s [] r
      else loadLoop fuel s (if !b.isEmpty || !blank c then b ++ [c] else b) r

/-- Closing of the elements open at the end. -/
def closeAll : Nat → State → State
  | 0, s => s
  | n + 1, s =>
      match s.pop with
      | some s => closeAll n s
      | none => s

/-- `XML::load` (158-261) into a new document: the declaration and the root. -/
def load (file : List Char) : Option (List Char × Tree) := do
  let s ← loadLoop file.length ⟨"<?xml version=\"1.0\" encoding=\"UTF-8\"?>".toList, .node [] [] [] [], []⟩ [] file
  let s := closeAll s.stack.length s
  some (s.decl, s.root)

end Verif.Xml
