import Verif.Proof.Xml
/-!
C33: a document written by the library and loaded again is the same document.
-/
namespace Verif.Xml

/-- C33 (partial): the declaration and the tree of elements survive printing and loading for all trees with names, texts and attributes free of markup where no element is completely empty.
For completely empty elements the statement is false (`C33_empty_element`). -/
theorem C33_roundtrip_partial (d : List Char) (t : Tree) (hd : ∃ w, d = '<' :: '?' :: w ++ ['>'] ∧ ∀ c ∈ w, c ≠ '>') (ht : TreeOk t) : load (print d t) = some (d, t) :=
  load_print d t hd ht

/-- A document with a completely empty element: `<a><b/><c x="1"/></a>`. -/
def emptyElement : Tree := .node ['a'] [] [] [.node ['b'] [] [] [], .node ['c'] [] [(['x'], ['1'])] []]

/-- What comes back: `b` has the text `>` and the element `c`, as `<b/>` is not taken for a closed element. -/
def emptyElementLoaded : Tree := .node ['a'] [] [] [.node ['b'] ['>'] [] [.node ['c'] [] [(['x'], ['1'])] []]]

/-- C33: completely empty elements do not survive (`xml.cpp` 208-216 ends the name at `/` and forgets to close the element). -/
theorem C33_empty_element : load (print "<?xml?>".toList emptyElement) = some ("<?xml?>".toList, emptyElementLoaded) ∧ emptyElementLoaded ≠ emptyElement := by
  constructor
  · rfl
  · intro h
    simp [emptyElement, emptyElementLoaded] at h

/-! A document with nested elements, texts and attributes (also with markup inside of a value) meets the hypotheses. -/
def sample : Tree :=
  .node "root".toList "hello world".toList [("v".toList, "1 < 2".toList), ("w".toList, [])]
    [.node "item".toList [] [("k".toList, "a/b".toList)] [], .node "list".toList [] [] [.node "x".toList "7".toList [] []]]

example : TreeOk sample := by
  simp only [sample, TreeOk, ForestOk]
  refine ⟨⟨?_, ?_⟩, ⟨?_, ?_, ?_⟩, ?_, ?_, ⟨⟨?_, ?_⟩, ⟨?_, ?_, ?_⟩, ?_, ?_, trivial⟩, ⟨⟨?_, ?_⟩, ⟨?_, ?_, ?_⟩, ?_, ?_, ⟨⟨?_, ?_⟩, ⟨?_, ?_, ?_⟩, ?_, ?_, trivial⟩, trivial⟩, trivial⟩ <;>
    simp [AttrOk, blank]

example : load (print "<?xml?>".toList sample) = some ("<?xml?>".toList, sample) :=
  C33_roundtrip_partial _ _ ⟨['x', 'm', 'l', '?'], rfl, by simp⟩ (by
    simp only [sample, TreeOk, ForestOk]
    refine ⟨⟨?_, ?_⟩, ⟨?_, ?_, ?_⟩, ?_, ?_, ⟨⟨?_, ?_⟩, ⟨?_, ?_, ?_⟩, ?_, ?_, trivial⟩, ⟨⟨?_, ?_⟩, ⟨?_, ?_, ?_⟩, ?_, ?_, ⟨⟨?_, ?_⟩, ⟨?_, ?_, ?_⟩, ?_, ?_, trivial⟩, trivial⟩, trivial⟩ <;>
      simp [AttrOk, blank])

example : print "<?xml?>".toList (.node "a".toList "t".toList [] [.node "b".toList [] [("x".toList, "1".toList)] []])
    = "<?xml?>\n<a>\n  t\n  <b x=\"1\"/>\n</a>\n".toList := by decide +kernel

end Verif.Xml
