import Verif.Parser
import Verif.Select
import Verif.Indent
import Verif.Source
import Verif.RoundTrip
/-! The command line tools (src/bin) that are built on the library, and the words to say what they do. -/
namespace Folia

/-! ### Model -/

/-- What `folialintr` does with a file (src/bin/folialintr.rs:18-27): read it with the default properties and write it from element 0 with an
indentation of 4. Opening the file, the arguments and the printing are left out; an error is printed instead of the document, and the tool goes on
with the next file. -/
def lint (X : Ext) (F G : Nat) (evs : List REvent) : Res (List WEvent) := do
  let d ← Document.parse X F {} evs
  d.xmlIndented X G 0 4

/-- What the test `select` of `foliabenchmarkr` prints (src/bin/foliabenchmarkr.rs:95-104): the number of words that are selected in the
document. The measurements are left out. `expect` on the result of reading turns an error into a panic. -/
def benchSelect (X : Ext) (F G : Nat) (evs : List REvent) : Res Nat := do
  let d ← unwrapRes (Document.parse X F {} evs)
  let keys ← select d G 0 (Selector.elements.element (.is .word)) .always
  pure keys.length

/-! ### Specification -/

mutual
/-- The elements in a builder, in document order, an element before those below it. -/
def builderElements : ElementData → List ElementData
  | ⟨t, as, data, k, p⟩ => ⟨t, as, data, k, p⟩ :: builderElementsList data
/-- The elements in the pending children of a list of data items, in document order. -/
def builderElementsList : List Data → List ElementData
  | [] => []
  | .addElement e :: rest => builderElements e ++ builderElementsList rest
  | .text _ :: rest => builderElementsList rest
  | .comment _ :: rest => builderElementsList rest
  | .element _ :: rest => builderElementsList rest
  | .spanReference _ :: rest => builderElementsList rest
end

/-- The keys lead, one by one, to elements that report what the builders ask for. -/
def Answers (d0 d : Document) : List Nat → List ElementData → Prop
  | [], [] => True
  | k :: ks, b :: bs => (∃ x, d.getElement k = some x ∧ ReadsBack d0 d x b) ∧ Answers d0 d ks bs
  | _, _ => False

/-- What is left of a file without the attributes and white space: the tags, the texts as they are written and the comments. -/
inductive Mark where
  | opened (tag : String)
  | closed (tag : String)
  | text (s : String)
  | comment (s : String)
  deriving DecidableEq, Repr

/-- A text, unless there is only white space. -/
def textMark (s : String) : List Mark := if blank s then [] else [.text s]

/-- The tags, texts and comments that are written. An empty tag counts as a start tag and an end tag. -/
def marks : List WEvent → List Mark
  | [] => []
  | .start t _ :: es => .opened t :: marks es
  | .endTag t :: es => .closed t :: marks es
  | .empty t _ :: es => .opened t :: .closed t :: marks es
  | .text s :: es => textMark s ++ marks es
  | .comment s :: es => .comment s :: marks es

mutual
/-- The tags, texts and comments of a builder. -/
def builderMarks : ElementData → List Mark
  | ⟨t, _, data, _, _⟩ => .opened t.asStr :: (builderMarksList data ++ [.closed t.asStr])
/-- The tags, texts and comments in a list of data items. -/
def builderMarksList : List Data → List Mark
  | [] => []
  | .addElement e :: rest => builderMarks e ++ builderMarksList rest
  | .text s :: rest => textMark (escape s) ++ builderMarksList rest
  | .comment s :: rest => .comment (escape s) :: builderMarksList rest
  | .element _ :: rest => builderMarksList rest
  | .spanReference _ :: rest => builderMarksList rest
end

end Folia
