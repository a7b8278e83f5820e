import Verif.Text
import Verif.Serialiser
import Verif.Parser
/-! The project's own tests (tests/main.rs) replayed on the model. These are tests of the model, evaluated when the module is built;
they are evidence that the definitions follow the code and are not part of any proof. Tests that only print are left out. -/
namespace Folia.Conformance

/-- No confidence occurs in the fixtures. -/
def X : Ext := { showF64 := fun _ => "", parseF64 := fun _ => none }
/-- Enough fuel for the fixtures. -/
def F : Nat := 1000

/-- The fixture `EXAMPLE` of tests/main.rs as reader events. -/
def EXAMPLE : List REvent := [
  .other,
  .text "\n",
  .start .folia "FoLiA" [.ok "xmlns" "http://ilk.uvt.nl/folia", .ok "version" "2.0", .ok "xml:id" "example"],
  .text "\n  ",
  .start .folia "metadata" [.ok "type" "native"],
  .text "\n      ",
  .start .folia "annotations" [],
  .text "\n          ",
  .start .folia "token-annotation" [.ok "set" "https://raw.githubusercontent.com/LanguageMachines/uctodata/master/setdefinitions/tokconfig-eng.foliaset.ttl"],
  .text "\n             ",
  .empty .folia "annotator" [.ok "processor" "p1"],
  .text "\n          ",
  .endTag .folia "token-annotation",
  .text "\n          ",
  .start .folia "text-annotation" [],
  .text "\n             ",
  .empty .folia "annotator" [.ok "processor" "p1"],
  .text "\n          ",
  .endTag .folia "text-annotation",
  .text "\n          ",
  .start .folia "sentence-annotation" [],
  .text "\n             ",
  .empty .folia "annotator" [.ok "processor" "p1"],
  .text "\n          ",
  .endTag .folia "sentence-annotation",
  .text "\n          ",
  .start .folia "paragraph-annotation" [],
  .text "\n             ",
  .empty .folia "annotator" [.ok "processor" "p1"],
  .text "\n          ",
  .endTag .folia "paragraph-annotation",
  .text "\n          ",
  .start .folia "pos-annotation" [.ok "set" "adhoc"],
  .text "\n             ",
  .empty .folia "annotator" [.ok "processor" "p2"],
  .text "\n          ",
  .endTag .folia "pos-annotation",
  .text "\n          ",
  .start .folia "chunking-annotation" [.ok "set" "shallowsyntaxset"],
  .text "\n             ",
  .empty .folia "annotator" [.ok "processor" "p2"],
  .text "\n          ",
  .endTag .folia "chunking-annotation",
  .text "\n      ",
  .endTag .folia "annotations",
  .text "\n      ",
  .start .folia "provenance" [],
  .text "\n         ",
  .empty .folia "processor" [.ok "xml:id" "p1", .ok "name" "proycon", .ok "type" "manual"],
  .text "\n         ",
  .empty .folia "processor" [.ok "xml:id" "p2", .ok "name" "proycon", .ok "type" "manual"],
  .text "\n      ",
  .endTag .folia "provenance",
  .text "\n      ",
  .start .folia "meta" [.ok "id" "language"],
  .text "eng",
  .endTag .folia "meta",
  .text "\n  ",
  .endTag .folia "metadata",
  .text "\n  ",
  .start .folia "text" [.ok "xml:id" "example.text"],
  .text "\n    ",
  .start .folia "p" [.ok "xml:id" "example.p.1"],
  .text "\n      ",
  .start .folia "s" [.ok "xml:id" "example.p.1.s.1"],
  .text "\n         ",
  .start .folia "w" [.ok "xml:id" "example.p.1.s.1.w.1", .ok "class" "WORD"],
  .text "\n            ",
  .start .folia "t" [],
  .text "Hello",
  .endTag .folia "t",
  .text "\n         ",
  .endTag .folia "w",
  .text "\n         ",
  .start .folia "w" [.ok "xml:id" "example.p.1.s.1.w.2", .ok "class" "WORD", .ok "space" "no"],
  .text "\n            ",
  .start .folia "t" [],
  .text "world",
  .endTag .folia "t",
  .text "\n         ",
  .endTag .folia "w",
  .text "\n         ",
  .start .folia "w" [.ok "xml:id" "example.p.1.s.1.w.3", .ok "class" "PUNCTUATION"],
  .text "\n            ",
  .start .folia "t" [],
  .text "!",
  .endTag .folia "t",
  .text "\n         ",
  .endTag .folia "w",
  .text "\n      ",
  .endTag .folia "s",
  .text "\n      ",
  .start .folia "s" [.ok "xml:id" "example.p.1.s.2"],
  .text "\n         ",
  .start .folia "w" [.ok "xml:id" "example.p.1.s.2.w.1", .ok "class" "WORD"],
  .text "\n            ",
  .start .folia "t" [],
  .text "This",
  .endTag .folia "t",
  .text "\n         ",
  .endTag .folia "w",
  .text "\n         ",
  .start .folia "w" [.ok "xml:id" "example.p.1.s.2.w.2", .ok "class" "WORD"],
  .text "\n            ",
  .start .folia "t" [],
  .text "is",
  .endTag .folia "t",
  .text "\n         ",
  .endTag .folia "w",
  .text "\n         ",
  .start .folia "w" [.ok "xml:id" "example.p.1.s.2.w.3", .ok "class" "WORD"],
  .text "\n            ",
  .start .folia "t" [],
  .text "an",
  .endTag .folia "t",
  .text "\n         ",
  .endTag .folia "w",
  .text "\n         ",
  .start .folia "w" [.ok "xml:id" "example.p.1.s.2.w.4", .ok "class" "WORD"],
  .text "\n            ",
  .start .folia "t" [],
  .text "example",
  .endTag .folia "t",
  .text "\n            ",
  .start .folia "pos" [.ok "class" "noun"],
  .text "\n                ",
  .empty .folia "feat" [.ok "subset" "number", .ok "class" "singular"],
  .text "\n            ",
  .endTag .folia "pos",
  .text "\n         ",
  .endTag .folia "w",
  .text "\n         ",
  .start .folia "w" [.ok "xml:id" "example.p.1.s.2.w.5", .ok "class" "WORD"],
  .text "\n            ",
  .start .folia "t" [],
  .text "&amp;",
  .endTag .folia "t",
  .text "\n         ",
  .endTag .folia "w",
  .text "\n         ",
  .start .folia "w" [.ok "xml:id" "example.p.1.s.2.w.6", .ok "class" "WORD"],
  .text "\n            ",
  .start .folia "t" [],
  .text "a",
  .endTag .folia "t",
  .text "\n         ",
  .endTag .folia "w",
  .text "\n         ",
  .start .folia "w" [.ok "xml:id" "example.p.1.s.2.w.7", .ok "class" "WORD", .ok "space" "no"],
  .text "\n            ",
  .start .folia "t" [],
  .text "test",
  .endTag .folia "t",
  .text "\n         ",
  .endTag .folia "w",
  .text "\n         ",
  .start .folia "w" [.ok "xml:id" "example.p.1.s.2.w.8", .ok "class" "PUNCTUATION"],
  .text "\n            ",
  .start .folia "t" [],
  .text ".",
  .endTag .folia "t",
  .text "\n         ",
  .endTag .folia "w",
  .text "\n         ",
  .start .folia "chunking" [],
  .text "\n            ",
  .start .folia "chunk" [.ok "xml:id" "example.p.1.s.2.chunk.1", .ok "class" "np"],
  .text "\n                ",
  .empty .folia "wref" [.ok "id" "example.p.1.s.2.w.3"],
  .text "\n                ",
  .empty .folia "wref" [.ok "id" "example.p.1.s.2.w.4"],
  .text "\n            ",
  .endTag .folia "chunk",
  .text "\n         ",
  .endTag .folia "chunking",
  .text "\n      ",
  .endTag .folia "s",
  .text "\n    ",
  .endTag .folia "p",
  .text "\n  ",
  .endTag .folia "text",
  .text "\n",
  .endTag .folia "FoLiA"]

/-- The fixture `EXAMPLE_DEP` of tests/main.rs as reader events. -/
def EXAMPLE_DEP : List REvent := [
  .other,
  .text "\n",
  .start .folia "FoLiA" [.ok "xmlns" "http://ilk.uvt.nl/folia", .ok "version" "2.0", .ok "xml:id" "example"],
  .text "\n  ",
  .start .folia "metadata" [],
  .text "\n      ",
  .start .folia "annotations" [],
  .text "\n          ",
  .start .folia "token-annotation" [.ok "set" "https://raw.githubusercontent.com/LanguageMachines/uctodata/master/setdefinitions/tokconfig-eng.foliaset.ttl"],
  .text "\n\t\t\t ",
  .empty .folia "annotator" [.ok "processor" "p1"],
  .text "\n\t\t  ",
  .endTag .folia "token-annotation",
  .text "\n          ",
  .start .folia "text-annotation" [],
  .text "\n\t\t\t ",
  .empty .folia "annotator" [.ok "processor" "p1"],
  .text "\n          ",
  .endTag .folia "text-annotation",
  .text "\n          ",
  .start .folia "sentence-annotation" [],
  .text "\n\t\t\t ",
  .empty .folia "annotator" [.ok "processor" "p1"],
  .text "\n          ",
  .endTag .folia "sentence-annotation",
  .text "\n          ",
  .start .folia "paragraph-annotation" [],
  .text "\n\t\t\t ",
  .empty .folia "annotator" [.ok "processor" "p1"],
  .text "\n          ",
  .endTag .folia "paragraph-annotation",
  .text "\n          ",
  .start .folia "dependency-annotation" [.ok "set" "alpino-dependencies"],
  .text " ",
  .comment " an ad-hoc set ",
  .text "\n\t\t\t ",
  .empty .folia "annotator" [.ok "processor" "p2"],
  .text "\n\t\t  ",
  .endTag .folia "dependency-annotation",
  .text "\n          ",
  .start .folia "syntax-annotation" [.ok "set" "alpino-constituents"],
  .text " ",
  .comment " an ad-hoc set ",
  .text "\n\t\t\t ",
  .empty .folia "annotator" [.ok "processor" "p2"],
  .text "\n\t\t  ",
  .endTag .folia "syntax-annotation",
  .text "\n      ",
  .endTag .folia "annotations",
  .text "\n      ",
  .start .folia "provenance" [],
  .text "\n         ",
  .empty .folia "processor" [.ok "xml:id" "p1", .ok "name" "proycon", .ok "type" "manual"],
  .text "\n         ",
  .empty .folia "processor" [.ok "xml:id" "p2", .ok "name" "alpino"],
  .text "\n      ",
  .endTag .folia "provenance",
  .text "\n  ",
  .endTag .folia "metadata",
  .text "\n  ",
  .start .folia "text" [.ok "xml:id" "example.text"],
  .text "\n    ",
  .start .folia "p" [.ok "xml:id" "example.p.1"],
  .text "\n        ",
  .start .folia "s" [.ok "xml:id" "example.p.1.s.1"],
  .text "\n          ",
  .start .folia "t" [],
  .text "De man begroette hem.",
  .endTag .folia "t",
  .text "\n          ",
  .start .folia "w" [.ok "xml:id" "example.p.1.s.1.w.1"],
  .start .folia "t" [],
  .text "De",
  .endTag .folia "t",
  .endTag .folia "w",
  .text "\n          ",
  .start .folia "w" [.ok "xml:id" "example.p.1.s.1.w.2"],
  .start .folia "t" [],
  .text "man",
  .endTag .folia "t",
  .endTag .folia "w",
  .text "\n          ",
  .start .folia "w" [.ok "xml:id" "example.p.1.s.1.w.3"],
  .start .folia "t" [],
  .text "begroette",
  .endTag .folia "t",
  .endTag .folia "w",
  .text "\n          ",
  .start .folia "w" [.ok "xml:id" "example.p.1.s.1.w.4", .ok "space" "no"],
  .start .folia "t" [],
  .text "hem",
  .endTag .folia "t",
  .endTag .folia "w",
  .text "\n          ",
  .start .folia "w" [.ok "xml:id" "example.p.1.s.1.w.5"],
  .start .folia "t" [],
  .text ".",
  .endTag .folia "t",
  .endTag .folia "w",
  .text "\n          ",
  .start .folia "dependencies" [],
  .text "\n            ",
  .start .folia "dependency" [.ok "xml:id" "example.p.1.s.1.dependency.1", .ok "class" "su"],
  .text "\n                ",
  .start .folia "hd" [],
  .text "\n                    ",
  .empty .folia "wref" [.ok "id" "example.p.1.s.1.w.3", .ok "t" "begroette"],
  .text "\n                ",
  .endTag .folia "hd",
  .text "\n                ",
  .start .folia "dep" [],
  .text "\n                    ",
  .empty .folia "wref" [.ok "id" "example.p.1.s.1.w.2", .ok "t" "man"],
  .text "\n                ",
  .endTag .folia "dep",
  .text "\n            ",
  .endTag .folia "dependency",
  .text "\n            ",
  .start .folia "dependency" [.ok "xml:id" "example.p.1.s.1.dependency.3", .ok "class" "obj1"],
  .text "\n                ",
  .start .folia "hd" [],
  .text "\n                    ",
  .empty .folia "wref" [.ok "id" "example.p.1.s.1.w.3", .ok "t" "begroette"],
  .text "\n                ",
  .endTag .folia "hd",
  .text "\n                ",
  .start .folia "dep" [],
  .text "\n                    ",
  .empty .folia "wref" [.ok "id" "example.p.1.s.1.w.4", .ok "t" "hem"],
  .text "\n                ",
  .endTag .folia "dep",
  .text "\n            ",
  .endTag .folia "dependency",
  .text "\n            ",
  .start .folia "dependency" [.ok "xml:id" "example.p.1.s.1.dependency.2", .ok "class" "det"],
  .text "\n                ",
  .start .folia "hd" [],
  .text "\n                   ",
  .empty .folia "wref" [.ok "id" "example.p.1.s.1.w.2", .ok "t" "man"],
  .text "\n                ",
  .endTag .folia "hd",
  .text "\n                ",
  .start .folia "dep" [],
  .text "\n                    ",
  .empty .folia "wref" [.ok "id" "example.p.1.s.1.w.1", .ok "t" "De"],
  .text "\n                ",
  .endTag .folia "dep",
  .text "\n            ",
  .endTag .folia "dependency",
  .text "\n          ",
  .endTag .folia "dependencies",
  .text "\n          ",
  .start .folia "syntax" [],
  .text "\n            ",
  .start .folia "su" [.ok "xml:id" "example.p.1.s.1.su.1", .ok "class" "top"],
  .text "\n                ",
  .start .folia "su" [.ok "xml:id" "example.p.1.s.1.su.1_1", .ok "class" "smain"],
  .text "\n                    ",
  .start .folia "su" [.ok "xml:id" "example.p.1.s.1.su.1_1_1", .ok "class" "np"],
  .text "\n                        ",
  .start .folia "su" [.ok "xml:id" "example.p.1.s.1.su.1_1_1_1", .ok "class" "top"],
  .text "\n                            ",
  .empty .folia "wref" [.ok "id" "example.p.1.s.1.w.1", .ok "t" "De"],
  .text "\n                        ",
  .endTag .folia "su",
  .text "\n                        ",
  .start .folia "su" [.ok "xml:id" "example.p.1.s.1.su.1_1_1_2", .ok "class" "top"],
  .text "\n                            ",
  .empty .folia "wref" [.ok "id" "example.p.1.s.1.w.2", .ok "t" "man"],
  .text "\n                        ",
  .endTag .folia "su",
  .text "\n                    ",
  .endTag .folia "su",
  .text "\n                    ",
  .start .folia "su" [.ok "xml:id" "example.p.1.s.1.su.1_1_2", .ok "class" "verb"],
  .text "\n                        ",
  .empty .folia "wref" [.ok "id" "example.p.1.s.1.w.3", .ok "t" "begroette"],
  .text "\n                    ",
  .endTag .folia "su",
  .text "\n                    ",
  .start .folia "su" [.ok "xml:id" "example.p.1.s.1.su.1_1_3", .ok "class" "pron"],
  .text "\n                        ",
  .empty .folia "wref" [.ok "id" "example.p.1.s.1.w.4", .ok "t" "hem"],
  .text "\n                    ",
  .endTag .folia "su",
  .text "\n                ",
  .endTag .folia "su",
  .text "\n                ",
  .start .folia "su" [.ok "xml:id" "example.p.1.s.1.su.1_2", .ok "class" "punct"],
  .text "\n                    ",
  .empty .folia "wref" [.ok "id" "example.p.1.s.1.w.5", .ok "t" "."],
  .text "\n                ",
  .endTag .folia "su",
  .text "\n            ",
  .endTag .folia "su",
  .text "\n          ",
  .endTag .folia "syntax",
  .text "\n        ",
  .endTag .folia "s",
  .text "\n    ",
  .endTag .folia "p",
  .text "\n  ",
  .endTag .folia "text",
  .text "\n",
  .endTag .folia "FoLiA"]

/-- The fixture `EXAMPLE_MARKUP` of tests/main.rs as reader events. -/
def EXAMPLE_MARKUP : List REvent := [
  .other,
  .text "\n",
  .start .folia "FoLiA" [.ok "xmlns" "http://ilk.uvt.nl/folia", .ok "version" "2.0", .ok "xml:id" "example"],
  .text "\n  ",
  .start .folia "metadata" [.ok "type" "native"],
  .text "\n      ",
  .start .folia "annotations" [],
  .text "\n          ",
  .start .folia "text-annotation" [],
  .text "\n             ",
  .empty .folia "annotator" [.ok "processor" "p1"],
  .text "\n          ",
  .endTag .folia "text-annotation",
  .text "\n          ",
  .start .folia "sentence-annotation" [],
  .text "\n             ",
  .empty .folia "annotator" [.ok "processor" "p1"],
  .text "\n          ",
  .endTag .folia "sentence-annotation",
  .text "\n          ",
  .start .folia "paragraph-annotation" [],
  .text "\n             ",
  .empty .folia "annotator" [.ok "processor" "p1"],
  .text "\n          ",
  .endTag .folia "paragraph-annotation",
  .text "\n          ",
  .start .folia "style-annotation" [.ok "set" "adhoc"],
  .text "\n             ",
  .empty .folia "annotator" [.ok "processor" "p1"],
  .text "\n          ",
  .endTag .folia "style-annotation",
  .text "\n      ",
  .endTag .folia "annotations",
  .text "\n      ",
  .start .folia "provenance" [],
  .text "\n         ",
  .empty .folia "processor" [.ok "xml:id" "p1", .ok "name" "proycon", .ok "type" "manual"],
  .text "\n      ",
  .endTag .folia "provenance",
  .text "\n      ",
  .start .folia "meta" [.ok "id" "language"],
  .text "eng",
  .endTag .folia "meta",
  .text "\n  ",
  .endTag .folia "metadata",
  .text "\n  ",
  .start .folia "text" [.ok "xml:id" "example.text"],
  .text "\n    ",
  .start .folia "p" [.ok "xml:id" "example.p.1"],
  .text "\n      ",
  .start .folia "s" [.ok "xml:id" "example.p.1.s.1"],
  .text "\n        ",
  .start .folia "t" [],
  .text "Hello ",
  .start .folia "t-style" [.ok "class" "bold"],
  .text "world",
  .endTag .folia "t-style",
  .text "! How are ",
  .start .folia "t-style" [.ok "class" "italics"],
  .text "you",
  .endTag .folia "t-style",
  .text " today?",
  .endTag .folia "t",
  .text "\n      ",
  .endTag .folia "s",
  .text "\n    ",
  .endTag .folia "p",
  .text "\n  ",
  .endTag .folia "text",
  .text "\n",
  .endTag .folia "FoLiA"]

/-- The fixture `TEST_FEAT_AS_ATTRIB` of tests/main.rs as reader events. -/
def TEST_FEAT_AS_ATTRIB : List REvent := [
  .other,
  .text "\n",
  .start .folia "FoLiA" [.ok "xmlns" "http://ilk.uvt.nl/folia", .ok "version" "2.0", .ok "xml:id" "example"],
  .text "\n  ",
  .start .folia "metadata" [.ok "type" "native"],
  .text "\n      ",
  .start .folia "annotations" [],
  .text "\n          ",
  .start .folia "token-annotation" [.ok "set" "https://raw.githubusercontent.com/LanguageMachines/uctodata/master/setdefinitions/tokconfig-eng.foliaset.ttl"],
  .text "\n             ",
  .empty .folia "annotator" [.ok "processor" "p1"],
  .text "\n          ",
  .endTag .folia "token-annotation",
  .text "\n          ",
  .start .folia "text-annotation" [],
  .text "\n             ",
  .empty .folia "annotator" [.ok "processor" "p1"],
  .text "\n          ",
  .endTag .folia "text-annotation",
  .text "\n          ",
  .start .folia "sentence-annotation" [],
  .text "\n             ",
  .empty .folia "annotator" [.ok "processor" "p1"],
  .text "\n          ",
  .endTag .folia "sentence-annotation",
  .text "\n          ",
  .start .folia "pos-annotation" [.ok "set" "adhoc"],
  .text "\n             ",
  .empty .folia "annotator" [.ok "processor" "p2"],
  .text "\n          ",
  .endTag .folia "pos-annotation",
  .text "\n      ",
  .endTag .folia "annotations",
  .text "\n      ",
  .start .folia "provenance" [],
  .text "\n         ",
  .empty .folia "processor" [.ok "xml:id" "p1", .ok "name" "proycon", .ok "type" "manual"],
  .text "\n      ",
  .endTag .folia "provenance",
  .text "\n      ",
  .start .folia "meta" [.ok "id" "language"],
  .text "eng",
  .endTag .folia "meta",
  .text "\n  ",
  .endTag .folia "metadata",
  .text "\n  ",
  .start .folia "text" [.ok "xml:id" "example.text"],
  .text "\n      ",
  .start .folia "s" [.ok "xml:id" "example.p.1.s.1"],
  .text "\n         ",
  .start .folia "w" [.ok "xml:id" "example.p.1.s.1.w.1", .ok "class" "WORD"],
  .text "\n            ",
  .start .folia "t" [],
  .text "example",
  .endTag .folia "t",
  .text "\n            ",
  .start .folia "pos" [.ok "class" "N(singular)", .ok "head" "N"],
  .text "\n                ",
  .empty .folia "feat" [.ok "subset" "number", .ok "class" "singular"],
  .text "\n            ",
  .endTag .folia "pos",
  .text "\n         ",
  .endTag .folia "w",
  .text "\n       ",
  .endTag .folia "s",
  .text "\n  ",
  .endTag .folia "text",
  .text "\n",
  .endTag .folia "FoLiA"]

/-- `Document::from_str(..)` with default properties. -/
def load (evs : List REvent) : Res Document := Document.parse X F {} evs
/-- Run a check on a loaded document. -/
def on (evs : List REvent) (f : Document → Bool) : Bool :=
  match load evs with
  | .ok d => f d
  | .error _ => false
/-- Run a check on an element of a loaded document. -/
def onId (evs : List REvent) (id : String) (f : Document → Nat → ElementData → Bool) : Bool :=
  on evs fun d => match d.elementKeyById id with
    | some k => match d.getElement k with
      | some e => f d k e
      | none => false
    | none => false
/-- Compare a result. -/
def okEq {α : Type} [BEq α] (r : Res α) (a : α) : Bool :=
  match r with
  | .ok b => b == a
  | .error _ => false
/-- The set of the tokens in `EXAMPLE`. -/
def tokset : String := "https://raw.githubusercontent.com/LanguageMachines/uctodata/master/setdefinitions/tokconfig-eng.foliaset.ttl"

-- test001_instantiate
#guard (match Document.new "example" {} with | .ok d => d.id == "example" | _ => false)

/-- The document of test002: `add` is `add_element_to` or `annotate`. -/
def built (add : Nat → ElementData → M Document Nat) : Res ((Nat × Nat × Nat) × Document) := do
  let d ← Document.new "example" {}
  let m : M Document (Nat × Nat × Nat) := do
    let s ← add 0 ((ElementData.new .sentence).setAttrib (.id "s.1"))
    let w1 ← add s (((ElementData.new .word).setAttrib (.id "word.1")).withText "hello")
    let w2 ← add s (((ElementData.new .word).setAttrib (.id "word.2")).withText "world")
    return (s, w1, w2)
  runDoc m d
/-- The assertions of test002 and test002b. -/
def check002 (add : Nat → ElementData → M Document Nat) : Bool :=
  match built add with
  | .ok ((s, w1, w2), d) => d.elementKeyById "word.1" == some w1 && (match d.getElement w2 with
    | some e => e.id == some "word.2" && okEq (elementText d F e {}) "world" && e.parent == some s
    | none => false)
  | .error _ => false
-- test002_add_element_to, test002b_annotate_structure
#guard check002 (Document.addElementTo F)
#guard check002 (Document.annotate F)
-- test002c_annotate_invalid
#guard (match built (Document.annotate F) with
  | .ok ((s, _, _), d) => (match (Document.annotate F s (ElementData.new .speech) d).1 with
    | .error (.err .validation) => true
    | _ => false)
  | .error _ => false)
-- test002c_annotate_span_fromstructure: both entities end up in one layer
#guard (match built (Document.annotate F) with
  | .ok ((s, _, _), d) =>
    let m : M Document (Nat × Nat) := do
      let a ← Document.annotate F s ((((ElementData.new .entity).setAttrib (.set "adhoc")).setAttrib (.cls "greeting")).withSpan ["word.1", "word.2"])
      let b ← Document.annotate F s ((((ElementData.new .entity).setAttrib (.set "adhoc")).setAttrib (.cls "greeting2")).withSpan ["word.1", "word.2"])
      return (a, b)
    (match m d with
    | (.ok (a, b), d') => (d'.getElement a).map (·.parent) == (d'.getElement b).map (·.parent) && (d'.xml X F 0).isOk
    | _ => false)
  | .error _ => false)
-- test003_parse
#guard on EXAMPLE fun d => d.id == "example" && d.chain.length == 2
-- test004_get_word_from_index
#guard onId EXAMPLE "example.p.1.s.1.w.1" fun _ _ _ => true
-- test005_decode
#guard onId EXAMPLE "example.p.1.s.1.w.1" fun d _ e =>
  okEq (e.getSet d) (some tokset) && okEq (e.getClass d) (some "WORD") && okEq (e.getProcessorId d) (some "p1") &&
  okEq (e.getAnnotator d) (some "proycon") && okEq (e.getAnnotatortype d) (some .manual)
-- test006a_serialise_all_unchecked
#guard on EXAMPLE fun d => (d.xml X F 0).isOk
-- test006a_serialise_word; the test indents its output, which adds the line feed that it expects before the last end tag
#guard onId EXAMPLE "example.p.1.s.1.w.1" fun d _ e => okEq (elementXml X d F e)
  [.start "w" [("xml:id", "example.p.1.s.1.w.1"), ("class", "WORD")], nl, .start "t" [], .text "Hello", .endTag "t", .endTag "w"]
-- test007_metadata
#guard on EXAMPLE fun d => d.metadata.metadatatype == some "native" && d.metadata.src == none && mapFind d.metadata.data "language" == some "eng"
/-- Number of items of `select_data` (src/select.rs:525-527). -/
def countData (d : Document) (s : Selector) : Res Nat := do
  return (← selCollect { doc := d, selector := s, recursion := .always, inclusive := false, spanreferences := true } F (.init 0)).length
-- test008a_selector_type
#guard on EXAMPLE fun d => okEq (countData d (Selector.elements.element (.is .word))) 11
-- test008b_selector_set_class
#guard on EXAMPLE fun d => okEq (do countData d (← Selector.fromQuery d { elementtype := .is .word, set := .is tokset, cls := .is "PUNCTUATION" })) 2
-- test008c_elementselector_set_class
#guard on EXAMPLE fun d => okEq (do
  let ks ← select d F 0 (← Selector.fromQuery d { elementtype := .is .word, set := .is tokset, cls := .is "PUNCTUATION" }) .always
  ks.mapM fun k => match d.getElement k with
    | some e => e.getClass d
    | none => .ok none) [some "PUNCTUATION", some "PUNCTUATION"]
-- test008d_selector_elementgroup
#guard on EXAMPLE fun d => okEq (do countData d (← Selector.fromQuery d { elementgroup := .is .structural })) 14
-- test009a_text
#guard onId EXAMPLE "example.p.1.s.2.w.4" fun d _ e => okEq (textDelimiter d true F e) " " && okEq (elementText d F e {}) "example"
-- test009b_text_composed_retaintokenisation
#guard onId EXAMPLE "example.p.1.s.1" fun d _ e => okEq (elementText d F e { retaintokenisation := true }) "Hello world !"
-- test009c_text_composed_detokenise
#guard onId EXAMPLE "example.p.1.s.1" fun d _ e => okEq (elementText d F e {}) "Hello world!"
-- test009c_text_on_span
#guard onId EXAMPLE "example.p.1.s.2.chunk.1" fun d _ e => okEq (e.getClass d) (some "np") && okEq (elementText d F e {}) "an example"
/-- Class of the element with a key. -/
def classOf (d : Document) (k : Option Nat) : Res (Option String) :=
  match k with
  | some k => match d.getElement k with
    | some e => e.getClass d
    | none => .ok none
  | none => .ok none
-- test010a_get_inline_annotation
#guard onId EXAMPLE "example.p.1.s.2.w.4" fun d k _ => okEq (do classOf d (← getAnnotation d F k .POS .any .no)) (some "noun")
-- test010b_get_ancestor
#guard onId EXAMPLE "example.p.1.s.2.w.4" fun d k _ =>
  okEq ((getAncestors d F k .sentence .any).map (·.head?)) (d.elementKeyById "example.p.1.s.2")
-- test010c_get_span_annotation
#guard onId EXAMPLE "example.p.1.s.2.w.4" fun d k _ => okEq (do classOf d (← getAnnotation d F k .CHUNKING .any .no)) (some "np")
-- test010d_get_span_annotation_noduplicates
#guard onId EXAMPLE "example.p.1.s.2" fun d k _ => okEq ((getElements d F k .chunk .any .always).map (·.length)) 1
/-- Class and subset of the first feature with a subset of the `pos` annotation of an element. -/
def posFeature (d : Document) (k : Nat) (subset : String) : Res (Option String × Option String) := do
  match ← getAnnotation d F k .POS .any .no with
  | some pk => match d.getElement pk with
    | some pos => match ← getFeatures d F pk pos (.is subset) with
      | f :: _ => match d.getElement f with
        | some fe => return (← fe.getSubset d, ← fe.getClass d)
        | none => return (none, none)
      | [] => return (none, none)
    | none => return (none, none)
  | none => return (none, none)
-- test011a_features
#guard onId EXAMPLE "example.p.1.s.2.w.4" fun d k _ => okEq (posFeature d k "number") (some "number", some "singular")
-- test011b_feature_as_attribute
#guard onId TEST_FEAT_AS_ATTRIB "example.p.1.s.1.w.1" fun d k _ => okEq (posFeature d k "head") (some "head", some "N")
-- test012_spanroles
#guard onId EXAMPLE_DEP "example.p.1.s.1.dependency.1" fun d k e =>
  (match e.getParent d with
  | some layer => layer.elementtype == .dependenciesLayer && (layer.getParent d).map (·.elementtype) == some .sentence
  | none => false) &&
  (match getFirstElement d F k .headspan .any .always with | .ok (some _) => true | _ => false) &&
  (match getFirstElement d F k .dependencyDependent .any .always with
  | .ok (some dep) => okEq (d.text F dep {}) "man"
  | _ => false)
-- test013_textmarkup
#guard onId EXAMPLE_MARKUP "example.p.1.s.1" fun d _ e => okEq (elementText d F e {}) "Hello world! How are you today?"
/-- `common_ancestors` in the structure group, by identifiers. -/
def common (d : Document) (ids : List String) : Res (List Nat) := do
  commonAncestors d F (← Selector.fromQuery d { elementgroup := .is .structural }) [] (ids.filterMap d.elementKeyById)
-- test014a_common_ancestor, test014b_common_ancestor
#guard on EXAMPLE fun d => okEq (common d ["example.p.1.s.1.w.1", "example.p.1.s.1.w.2"])
  (["example.p.1.s.1", "example.p.1"].filterMap d.elementKeyById ++ [0])
#guard on EXAMPLE fun d => okEq (common d ["example.p.1.s.1.w.1", "example.p.1.s.2.w.1"]) (["example.p.1"].filterMap d.elementKeyById ++ [0])
-- test015_get_layer
#guard onId EXAMPLE "example.p.1.s.2" fun d k _ =>
  (match d.getLayerKey F k .CHUNKING (some "shallowsyntaxset") with | .ok (some _) => true | _ => false)
-- test016_add_provenance
#guard (match Document.new "example" { processor := some (.node { id := "test.proc", name := "test" } []) } with
  | .ok d => d.activeProcessor.isSome && d.activeProcessor == d.processorKeyById "test.proc"
  | .error _ => false)

end Folia.Conformance
