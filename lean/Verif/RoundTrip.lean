import Verif.Ops
import Verif.View
import Verif.XmlView
import Verif.Provenance
import Verif.Source
import Verif.Props.Attributes
/-! Specification vocabulary for round trips: writing a document and reading it again. Nothing here is used by the model. -/
namespace Folia

/-- `d'` is what `Document::parse` makes of what `Document::xml` writes for `d`, with the properties `ps`. -/
def Rereads (X : Ext) (F : Nat) (ps : DocumentProperties) (d d' : Document) : Prop :=
  ∃ G evs, d.xml X G 0 = .ok evs ∧ Document.parse X F ps (checkEnds [] (readBack evs)) = .ok d'

/-- The declarations of a document, in order. -/
def allDeclarations (d : Document) : List Declaration := d.declarations.items.filterMap fun o => o

/-- The identifiers of processors. -/
def procIdents (d : Document) (ps : List Nat) : List String := ps.filterMap fun p => (d.getProcessor p).map (·.id)

/-- No processor of the provenance has a date. -/
def NoDates (d : Document) : Prop := ∀ c ∈ d.chain, ∀ p x, d.ProcOver c p → d.getProcessor p = some x → x.begindatetime = none ∧ x.enddatetime = none

/-- A document obtained by calls of the library without raw keys, with a body, in which elements and processors form forests. -/
structure Consistent (X : Ext) (F : Nat) (d : Document) : Prop where
  clean : CleanReachable X F d
  forest : d.Forest
  body : ∃ e, d.getElement 0 = some e
  prov : d.ProvForest

/-! ### The body -/

/-- The attributes of an element, apart from references and those that are ignored. -/
def ownAttribs (e : ElementData) : List Attribute := e.attribs.filter fun a => !a.decodable && a != .ignore

/-- Nothing but white space. -/
def blank (s : String) : Bool := s.toList.all isWs

/-- No line feed is written after an element with these data items. -/
def endsTight (t : ElementType) (items : List Item) : Bool := if items.isEmpty then !nlAfterStart t else !nlAfterEnd t

mutual
/-- Data items of an element that a reader can tell apart and keeps. Text must not be blank and must directly follow a tag or a comment,
without line feed or other text before it (`clear`); comments must not be blank and must not need escaping. -/
def Legible : Bool → List Item → Prop
  | _, [] => True
  | clear, .text s :: rest => clear = true ∧ blank s = false ∧ Legible false rest
  | _, .comment s :: rest => escape s = s ∧ blank s = false ∧ Legible true rest
  | clear, .ref _ :: rest => Legible clear rest
  | _, .node k e items :: rest => LegibleIn (.node k e items) ∧ Legible (endsTight e.elementtype items) rest
/-- See `Legible`. -/
def LegibleIn : Item → Prop
  | .text _ => True
  | .comment _ => True
  | .ref _ => True
  | .node _ e items => Legible (!nlAfterStart e.elementtype) items
end

/-- The attributes of an element can be written and read back: at most one of each type, with values in the range of the printed form. -/
structure Printable (X : Ext) (e : ElementData) : Prop where
  distinct : ((ownAttribs e).map Attribute.attribtype).Nodup
  exact : ∀ a ∈ ownAttribs e, a.PrintsExactly X

/-- A set, subset, class or processor is written for the element. -/
def WritesRefs (X : Ext) (d : Document) (e : ElementData) : Prop := ∀ l, AttrsAre X d e l → l ≠ printedAttrs X e.attribs

/-- What must hold of an element for its own attributes, class and subset to survive. A layer without declared attributes of its own is given
the declaration of its contents when it is read, in place of all its attributes. -/
structure Rewritable (X : Ext) (d : Document) (e : ElementData) : Prop where
  printable : Printable X e
  layer : ElementGroup.layer.contains e.elementtype = true → ownAttribs e = [] ∨ WritesRefs X d e
  feature : e.elementtype = .feature → ∀ k, e.declarationKeyU = .ok (some k) → ∃ s c, e.getSubset d = .ok (some s) ∧ e.getClass d = .ok (some c)

/-- There is room for more classes and subsets in every declaration. -/
def RoomLeft (d : Document) : Prop := ∀ k dec, d.getDeclaration k = some dec →
  (∀ st, dec.classes = some st → st.len < cap32) ∧ (∀ st, dec.subsets = some st → st.len < cap16) ∧ ∀ st, dec.subclasses = some st → st.len < cap32

/-- `x` in `d'` has the type, the attributes (with the identifier), the class and the subset of `e` in `d`. -/
structure SameContent (d d' : Document) (e x : ElementData) : Prop where
  type : x.elementtype = e.elementtype
  own : ownAttribs x = ownAttribs e
  cls : x.getClass d' = e.getClass d
  subset : x.getSubset d' = e.getSubset d

/-- There is exactly one declaration of the annotation type. -/
def SoleOfType (d : Document) (t : AnnotationType) : Prop :=
  ∃ k dec, d.getDeclaration k = some dec ∧ dec.annotationtype = t ∧ ∀ j dec', d.getDeclaration j = some dec' → dec'.annotationtype = t → j = k

/-- What must hold of the declarations for sets and processors to survive: they have processors, which are written; one without set is the only
one of its type; and the parser declares nothing new by itself. -/
structure Settled (ps : DocumentProperties) (d : Document) : Prop where
  kept : ∀ k dec, d.getDeclaration k = some dec → dec.processors ≠ [] ∧ ∀ p ∈ dec.processors, ∃ c ∈ d.chain, d.ProcOver c p
  unset : ∀ k dec, d.getDeclaration k = some dec → dec.set = none → SoleOfType d dec.annotationtype
  preset : ∀ ts ∈ ps.declare, ∃ k dec, d.getDeclaration k = some dec ∧ dec.annotationtype = ts.1 ∧ dec.set = ts.2

/-- What must hold of a feature for its declaration to be found again, since its set is never written: it has no processor and is below an element
whose type has only one declaration. -/
def FeatureFits (d : Document) (e : ElementData) : Prop := ∀ k, e.elementtype = .feature → e.declarationKeyU = .ok (some k) → e.processorKeyU = .ok none ∧
  ∀ pk pe t, e.parent = some pk → d.getElement pk = some pe → pe.elementtype.annotationtype = some t → SoleOfType d t

/-- What must hold of an element for sets and processors to survive. -/
structure Creditable (X : Ext) (d : Document) (e : ElementData) : Prop where
  credited : ∀ k, e.elementtype.annotationtype.isSome = true → ElementGroup.layer.contains e.elementtype = false → e.declarationKeyU = .ok (some k) →
    WritesRefs X d e ∧ ∃ p, e.processorKeyU = .ok (some p)
  feature : FeatureFits d e

/-- What must hold of an element for the same attributes to be written for it after a round trip. -/
structure Repeatable (d : Document) (e : ElementData) : Prop where
  credited : ∀ t k dec, e.elementtype.annotationtype = some t → e.declarationKeyU = .ok (some k) → d.getDeclaration k = some dec →
    (∃ p, e.processorKeyU = .ok (some p)) ∨ ∃ p, dec.processors = [p]
  feature : FeatureFits d e
  layer : ∀ t, ElementGroup.layer.contains e.elementtype = true → e.declarationKeyU = .ok none → e.elementtype.annotationtype = some t →
    ∀ i j a b, d.getDeclaration i = some a → d.getDeclaration j = some b → a.annotationtype = t → b.annotationtype = t → i = j

/-- `x` in `d'` has the set and the processor of `e` in `d`, if the type of the element has sets and it is not a layer. -/
def SameCredit (d d' : Document) (e x : ElementData) : Prop := e.elementtype.annotationtype.isSome = true → ElementGroup.layer.contains e.elementtype = false →
  x.getSet d' = e.getSet d ∧ x.getProcessorId d' = e.getProcessorId d

/-- The events without line feeds, where an empty tag counts as a start tag and an end tag. -/
def squeeze : List WEvent → List WEvent
  | [] => []
  | .text s :: es => if s = "\n" then squeeze es else .text s :: squeeze es
  | .empty t as :: es => .start t as :: .endTag t :: squeeze es
  | .start t as :: es => .start t as :: squeeze es
  | .endTag t :: es => .endTag t :: squeeze es
  | .comment s :: es => .comment s :: squeeze es

mutual
/-- The number of elements in a list of trees. -/
def nodeCounts : List Item → Nat
  | [] => 0
  | x :: xs => nodeCount x + nodeCounts xs
/-- The number of elements in a tree. -/
def nodeCount : Item → Nat
  | .node _ _ items => nodeCounts items + 1
  | .text _ => 0
  | .comment _ => 0
  | .ref _ => 0
end

mutual
/-- The element `k'` of `d'`, child of `par`, is what the item shows, and so is everything below it, in the same order and nesting, apart
from references to spans; elements correspond by `R`. -/
def Matches (R : ElementData → ElementData → Prop) (d' : Document) (par : Option Nat) (k' : Nat) : Item → Prop
  | .node _ e items => ∃ e', d'.getElement k' = some e' ∧ e'.parent = par ∧ R e e' ∧ MatchesAll R d' (some k') (ownItems e'.data) items
  | .text _ => False
  | .comment _ => False
  | .ref _ => False
/-- The data items of an element of `d'` are what the items show. -/
def MatchesAll (R : ElementData → ElementData → Prop) (d' : Document) (par : Option Nat) : List Data → List Item → Prop
  | ys, [] => ys = []
  | ys, .text s :: rest => ∃ ys', ys = .text s :: ys' ∧ MatchesAll R d' par ys' rest
  | ys, .comment s :: rest => ∃ ys', ys = .comment s :: ys' ∧ MatchesAll R d' par ys' rest
  | ys, .ref _ :: rest => MatchesAll R d' par ys rest
  | ys, .node k e items :: rest => ∃ c ys', ys = .element c :: ys' ∧ Matches R d' par c (.node k e items) ∧ MatchesAll R d' par ys' rest
end

end Folia
