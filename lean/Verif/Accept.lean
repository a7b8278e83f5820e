import Verif.RoundTrip
/-! Specification vocabulary: what a source must satisfy in order to be accepted. Nothing here is used by the model. -/
namespace Folia

/-- An annotation type with a set, as in a declaration. -/
abbrev DeclName := AnnotationType × Option String

/-- All that an element below one of type `c` needs to have declared is in the list. A feature needs a declaration of the annotation type
of the element above it, which therefore must have one. -/
structure Encodes (L : List DeclName) (c : Option ElementType) (e : ElementData) : Prop where
  typed : ∀ t s, e.encodable = true → e.elementtype.annotationtype = some t → e.set = .ok s → (t, s) ∈ L
  feature : e.encodable = true → e.elementtype.annotationtype = none → e.elementtype = .feature →
    ∃ c' t, c = some c' ∧ c'.annotationtype = some t ∧ ∀ s, e.set = .ok s → (t, s) ∈ L

/-- A reference to a word names a known identifier and is inside of a span. -/
def RefersBack (above : List ElementType) (known : List String) (e : ElementData) : Prop :=
  (∃ i, e.lastIdref = some i ∧ i ∈ known) ∧ ∃ t ∈ above, ElementGroup.span.contains t = true

mutual
/-- An element can be read below elements of the types `above`, innermost first, after the identifiers `known`. -/
def Fits (L : List DeclName) (above : List ElementType) (known : List String) : ElementData → Prop
  | ⟨t, as, data, k, p⟩ => Encodes L above.head? ⟨t, as, data, k, p⟩ ∧
      FitsAll L (t :: above) (known ++ (ElementData.mk t as data k p).id.toList) data ∧
      (t = .wordReference → RefersBack above (known ++ builderIds ⟨t, as, data, k, p⟩) ⟨t, as, data, k, p⟩)
/-- The same for the contents of an element. -/
def FitsAll (L : List DeclName) (above : List ElementType) (known : List String) : List Data → Prop
  | [] => True
  | .addElement e :: rest => Fits L above known e ∧ FitsAll L above (known ++ builderIds e) rest
  | .text _ :: rest => FitsAll L above known rest
  | .comment _ :: rest => FitsAll L above known rest
  | .element _ :: rest => FitsAll L above known rest
  | .spanReference _ :: rest => FitsAll L above known rest
end

/-! ### Documents -/

mutual
/-- The identifiers in a list of trees, in document order. -/
def identsIn : List Item → List String
  | [] => []
  | x :: xs => identsOf x ++ identsIn xs
/-- The identifiers in a tree, in document order. -/
def identsOf : Item → List String
  | .node _ e items => e.id.toList ++ identsIn items
  | .text _ => []
  | .comment _ => []
  | .ref _ => []
end

mutual
/-- A reader that has seen elements with the identifiers `known`, and is inside elements of the types `above` (innermost first), can take this
tree: a reference to a word names an element that was seen before and is inside of a span, and a feature that has a declaration is directly
inside an element whose type has an annotation type. -/
def Readable (above : List ElementType) (known : List String) : Item → Prop
  | .node k e items =>
    (e.elementtype = .wordReference → RefersBack above (known ++ identsOf (.node k e items)) e) ∧
    (e.elementtype = .feature → e.declarationKeyU ≠ .ok none → ∃ c t, above.head? = some c ∧ c.annotationtype = some t) ∧
    ReadableAll (e.elementtype :: above) (known ++ e.id.toList) items
  | .text _ => True
  | .comment _ => True
  | .ref _ => True
/-- The same for a list of trees. -/
def ReadableAll (above : List ElementType) (known : List String) : List Item → Prop
  | [] => True
  | x :: xs => Readable above known x ∧ ReadableAll above (known ++ identsOf x) xs
end

/-- There are few enough declarations for those that reading may add: those asked for, and one without set for each annotation type. -/
def DeclarationsFit (ps : DocumentProperties) (d : Document) : Prop :=
  d.declarations.len + AnnotationType.all.length + ps.declare.length ≤ cap16

end Folia
