import Verif.Tree
import Verif.Parser
/-! Specification vocabulary for parsing: what a piece of XML source means. Nothing here is used by the model. -/
namespace Folia

/-- A node in the body of an XML source, before any unescaping. -/
inductive XNode where
  /-- A FoLiA element with a start and an end tag. -/
  | elem (tag : String) (attrs : List RAttr) (children : List XNode)
  /-- A FoLiA element written as an empty tag. -/
  | empty (tag : String) (attrs : List RAttr)
  /-- An element of another namespace (`named`) or of none. -/
  | foreign (named : Bool) (tag : String) (attrs : List RAttr) (children : List XNode)
  /-- The same, written as an empty tag. -/
  | foreignEmpty (named : Bool) (tag : String) (attrs : List RAttr)
  | text (s : String)
  | cdata (s : String)
  | comment (s : String)
  /-- A processing instruction and the like. -/
  | instruction

/-- The namespace of a foreign element. -/
def foreignNs (named : Bool) : Ns := if named then .other else .none

mutual
/-- The events that a reader yields for a node. -/
def XNode.events : XNode → List REvent
  | .elem tag attrs children => .start .folia tag attrs :: (XNode.eventsList children ++ [.endTag .folia tag])
  | .empty tag attrs => [.empty .folia tag attrs]
  | .foreign named tag attrs children => .start (foreignNs named) tag attrs :: (XNode.eventsList children ++ [.endTag (foreignNs named) tag])
  | .foreignEmpty named tag attrs => [.empty (foreignNs named) tag attrs]
  | .text s => [.text s]
  | .cdata s => [.cdata s]
  | .comment s => [.comment s]
  | .instruction => [.other]
/-- The events that a reader yields for a list of nodes. -/
def XNode.eventsList : List XNode → List REvent
  | [] => []
  | x :: xs => x.events ++ XNode.eventsList xs
end

/-- An attribute that stands for a feature: the element accepts a type of feature with that subset. -/
def isShortcut (t : ElementType) (key : String) : Bool := (props t).acceptedData.any fun
  | .type a => ElementGroup.feature.contains a && (props a).subset == some key
  | .group _ => false

/-- The feature that an attribute stands for. -/
def featureFor (key value : String) : Data :=
  .addElement { elementtype := .feature, attribs := [.subset key, .cls value], data := [.text value], key := none, parent := none }

/-- The meaning of the attributes of a tag: attributes of the element and features below it; `none` if it is malformed. -/
def attrsMeaning (X : Ext) (t : ElementType) : List RAttr → Option (List Attribute × List Data)
  | [] => some ([], [])
  | .bad :: _ => none
  | .ok k v :: rest => do
    let value ← unescape v
    let (as, fs) ← attrsMeaning X t rest
    match Attribute.parse X k value with
    | some a => some (a :: as, fs)
    | none => if isShortcut t k then some (as, featureFor k value :: fs) else none

/-- Text is kept unless it is blank. -/
def unlessBlank (s : String) (x : Data) : List Data := if s.toList.all isWs then [] else [x]

mutual
/-- The meaning of a node, as what could be put in a builder; `none` if it is malformed. Foreign elements are transparent. -/
def XNode.meaning (X : Ext) : XNode → Option (List Data)
  | .elem tag attrs children => do
    let t ← ElementType.fromStr tag
    let (as, fs) ← attrsMeaning X t attrs
    let ys ← XNode.meaningList X children
    some [.addElement { elementtype := t, attribs := as, data := fs ++ ys, key := none, parent := none }]
  | .empty tag attrs => do
    let t ← ElementType.fromStr tag
    let (as, fs) ← attrsMeaning X t attrs
    some [.addElement { elementtype := t, attribs := as, data := fs, key := none, parent := none }]
  | .foreign _ _ _ children => XNode.meaningList X children
  | .foreignEmpty _ _ _ => some []
  | .text s => (unescape s).map fun t => unlessBlank t (.text t)
  | .cdata s => some (unlessBlank s (.text s))
  | .comment s => some (unlessBlank s (.comment s))
  | .instruction => some []
/-- The meaning of a list of nodes. -/
def XNode.meaningList (X : Ext) : List XNode → Option (List Data)
  | [] => some []
  | x :: xs => do
    let ys ← x.meaning X
    let zs ← XNode.meaningList X xs
    some (ys ++ zs)
end

/-- The data items other than references to spans. -/
def ownItems (data : List Data) : List Data := data.filter fun
  | .spanReference _ => false
  | _ => true

mutual
/-- The element `k` of `d`, child of `par`, and everything below it is what the builder describes: the same element types, texts and
comments in the same order and nesting, apart from references to spans; all keys are at least `lo`; processors are those known to `d0`. -/
def Stored (lo : Nat) (d0 d : Document) (par : Option Nat) (k : Nat) : ElementData → Prop
  | ⟨t, as, data, key, p⟩ => ∃ x, lo ≤ k ∧ d.getElement k = some x ∧ x.parent = par ∧
      ReadsBack d0 d x ⟨t, as, data, key, p⟩ ∧ StoredItems lo d0 d (some k) (ownItems x.data) data
/-- The data items `ys` of an element are what the data items of the builder describe. -/
def StoredItems (lo : Nat) (d0 d : Document) (par : Option Nat) : List Data → List Data → Prop
  | ys, [] => ys = []
  | ys, .text s :: rest => ∃ ys', ys = .text s :: ys' ∧ StoredItems lo d0 d par ys' rest
  | ys, .comment s :: rest => ∃ ys', ys = .comment s :: ys' ∧ StoredItems lo d0 d par ys' rest
  | ys, .addElement e :: rest => ∃ c ys', ys = .element c :: ys' ∧ Stored lo d0 d par c e ∧ StoredItems lo d0 d par ys' rest
  | _, .element _ :: _ => False
  | _, .spanReference _ :: _ => False
end

/-! ### Whole documents -/

/-- The end of the metadata. -/
def metadataEnd : REvent := .endTag .folia "metadata"

/-- An event is a start tag. -/
def isStart : REvent → Bool
  | .start _ _ _ => true
  | _ => false

/-- The type of a body with the given tag. -/
def bodyTypeOf (tag : String) : Option ElementType := if tag = "text" then some .text else if tag = "speech" then some .speech else none

/-- The parts of a document: everything up to the end of the metadata, what is between that and the body, the start tag of the body, the rest. -/
def source (header gap : List REvent) (tag : String) (attrs : List RAttr) (rest : List REvent) : List REvent :=
  header ++ metadataEnd :: gap ++ .start .folia tag attrs :: rest

/-- The identifiers that the attributes of a tag give. -/
def attrIds (attrs : List RAttr) : List String := attrs.filterMap fun
  | .ok k v => if k = "xml:id" then unescape v else none
  | .bad => none

mutual
/-- The identifiers in a node, at any depth. -/
def XNode.ids : XNode → List String
  | .elem _ attrs children => attrIds attrs ++ XNode.idsList children
  | .empty _ attrs => attrIds attrs
  | .foreign _ _ _ children => XNode.idsList children
  | .foreignEmpty _ _ _ => []
  | .text _ => []
  | .cdata _ => []
  | .comment _ => []
  | .instruction => []
/-- The identifiers in a list of nodes. -/
def XNode.idsList : List XNode → List String
  | [] => []
  | x :: xs => x.ids ++ XNode.idsList xs
end

/-- An element that has been opened: what comes before it in its parent, its tag and its attributes. -/
structure Frame where
  before : List XNode
  tag : String
  attrs : List RAttr

/-- The events up to the opening of all elements of a path. -/
def Frame.events (path : List Frame) : List REvent := path.flatMap fun f => XNode.eventsList f.before ++ [.start .folia f.tag f.attrs]
/-- The identifiers in a path. -/
def Frame.ids (path : List Frame) : List String := path.flatMap fun f => XNode.idsList f.before ++ attrIds f.attrs

/-- How many elements are open below the body after some events, starting with `n`; `none` once the body was closed. -/
def bodyDepth : Nat → List REvent → Option Nat
  | n, [] => some n
  | n, .start .folia _ _ :: rest => bodyDepth (n + 1) rest
  | 0, .endTag .folia _ :: _ => none
  | n + 1, .endTag .folia _ :: rest => bodyDepth n rest
  | n, _ :: rest => bodyDepth n rest

/-- The open elements after some events, innermost first; `none` if some end tag did not belong to the innermost open element. -/
def nestedOpen : List (Ns × String) → List REvent → Option (List (Ns × String))
  | opened, [] => some opened
  | opened, .start ns t _ :: rest => nestedOpen ((ns, t) :: opened) rest
  | [], .endTag _ _ :: _ => none
  | o :: opened, .endTag ns t :: rest => if o = (ns, t) then nestedOpen opened rest else none
  | opened, _ :: rest => nestedOpen opened rest

/-! ### Text -/

mutual
/-- The text directly in a node, outside elements of its own. -/
def XNode.looseText : XNode → List String
  | .text s => (unescape s).toList
  | .cdata s => [s]
  | .foreign _ _ _ children => XNode.looseTexts children
  | .elem _ _ _ => []
  | .empty _ _ => []
  | .foreignEmpty _ _ _ => []
  | .comment _ => []
  | .instruction => []
/-- The texts directly in the contents of an element. -/
def XNode.looseTexts : List XNode → List String
  | [] => []
  | x :: xs => x.looseText ++ XNode.looseTexts xs
end

/-- The texts among data items. -/
def textItems (data : List Data) : List String := data.filterMap fun
  | .text s => some s
  | _ => none

/-- A FoLiA element with the given tag and contents occurs in the nodes, at any depth. -/
inductive XNode.Has (tag : String) (attrs : List RAttr) (children : List XNode) : List XNode → Prop
  | here {xs} : XNode.elem tag attrs children ∈ xs → XNode.Has tag attrs children xs
  | inside {tag' attrs' ys xs} : XNode.elem tag' attrs' ys ∈ xs → XNode.Has tag attrs children ys → XNode.Has tag attrs children xs
  | foreign {named tag' attrs' ys xs} : XNode.foreign named tag' attrs' ys ∈ xs → XNode.Has tag attrs children ys → XNode.Has tag attrs children xs

/-- The nodes contain a FoLiA tag with these attributes, at any depth and possibly inside foreign elements. -/
inductive XNode.Tagged (tag : String) (attrs : List RAttr) : List XNode → Prop
  | elem {children xs} : XNode.elem tag attrs children ∈ xs → XNode.Tagged tag attrs xs
  | empty {xs} : XNode.empty tag attrs ∈ xs → XNode.Tagged tag attrs xs
  | inside {tag' attrs' ys xs} : XNode.elem tag' attrs' ys ∈ xs → XNode.Tagged tag attrs ys → XNode.Tagged tag attrs xs
  | foreign {named tag' attrs' ys xs} : XNode.foreign named tag' attrs' ys ∈ xs → XNode.Tagged tag attrs ys → XNode.Tagged tag attrs xs

end Folia
