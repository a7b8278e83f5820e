import Verif.Tree
/-! Specification vocabulary for traversals: the part of a document below an element, read as a tree. Nothing here is used by the model. -/
namespace Folia

/-- A data item with everything below it. -/
inductive Item where
  | text (s : String)
  | comment (s : String)
  | ref (k : Nat)
  | node (k : Nat) (e : ElementData) (items : List Item)

/-- The data item itself. -/
def Item.data : Item → Data
  | .text s => .text s
  | .comment s => .comment s
  | .ref k => .spanReference k
  | .node k _ _ => .element k

mutual
/-- Every element in the tree is stored in the document under its key, and its data items are those of the tree. -/
def Shows (d : Document) : Item → Prop
  | .node k e items => d.getElement k = some e ∧ e.data = items.map Item.data ∧ ShowsAll d items
  | _ => True
/-- See `Shows`. -/
def ShowsAll (d : Document) : List Item → Prop
  | [] => True
  | i :: is => Shows d i ∧ ShowsAll d is
end

/-- The items below the element `k` in the document. -/
def Below (d : Document) (k : Nat) (e : ElementData) (items : List Item) : Prop := Shows d (.node k e items)

/-- The recursion mode, as documented: descend never, always, only into containers of the listed types or groups, or only into the others.
The container is the element whose data is looked at. -/
def Descends (r : Recursion) (t : ElementType) : Prop :=
  match r with
  | .no => False
  | .always => True
  | .limitedTo l => .type t ∈ l ∨ ∃ g, .group g ∈ l ∧ g.contains t = true
  | .exceptFor l => ¬ (.type t ∈ l ∨ ∃ g, .group g ∈ l ∧ g.contains t = true)

mutual
/-- The data items in a list of trees in document order, an item before what is below it. The items are the data of element `k` of type
`t`, beginning at position `i`; they have depth `n`. What is below the items is left out unless `go t`. -/
def preorder (go : ElementType → Bool) (k : Nat) (t : ElementType) (i n : Nat) : List Item → List SelectItem
  | [] => []
  | x :: xs => { data := x.data, parentKey := k, cursor := i, depth := n } ::
      ((if go t then inside go n x else []) ++ preorder go k t (i + 1) n xs)
/-- The data items below a data item of depth `n`. -/
def inside (go : ElementType → Bool) (n : Nat) : Item → List SelectItem
  | .node k e items => preorder go k e.elementtype 0 (n + 1) items
  | _ => []
end

/-- All data items below the element `k` of type `t`. -/
def everything (k : Nat) (t : ElementType) (items : List Item) : List SelectItem := preorder (fun _ => true) k t 0 1 items

/-- The data item `x` at position `i` of the element `p` is found at depth `n` below `k`, if only the containers of the types `go` are
descended into. -/
inductive Occurs (d : Document) (go : ElementType → Prop) (k : Nat) : Data → Nat → Nat → Nat → Prop
  | direct {e x i} : d.getElement k = some e → e.data[i]? = some x → Occurs d go k x k i 1
  | deeper {p pe j n c e x i} : Occurs d go k (.element c) p j n → d.getElement p = some pe → go pe.elementtype → d.getElement c = some e →
      e.data[i]? = some x → Occurs d go k x c i (n + 1)

/-- The item is a reference to a span or a span itself. -/
def spanOf (d : Document) : Data → Option Nat
  | .spanReference k => some k
  | .element k => match d.getElement k with
    | some e => if ElementGroup.span.contains e.elementtype then some k else none
    | none => none
  | _ => none

/-- Leave out the spans that occurred before; `seen` lists those that occurred already. -/
def firstOccurrences (d : Document) (seen : List Nat) : List SelectItem → List SelectItem
  | [] => []
  | i :: is => match spanOf d i.data with
    | some k => if k ∈ seen then firstOccurrences d seen is else i :: firstOccurrences d (k :: seen) is
    | none => i :: firstOccurrences d seen is

/-- Keep the items for which the selector returns true. -/
def chosen (d : Document) (s : Selector) (is : List SelectItem) : List SelectItem :=
  is.filter fun i => match s.matches d i.data with
    | .ok b => b
    | .error _ => false

/-- The element that a data item holds or refers to. -/
def dataKey : Data → Option Nat
  | .element k | .spanReference k => some k
  | _ => none

/-- The first member of a list with a property, if there is one. -/
inductive FirstSuch (P : Nat → Prop) (l : List Nat) : Option Nat → Prop
  | none : (∀ x ∈ l, ¬ P x) → FirstSuch P l none
  | some {pre post : List Nat} {x : Nat} : l = pre ++ x :: post → P x → (∀ y ∈ pre, ¬ P y) → FirstSuch P l (some x)

/-- The element `l` is a layer of type `lt` for the set `s`. -/
def LayerFor (d : Document) (lt : ElementType) (s : String) (l : Nat) : Prop :=
  ∃ e dec, d.getElement l = some e ∧ e.elementtype = lt ∧ e.getDeclaration d = .ok (some dec) ∧ lt.annotationtype = some dec.annotationtype ∧
    dec.set = some s

/-- Parent and child links agree and there are no cycles. -/
structure Document.Forest (d : Document) : Prop where
  links : d.LinksAgree
  acyclic : d.Acyclic

end Folia
