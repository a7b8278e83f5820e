import Verif.Doc
/-! Queries (`src/query.rs`) and selectors (first part of `src/select.rs`). -/
namespace Folia

/-- `Cmp` (src/query.rs:45-55). -/
inductive Cmp (α : Type) where
  | any
  | is (a : α)
  | some
  | none
  | unmatchable
  deriving DecidableEq, Repr

/-- `Cmp::matches` (src/query.rs:63-79). -/
def Cmp.matches {α : Type} [DecidableEq α] (c : Cmp α) (other : Option α) : Bool :=
  match c with
  | .any => true
  | .is v => match other with
    | .some r => v == r
    | .none => false
  | .none => other.isNone
  | .some => other.isSome
  | .unmatchable => false

/-- `Query` (src/query.rs:29-41); the builder methods of lines 82-148 are record updates. The only `Action` is `Select`. -/
structure Query where
  elementtype : Cmp ElementType := .any
  elementgroup : Cmp ElementGroup := .any
  contexttype : Cmp ElementType := .any
  set : Cmp String := .any
  cls : Cmp String := .any
  processor : Cmp String := .any
  subset : Cmp String := .any
  annotator : Cmp String := .any
  annotatortype : Cmp ProcessorType := .any
  confidence : Cmp F64 := .any

/-- `DataTypeSelector` (src/select.rs:305-310). -/
inductive DataTypeSelector where
  | elements | text | comments
  deriving DecidableEq, Repr

/-- `Selector` (src/select.rs:19-33) without its `next` field. -/
structure SelCore where
  datatypes : List DataTypeSelector := []
  elementtype : Cmp ElementType := .any
  elementgroup : Cmp ElementGroup := .any
  contexttype : Cmp ElementType := .any
  set : Cmp Nat := .any
  cls : Cmp Nat := .any
  processor : Cmp Nat := .any
  subset : Cmp Nat := .any
  confidence : Cmp F64 := .any
  annotator : Cmp String := .any
  annotatortype : Cmp ProcessorType := .any

/-- `Selector` (src/select.rs:19-33). The `next` chain of boxed selectors is the list of their cores. -/
structure Selector where
  core : SelCore := {}
  next : List SelCore := []

namespace Selector

/-- `Selector::and` (src/select.rs:194-197): overwrites `next`. -/
def and (a b : Selector) : Selector := { a with next := b.core :: b.next }

/-- `Selector::elements` (src/select.rs:174-178). -/
def elements : Selector := { core := { datatypes := [.elements] } }

/-- `Selector::all_data` (src/select.rs:181-183). -/
def allData : Selector := { core := { datatypes := [.elements, .text, .comments] } }

/-- `Selector::with_elements` (src/select.rs:151-154). -/
def withElements (s : Selector) : Selector := { s with core := { s.core with datatypes := s.core.datatypes ++ [.elements] } }
/-- `Selector::with_text` (src/select.rs:157-160). -/
def withText (s : Selector) : Selector := { s with core := { s.core with datatypes := s.core.datatypes ++ [.text] } }
/-- `Selector::with_comments` (src/select.rs:163-166). -/
def withComments (s : Selector) : Selector := { s with core := { s.core with datatypes := s.core.datatypes ++ [.comments] } }
/-- `Selector::element` (src/select.rs:168-171). -/
def element (s : Selector) (c : Cmp ElementType) : Selector := { s with core := { s.core with elementtype := c } }
/-- `Selector::elementgroup` (src/select.rs:186-189). -/
def elementgroup (s : Selector) (c : Cmp ElementGroup) : Selector := { s with core := { s.core with elementgroup := c } }

end Selector

/-- The declaration lookup shared by the `Is` and `None` arms of the set encoding (src/select.rs:58-89). -/
def encodeSet (d : Document) (source : Cmp ElementType) (set : Option String) : Cmp Nat :=
  match source with
  | .is et => match et.annotationtype with
    | some at_ => match d.declarationKeyById (Declaration.indexId at_ set) with
      | some k => .is k
      | none => .unmatchable
    | none => .unmatchable
  | _ => .unmatchable

/-- `Selector::from_query` (src/select.rs:43-147). -/
def Selector.fromQuery (d : Document) (q : Query) : Res Selector := do
  let source : Cmp ElementType := match q.subset with
    | .some | .is _ => q.contexttype
    | _ => q.elementtype
  let set : Cmp Nat := match q.set with
    | .is s => encodeSet d source (some s)
    | .any => .any
    | .some => .some
    | .none => encodeSet d source none
    | .unmatchable => .unmatchable
  let subset : Cmp Nat ← match q.subset with
    | .is sub => match set with
      | .is dk => match d.getDeclaration dk with
        | some decl => match decl.subsetKey sub with
          | some k => pure (.is k)
          | none => pure .unmatchable
        | none => pure .unmatchable
      | _ => throw (.err .query)
    | .any => pure .any
    | .some => pure .some
    | .none => pure .none
    | .unmatchable => pure .unmatchable
  let cls : Cmp Nat := match q.cls with
    | .is c => match set with
      | .is dk => match d.getDeclaration dk with
        | some decl => match subset with
          | .is _ | .some => match decl.subclassKey c with
            | some k => .is k
            | none => .unmatchable
          | _ => match decl.classKey c with
            | some k => .is k
            | none => .unmatchable
        | none => .unmatchable
      | _ => .unmatchable
    | .any => .any
    | .some => .some
    | .none => .none
    | .unmatchable => .unmatchable
  let processor : Cmp Nat := match q.processor with
    | .is p => match d.processorKeyById p with
      | some k => .is k
      | none => .unmatchable
    | .any => .any
    | .some => .some
    | .none => .none
    | .unmatchable => .unmatchable
  return { core := { datatypes := [.elements], elementtype := q.elementtype, elementgroup := q.elementgroup,
                     contexttype := q.contexttype, set, cls, processor, subset } }

/-- `&&` on computations that can panic: the right operand only counts if the left one is true. -/
def andAlso (a b : Res Bool) : Res Bool :=
  match a with
  | .ok true => b
  | r => r

/-- `||` on computations that can panic. -/
def orElse (a b : Res Bool) : Res Bool :=
  match a with
  | .ok false => b
  | r => r

/-- `(c == Cmp::Any || c.matches(v))`; `v` is only evaluated when needed (src/select.rs:227-233). -/
def cmpField {α : Type} [DecidableEq α] (c : Cmp α) (v : Res (Option α)) : Res Bool :=
  match c with
  | .any => .ok true
  | c => match v with
    | .ok o => .ok (c.matches o)
    | .error e => .error e

/-- `Selector::matchable` (src/select.rs:203-207); `next` is not consulted. -/
def Selector.matchable (s : Selector) : Bool :=
  s.core.set != .unmatchable && s.core.cls != .unmatchable && s.core.processor != .unmatchable

/-- The element arm of `Selector::matches` for an existing element (src/select.rs:219-233). -/
def SelCore.matchesElement (s : SelCore) (d : Document) (e : ElementData) : Res Bool :=
  let group : Bool := match s.elementgroup with
    | .is g => g.contains e.elementtype
    | .any | .some => true
    | .none | .unmatchable => false
  andAlso (.ok group)
  (andAlso (cmpField s.elementtype (.ok (some e.elementtype)))
  (andAlso (cmpField s.set e.declarationKeyU)
  (andAlso (cmpField s.subset e.subsetKeyU)
  (andAlso (cmpField s.cls e.classKeyU)
  (andAlso (cmpField s.processor e.processorKeyU)
  (andAlso (cmpField s.annotator (e.getAnnotator d))
  (cmpField s.annotatortype (e.getAnnotatortype d))))))))

/-- `Selector::matches` (src/select.rs:211-240) without the `next` chain. -/
def SelCore.matches (s : SelCore) (d : Document) : Data → Res Bool
  | .element k | .spanReference k =>
    if !s.datatypes.isEmpty && !s.datatypes.contains .elements then .ok false
    else match d.getElement k with
      | some e => s.matchesElement d e
      | none => .ok false
  | .text _ => .ok (s.datatypes.contains .text)
  | .comment _ => .ok (s.datatypes.contains .comments)
  | .addElement _ => .ok false

/-- `Selector::matches` (src/select.rs:211-246) over a chain of selectors. -/
def matchesChain (d : Document) (item : Data) : SelCore → List SelCore → Res Bool
  | s, [] => s.matches d item
  | s, s' :: rest => orElse (s.matches d item) (matchesChain d item s' rest)

/-- `Selector::matches` (src/select.rs:211-246). -/
def Selector.matches (s : Selector) (d : Document) (item : Data) : Res Bool := matchesChain d item s.core s.next

/-- `Recursion` (src/select.rs:252-258). -/
inductive Recursion where
  | no
  | limitedTo (l : List AcceptedData)
  | exceptFor (l : List AcceptedData)
  | always
  deriving DecidableEq, Repr

/-- The candidate test of `Recursion::eval` (src/select.rs:266-280) and of `check_element_addable` (src/document.rs:746-755). -/
def AcceptedData.covers (t : ElementType) : AcceptedData → Bool
  | .type t' => t' == t
  | .group g => g.contains t

/-- `Recursion::eval` (src/select.rs:261-300). -/
def Recursion.eval (r : Recursion) (t : ElementType) : Bool :=
  match r with
  | .no => false
  | .always => true
  | .limitedTo l => l.any (·.covers t)
  | .exceptFor l => !l.any (·.covers t)

end Folia
