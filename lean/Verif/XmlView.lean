import Verif.View
import Verif.Serialiser
/-! Specification vocabulary for serialisation: the recursive serialisation of a tree, and well-nested event streams. Nothing here is used
by the model. -/
namespace Folia

mutual
/-- The serialisation of a data item with everything below it, if `A` gives the attributes of the elements. An element without data items
is written as an empty tag. Line feeds are written after start tags and end tags, depending on the type of the element; `last` says that
nothing else is written after this item, in which case there is no line feed after the end tag. -/
def itemXml (A : ElementData → List (String × String)) (last : Bool) : Item → List WEvent
  | .text s => [.text (escape s)]
  | .comment s => [.comment (escape s)]
  | .ref _ => []
  | .node _ e items =>
    if items.isEmpty then .empty e.elementtype.asStr (A e) :: (if nlAfterStart e.elementtype then [nl] else [])
    else [.start e.elementtype.asStr (A e)] ++ (if nlAfterStart e.elementtype then [nl] else []) ++ itemsXml A last items ++
      [.endTag e.elementtype.asStr] ++ (if !last && nlAfterEnd e.elementtype then [nl] else [])
/-- The serialisation of data items, one after the other. -/
def itemsXml (A : ElementData → List (String × String)) (last : Bool) : List Item → List WEvent
  | [] => []
  | i :: is => itemXml A (last && is.isEmpty) i ++ itemsXml A last is
end

/-- Read events with the given open tags: every end tag must close the innermost open tag. The result is the list of tags that are still
open, innermost first. -/
def nesting : List String → List WEvent → Option (List String)
  | st, [] => some st
  | st, .start t _ :: es => nesting (t :: st) es
  | t' :: st, .endTag t :: es => if t = t' then nesting st es else none
  | [], .endTag _ :: _ => none
  | st, .empty _ _ :: es => nesting st es
  | st, .text _ :: es => nesting st es
  | st, .comment _ :: es => nesting st es

/-- All elements of a tree. -/
inductive InTree : ElementData → Item → Prop
  | here {k e items} : InTree e (.node k e items)
  | inner {k e items i e'} : i ∈ items → InTree e' i → InTree e' (.node k e items)

/-- The plain attributes as they are written: ignored ones and references cannot be printed. -/
def printedAttrs (X : Ext) (as : List Attribute) : List (String × String) :=
  as.filterMap fun a => match a.display X with
    | .ok v => some (wattr a.attribtype.asStr v)
    | .error _ => none

/-- The attributes that are written for an element: the plain ones, in order, then set, subset, class and processor as the element reports
them. All of the latter are left out if the element has no declaration. The set is left out for features, and if no other declaration has
the same annotation type; the processor is left out if it is the only one of the declaration. -/
def AttrsAre (X : Ext) (d : Document) (e : ElementData) (l : List (String × String)) : Prop :=
  ∃ refs, l = printedAttrs X e.attribs ++ refs ∧
    ((e.declarationKeyU = .ok none ∧ refs = []) ∨
     ∃ k dec set subset cls proc, e.declarationKeyU = .ok (some k) ∧ d.getDeclaration k = some dec ∧ e.getSubset d = .ok subset ∧ e.getClass d = .ok cls ∧
      refs = wattrOpt "set" set ++ wattrOpt "subset" subset ++ wattrOpt "class" cls ++ wattrOpt "processor" proc ∧
      ((e.elementtype = .feature ∨ ∀ j dec', d.getDeclaration j = some dec' → dec'.annotationtype = dec.annotationtype → j = k) ∧ set = none ∨
       (e.elementtype ≠ .feature ∧ ∃ j dec', d.getDeclaration j = some dec' ∧ dec'.annotationtype = dec.annotationtype ∧ j ≠ k) ∧ e.getSet d = .ok set) ∧
      ((∃ p, dec.processors = [p] ∧ e.processorKeyU = .ok (some p)) ∧ proc = none ∨
       (¬ ∃ p, dec.processors = [p] ∧ e.processorKeyU = .ok (some p)) ∧ e.getProcessorId d = .ok proc))

end Folia
