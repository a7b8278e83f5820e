import Verif.Ops
/-! Specification vocabulary for the element tree. Nothing here is used by the model. -/
namespace Folia

/-- The keys of the element children among data items, in order. -/
def kids (data : List Data) : List Nat := data.filterMap fun
  | .element c => some c
  | _ => none

namespace Document

/-- `p` lists `c` among its data. -/
def Lists (d : Document) (p c : Nat) : Prop := ∃ e, d.getElement p = some e ∧ .element c ∈ e.data
/-- `c` names `p` as its parent. -/
def HasParent (d : Document) (c p : Nat) : Prop := ∃ e, d.getElement c = some e ∧ e.parent = some p

/-- An element lists a child exactly when that child names it as its parent, and lists it once. -/
structure LinksAgree (d : Document) : Prop where
  agree : ∀ p c, d.Lists p c ↔ d.HasParent c p
  once : ∀ p e, d.getElement p = some e → (kids e.data).Nodup

/-- `a` is a proper ancestor of `k`. -/
inductive Above (d : Document) : Nat → Nat → Prop
  | parent {a k} : d.HasParent k a → Above d a k
  | up {a p k} : d.HasParent k p → Above d a p → Above d a k

/-- No element is its own ancestor. -/
def Acyclic (d : Document) : Prop := ∀ k, ¬ d.Above k k

/-- Following parents from `k` ends. -/
inductive Rooted (d : Document) : Nat → Prop
  | root {k e} : d.getElement k = some e → e.parent = none → Rooted d k
  | child {k p} : d.HasParent k p → Rooted d p → Rooted d k

end Document

/-! ### Builders -/

mutual
/-- The identifiers in a builder, at any depth. -/
def builderIds : ElementData → List String
  | ⟨t, as, data, k, p⟩ => (ElementData.id ⟨t, as, data, k, p⟩).toList ++ builderIdsList data
/-- The identifiers in the pending children of a list of data items, at any depth. -/
def builderIdsList : List Data → List String
  | [] => []
  | .addElement e :: rest => builderIds e ++ builderIdsList rest
  | .text _ :: rest => builderIdsList rest
  | .comment _ :: rest => builderIdsList rest
  | .element _ :: rest => builderIdsList rest
  | .spanReference _ :: rest => builderIdsList rest
end

mutual
/-- The number of elements in a builder, at any depth. -/
def builderSize : ElementData → Nat
  | ⟨_, _, data, _, _⟩ => builderSizeList data + 1
/-- The number of elements in the pending children of a list of data items, at any depth. -/
def builderSizeList : List Data → Nat
  | [] => 0
  | .addElement e :: rest => builderSize e + builderSizeList rest
  | .text _ :: rest => builderSizeList rest
  | .comment _ :: rest => builderSizeList rest
  | .element _ :: rest => builderSizeList rest
  | .spanReference _ :: rest => builderSizeList rest
end

/-- The identifiers are all different and unknown to the document. -/
def Document.FreshIds (d : Document) (ids : List String) : Prop := ids.Nodup ∧ ∀ id ∈ ids, d.elementKeyById id = none

/-- The stored element `x` reports what the builder `b` asked for. `d0` is the document before the call, `d` the document now.
Set, class, subset and processor are only kept by elements whose type has an annotation type, and by features. -/
structure ReadsBack (d0 d : Document) (x b : ElementData) : Prop where
  type : x.elementtype = b.elementtype
  declared : ∀ t, b.elementtype.annotationtype = some t → b.encodable = true →
    ∃ dec, x.getDeclaration d = .ok (some dec) ∧ dec.annotationtype = t
  set : ∀ s, b.elementtype.annotationtype.isSome ∨ b.elementtype = .feature → b.set = .ok (some s) → x.getSet d = .ok (some s)
  cls : ∀ c, b.elementtype.annotationtype.isSome → b.cls = .ok (some c) → x.getClass d = .ok (some c) ∨
    ∃ dec, x.getDeclaration d = .ok (some dec) ∧ ∃ st, dec.classes = some st ∧ cap32 ≤ st.len
  feature : ∀ s c, b.elementtype = .feature → b.subset = .ok (some s) → b.cls = .ok (some c) →
    (x.getSubset d = .ok (some s) ∧ x.getClass d = .ok (some c)) ∨ ∃ dec, x.getDeclaration d = .ok (some dec) ∧
      ((∃ st, dec.subsets = some st ∧ cap16 ≤ st.len) ∨ ∃ st, dec.subclasses = some st ∧ cap32 ≤ st.len)
  processor : ∀ id p, b.processor = .ok (some id) → d0.processorKeyById id = some p → x.getProcessorId d = .ok (some id)
  others : x.attribs.filter (!·.decodable) = b.attribs.filter (!·.encodable) ∨
    (ElementGroup.layer.contains b.elementtype = true ∧ b.encodable = false ∧ ∃ dk, x.attribs = [.declarationRef dk])
  unclassed : (∀ c, b.cls ≠ .ok (some c)) → x.classKeyU = .ok none
  unsubset : (∀ s, b.subset ≠ .ok (some s)) → x.subsetKeyU = .ok none
  undeclared : b.encodable = false → ElementGroup.layer.contains b.elementtype = false → x.declarationKeyU = .ok none
  uncredited : b.elementtype.annotationtype = none ∨ b.encodable = false → (∀ id, b.processor ≠ .ok (some id)) → x.processorKeyU = .ok none

mutual
/-- The element `k` of `d`, child of `par`, and everything below it is what the builder describes: the same element types, texts and
comments in the same order and nesting, made of elements that were not in `d0`. References to spans may have been appended. -/
def Materialised (d0 d : Document) (par : Option Nat) (k : Nat) : ElementData → Prop
  | ⟨t, as, data, key, p⟩ => ∃ x ys refs, d0.getElement k = none ∧ d.getElement k = some x ∧ x.parent = par ∧
      ReadsBack d0 d x ⟨t, as, data, key, p⟩ ∧ x.data = ys ++ List.map .spanReference refs ∧ (kids ys).Nodup ∧ MaterialisedItems d0 d (some k) ys data
/-- The data items `ys` of an element are what the data items of the builder describe. -/
def MaterialisedItems (d0 d : Document) (par : Option Nat) : List Data → List Data → Prop
  | ys, [] => ys = []
  | ys, .text s :: rest => ∃ ys', ys = .text s :: ys' ∧ MaterialisedItems d0 d par ys' rest
  | ys, .comment s :: rest => ∃ ys', ys = .comment s :: ys' ∧ MaterialisedItems d0 d par ys' rest
  | ys, .addElement e :: rest => ∃ c ys', ys = .element c :: ys' ∧ Materialised d0 d par c e ∧ MaterialisedItems d0 d par ys' rest
  | _, .element _ :: _ => False
  | _, .spanReference _ :: _ => False
end

/-- The element is the same up to appended references to spans. -/
structure Grown (e e' : ElementData) : Prop where
  type : e'.elementtype = e.elementtype
  key : e'.key = e.key
  parent : e'.parent = e.parent
  attribs : e'.attribs = e.attribs
  data : ∃ refs, e'.data = e.data ++ List.map .spanReference refs

/-- The data items other than the child `c`. -/
def otherItems (c : Nat) (data : List Data) : List Data := data.filter fun
  | .element k => k != c
  | _ => true

/-- The builder `e` became the element `k`, the last child of `p`; nothing else changed but for back references to spans. -/
structure AddedTo (d d' : Document) (p k : Nat) (e : ElementData) : Prop where
  tree : Materialised d d' (some p) k e
  parent : ∃ pe pe' refs refs', d.getElement p = some pe ∧ d'.getElement p = some pe' ∧ pe'.elementtype = pe.elementtype ∧ pe'.key = pe.key ∧
    pe'.parent = pe.parent ∧ pe'.attribs = pe.attribs ∧
    pe'.data = pe.data ++ List.map .spanReference refs ++ [.element k] ++ List.map .spanReference refs'
  others : ∀ j x, d.getElement j = some x → j ≠ p → ∃ x', d'.getElement j = some x' ∧ Grown x x'
  count : d'.elements.len = d.elements.len + builderSize e

/-! ### References to spans -/

/-- The number of references to the span `k` among data items. -/
def spanRefs (k : Nat) (data : List Data) : Nat := data.countP fun
  | .spanReference j => j == k
  | _ => false

/-- The identifier in an `idref` attribute. -/
def idrefOf : Attribute → Option String
  | .idref s => some s
  | _ => none

/-- The identifier that a word reference refers to: its last `idref`. -/
def refersTo (w : ElementData) : Option String := (w.attribs.filterMap idrefOf).getLast?

/-- The number of word references among the pending children that refer to the element `j`. -/
def wordRefs (d : Document) (j : Nat) (data : List Data) : Nat := data.countP fun
  | .addElement w => w.elementtype == .wordReference && (refersTo w).bind d.elementKeyById == some j
  | _ => false

/-! ### Histories with well-behaved calls -/

/-- Adding `e`: it is clean, its identifiers are new, and the call succeeds. -/
def Document.NewBuilder (d : Document) (e : ElementData) : Prop := CleanBuilder e ∧ d.FreshIds (builderIds e)

/-- A call that does not go wrong half way: builders have new identifiers and the call succeeds (or changes nothing); parents exist;
`add_element` is used without pending children. -/
def Op.Tame (F : Nat) (d : Document) (o : Op) : Prop := (o.run F d).2 = d ∨ o.Clean d ∧ match o with
  | .addElement e => d.NewBuilder e ∧ builderSizeList e.data = 0
  | .addElementTo p e => d.NewBuilder e ∧ (d.getElement p).isSome ∧ (o.run F d).1 = .ok ()
  | .annotate _ e => d.NewBuilder e ∧ (o.run F d).1 = .ok ()
  | .annotateSpan e => d.NewBuilder e ∧ (o.run F d).1 = .ok ()
  | _ => True

/-- The documents obtained from a new document by calls that do not go wrong half way. -/
inductive TameReachable (F : Nat) : Document → Prop
  | new {id ps d} : (∀ p, ps.processor = some p → CleanProc p) → Document.new id ps = .ok d → TameReachable F d
  | op {d} (o : Op) : TameReachable F d → o.Tame F d → TameReachable F (o.run F d).2

/-- An `attach_element` call does not put an element below itself. -/
def Op.NoLoop (d : Document) : Op → Prop
  | .attachElement p c => p ≠ c ∧ ¬ d.Above c p
  | _ => True

/-- The same, without attaching elements below themselves. -/
inductive ForestReachable (F : Nat) : Document → Prop
  | new {id ps d} : (∀ p, ps.processor = some p → CleanProc p) → Document.new id ps = .ok d → ForestReachable F d
  | op {d} (o : Op) : ForestReachable F d → o.Tame F d → o.NoLoop d → ForestReachable F (o.run F d).2

end Folia
