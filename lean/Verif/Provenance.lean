import Verif.Ops
import Verif.Serialiser
/-! Specification vocabulary for the provenance chain. Nothing here is used by the model. -/
namespace Folia

mutual
/-- The identifiers in a processor with its pending subprocessors, at any depth. -/
def procIds : ProcTree → List String
  | .node p pending => p.id :: procIdsList pending
/-- See `procIds`. -/
def procIdsList : List ProcTree → List String
  | [] => []
  | t :: ts => procIds t ++ procIdsList ts
end

mutual
/-- The number of processors in a tree. -/
def procSize : ProcTree → Nat
  | .node _ pending => procSizeList pending + 1
/-- See `procSize`. -/
def procSizeList : List ProcTree → Nat
  | [] => 0
  | t :: ts => procSize t + procSizeList ts
end

namespace Document

/-- The processor `p` lists `c` as a subprocessor. -/
def ListsProc (d : Document) (p c : Nat) : Prop := ∃ x, d.getProcessor p = some x ∧ c ∈ x.processors
/-- The processor `c` names `p` as its parent. -/
def ProcBelow (d : Document) (c p : Nat) : Prop := ∃ x, d.getProcessor c = some x ∧ x.parent = some p

/-- A processor lists a subprocessor exactly when that names it as its parent, and lists it once; there is a height that decreases from
parent to subprocessor. -/
structure ProcLinks (d : Document) : Prop where
  agree : ∀ p c, d.ListsProc p c ↔ d.ProcBelow c p
  once : ∀ p x, d.getProcessor p = some x → x.processors.Nodup
  height : ∃ h : Nat → Nat, ∀ p c, d.ListsProc p c → h c < h p

/-- The chain consists of different processors without parents, and the processors below them form trees. -/
structure ProvForest (d : Document) : Prop extends ProcLinks d where
  chainOnce : d.chain.Nodup
  chainTop : ∀ k ∈ d.chain, ∃ x, d.getProcessor k = some x ∧ x.parent = none

/-- `b` is `a` or one of the processors below it. -/
inductive ProcOver (d : Document) : Nat → Nat → Prop
  | here (a : Nat) : ProcOver d a a
  | step {a b c : Nat} : d.ListsProc a b → ProcOver d b c → ProcOver d a c

/-- The identifiers are all different and no processor of the document has them. -/
def FreshProcs (d : Document) (ids : List String) : Prop := ids.Nodup ∧ ∀ id ∈ ids, d.processorKeyById id = none

end Document

mutual
/-- The processor `k` of `d`, below `par`, and everything below it is what the tree describes, in order; all keys are at least `lo`. -/
def ProcStored (lo : Nat) (d : Document) (par : Option Nat) (k : Nat) : ProcTree → Prop
  | .node p pending => ∃ subs, lo ≤ k ∧ d.getProcessor k = some { p with processors := subs, parent := par, key := some k } ∧
      ProcsStored lo d (some k) subs pending
/-- See `ProcStored`. -/
def ProcsStored (lo : Nat) (d : Document) (par : Option Nat) : List Nat → List ProcTree → Prop
  | ks, [] => ks = []
  | ks, t :: ts => ∃ c cs, ks = c :: cs ∧ ProcStored lo d par c t ∧ ProcsStored lo d par cs ts
end

mutual
/-- How a processor and what is below it is written. -/
def procXml : ProcTree → List WEvent
  | .node p [] => [.empty "processor" (procAttrs p), .text "\n"]
  | .node p (t :: ts) => .start "processor" (procAttrs p) :: procsXml (t :: ts) ++ [.endTag "processor", .text "\n"]
/-- See `procXml`. -/
def procsXml : List ProcTree → List WEvent
  | [] => []
  | t :: ts => procXml t ++ procsXml ts
end

/-- The value of an attribute in a source: that of the last attribute with the name, unescaped. -/
def attrValue (attrs : List RAttr) (name : String) : Option String :=
  (attrs.filterMap fun | .ok k v => (if k = name then unescape v else none) | .bad => none).getLast?

/-- The value of an attribute, or the empty string. -/
def attrText (attrs : List RAttr) (name : String) : String :=
  match attrValue attrs name with
  | some v => v
  | none => ""

/-- The identifier in the attributes of a `processor` tag. -/
def sourceProcId (attrs : List RAttr) : String := attrText attrs "xml:id"

/-- The identifiers of the `processor` tags in a source, in order. -/
def sourceProcIds : List REvent → List String
  | [] => []
  | .start ns tag attrs :: rest => (if ns = .folia ∧ tag = "processor" then [sourceProcId attrs] else []) ++ sourceProcIds rest
  | .empty ns tag attrs :: rest => (if ns = .folia ∧ tag = "processor" then [sourceProcId attrs] else []) ++ sourceProcIds rest
  | _ :: rest => sourceProcIds rest

/-- A tree of processors can be added: its identifiers are new and there is room. -/
def Document.Addable (d : Document) (t : ProcTree) : Prop := d.FreshProcs (procIds t) ∧ d.processors.len + procSize t ≤ 65536

/-- The call adds processors with new identifiers only, while there is room, below a processor that exists, and attaches a processor only if
it has no place in the provenance yet and is not above its new parent. -/
def Op.Tidy (d : Document) : Op → Prop
  | .addProcessor t => d.Addable t
  | .addSubprocessor parent t => d.getProcessor parent ≠ none ∧ d.Addable t
  | .attachProcessor parent child => ∀ x, d.getProcessor child = some x → x.parent = none ∧ child ∉ d.chain ∧ ¬ d.ProcOver child parent
  | .applyProperties ps => ∀ t, ps.processor = some t → d.Addable t
  | _ => True

/-- The documents a user can obtain without raw keys and with distinct identifiers for processors. -/
inductive Traced (X : Ext) (F : Nat) : Document → Prop
  | new {id ps d} : (∀ t, ps.processor = some t → CleanProc t ∧ (procIds t).Nodup ∧ procSize t ≤ 65536) → Document.new id ps = .ok d → Traced X F d
  | parse {ps evs d} : (sourceProcIds evs).Nodup →
      (∀ t, ps.processor = some t → CleanProc t ∧ (sourceProcIds evs ++ procIds t).Nodup ∧ (sourceProcIds evs).length + procSize t ≤ 65536) →
      Document.parse X F ps evs = .ok d → Traced X F d
  | op {d} (o : Op) : Traced X F d → o.Clean d → o.Tidy d → Traced X F (o.run F d).2

end Folia
