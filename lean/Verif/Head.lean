import Verif.Provenance
/-! Specification vocabulary for what a source says in front of its body. Nothing here is used by the model. -/
namespace Folia

/-- White space, comments and the like. -/
def REvent.Pad : REvent → Prop
  | .text _ => True
  | .cdata _ => True
  | .comment _ => True
  | .other => True
  | _ => False

/-- The processor that the attributes of its tag describe. -/
def procOf (as : List RAttr) : Processor where
  id := attrText as "xml:id"
  name := attrText as "name"
  processortype := match (attrValue as "type").bind ProcessorType.fromStr with
    | some t => t
    | none => .auto
  version := attrText as "version"
  foliaVersion := attrText as "folia_version"
  documentVersion := attrText as "document_version"
  command := attrText as "command"
  host := attrText as "host"
  user := attrText as "user"
  begindatetime := (attrValue as "begindatetime").bind fun v => DateTime.parse fmtDollarS v.toList
  enddatetime := (attrValue as "enddatetime").bind fun v => DateTime.parse fmtDollarS v.toList
  src := attrText as "src"
  format := attrText as "format"
  resourcelink := attrText as "resourcelink"

/-- A `processor` in a source, with its subprocessors, or what is in between. -/
inductive PNode where
  | empty (attrs : List RAttr)
  | full (attrs : List RAttr) (subs : List PNode)
  | pad (e : REvent)

mutual
/-- The events of a `processor`. -/
def PNode.events : PNode → List REvent
  | .empty as => [.empty .folia "processor" as]
  | .full as subs => .start .folia "processor" as :: PNode.eventsList subs ++ [.endTag .folia "processor"]
  | .pad e => [e]
/-- See `PNode.events`. -/
def PNode.eventsList : List PNode → List REvent
  | [] => []
  | n :: ns => n.events ++ PNode.eventsList ns
end

mutual
/-- The processors described. -/
def PNode.trees : PNode → List ProcTree
  | .empty as => [.node (procOf as) []]
  | .full as subs => [.node (procOf as) (PNode.treesList subs)]
  | .pad _ => []
/-- See `PNode.trees`. -/
def PNode.treesList : List PNode → List ProcTree
  | [] => []
  | n :: ns => n.trees ++ PNode.treesList ns
end

mutual
/-- Nothing else is in between. -/
def PNode.Padded : PNode → Prop
  | .empty _ => True
  | .full _ subs => PNode.PaddedList subs
  | .pad e => e.Pad
/-- See `PNode.Padded`. -/
def PNode.PaddedList : List PNode → Prop
  | [] => True
  | n :: ns => n.Padded ∧ PNode.PaddedList ns
end

/-- An `annotator` in a declaration, or what is in between. -/
inductive ANode where
  | annotator (attrs : List RAttr)
  | pad (e : REvent)

/-- The event. -/
def ANode.event : ANode → REvent
  | .annotator as => .empty .folia "annotator" as
  | .pad e => e

/-- The identifier of the processor that an annotator names. -/
def ANode.processor : ANode → Option String
  | .annotator as => attrValue as "processor"
  | .pad _ => none

/-- A declaration in a source, or what is in between. -/
inductive DNode where
  | declaration (type : AnnotationType) (attrs : List RAttr) (annotators : List ANode)
  | pad (e : REvent)

/-- The events of a declaration. -/
def DNode.events : DNode → List REvent
  | .declaration t as anns => .start .folia (t.asStr ++ "-annotation") as :: anns.map ANode.event ++ [.endTag .folia (t.asStr ++ "-annotation")]
  | .pad e => [e]

/-- A declaration as a source describes it. -/
structure SourceDecl where
  type : AnnotationType
  set : Option String
  alias : Option String
  format : Option String
  annotators : List String

/-- The declaration described. -/
def DNode.decl : DNode → Option SourceDecl
  | .declaration t as anns => some ⟨t, attrValue as "set", attrValue as "alias", attrValue as "format", anns.filterMap ANode.processor⟩
  | .pad _ => none

/-- Nothing else is in between. -/
def DNode.Padded : DNode → Prop
  | .declaration _ _ anns => ∀ a ∈ anns, ∀ e, a = .pad e → e.Pad
  | .pad e => e.Pad

/-- A value in the metadata, or what is in between. -/
inductive VNode where
  | value (attrs : List RAttr) (text : Option String)
  | pad (e : REvent)

/-- The events of a value. -/
def VNode.events : VNode → List REvent
  | .value as (some s) => [.start .folia "meta" as, .text s, .endTag .folia "meta"]
  | .value as none => [.start .folia "meta" as, .endTag .folia "meta"]
  | .pad e => [e]

/-- The key under which a value is given: the last `id` or `xml:id`. -/
def metaKey (attrs : List RAttr) : Option String :=
  (attrs.filterMap fun | .ok k v => (if k = "id" ∨ k = "xml:id" then unescape v else none) | .bad => none).getLast?

/-- The key and the value, if there is a value. -/
def VNode.pair : VNode → Option (String × String)
  | .value as (some s) => match metaKey as, unescape s with
    | some k, some v => some (k, v)
    | _, _ => none
  | .value _ none => none
  | .pad _ => none

/-- Nothing else is in between, and values have a key. -/
def VNode.Padded : VNode → Prop
  | .value as _ => metaKey as ≠ none
  | .pad e => e.Pad

/-- What a source has in front of its body. -/
structure Head where
  before : List REvent := []
  root : List RAttr
  afterRoot : List REvent := []
  attrs : List RAttr := []
  afterStart : List REvent := []
  decls : List DNode
  between : List REvent := []
  procs : List PNode
  values : List VNode

/-- The events. -/
def Head.events (h : Head) : List REvent :=
  h.before ++ .start .folia "FoLiA" h.root :: h.afterRoot ++ .start .folia "metadata" h.attrs :: h.afterStart ++
    .start .folia "annotations" [] :: h.decls.flatMap DNode.events ++ .endTag .folia "annotations" :: h.between ++
    .start .folia "provenance" [] :: PNode.eventsList h.procs ++ .endTag .folia "provenance" :: h.values.flatMap VNode.events ++ [.endTag .folia "metadata"]

/-- The head is as it should be: nothing else is in between, processors have different identifiers, declarations differ in type or set, and
there is room for all of them. -/
structure Head.Proper (h : Head) : Prop where
  pads : ∀ e ∈ h.before ++ h.afterRoot ++ h.afterStart ++ h.between, e.Pad
  decls : ∀ n ∈ h.decls, n.Padded
  procs : PNode.PaddedList h.procs
  values : ∀ n ∈ h.values, n.Padded
  ids : (procIdsList (PNode.treesList h.procs)).Nodup
  names : ((h.decls.filterMap DNode.decl).map fun s => (s.type, s.set)).Nodup
  procRoom : procSizeList (PNode.treesList h.procs) ≤ 65536
  declRoom : (h.decls.filterMap DNode.decl).length ≤ 65536

/-- The document has what the head says: identifier and version, kind and source of the metadata and its values, the processors, in order and
nested as in the source, and no others, and the declarations, in order, each with the annotators that are processors of the source first. -/
structure HeadIs (h : Head) (d : Document) : Prop where
  id : d.id = match attrValue h.root "xml:id" with
    | some v => v
    | none => "untitled"
  version : d.version = match attrValue h.root "version" with
    | some v => v
    | none => FOLIAVERSION
  metadatatype : d.metadata.metadatatype = attrValue h.attrs "type"
  src : d.metadata.src = attrValue h.attrs "src"
  values : ∀ k, mapFind d.metadata.data k = ((h.values.filterMap VNode.pair).filterMap fun kv => if kv.1 = k then some kv.2 else none).getLast?
  submetadata : d.submetadata = []
  procs : ProcsStored 0 d none d.chain (PNode.treesList h.procs)
  procCount : d.processors.items.length = procSizeList (PNode.treesList h.procs)
  decls : ∀ (j : Nat) s, (h.decls.filterMap DNode.decl)[j]? = some s → ∃ dec anns, d.getDeclaration j = some dec ∧ dec.annotationtype = s.type ∧
    dec.set = s.set ∧ dec.alias = s.alias ∧ dec.format = s.format ∧ anns <+: dec.processors ∧
    anns.map (fun p => (d.getProcessor p).map (·.id)) = (s.annotators.filter (· ∈ procIdsList (PNode.treesList h.procs))).map some

end Folia
