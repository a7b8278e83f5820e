import Verif.Select
import Verif.Xml
/-! Serialisation to XML events (`src/serialiser.rs`). The writer's indentation is added in `Verif/Indent.lean` (here `indent = 0`); writing to the in-memory
cursor cannot fail. -/
namespace Folia

/-- `BytesText::from_plain(NL)` (src/serialiser.rs:24). -/
def nl : WEvent := .text "\n"

/-- `push_attribute` with a string value: the value is escaped. -/
def wattr (k v : String) : String × String := (k, escape v)

/-- `if !s.is_empty() { push_attribute }` (src/serialiser.rs:158-190). -/
def wattrNonempty (k v : String) : List (String × String) := if v.isEmpty then [] else [wattr k v]

/-- `if let Some(v) { push_attribute }`. -/
def wattrOpt (k : String) : Option String → List (String × String)
  | some v => [wattr k v]
  | none => []

/-- The key-value loops of `xml_metadata` (src/serialiser.rs:70-77, 88-95). -/
def xmlMetas (data : List (String × String)) : List WEvent :=
  data.flatMap fun (k, v) => [.start "meta" [wattr "id" k], .text (escape v), .endTag "meta", nl]

/-- The annotators of a declaration (src/serialiser.rs:120-128). -/
def xmlAnnotators (d : Document) : List Nat → Res (List WEvent)
  | [] => .ok []
  | p :: ps => match d.getProcessor p with
    | some proc => (xmlAnnotators d ps).map (.empty "annotator" [wattr "processor" proc.id] :: ·)
    | none => .error (.err .internal)

/-- The attributes of a declaration (src/serialiser.rs:108-116). -/
def declAttrs (dec : Declaration) : List (String × String) :=
  wattrOpt "set" dec.set ++ wattrOpt "alias" dec.alias ++ wattrOpt "format" dec.format

/-- The tag of a declaration (src/serialiser.rs:106). -/
def declTag (dec : Declaration) : String := dec.annotationtype.asStr ++ "-annotation"

/-- One declaration (src/serialiser.rs:105-134). -/
def xmlDeclaration (d : Document) (dec : Declaration) : Res (List WEvent) :=
  match dec.processors with
  | [] => .ok [.empty (declTag dec) (declAttrs dec), nl]
  | ps => (xmlAnnotators d ps).map fun evs => .start (declTag dec) (declAttrs dec) :: evs ++ [.endTag (declTag dec), nl]

/-- The loop over the declarations (src/serialiser.rs:104-135). -/
def xmlDeclarationList (d : Document) : List (Option Declaration) → Res (List WEvent)
  | [] => .ok []
  | none :: rest => xmlDeclarationList d rest
  | some dec :: rest => match xmlDeclaration d dec with
    | .error f => .error f
    | .ok evs => (xmlDeclarationList d rest).map (evs ++ ·)

/-- `xml_declarations` (src/serialiser.rs:101-139). -/
def xmlDeclarations (d : Document) : Res (List WEvent) :=
  (xmlDeclarationList d d.declarations.items).map fun evs =>
    [.start "annotations" [], nl] ++ evs ++ [.endTag "annotations", nl]

/-- The attributes of a processor (src/serialiser.rs:154-190). -/
def procAttrs (p : Processor) : List (String × String) :=
  [wattr "xml:id" p.id, wattr "name" p.name, wattr "type" p.processortype.asStr] ++
  wattrNonempty "version" p.version ++ wattrNonempty "folia_version" p.foliaVersion ++
  wattrNonempty "document_version" p.documentVersion ++ wattrNonempty "command" p.command ++ wattrNonempty "host" p.host ++
  wattrNonempty "user" p.user ++ wattrOpt "begindatetime" (p.begindatetime.map fun dt => String.ofList dt.format) ++
  wattrOpt "enddatetime" (p.enddatetime.map fun dt => String.ofList dt.format) ++ wattrNonempty "src" p.src ++
  wattrNonempty "format" p.format ++ wattrNonempty "resourcelink" p.resourcelink

/-- Sequential composition of the output of a list of calls. -/
def concatRes {α : Type} (f : α → Res (List WEvent)) : List α → Res (List WEvent)
  | [] => .ok []
  | a :: as => match f a with
    | .error e => .error e
    | .ok evs => (concatRes f as).map (evs ++ ·)

/-- `xml_processor` (src/serialiser.rs:152-203); the fuel bounds the nesting of subprocessors. -/
def xmlProcessor (d : Document) : Nat → Nat → Res (List WEvent)
  | 0, _ => .error .fuel
  | n + 1, k => match d.getProcessor k with
    | none => .ok []
    | some p => match p.processors with
      | [] => .ok [.empty "processor" (procAttrs p), nl]
      | subs => (concatRes (xmlProcessor d n) subs).map fun evs =>
          .start "processor" (procAttrs p) :: evs ++ [.endTag "processor", nl]

/-- `xml_provenance` (src/serialiser.rs:141-150). -/
def xmlProvenance (d : Document) (F : Nat) : Res (List WEvent) :=
  (concatRes (xmlProcessor d F) d.chain).map fun evs => [.start "provenance" [], nl] ++ evs ++ [.endTag "provenance", nl]

/-- `xml_metadata` (src/serialiser.rs:57-99). The start tags built for submetadata are never written. -/
def xmlMetadata (d : Document) (F : Nat) : Res (List WEvent) := do
  let decs ← xmlDeclarations d
  let prov ← xmlProvenance d F
  return [.start "metadata" (wattrOpt "type" d.metadata.metadatatype ++ wattrOpt "src" d.metadata.src), nl] ++ decs ++ prov ++
    xmlMetas d.metadata.data ++ d.submetadata.flatMap (fun sm => xmlMetas sm.2.data) ++ [.endTag "metadata", nl]

/-- Name of an attribute type as written (`Into<&str>`, src/attrib.rs:26-63): see `AttribType.asStr`. The plain attributes of an element
(src/serialiser.rs:232-236). -/
def plainAttrs (X : Ext) : List Attribute → Res (List (String × String))
  | [] => .ok []
  | a :: as =>
    if a = .ignore ∨ a.decodable = true then plainAttrs X as
    else match a.display X with
      | .error e => .error e
      | .ok v => (plainAttrs X as).map (wattr a.attribtype.asStr v :: ·)

/-- Is this processor the only one of the declaration? (src/serialiser.rs:253-262) -/
def isDefaultProc (d : Document) (dk : Nat) (pk : Option Nat) : Bool :=
  match d.getDeclaration dk with
  | some dec => match dec.processors with
    | [p] => some p == pk
    | _ => false
  | none => false

/-- The decoded attributes of an element (src/serialiser.rs:237-268); `mask` is the cached default mask. -/
def encodedAttrs (d : Document) (mask : List Bool) (e : ElementData) : Res (List (String × String)) := do
  match ← e.declarationKeyU with
  | none => return []
  | some dk =>
    let isDefault ← expect mask[dk]?
    let set ← if !isDefault && e.elementtype != .feature then e.getSet d else pure none
    let subset ← e.getSubset d
    let cls ← e.getClass d
    let proc ← e.getProcessorId d
    let proc ← match proc with
      | some id => do
        let pk ← e.processorKeyU
        if isDefaultProc d dk pk then pure none else pure (some id)
      | none => pure none
    return wattrOpt "set" set ++ wattrOpt "subset" subset ++ wattrOpt "class" cls ++ wattrOpt "processor" proc

/-- All attributes of an element (src/serialiser.rs:232-268). -/
def elementAttrs (X : Ext) (d : Document) (mask : List Bool) (e : ElementData) : Res (List (String × String)) := do
  let a ← plainAttrs X e.attribs
  let b ← encodedAttrs d mask e
  return a ++ b

/-- Is a line feed written after the start tag? (src/serialiser.rs:279) -/
def nlAfterStart (t : ElementType) : Bool :=
  !ElementGroup.textMarkup.contains t && t != .textContent && t != .phonContent

/-- Is a line feed written after the end tag? (src/serialiser.rs:218) -/
def nlAfterEnd (t : ElementType) : Bool := !ElementGroup.textMarkup.contains t

/-- An open element on the serialiser's stack: tag and type (src/serialiser.rs:211). -/
abbrev OpenTag := String × ElementType

/-- Close open elements until the depth is reached (src/serialiser.rs:215-226): closes `n` elements. -/
def closeTags : Nat → List OpenTag → Res (List WEvent × List OpenTag)
  | 0, st => .ok ([], st)
  | _ + 1, [] => .error (.err .serialisation)
  | n + 1, (tag, t) :: st => match closeTags n st with
    | .error e => .error e
    | .ok (evs, st') => .ok ((.endTag tag :: (if nlAfterEnd t then [nl] else [])) ++ evs, st')

/-- The events for one item and the new stack (src/serialiser.rs:227-297). -/
def xmlItem (X : Ext) (d : Document) (mask : List Bool) (item : Data) (st : List OpenTag) : Res (List WEvent × List OpenTag) :=
  match item with
  | .element k => match d.getElement k with
    | none => .ok ([], st)
    | some e => match elementAttrs X d mask e with
      | .error f => .error f
      | .ok attrs =>
        let tag := e.elementtype.asStr
        let after := if nlAfterStart e.elementtype then [nl] else []
        if e.data.isEmpty then .ok (.empty tag attrs :: after, st)
        else .ok (.start tag attrs :: after, (tag, e.elementtype) :: st)
  | .text s => .ok ([.text (escape s)], st)
  | .comment s => .ok ([.comment (escape s)], st)
  | .spanReference _ => .ok ([], st)
  | .addElement _ => .ok ([], st)

/-- The main loop of `xml_elements` (src/serialiser.rs:214-299) and the final closing tags (301-305). -/
def xmlLoop (X : Ext) (d : Document) (mask : List Bool) : List SelectItem → Nat → List OpenTag → Res (List WEvent)
  | [], _, st => .ok (st.map fun (tag, _) => .endTag tag)
  | i :: is, prev, st => match closeTags (prev - i.depth) st with
    | .error e => .error e
    | .ok (evs, st1) => match xmlItem X d mask i.data st1 with
      | .error e => .error e
      | .ok (evs', st2) => (xmlLoop X d mask is i.depth st2).map (evs ++ evs' ++ ·)

/-- `xml_elements` (src/serialiser.rs:206-309). Simplification: the iterator is run to its end before anything is written, which
differs only in which of two failures is reported. -/
def xmlElements (X : Ext) (d : Document) (F : Nat) (root : Nat) : Res (List WEvent) := do
  let items ← selCollect { doc := d, selector := .allData, recursion := .always, inclusive := true, spanreferences := false } F (.init root)
  xmlLoop X d (defaultMask d.declarations.items) items 0 []

/-- `Document::xml` (src/serialiser.rs:32-55). -/
def Document.xml (X : Ext) (d : Document) (F : Nat) (root : Nat) : Res (List WEvent) := do
  let meta_ ← xmlMetadata d F
  let elems ← xmlElements X d F root
  return [.start "FoLiA" [wattr "xmlns" NSFOLIA, wattr "xmlns:xlink" NSXLINK, wattr "xml:id" d.id, wattr "version" FOLIAVERSION,
            wattr "generator" GENERATOR], nl] ++ meta_ ++ elems ++ [nl, .endTag "FoLiA"]

/-- `Element::xml` (src/element.rs:438-453). -/
def elementXml (X : Ext) (d : Document) (F : Nat) (e : ElementData) : Res (List WEvent) :=
  match e.key with
  | some k => xmlElements X d F k
  | none => .error .panic

end Folia
