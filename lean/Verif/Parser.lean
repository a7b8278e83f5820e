import Verif.Document
import Verif.Xml
/-! Parsing of XML events into a document (`src/parser.rs`). The event list is what `Reader::read_namespaced_event` yields; its end is
`Event::Eof`. Warnings printed to standard error are not modelled. -/
namespace Folia

/-- `FoliaError::add_parseerror` (src/error.rs:56-66): every `Err` becomes a `ParseError`. -/
def asParseError {α : Type} : Res α → Res α
  | .error (.err _) => .error (.err .parse)
  | r => r

/-- Run a document method inside the parser, which drops the document on failure. -/
def runDoc {α : Type} (m : M Document α) (d : Document) : Res (α × Document) :=
  match m d with
  | (.ok a, d') => .ok (a, d')
  | (.error f, _) => .error f

/-- `for attrib in e.attributes() { let attrib = attrib.expect(..); if let Ok(value) = attrib.unescape_and_decode_value() { .. } }`
(src/parser.rs:115-126, 141-155 and others). -/
def forAttrs {σ : Type} (f : String → String → σ → σ) : List RAttr → σ → Res σ
  | [], s => .ok s
  | .bad :: _, _ => .error .panic
  | .ok k v :: rest, s => match unescape v with
    | some v' => forAttrs f rest (f k v' s)
    | none => forAttrs f rest s

/-! ### Attributes, elements, declarations, processors -/

/-- The subset that an XML attribute can stand for as a shortcut (src/parser.rs:541-547). -/
def featureShortcut (t : ElementType) (key : String) : Option String :=
  (props t).acceptedData.findSome? fun
    | .type a => if ElementGroup.feature.contains a then
        match (props a).subset with
        | some s => if s = key then some s else none
        | none => none
      else none
    | .group _ => none

/-- The feature made from a shortcut attribute (src/parser.rs:548-553). -/
def shortcutFeature (subset value : String) : ElementData :=
  ((ElementData.new .feature).withAttribs [.subset subset, .cls value]).withChildren [.text value]

/-- `ElementData::parse_attributes` (src/parser.rs:524-561). -/
def parseAttributes (X : Ext) (t : ElementType) : List RAttr → Res (List Attribute × List ElementData)
  | [] => .ok ([], [])
  | .bad :: _ => .error .panic
  | .ok k v :: rest => match unescape v with
    | none => .error (.err .parse)
    | some value => match Attribute.parse X k value with
      | some a => (parseAttributes X t rest).map fun r => (a :: r.1, r.2)
      | none => match featureShortcut t k with
        | some s => (parseAttributes X t rest).map fun r => (r.1, shortcutFeature s value :: r.2)
        | none => .error (.err .parse)

/-- `ElementData::parse` (src/parser.rs:565-571). -/
def parseElementTag (X : Ext) (tag : String) (attrs : List RAttr) : Res (ElementData × List ElementData) :=
  match ElementType.fromStr tag with
  | none => .error (.err .parse)
  | some t => (asParseError (parseAttributes X t attrs)).map fun r => ((ElementData.new t).withAttribs r.1, r.2)

/-- `get_declaration_type` (src/parser.rs:454-469). -/
def getDeclarationType (tag : String) : Res AnnotationType :=
  let pre := tag.toList.takeWhile (· != '-')
  let suffix := tag.toList.dropWhile (· != '-')
  if suffix = "-annotation".toList then okOr .parse (AnnotationType.fromStr (String.ofList pre))
  else .error (.err .parse)

/-- `Declaration::parse` (src/parser.rs:575-606). -/
def parseDeclaration (tag : String) (attrs : List RAttr) : Res Declaration := do
  let t ← getDeclarationType tag
  forAttrs (fun k v dec =>
    if k = "set" then { dec with set := some v }
    else if k = "alias" then { dec with alias := some v }
    else if k = "format" then { dec with format := some v }
    else dec) attrs (Declaration.new t none none none)

/-- One attribute of a processor (src/parser.rs:480-514). -/
def procAttr (p : Processor) (k v : String) : Option Processor :=
  if k = "xml:id" then some { p with id := v }
  else if k = "name" then some { p with name := v }
  else if k = "version" then some { p with version := v }
  else if k = "folia_version" then some { p with foliaVersion := v }
  else if k = "document_version" then some { p with documentVersion := v }
  else if k = "command" then some { p with command := v }
  else if k = "host" then some { p with host := v }
  else if k = "user" then some { p with user := v }
  else if k = "begindatetime" then (DateTime.parse fmtDollarS v.toList).map fun dt => { p with begindatetime := some dt }
  else if k = "enddatetime" then (DateTime.parse fmtDollarS v.toList).map fun dt => { p with enddatetime := some dt }
  else if k = "src" then some { p with src := v }
  else if k = "format" then some { p with format := v }
  else if k = "resourcelink" then some { p with resourcelink := v }
  else if k = "type" then (ProcessorType.fromStr v).map fun t => { p with processortype := t }
  else none

/-- `Processor::parse` (src/parser.rs:475-520); malformed attributes are skipped. -/
def parseProcessor : Processor → List RAttr → Res Processor
  | p, [] => .ok p
  | p, .bad :: rest => parseProcessor p rest
  | p, .ok k v :: rest => match unescape v with
    | none => .error .panic
    | some value => match procAttr p k value with
      | some p' => parseProcessor p' rest
      | none => .error (.err .parse)

/-! ### Root and metadata -/

/-- The attributes of the root (src/parser.rs:56-70). -/
def rootAttrs : Document → List RAttr → Res Document
  | d, [] => .ok d
  | _, .bad :: _ => .error .panic
  | d, .ok k v :: rest =>
    if k = "xml:id" then match unescape v with
      | some s => rootAttrs { d with id := s } rest
      | none => .error .panic
    else if k = "version" then match unescape v with
      | some s => rootAttrs { d with version := s } rest
      | none => .error .panic
    else rootAttrs d rest

/-- The root loop (src/parser.rs:49-83). -/
def parseRoot (d : Document) : List REvent → Res (Document × List REvent)
  | [] => .error (.err .parse)
  | .error :: _ => .error (.err .xml)
  | .start ns tag attrs :: rest =>
    if ns = .folia ∧ tag = "FoLiA" then (rootAttrs d attrs).map fun d' => (d', rest)
    else .error (.err .parse)
  | _ :: rest => parseRoot d rest

/-- The local variables of the metadata loop (src/parser.rs:86-94); the head of `procStack` is the top of the stack. -/
structure MetaSt where
  decls : Bool := false
  prov : Bool := false
  submeta : Option String := none
  submetaType : Option String := none
  text : Option String := none
  metaId : Option String := none
  decKey : Option Nat := none
  annotators : List (Nat × String) := []
  procStack : List Nat := []

/-- Adding a parsed processor to the chain or to the processor on top of the stack (src/parser.rs:103-108, 182-189). -/
def addParsedProcessor (st : MetaSt) (p : Processor) : M Document Nat :=
  M.mapErr .parse (match st.procStack with
    | [] => Document.addProcessor (.node p [])
    | parent :: _ => Document.addSubprocessor parent (.node p []))

/-- An empty tag in the metadata (src/parser.rs:98-136). -/
def metaEmpty (d : Document) (st : MetaSt) (ns : Ns) (tag : String) (attrs : List RAttr) : Res (Document × MetaSt) :=
  if ns = .folia ∧ tag = "processor" ∧ st.prov = true then do
    let p ← asParseError (parseProcessor {} attrs)
    let (_, d') ← runDoc (addParsedProcessor st p) d
    return (d', st)
  else if ns = .folia ∧ tag = "annotator" ∧ st.decls = true then do
    let pid ← forAttrs (fun k v acc => if k = "processor" then some v else acc) attrs none
    match pid, st.decKey with
    | some id, some dk => return (d, { st with annotators := st.annotators ++ [(dk, id)] })
    | _, _ => return (d, st)
  else return (d, st)

/-- A start tag in the metadata (src/parser.rs:137-215). -/
def metaStart (d : Document) (st : MetaSt) (ns : Ns) (tag : String) (attrs : List RAttr) : Res (Document × MetaSt) :=
  if ns = .folia then
    if tag = "metadata" then do
      let m ← forAttrs (fun k v (m : Metadata) =>
        if k = "src" then { m with src := some v }
        else if k = "type" then { m with metadatatype := some v }
        else m) attrs d.metadata
      return ({ d with metadata := m }, st)
    else if tag = "annotations" then return (d, { st with decls := true })
    else if tag = "provenance" then return (d, { st with prov := true })
    else if tag = "submetadata" then do
      let st' ← forAttrs (fun k v (st : MetaSt) =>
        if k = "xml:id" then { st with submeta := some v }
        else if k = "type" then { st with submetaType := some v }
        else st) attrs st
      if st'.submeta.isNone then throw (.err .parse) else return (d, st')
    else if tag = "meta" then do
      let st' ← forAttrs (fun k v (st : MetaSt) =>
        if k = "id" ∨ k = "xml:id" then { st with metaId := some v } else st) attrs st
      return (d, { st' with text := none })
    else if tag = "processor" ∧ st.prov = true then do
      let p ← asParseError (parseProcessor {} attrs)
      let (k, d') ← runDoc (addParsedProcessor st p) d
      return (d', { st with procStack := k :: st.procStack })
    else if st.decls = true then do
      let dec ← asParseError (parseDeclaration tag attrs)
      let (k, d') ← runDoc (M.mapErr .parse (Document.addDeclaration dec)) d
      return (d', { st with decKey := some k })
    else throw (.err .parse)
  else throw (.err .parse)

/-- Assigning the collected annotators to their declarations (src/parser.rs:238-245). -/
def assignAnnotators (d : Document) : List (Nat × String) → Document
  | [] => d
  | (dk, id) :: rest => match d.processorKeyById id with
    | some pk => assignAnnotators { d with declarations := d.declarations.update dk fun dec =>
        { dec with processors := dec.processors ++ [pk] } } rest
    | none => assignAnnotators d rest

/-- Replacing the value of an existing key of a `HashMap` (`get_mut`). -/
def mapUpdate {α : Type} (m : List (String × α)) (k : String) (f : α → α) : List (String × α) :=
  m.map fun (k', v) => if k' = k then (k', f v) else (k', v)

/-- The end of a `meta` element (src/parser.rs:250-265). -/
def metaValue (d : Document) (st : MetaSt) : Document :=
  match st.text, st.metaId with
  | some text, some id => match st.submeta with
    | some sid => { d with submetadata := mapUpdate d.submetadata sid fun sm =>
        { sm with metadatatype := if sm.metadatatype.isNone && st.submetaType.isSome then st.submetaType else sm.metadatatype,
                  data := mapInsert sm.data id text } }
    | none => { d with metadata := { d.metadata with data := mapInsert d.metadata.data id text } }
  | _, _ => d

/-- An end tag in the metadata other than `</metadata>` (src/parser.rs:220-276). -/
def metaEnd (d : Document) (st : MetaSt) (ns : Ns) (tag : String) : Document × MetaSt :=
  if ns = .folia then
    if tag = "submetadata" then (d, { st with submeta := none })
    else if tag = "annotations" then (d, { st with decls := false })
    else if tag = "provenance" then (assignAnnotators d st.annotators, { st with prov := false })
    else if tag = "processor" ∧ st.prov = true then (d, { st with procStack := st.procStack.tail })
    else if tag = "meta" then (metaValue d st, st)
    else if tag = "annotator" ∧ st.decls = true then (d, st)
    else if st.decls = true then (d, { st with decKey := none })
    else (d, st)
  else (d, st)

/-- The metadata loop (src/parser.rs:95-291). -/
def parseMeta (d : Document) (st : MetaSt) : List REvent → Res (Document × List REvent)
  | [] => .error (.err .parse)
  | .error :: _ => .error (.err .xml)
  | .empty ns tag attrs :: rest => match metaEmpty d st ns tag attrs with
    | .ok (d', st') => parseMeta d' st' rest
    | .error f => .error f
  | .start ns tag attrs :: rest => match metaStart d st ns tag attrs with
    | .ok (d', st') => parseMeta d' st' rest
    | .error f => .error f
  | .text s :: rest => match unescape s with
    | some t => parseMeta d { st with text := some t } rest
    | none => .error (.err .xml)
  | .endTag ns tag :: rest =>
    if ns = .folia ∧ tag = "metadata" then .ok (d, rest)
    else match metaEnd d st ns tag with
      | (d', st') => parseMeta d' st' rest
  | .cdata _ :: rest => parseMeta d st rest
  | .comment _ :: rest => parseMeta d st rest
  | .other :: rest => parseMeta d st rest

/-! ### Body -/

/-- The body element made from its start tag (src/parser.rs:299-309); an `Err` from the attributes means that there is no body. -/
def bodyOf (X : Ext) (t : ElementType) (attrs : List RAttr) : Res (Option ElementData) :=
  match parseAttributes X t attrs with
  | .ok (as, _) => .ok (some ((ElementData.new t).withAttribs as))
  | .error (.err _) => .ok none
  | .error f => .error f

/-- The search for the body (src/parser.rs:294-327). -/
def parseBody (X : Ext) : List REvent → Res (Option ElementData × List REvent)
  | [] => .error (.err .parse)
  | .error :: _ => .error (.err .xml)
  | .start ns tag attrs :: rest =>
    if ns = .folia ∧ tag = "text" then (bodyOf X .text attrs).map fun b => (b, rest)
    else if ns = .folia ∧ tag = "speech" then (bodyOf X .speech attrs).map fun b => (b, rest)
    else .error (.err .parse)
  | _ :: rest => parseBody X rest

/-- `text.trim() != ""`: does the text contain anything but white space? (src/parser.rs:413,423,433) -/
def notBlank (s : String) : Bool := s.toList.any (!isWs ·)

/-- Adding the children that come from shortcut attributes (src/parser.rs:364-367, 385-388). -/
def addShortcuts (key : Nat) : List ElementData → M Document Unit :=
  M.forEach fun c => do
    let ck ← Document.addElem c (some key)
    Document.attachElement key ck

/-- Appending a text or comment to the element on top of the stack (src/parser.rs:414-418, 424-428, 434-438). -/
def pushData (stack : List Nat) (x : Data) : M Document Unit :=
  match stack with
  | top :: _ => Document.updElement top (·.push x)
  | [] => pure ()

/-- `Event::Empty` in the body (src/parser.rs:348-369). -/
def emptyTag (X : Ext) (F : Nat) (tag : String) (attrs : List RAttr) (stack : List Nat) : M Document Unit := do
  let (elem, children) ← M.ofRes fun _ => asParseError (parseElementTag X tag attrs)
  let key ← M.mapErr .parse (Document.addElem elem stack.head?)
  match stack.head? with
  | some parent => Document.attachElement parent key
  | none => pure ()
  addShortcuts key children
  Document.postAdd F key (some stack)

/-- `Event::Start` in the body (src/parser.rs:370-389): the key to push on the stack. -/
def startTag (X : Ext) (tag : String) (attrs : List RAttr) (stack : List Nat) : M Document Nat := do
  let (elem, children) ← M.ofRes fun _ => asParseError (parseElementTag X tag attrs)
  let key ← M.mapErr .parse (Document.addElem elem stack.head?)
  addShortcuts key children
  return key

/-- `Event::End` in the body for the element `key`, with the remaining stack (src/parser.rs:396-416). -/
def closeTag (F : Nat) (tag : String) (key : Nat) (stack : List Nat) : M Document Unit := do
  Document.postAdd F key (some stack)
  match (← M.get).getElement key with
  | none => M.err .internal
  | some e => match ElementType.fromStr tag with
    | none => M.err .parse
    | some t =>
      if e.elementtype ≠ t then M.err .parse
      else match stack with
        | parent :: _ => Document.attachElement parent key
        | [] => pure ()

/-- `Document::parse_elements` (src/parser.rs:341-451) after the check that there is a root element; the head of the list `stack` is the
top of the stack. -/
def parseElements (X : Ext) (F : Nat) : List REvent → List Nat → M Document Unit
  | [], _ => pure ()
  | .error :: _, _ => M.err .xml
  | .empty ns tag attrs :: rest, stack =>
    if ns = .folia then do
      emptyTag X F tag attrs stack
      parseElements X F rest stack
    else parseElements X F rest stack
  | .start ns tag attrs :: rest, stack =>
    if ns = .folia then do
      let key ← startTag X tag attrs stack
      parseElements X F rest (key :: stack)
    else parseElements X F rest stack
  | .endTag ns tag :: rest, stack =>
    if ns = .folia then
      match stack with
      | key :: parent :: below => do
        closeTag F tag key (parent :: below)
        parseElements X F rest (parent :: below)
      | _ => pure ()
    else parseElements X F rest stack
  | .text s :: rest, stack => match unescape s with
    | none => M.err .xml
    | some t => do
      if notBlank t then pushData stack (.text t)
      parseElements X F rest stack
  | .cdata s :: rest, stack => do
    if notBlank s then pushData stack (.text s)
    parseElements X F rest stack
  | .comment s :: rest, stack => do
    if notBlank s then pushData stack (.comment s)
    parseElements X F rest stack
  | .other :: rest, stack => parseElements X F rest stack

/-- The part of `Document::parse` after the body was found (src/parser.rs:330-337). -/
def parseRest (X : Ext) (F : Nat) (ps : DocumentProperties) (body : ElementData) (evs : List REvent) : M Document Unit := do
  let _ ← M.mapErr .parse (Document.addElem body none)
  M.mapErr .parse (Document.applyProperties ps)
  if (← M.get).elements.items.isEmpty then M.err .internal
  else parseElements X F evs [0]

/-- `Document::parse` (src/parser.rs:29-338), which is also `Document::from_str` (src/document.rs:143-147). -/
def Document.parse (X : Ext) (F : Nat) (ps : DocumentProperties) (evs : List REvent) : Res Document := do
  let (d, evs) ← parseRoot { autodeclare := ps.autodeclare } evs
  let (d, evs) ← parseMeta d {} evs
  let (body, evs) ← parseBody X evs
  match body with
  | none => throw (.err .parse)
  | some body => do
    let (_, d) ← runDoc (parseRest X F ps body evs) d
    return d

end Folia
