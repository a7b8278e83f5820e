import Verif.Select
/-! Mutating methods of the document (`src/document.rs`, `src/metadata.rs`).
Parameters called `F` bound the number of rounds of the iterators that a method runs. -/
namespace Folia
namespace Document

/-- Apply a store operation to the element store. -/
def onElements {α : Type} (f : Store ElementData → Res α × Store ElementData) : M Document α := fun d =>
  match f d.elements with
  | (r, st) => (r, { d with elements := st })
/-- Apply a store operation to the declaration store. -/
def onDeclarations {α : Type} (f : Store Declaration → Res α × Store Declaration) : M Document α := fun d =>
  match f d.declarations with
  | (r, st) => (r, { d with declarations := st })
/-- Apply a store operation to the processor store. -/
def onProcessors {α : Type} (f : Store Processor → Res α × Store Processor) : M Document α := fun d =>
  match f d.processors with
  | (r, st) => (r, { d with processors := st })

/-- Writing through `get_mut_elementdata(key)` (src/document.rs:618-620). -/
def updElement (k : Nat) (f : ElementData → ElementData) : M Document Unit :=
  M.modify fun d => { d with elements := d.elements.update k f }
/-- Writing through `get_mut_declaration(key)` (src/document.rs:637-639). -/
def updDeclaration (k : Nat) (f : Declaration → Declaration) : M Document Unit :=
  M.modify fun d => { d with declarations := d.declarations.update k f }
/-- Writing through `get_mut_processor(key)` (src/document.rs:655-657). -/
def updProcessor (k : Nat) (f : Processor → Processor) : M Document Unit :=
  M.modify fun d => { d with processors := d.processors.update k f }

/-- Call a fallible method on the declaration `k`: `none` if there is no such declaration. -/
def callDeclaration {α : Type} (k : Nat) (f : Declaration → Res α × Declaration) : M Document (Option (Res α)) := fun d =>
  match d.getDeclaration k with
  | some decl => (.ok (some (f decl).1), { d with declarations := d.declarations.update k fun _ => (f decl).2 })
  | none => (.ok none, d)

/-- `Document::add_declaration` (src/document.rs:182-184). -/
def addDeclaration (dec : Declaration) : M Document Nat := onDeclarations (·.add cap16 dec)

/-- `Document::add_provenance` (src/document.rs:189-191). -/
def addProvenance (p : Processor) : M Document Nat := onProcessors (·.add cap16 p)

/-- `Document::add_class` (src/metadata.rs:299-305). -/
def addClass (dec : Nat) (c : String) : M Document Nat := do
  match ← callDeclaration dec (·.addClass c) with
  | some r => M.ofRes fun _ => r
  | none => M.err .key

/-- Push a processor key to a declaration unless it is there already (src/document.rs:490-493, 867-869). -/
def linkProcessor (p : Nat) (dec : Declaration) : Declaration :=
  if dec.processors.contains p then dec else { dec with processors := dec.processors ++ [p] }

/-- The default lookup of `declare` (src/document.rs:463-480). -/
def declareDefault (d : Document) (t : AnnotationType) (set : Option String) : Option Nat :=
  match getDefaultKey d.declarations.items t with
  | some k => match d.getDeclaration k with
    | some dec => match set with
      | some s => match dec.set with
        | some s' => if s' = s then some k else none
        | none => none
      | none => some k
    | none => none
  | none => none

/-- `Document::declare` (src/document.rs:457-497). -/
def declare (t : AnnotationType) (set alias format : Option String) : M Document Nat := do
  match (← M.get).declarationKeyById (Declaration.indexId t set) with
  | some k => return k
  | none =>
    let k ← match declareDefault (← M.get) t set with
      | some k => pure k
      | none => addDeclaration (Declaration.new t set alias format)
    match (← M.get).activeProcessor with
    | some p => updDeclaration k (linkProcessor p)
    | none => pure ()
    return k

/-- The local variables of `encode` (src/document.rs:791-796). -/
structure Enc where
  dec : Option Nat := none
  cls : Option Nat := none
  proc : Option Nat := none
  subset : Option Nat := none
  test : Bool := false

/-- `if let Ok(Some(x)) = ..` on a getter, followed by a call on a declaration whose errors are dropped
(src/document.rs:805-811, 833-845). -/
def addName (k : Nat) (name : Res (Option String)) (f : String → Declaration → Res Nat × Declaration) : M Document (Option Nat) := do
  match name with
  | .ok (some c) => match ← callDeclaration k (f c) with
    | some (.ok ck) => return some ck
    | _ => return none
  | _ => return none

/-- The default-processor part of `encode` (src/document.rs:813-819). -/
def encodeProc (k : Nat) : M Document (Option Nat × Bool) := do
  let d ← M.get
  match d.getDeclaration k with
  | some decl => match decl.defaultProcessor with
    | some p => return (some p, false)
    | none => match d.activeProcessor with
      | some p => return (some p, !decl.processors.contains p)
      | none => return (none, false)
  | none => return (none, false)

/-- The part of `encode` for element types with an annotation type (src/document.rs:799-819). -/
def encodeTyped (e : ElementData) (t : AnnotationType) : M Document Enc := do
  let set ← M.ofRes fun _ => unwrapRes e.set
  let k ← declare t set none none
  let ck ← addName k e.cls fun c decl => decl.addClass c
  let (p, test) ← encodeProc k
  return { dec := some k, cls := ck, proc := p, test }

/-- The part of `encode` for features (src/document.rs:822-849). -/
def encodeFeature (e : ElementData) (context : Option Nat) : M Document Enc := do
  match context with
  | some pk =>
    let parent ← M.ofRes fun d => okOr .internal (d.getElement pk)
    let t ← M.ofRes fun _ => expect parent.elementtype.annotationtype
    let set ← M.ofRes fun _ => unwrapRes e.set
    let k ← declare t set none none
    let ck ← addName k e.cls fun c decl => decl.addSubclass c
    let sk ← addName k e.subset fun c decl => decl.addSubset c
    return { dec := some k, cls := ck, subset := sk }
  | none => M.err .internal

/-- The explicit-processor part of `encode` (src/document.rs:856-861). -/
def encodeExplicit (d : Document) (e : ElementData) (enc : Enc) : Enc :=
  match e.processor with
  | .ok (some id) => match d.processorKeyById id with
    | some p => { enc with proc := some p, test := true }
    | none => enc
  | _ => enc

/-- The association of the processor with the declaration (src/document.rs:863-872). -/
def encodeLink (enc : Enc) : M Document Unit :=
  match enc.test, enc.dec, enc.proc with
  | true, some k, some p => updDeclaration k (linkProcessor p)
  | _, _, _ => pure ()

/-- The new attribute list (src/document.rs:874-888). -/
def encodedAttribs (as : List Attribute) (enc : Enc) : List Attribute :=
  as.filter (!·.encodable) ++ (enc.dec.map .declarationRef).toList ++ (enc.cls.map .classRef).toList ++
  (enc.proc.map .processorRef).toList ++ (enc.subset.map .subsetRef).toList

/-- The choice between the cases of `encode` (src/document.rs:798-852). -/
def encodeCore (e : ElementData) (context : Option Nat) : M Document Enc :=
  match e.elementtype.annotationtype with
  | some t => encodeTyped e t
  | none => if e.elementtype = .feature then encodeFeature e context else pure {}

/-- `encode` for elements (src/document.rs:786-890). -/
def encode (e : ElementData) (context : Option Nat) : M Document ElementData :=
  if e.encodable then do
    let enc ← encodeCore e context
    let d ← M.get
    encodeLink (encodeExplicit d e enc)
    return { e with attribs := encodedAttribs e.attribs (encodeExplicit d e enc) }
  else return e

/-- `Store::add` on elements (src/store.rs:57-81): encodes first if needed. -/
def addElem (e : ElementData) (context : Option Nat) : M Document Nat := do
  let e ← if e.encodable then encode e context else pure e
  onElements (·.add cap32 e)

/-- Remove the first reference to `child` from the data of `parent` (src/document.rs:288-294, 387-393). -/
def unlink (child : Nat) (e : ElementData) : ElementData :=
  match e.index child with
  | some i => e.remove i
  | none => e

/-- `Document::attach_element` (src/document.rs:268-297). -/
def attachElement (parent child : Nat) : M Document Unit := do
  match (← M.get).getElement parent with
  | none => M.err .internal
  | some _ =>
    match (← M.get).getElement child with
    | none => M.err .internal
    | some c =>
      updElement child fun e => { e with parent := some parent }
      updElement parent fun e => e.push (.element child)
      match c.parent with
      | some old => updElement old (unlink child)
      | none => pure ()

/-- `Document::detach_element` (src/document.rs:376-396). -/
def detachElement (child : Nat) : M Document Unit := do
  match (← M.get).getElement child with
  | none => M.err .internal
  | some c =>
    updElement child fun e => { e with parent := none }
    match c.parent with
    | some old => updElement old (unlink child)
    | none => pure ()

/-- The first key of the stack that matches (src/document.rs:322-327); the head of the list is the top of the stack. -/
def firstMatch (d : Document) (s : Selector) : List Nat → Res (Option Nat)
  | [] => .ok none
  | k :: ks => match s.matches d (.element k) with
    | .error f => .error f
    | .ok true => .ok (some k)
    | .ok false => firstMatch d s ks

/-- The selector for span elements (src/document.rs:319). -/
def spanSelector : Selector := Selector.elements.elementgroup (.is .span)

/-- The nearest span ancestor of a word reference (src/document.rs:318-333). -/
def spanKey (d : Document) (F : Nat) (key : Nat) (stack : Option (List Nat)) : Res (Option Nat) :=
  match stack with
  | some st => firstMatch d spanSelector st
  | none => ancNext d spanSelector .always F key

/-- The loop over the span elements of a layer (src/document.rs:355-362): the declaration key of the first one that has the layer's
annotation type and a declaration. The first fuel bounds the loop, `F` the iterator calls. -/
def layerSearch (cfg : SelCfg) (F : Nat) (t : ElementType) : Nat → SelState → Res (Option Nat)
  | 0, _ => .error .fuel
  | n + 1, st => match selNextElement cfg F F st with
    | (.error f, _) => .error f
    | (.ok none, _) => .ok none
    | (.ok (some k), st') => match cfg.doc.getElement k with
      | none => .error .panic
      | some e =>
        if e.elementtype.annotationtype = t.annotationtype then
          match e.declarationKeyU with
          | .error f => .error f
          | .ok (some dk) => .ok (some dk)
          | .ok none => layerSearch cfg F t n st'
        else layerSearch cfg F t n st'

/-- The declaration of the span elements in a layer without a set (src/document.rs:352-363). -/
def layerDecl (d : Document) (F : Nat) (key : Nat) (t : ElementType) : Res (Option Nat) := do
  let sel ← Selector.fromQuery d { elementgroup := .is .span, set := .some }
  layerSearch { doc := d, selector := sel, recursion := .always, inclusive := false, spanreferences := true } F t F (.init key)

/-- `Document::post_add` (src/document.rs:300-373). -/
def postAdd (F : Nat) (key : Nat) (stack : Option (List Nat)) : M Document Unit := do
  match (← M.get).getElement key with
  | none => M.err .key
  | some e =>
    if e.elementtype = .wordReference then
      match e.lastIdref with
      | none => M.err .parse
      | some idref =>
        match ← M.ofRes fun d => spanKey d F key stack with
        | none => M.err .parse
        | some sk =>
          match (← M.get).elementKeyById idref with
          | none => M.err .parse
          | some target =>
            match (← M.get).getElement target with
            | none => M.throw .panic
            | some _ => updElement target fun e => e.push (.spanReference sk)
    else if ElementGroup.layer.contains e.elementtype && !e.hasAttrib .SET then
      match ← M.ofRes fun d => layerDecl d F key e.elementtype with
      | some dk => updElement key fun e => e.withAttribs [.declarationRef dk]
      | none => pure ()
    else pure ()

/-- The parent link and postprocessing of freshly added children (src/document.rs:203-208, 236-241). -/
def adopt (F : Nat) (parent : Nat) (child : Nat) : M Document Unit := do
  updElement child fun e => { e with parent := some parent }
  postAdd F child none

/-- Is this an `AddElement`? (src/document.rs:223-227) -/
def isUnborn : Data → Bool
  | .addElement _ => true
  | _ => false

mutual
/-- `Document::add_children` (src/document.rs:221-264). -/
def addChildren (F : Nat) : ElementData → M Document (ElementData × Option (List Nat))
  | ⟨t, as, data, k, p⟩ =>
    if data.any isUnborn then do
      let r ← addChildrenList F data
      return (⟨t, as, r.1, k, p⟩, some r.2)
    else return (⟨t, as, data, k, p⟩, none)
/-- The loop over the data items in `add_children` (src/document.rs:231-257): the new data and the keys of the added children. -/
def addChildrenList (F : Nat) : List Data → M Document (List Data × List Nat)
  | [] => return ([], [])
  | .addElement e :: rest => do
    let r ← addChildren F e
    let ck ← addElem r.1 none
    match r.2 with
    | some grandchildren => M.forEach (adopt F ck) grandchildren
    | none => pure ()
    let rs ← addChildrenList F rest
    return (.element ck :: rs.1, ck :: rs.2)
  | .text s :: rest => do
    let rs ← addChildrenList F rest
    return (.text s :: rs.1, rs.2)
  | .element c :: rest => do
    let rs ← addChildrenList F rest
    return (.element c :: rs.1, rs.2)
  | .comment s :: rest => do
    let rs ← addChildrenList F rest
    return (.comment s :: rs.1, rs.2)
  | .spanReference c :: rest => do
    let rs ← addChildrenList F rest
    return (.spanReference c :: rs.1, rs.2)
end

/-- `Document::add_element` (src/document.rs:174-177). -/
def addElement (F : Nat) (e : ElementData) : M Document Nat := do
  let r ← addChildren F e
  addElem r.1 none

/-- `Document::add_element_to` (src/document.rs:198-218). -/
def addElementTo (F : Nat) (parent : Nat) (e : ElementData) : M Document Nat := do
  let r ← addChildren F e
  let ck ← M.mapErr .internal (addElem r.1 (some parent))
  match r.2 with
  | some added => M.forEach (adopt F ck) added
  | none => pure ()
  attachElement parent ck
  postAdd F ck none
  return ck

/-- `Document::attach_processor` (src/document.rs:428-447). -/
def attachProcessor (parent child : Nat) : M Document Unit := do
  match (← M.get).getProcessor parent with
  | none => M.err .internal
  | some _ =>
    match (← M.get).getProcessor child with
    | none => M.err .internal
    | some _ =>
      updProcessor child fun p => { p with parent := some parent }
      updProcessor parent fun p => { p with processors := p.processors ++ [child] }

mutual
/-- `Document::add_subprocessor` (src/document.rs:414-424). -/
def addSubprocessor (parent : Nat) : ProcTree → M Document Nat
  | .node p pending => do
    let k ← addProvenance p
    attachProcessor parent k
    addSubprocessors k pending
    return k
/-- The loop over the pending subprocessors (src/document.rs:405-407, 419-421). -/
def addSubprocessors (parent : Nat) : List ProcTree → M Document Unit
  | [] => return ()
  | p :: ps => do
    let _ ← addSubprocessor parent p
    addSubprocessors parent ps
end

/-- `Document::add_processor` (src/document.rs:400-410). -/
def addProcessor : ProcTree → M Document Nat
  | .node p pending => do
    let k ← addProvenance p
    M.modify fun d => { d with chain := d.chain ++ [k] }
    addSubprocessors k pending
    return k

/-- `Document::activate_processor` (src/document.rs:449-451). -/
def activateProcessor (k : Nat) : M Document Unit := M.modify fun d => { d with activeProcessor := some k }

/-- The declaration loop of `apply_properties` (src/document.rs:123-130). -/
def applyDeclare (ts : AnnotationType × Option String) : M Document Unit := do
  let k ← declare ts.1 ts.2 none none
  if ts.2 = some DEFAULT_TEXT_SET then
    let _ ← addClass k "current"
  return ()

/-- `Document::apply_properties` (src/document.rs:118-132). -/
def applyProperties (ps : DocumentProperties) : M Document Unit := do
  match ps.processor with
  | some p => do
    let k ← addProcessor p
    activateProcessor k
  | none => pure ()
  M.forEach applyDeclare ps.declare

/-- The body element (src/document.rs:107-110). -/
def bodyElement : BodyType → ElementData
  | .text => .new .text
  | .speech => .new .speech

/-- `Document::new` (src/document.rs:94-116). -/
def new (id : String) (ps : DocumentProperties) : Res Document :=
  let d : Document := { id, autodeclare := ps.autodeclare }
  let m : M Document Unit := do
    let body ← encode (bodyElement ps.bodytype) none
    let _ ← addElem body none
    applyProperties ps
  match m d with
  | (.ok (), d') => .ok d'
  | (.error e, _) => .error e

/-- `Document::check_element_addable` (src/document.rs:741-757). -/
def checkElementAddable (d : Document) (parent : Nat) (t : ElementType) : Res Unit :=
  match d.getElement parent with
  | none => .error (.err .internal)
  | some p => if (props p.elementtype).acceptedData.any (·.covers t) then .ok () else .error (.err .validation)

/-- `Document::get_layer_key` (src/document.rs:691-706). -/
def getLayerKey (d : Document) (F : Nat) (key : Nat) (t : AnnotationType) (set : Option String) : Res (Option Nat) := do
  let layertype ← okOr .internal t.layertype
  let sel ← Selector.fromQuery d { elementtype := .is layertype, set := match set with
    | some s => .is s
    | none => .none }
  match d.getElement key with
  | some _ => selectFirst d F key sel .no
  | none => return none

/-- `Document::get_span_keys` (src/document.rs:708-724). -/
def getSpanKeys (d : Document) (e : ElementData) : List Nat :=
  e.data.filterMap fun
    | .element k => some k
    | .addElement ed =>
      if ed.elementtype = .wordReference then
        match ed.attrib .IDREF with
        | some a => match a.asStr with
          | some id => d.elementKeyById id
          | none => none
        | none => none
      else none
    | _ => none

/-- Is the element type able to hold a layer? (src/document.rs:545) -/
def holdsLayer (t layertype : ElementType) : Bool :=
  (props t).acceptedData.contains (.group .layer) || (props t).acceptedData.contains (.type layertype)

/-- Adding to an existing or new layer under `holder` (src/document.rs:548-563 and 569-585): the layer is looked up under `lookup`. -/
def addToLayer (F : Nat) (lookup holder : Nat) (t : AnnotationType) (layertype : ElementType) (set : Option String) (e : ElementData) :
    M Document Nat := do
  let found ← M.ofRes fun d => d.getLayerKey F lookup t set
  let layer ← match found with
    | some k => pure k
    | none => do
      let layerdata := match set with
        | some s => (ElementData.new layertype).setAttrib (.set s)
        | none => ElementData.new layertype
      M.ofRes fun d => d.checkElementAddable holder layertype
      addElementTo F holder layerdata
  M.ofRes fun d => d.checkElementAddable layer e.elementtype
  addElementTo F layer e

/-- The first common ancestor that can hold the layer (src/document.rs:541-546). -/
def suitableAncestor (d : Document) (layertype : ElementType) (keys : List Nat) : Option Nat :=
  keys.find? fun k => match d.getElement k with
    | some a => holdsLayer a.elementtype layertype
    | none => false

/-- The set of a new span annotation (src/document.rs:517-531). -/
def spanSet (d : Document) (e : ElementData) (t : AnnotationType) : Res String := do
  match ← e.set with
  | some s => return s
  | none => okOr .incomplete (d.getDefaultSet t)

/-- `Document::annotate` (src/document.rs:502-597). -/
def annotate (F : Nat) (parent : Nat) (e : ElementData) : M Document Nat := do
  let p ← M.ofRes fun d => okOr .internal (d.getElement parent)
  if ElementGroup.span.contains e.elementtype then
    let t ← M.ofRes fun _ => expect e.elementtype.annotationtype
    let layertype ← M.ofRes fun _ => okOr .internal t.layertype
    if (props p.elementtype).wrefable then
      let set ← M.ofRes fun d => d.spanSet e t
      let keys := (← M.get).getSpanKeys e
      if keys.isEmpty then M.err .incomplete
      else
        let sel ← M.ofRes fun d => unwrapRes (Selector.fromQuery d { elementgroup := .is .structural })
        let common ← M.ofRes fun d => commonAncestors d F sel [] keys
        match (← M.get).suitableAncestor layertype common with
        | some a => addToLayer F parent a t layertype (some set) e
        | none => M.err .incomplete
    else if ElementGroup.structural.contains p.elementtype then
      let set ← M.ofRes fun d => d.spanSet e t
      addToLayer F parent parent t layertype (some set) e
    else
      M.ofRes fun d => d.checkElementAddable parent e.elementtype
      addElementTo F parent e
  else
    M.ofRes fun d => d.checkElementAddable parent e.elementtype
    addElementTo F parent e

/-- `Document::annotate_span` (src/document.rs:599-608). -/
def annotateSpan (F : Nat) (e : ElementData) : M Document Nat := do
  if ElementGroup.span.contains e.elementtype then
    match (← M.get).getSpanKeys e with
    | [] => M.err .incomplete
    | k :: _ => annotate F k e
  else M.err .type

end Document
end Folia
