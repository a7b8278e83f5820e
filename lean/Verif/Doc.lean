import Verif.Element
import Verif.Metadata
/-! The document and its read-only accessors (`src/document.rs`, `src/element.rs`, `src/elementstore.rs`). -/
namespace Folia

/-- `Document` (src/document.rs:30-50). The element store's `root` is the constant `DataType::Element(0)`
(src/elementstore.rs:31-38) and its `specification` is the table `props`; both are constants of the model. -/
structure Document where
  id : String := "untitled"
  version : String := FOLIAVERSION
  filename : Option String := none
  elements : Store ElementData := {}
  processors : Store Processor := {}
  /-- `ProvenanceStore::chain` (src/metadata.rs:323). -/
  chain : List Nat := []
  declarations : Store Declaration := {}
  metadata : Metadata := {}
  submetadata : List (String × Metadata) := []
  activeProcessor : Option Nat := none
  autodeclare : Bool := true

/-- `BodyType` (src/types.rs:797-800). -/
inductive BodyType where
  | text | speech
  deriving DecidableEq, Repr

/-- `DocumentProperties` (src/document.rs:55-60) with the values of `Default` (lines 62-71). -/
structure DocumentProperties where
  bodytype : BodyType := .text
  autodeclare : Bool := true
  declare : List (AnnotationType × Option String) := [(.TEXT, some DEFAULT_TEXT_SET)]
  processor : Option ProcTree := none

namespace Document

/-- `Document::get_elementdata` and `get_element` (src/document.rs:612-614, 664-670). -/
def getElement (d : Document) (k : Nat) : Option ElementData := d.elements.get k
/-- `Document::get_element_by_id` (src/document.rs:672-678). -/
def getElementById (d : Document) (id : String) : Res (Option ElementData) := d.elements.getById id
/-- `Document::get_element_key_by_id` (src/document.rs:625-627). -/
def elementKeyById (d : Document) (id : String) : Option Nat := d.elements.idToKey id
/-- `Document::get_declaration` (src/document.rs:628-630). -/
def getDeclaration (d : Document) (k : Nat) : Option Declaration := d.declarations.get k
/-- `Document::get_declaration_key_by_id` (src/document.rs:634-636). -/
def declarationKeyById (d : Document) (id : String) : Option Nat := d.declarations.idToKey id
/-- `Document::get_declaration_by_id` (src/document.rs:631-633). -/
def getDeclarationById (d : Document) (id : String) : Res (Option Declaration) := d.declarations.getById id
/-- `Document::get_processor` (src/document.rs:646-648). -/
def getProcessor (d : Document) (k : Nat) : Option Processor := d.processors.get k
/-- `Document::get_processor_key_by_id` (src/document.rs:652-654). -/
def processorKeyById (d : Document) (id : String) : Option Nat := d.processors.idToKey id
/-- `Document::get_processor_by_id` (src/document.rs:649-651). -/
def getProcessorById (d : Document) (id : String) : Res (Option Processor) := d.processors.getById id

/-- `Document::get_default_set` (src/document.rs:729-736). -/
def getDefaultSet (d : Document) (t : AnnotationType) : Option String :=
  match getDefaultKey d.declarations.items t with
  | some k => match d.getDeclaration k with
    | some dec => dec.set
    | none => none
  | none => none

/-- `Document::class_key` (src/metadata.rs:309-315). -/
def classKey (d : Document) (dec : Nat) (c : String) : Res Nat :=
  match d.getDeclaration dec with
  | some decl => okOr .key (decl.classKey c)
  | none => .error (.err .key)

end Document

/-! ### Accessors of `ReadElement` (src/element.rs:248-468)
An `Element` is an element's data together with its document; the accessors below take both. -/
namespace ElementData

/-- `ReadElement::class_key` (src/element.rs:364-366). -/
def classKeyU (e : ElementData) : Res (Option Nat) := unwrapRes e.classKey
/-- `ReadElement::subset_key` (src/element.rs:368-370). -/
def subsetKeyU (e : ElementData) : Res (Option Nat) := unwrapRes e.subsetKey
/-- `ReadElement::declaration_key` (src/element.rs:372-374). -/
def declarationKeyU (e : ElementData) : Res (Option Nat) := unwrapRes e.declarationKey
/-- `ReadElement::processor_key` (src/element.rs:376-378). -/
def processorKeyU (e : ElementData) : Res (Option Nat) := unwrapRes e.processorKey

/-- `ReadElement::get_declaration` (src/element.rs:385-395). -/
def getDeclaration (d : Document) (e : ElementData) : Res (Option Declaration) := do
  match ← e.declarationKeyU with
  | some k => return d.getDeclaration k
  | none => return none

/-- `ReadElement::get_processor` (src/element.rs:398-408). -/
def getProcessor (d : Document) (e : ElementData) : Res (Option Processor) := do
  match ← e.processorKeyU with
  | some k => return d.getProcessor k
  | none => return none

/-- `ReadElement::set` (src/element.rs:280-290). -/
def getSet (d : Document) (e : ElementData) : Res (Option String) := do
  match ← e.getDeclaration d with
  | some dec => return dec.set
  | none => return none

/-- `ReadElement::subset` (src/element.rs:294-303). -/
def getSubset (d : Document) (e : ElementData) : Res (Option String) := do
  match ← e.getDeclaration d with
  | some dec => match ← e.subsetKeyU with
    | some k => return dec.getSubset k
    | none => return none
  | none => return none

/-- `ReadElement::class` (src/element.rs:306-319). -/
def getClass (d : Document) (e : ElementData) : Res (Option String) := do
  match ← e.classKeyU with
  | some ck => match ← e.getDeclaration d with
    | some dec => match ← e.subsetKeyU with
      | some _ => return dec.getSubclass ck
      | none => return dec.getClass ck
    | none => return none
  | none => return none

/-- `ReadElement::processor` (src/element.rs:322-328). -/
def getProcessorId (d : Document) (e : ElementData) : Res (Option String) := do
  match ← e.getProcessor d with
  | some p => return some p.id
  | none => return none

/-- `ReadElement::annotator` (src/element.rs:331-343). -/
def getAnnotator (d : Document) (e : ElementData) : Res (Option String) := do
  match ← e.getProcessor d with
  | some p => return some p.name
  | none => return e.attribs.findSome? fun | .annotator s => some s | _ => none

/-- `ReadElement::annotatortype` (src/element.rs:346-358). -/
def getAnnotatortype (d : Document) (e : ElementData) : Res (Option ProcessorType) := do
  match ← e.getProcessor d with
  | some p => return some p.processortype
  | none => return e.attribs.findSome? fun | .annotatorType t => some t | _ => none

/-- `ReadElement::get_parent` (src/element.rs:411-421). -/
def getParent (d : Document) (e : ElementData) : Option ElementData :=
  match e.parent with
  | some k => d.getElement k
  | none => none

/-- `ReadElement::get_index` (src/element.rs:424-435); panics if the element has no key and its parent has an element child. -/
def getIndex (d : Document) (e : ElementData) : Res (Option Nat) :=
  match e.getParent d with
  | none => .ok none
  | some p => match e.key with
    | some k => .ok (p.index k)
    | none => if p.data.any (fun | .element _ => true | _ => false) then .error .panic else .ok none

/-- `ReadElement::resolve` (src/element.rs:456-465). -/
def resolve (d : Document) (e : ElementData) : Res (Option ElementData) :=
  match e.idref with
  | some id => d.getElementById id
  | none => .ok none

end ElementData
end Folia
