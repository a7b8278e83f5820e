import Verif.Attrib
import Verif.Store
import Verif.Spec
/-! Elements (`src/element.rs`) and data items (`src/types.rs`). -/
namespace Folia

/-- `DataType` (src/types.rs:772-784); `E` is `ElementData`. -/
inductive DataType (E : Type) where
  | text (s : String)
  | element (k : Nat)
  | comment (s : String)
  | spanReference (k : Nat)
  | addElement (e : E)

/-- `ElementData` (src/element.rs:45-53). -/
structure ElementData where
  elementtype : ElementType
  attribs : List Attribute := []
  data : List (DataType ElementData) := []
  key : Option Nat := none
  parent : Option Nat := none

/-- A data item of an element. -/
abbrev Data := DataType ElementData

namespace DataType

/-- Equality with `DataType::Element(key)` (derived `PartialEq`, src/types.rs:770, used in src/element.rs:742). -/
def isElem {E : Type} (k : Nat) : DataType E → Bool
  | element k' => k' == k
  | _ => false

end DataType

namespace ElementData

/-- `ElementData::new` (src/element.rs:757-759). -/
def new (t : ElementType) : ElementData := { elementtype := t }

/-- `ElementData::attrib` (src/element.rs:621-628). -/
def attrib (e : ElementData) (t : AttribType) : Option Attribute := e.attribs.find? (·.attribtype == t)

/-- `ElementData::has_attrib` (src/element.rs:632-634). -/
def hasAttrib (e : ElementData) (t : AttribType) : Bool := (e.attribs.find? (·.attribtype == t)).isSome

/-- `ElementData::del_attrib` (src/element.rs:638-645). -/
def delAttrib (e : ElementData) (t : AttribType) : Option Attribute × ElementData :=
  match e.attribs.findIdx? (·.attribtype == t) with
  | some i => (e.attribs[i]?, { e with attribs := e.attribs.eraseIdx i })
  | none => (none, e)

/-- `ElementData::set_attrib` and `with_attrib` (src/element.rs:648-659). -/
def setAttrib (e : ElementData) (a : Attribute) : ElementData :=
  let e' := (e.delAttrib a.attribtype).2
  { e' with attribs := e'.attribs ++ [a] }

/-- `ElementData::set_attribs` and `with_attribs` (src/element.rs:662-670). -/
def withAttribs (e : ElementData) (as : List Attribute) : ElementData := { e with attribs := as }

/-- `ElementData::push` and `with` (src/element.rs:696-704). -/
def push (e : ElementData) (d : Data) : ElementData := { e with data := e.data ++ [d] }

/-- `ElementData::with_children` (src/element.rs:707-712). -/
def withChildren (e : ElementData) (ds : List Data) : ElementData := ds.foldl push e

/-- `ElementData::add_element` (src/element.rs:689-692). -/
def addElement (e child : ElementData) : ElementData := e.push (.addElement child)

/-- `ElementData::with_span` (src/element.rs:675-680). -/
def withSpan (e : ElementData) (ids : List String) : ElementData :=
  ids.foldl (fun e id => e.addElement ((new .wordReference).setAttrib (.idref id))) e

/-- `ElementData::with_text` (src/element.rs:683-685). -/
def withText (e : ElementData) (s : String) : ElementData := e.addElement ((new .textContent).push (.text s))

/-- `ElementData::index` (src/element.rs:742-744) on an element reference, its only use. -/
def index (e : ElementData) (child : Nat) : Option Nat := e.data.findIdx? (·.isElem child)

/-- `ElementData::remove` (src/element.rs:747-753); the removed item is dropped by every caller. -/
def remove (e : ElementData) (i : Nat) : ElementData := { e with data := e.data.eraseIdx i }

/-- `ElementData::encodable` (src/element.rs:89-96). -/
def encodable (e : ElementData) : Bool := e.attribs.any Attribute.encodable

/-- `ElementData::id` (src/element.rs:112-119). -/
def id (e : ElementData) : Option String := e.attribs.findSome? fun
  | .id s => some s
  | _ => none

/-- Shared loop of `class`, `set`, `subset` and `processor` (src/element.rs:131-177): the first attribute picked by `f`, or an
`EncodeError` if an encoded attribute comes first. -/
def plainAttr (f : Attribute → Option String) : List Attribute → Res (Option String)
  | [] => .ok none
  | a :: as => match f a with
    | some s => .ok (some s)
    | none => if a.decodable then .error (.err .encode) else plainAttr f as

/-- `ElementData::class` (src/element.rs:131-140). -/
def cls (e : ElementData) : Res (Option String) := plainAttr (fun | .cls s => some s | _ => none) e.attribs
/-- `ElementData::set` (src/element.rs:143-152). -/
def set (e : ElementData) : Res (Option String) := plainAttr (fun | .set s => some s | _ => none) e.attribs
/-- `ElementData::subset` (src/element.rs:156-165). -/
def subset (e : ElementData) : Res (Option String) := plainAttr (fun | .subset s => some s | _ => none) e.attribs
/-- `ElementData::processor` (src/element.rs:168-177). -/
def processor (e : ElementData) : Res (Option String) := plainAttr (fun | .processor s => some s | _ => none) e.attribs

/-- `ElementData::confidence` (src/element.rs:179-186). -/
def confidence (e : ElementData) : Option F64 := e.attribs.findSome? fun
  | .confidence f => some f
  | _ => none

/-- Shared loop of `class_key`, `declaration_key`, `processor_key` and `subset_key` (src/element.rs:190-235): the first attribute
picked by `f`, or an `EncodeError` if an attribute that still has to be encoded comes first. -/
def keyAttr (f : Attribute → Option Nat) : List Attribute → Res (Option Nat)
  | [] => .ok none
  | a :: as => match f a with
    | some k => .ok (some k)
    | none => if a.encodable then .error (.err .encode) else keyAttr f as

/-- `ElementData::class_key` (src/element.rs:190-199). -/
def classKey (e : ElementData) : Res (Option Nat) := keyAttr (fun | .classRef k => some k | _ => none) e.attribs
/-- `ElementData::declaration_key` (src/element.rs:202-211). -/
def declarationKey (e : ElementData) : Res (Option Nat) := keyAttr (fun | .declarationRef k => some k | _ => none) e.attribs
/-- `ElementData::processor_key` (src/element.rs:214-223). -/
def processorKey (e : ElementData) : Res (Option Nat) := keyAttr (fun | .processorRef k => some k | _ => none) e.attribs
/-- `ElementData::subset_key` (src/element.rs:226-235). -/
def subsetKey (e : ElementData) : Res (Option Nat) := keyAttr (fun | .subsetRef k => some k | _ => none) e.attribs

/-- `ElementData::idref` (src/element.rs:238-245). -/
def idref (e : ElementData) : Option String := e.attribs.findSome? fun
  | .idref s => some s
  | _ => none

/-- The loop of `post_add` that keeps the last `Idref` (src/document.rs:311-316). -/
def lastIdref (e : ElementData) : Option String := e.attribs.foldl (fun acc a => match a with
  | .idref s => some s
  | _ => acc) none

end ElementData

/-- `Storable for ElementData` (src/element.rs:78-108). `attrib(ID)` is always an `Attribute::Id`, so `as_str` cannot fail. -/
instance : Storable ElementData where
  maybeId e := (e.attrib .ID).bind Attribute.asStr
  assignKey e k := { e with key := some k }

/-- `Result::unwrap` / `expect`: an `Err` becomes a panic. -/
def unwrapRes {α : Type} : Res α → Res α
  | .error (.err _) => .error .panic
  | r => r

end Folia
