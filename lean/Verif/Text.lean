import Verif.Doc
/-! Text extraction (`src/text.rs`). Fuel bounds the depth of recursion into children and references. -/
namespace Folia

/-- `TextParameters` (src/text.rs:17-35), with the values of `Default`. -/
structure TextParameters where
  set : Option String := some DEFAULT_TEXT_SET
  textclass : Option String := some "current"
  strict : Bool := false
  retaintokenisation : Bool := false

/-- The value of `space` in `get_textdelimiter` (src/text.rs:175-182). -/
def wantsSpace (e : ElementData) (retain : Bool) : Bool :=
  retain || match e.attrib .SPACE with
    | some (.space b) => b
    | _ => true

/-- The last data item that refers to an existing element (src/text.rs:155-169: reversed loop that returns at the first hit). -/
def lastChild (d : Document) : List Data → Option ElementData
  | [] => none
  | x :: xs => match lastChild d xs with
    | some e => some e
    | none => match x with
      | .element k => d.getElement k
      | _ => none

/-- `Element::get_textdelimiter` (src/text.rs:150-191). -/
def textDelimiter (d : Document) (retain : Bool) : Nat → ElementData → Res String
  | 0, _ => .error .fuel
  | n + 1, e => match (props e.elementtype).textdelimiter with
    | none => match lastChild d e.data with
      | some c => textDelimiter d retain n c
      | none => .ok ""
    | some td =>
      if (props e.elementtype).optionalAttribs.contains .SPACE then
        if wantsSpace e retain then .ok td else .ok ""
      else .ok td

/-- The loop over the data of a text container (src/text.rs:69-91); `rec` is the recursive call. -/
def containerText (d : Document) (rec : ElementData → Res String) : List Data → String → Res String
  | [], text => .ok text
  | .text s :: rest, text => containerText d rec rest (text ++ s)
  | .element k :: rest, text => match d.getElement k with
    | some c =>
      if (props c.elementtype).printable then
        let text := if text.isEmpty then text else match (props c.elementtype).textdelimiter with
          | some td => text ++ td
          | none => text
        match rec c with
        | .ok part => containerText d rec rest (text ++ part)
        | .error e => .error e
      else containerText d rec rest text
    | none => containerText d rec rest text
  | _ :: rest, text => containerText d rec rest text

/-- The local variables of the structural branch (src/text.rs:96-98). -/
structure TextAcc where
  text : String := ""
  delimiter : String := ""
  content : Option ElementData := none

/-- Adding the text of one child (src/text.rs:106-112, 117-123); an `Err` of the recursive call is skipped. -/
def addPart (rec : ElementData → Option String → Res String) (delim : ElementData → Res String) (c : ElementData) (acc : TextAcc) :
    Res TextAcc :=
  match rec c (some acc.delimiter) with
  | .ok part => match delim c with
    | .ok s => .ok { acc with text := acc.text ++ part, delimiter := s }
    | .error (.err _) => .ok { acc with text := acc.text ++ part }
    | .error f => .error f
  | .error (.err _) => .ok acc
  | .error f => .error f

/-- The loop over the children in the structural branch (src/text.rs:99-129). -/
def structText (d : Document) (rec : ElementData → Option String → Res String) (delim : ElementData → Res String) :
    List Data → TextAcc → Res TextAcc
  | [], acc => .ok acc
  | .element k :: rest, acc => match d.getElement k with
    | some c =>
      if ElementGroup.structural.contains c.elementtype || c.elementtype == .correction || ElementGroup.span.contains c.elementtype then
        match addPart rec delim c acc with
        | .ok acc' => structText d rec delim rest acc'
        | .error f => .error f
      else if c.elementtype = .wordReference then
        match c.resolve d with
        | .ok (some target) => match addPart rec delim target acc with
          | .ok acc' => structText d rec delim rest acc'
          | .error f => .error f
        | .ok none => structText d rec delim rest acc
        | .error f => .error f
      else if c.elementtype = .textContent then structText d rec delim rest { acc with content := some c }
      else structText d rec delim rest acc
    | none => structText d rec delim rest acc
  | _ :: rest, acc => structText d rec delim rest acc

/-- The end of the structural branch (src/text.rs:130-145). -/
def finishText (rec : ElementData → Option String → Res String) (acc : TextAcc) (prev : Option String) : Res String :=
  let fallback : Res String := match acc.content with
    | some c => if acc.text.isEmpty then
        match rec c none with
        | .ok s => .ok s
        | .error (.err _) => .ok acc.text
        | .error f => .error f
      else .ok acc.text
    | none => .ok acc.text
  match fallback with
  | .error f => .error f
  | .ok text =>
    if text.isEmpty then .error (.err .noText)
    else match prev with
      | some p => .ok (p ++ text)
      | none => .ok text

/-- `Element::text_by_key` (src/text.rs:62-147). -/
def textByKey (d : Document) (set cls : Nat) (retain : Bool) : Bool → Nat → ElementData → Option String → Res String
  | _, 0, _, _ => .error .fuel
  | strict, n + 1, e, prev =>
    if (props e.elementtype).textcontainer then
      containerText d (fun c => textByKey d set cls retain strict n c none) e.data ""
    else if !(props e.elementtype).printable || (props e.elementtype).hidden then .error (.err .noText)
    else
      match structText d (fun c p => textByKey d set cls retain false n c p) (fun c => textDelimiter d retain n c) e.data {} with
      | .error f => .error f
      | .ok acc => finishText (fun c p => textByKey d set cls retain false n c p) acc prev

/-- `Element::text` (src/text.rs:196-204). -/
def elementText (d : Document) (F : Nat) (e : ElementData) (p : TextParameters) : Res String :=
  match d.declarationKeyById (Declaration.indexId .TEXT p.set) with
  | some dk => match p.textclass with
    | none => .error .panic
    | some c => match d.classKey dk c with
      | .ok ck => textByKey d dk ck p.retaintokenisation p.strict F e none
      | .error f => .error f
  | none => match p.set with
    | some _ => .error (.err .encode)
    | none => .error .panic

/-- `Document::text` (src/text.rs:220-226). -/
def Document.text (d : Document) (F : Nat) (key : Nat) (p : TextParameters) : Res String :=
  match d.getElement key with
  | some e => elementText d F e p
  | none => .error (.err .key)

/-- `Document::text_by_key` (src/text.rs:211-217). -/
def Document.textByKey (d : Document) (F : Nat) (key : Nat) (set cls : Nat) (strict retain : Bool) : Res String :=
  match d.getElement key with
  | some e => Folia.textByKey d set cls retain strict F e none
  | none => .error (.err .key)

end Folia
