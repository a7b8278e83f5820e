import Verif.Base
import Verif.AttribType
import Verif.DateTime
/-! Attributes (`src/attrib.rs`). -/
namespace Folia

/-- `ProcessorType` (src/metadata.rs:330-335). -/
inductive ProcessorType where
  | auto | manual | generator | dataSource
  deriving DecidableEq, Repr

/-- `ProcessorType::as_str` (src/metadata.rs:338-345). -/
def ProcessorType.asStr : ProcessorType → String
  | .auto => "auto"
  | .manual => "manual"
  | .generator => "generator"
  | .dataSource => "datasource"

/-- The string-to-type match of src/attrib.rs:265-271 and src/parser.rs:504-512. -/
def ProcessorType.fromStr (s : String) : Option ProcessorType :=
  if s = "auto" then some .auto
  else if s = "manual" then some .manual
  else if s = "generator" then some .generator
  else if s = "datasource" then some .dataSource
  else none

/-- An `f64` value, identified by its bit pattern; arithmetic is not modelled. -/
structure F64 where
  bits : Nat
  deriving DecidableEq, Repr

/-- Rust's printing and parsing of `f64` (`f64::to_string`, `f64::from_str`), which are outside the model. -/
structure Ext where
  showF64 : F64 → String
  parseF64 : String → Option F64

/-- `Attribute` (src/attrib.rs:73-111). `u16` payloads are natural numbers; `wf` below states their range. -/
inductive Attribute where
  | ignore
  | id (s : String)
  | set (s : String)
  | declarationRef (k : Nat)
  | cls (s : String)
  | classRef (k : Nat)
  | annotator (s : String)
  | annotatorType (t : ProcessorType)
  | confidence (f : F64)
  | n (s : String)
  | dateTime (d : DateTime)
  | beginTime (s : String)
  | endTime (s : String)
  | src (s : String)
  | speaker (s : String)
  | textclass (s : String)
  | metadata (s : String)
  | idref (s : String)
  | space (b : Bool)
  | text (s : String)
  | type (s : String)
  | auth (s : String)
  | offset (i : Nat)
  | ref (s : String)
  | original (s : String)
  | lineNr (i : Nat)
  | pageNr (s : String)
  | newPage (b : Bool)
  | xlinkType (s : String)
  | processor (s : String)
  | processorRef (k : Nat)
  | href (s : String)
  | format (s : String)
  | subset (s : String)
  | subsetRef (k : Nat)
  deriving DecidableEq, Repr

namespace Attribute

/-- `Attribute::decodable` (src/attrib.rs:128-133). -/
def decodable : Attribute → Bool
  | declarationRef _ | classRef _ | processorRef _ | subsetRef _ => true
  | _ => false

/-- `Attribute::encodable` (src/attrib.rs:136-141). -/
def encodable : Attribute → Bool
  | set _ | cls _ | processor _ | subset _ => true
  | _ => false

/-- `Attribute::attribtype` (src/attrib.rs:192-230). -/
def attribtype : Attribute → AttribType
  | ignore => .NONE
  | id _ => .ID
  | set _ => .SET
  | declarationRef _ => .SET
  | cls _ => .CLASS
  | classRef _ => .CLASS
  | annotator _ => .ANNOTATOR
  | annotatorType _ => .ANNOTATORTYPE
  | confidence _ => .CONFIDENCE
  | n _ => .N
  | dateTime _ => .DATETIME
  | beginTime _ => .BEGINTIME
  | endTime _ => .ENDTIME
  | src _ => .SRC
  | speaker _ => .SPEAKER
  | textclass _ => .TEXTCLASS
  | metadata _ => .METADATA
  | idref _ => .IDREF
  | space _ => .SPACE
  | processor _ => .PROCESSOR
  | processorRef _ => .PROCESSOR
  | href _ => .HREF
  | format _ => .FORMAT
  | xlinkType _ => .XLINKTYPE
  | subset _ => .SUBSET
  | subsetRef _ => .SUBSET
  | text _ => .TEXT
  | type _ => .TYPE
  | offset _ => .OFFSET
  | ref _ => .REF
  | auth _ => .AUTH
  | original _ => .ORIGINAL
  | lineNr _ => .LINENR
  | pageNr _ => .PAGENR
  | newPage _ => .NEWPAGE

/-- `Attribute::attribtypeclass` (src/attrib.rs:235-243). -/
def attribtypeclass (a : Attribute) : AttribType :=
  match a.attribtype with
  | .SET => .CLASS
  | .PROCESSOR => .ANNOTATOR
  | .ANNOTATORTYPE => .ANNOTATOR
  | t => t

/-- `Attribute::as_str` (src/attrib.rs:146-162); `none` is the `TypeError`. -/
def asStr : Attribute → Option String
  | id s | set s | cls s | annotator s | n s | beginTime s | endTime s | src s | speaker s | textclass s | metadata s | idref s
  | processor s | href s | format s | subset s | text s | type s | ref s | original s | auth s | xlinkType s | pageNr s => some s
  | annotatorType t => some t.asStr
  | space b => some (if b then "yes" else "no")
  | newPage b => some (if b then "yes" else "no")
  | _ => none

/-- `Attribute::to_string` (src/attrib.rs:167-183); `none` is the `TypeError`. -/
def toStr (X : Ext) : Attribute → Option String
  | confidence f => some (X.showF64 f)
  | offset i => some (String.ofList (Nat.toDigits 10 i))
  | lineNr i => some (String.ofList (Nat.toDigits 10 i))
  | dateTime d => some (String.ofList d.format)
  | ignore => none
  | a => a.asStr

/-- `Display for Attribute` (src/attrib.rs:113-121): panics where neither conversion works. -/
def display (X : Ext) (a : Attribute) : Res String :=
  match a.asStr with
  | some s => .ok s
  | none => expect (a.toStr X)

end Attribute

/-- Drop the sign that `u16::from_str` allows. -/
def stripPlus : List Char → List Char
  | '+' :: r => r
  | r => r

/-- `u16::from_str` (standard library): an optional `+`, at least one digit, only digits, value below 2^16. -/
def parseU16 (s : String) : Option Nat :=
  match takeDigits (stripPlus s.toList).length (stripPlus s.toList) with
  | ([], _) => none
  | (ds, []) =>
    let n := Nat.ofDigitChars 10 ds 0
    if n < cap16 then some n else none
  | _ => none

/-- The value of a yes/no attribute (src/attrib.rs:345-349 and 362-366). -/
def parseYesNo (s : String) : Option Bool :=
  if s = "yes" ∨ s = "true" then some true
  else if s = "no" ∨ s = "false" then some false
  else none

/-- `Attribute::parse` (src/attrib.rs:246-382) on an attribute name and its unescaped value (the unescaping is done by the caller in
the model); `none` is the `ParseError`. -/
def Attribute.parse (X : Ext) (key value : String) : Option Attribute :=
  if key = "xml:id" then some (.id value)
  else if key = "set" then some (.set value)
  else if key = "class" then some (.cls value)
  else if key = "processor" then some (.processor value)
  else if key = "annotator" then some (.annotator value)
  else if key = "annotatortype" then (ProcessorType.fromStr value).map .annotatorType
  else if key = "subset" then some (.subset value)
  else if key = "format" then some (.format value)
  else if key = "xlink:href" then some (.href value)
  else if key = "xlink:type" then some (.xlinkType value)
  else if key = "speaker" then some (.speaker value)
  else if key = "src" then some (.src value)
  else if key = "n" then some (.n value)
  else if key = "t" then some (.text value)
  else if key = "datetime" then (DateTime.parse fmtSeconds value.toList).map .dateTime
  else if key = "begintime" then some (.beginTime value)
  else if key = "endtime" then some (.endTime value)
  else if key = "textclass" then some (.textclass value)
  else if key = "metadata" then some (.metadata value)
  else if key = "id" then some (.idref value)
  else if key = "type" then some (.type value)
  else if key = "auth" then some (.auth value)
  else if key = "original" then some (.original value)
  else if key = "pagenr" then some (.pageNr value)
  else if key = "offset" then (parseU16 value).map .offset
  else if key = "linenr" then (parseU16 value).map .lineNr
  else if key = "newpage" then (parseYesNo value).map .newPage
  else if key = "ref" then some (.ref value)
  else if key = "confidence" then (X.parseF64 value).map .confidence
  else if key = "space" then (parseYesNo value).map .space
  else if key = "typegroup" then some .ignore
  else if ':' ∈ key.toList then some .ignore
  else none

end Folia
