import Verif.Document
import Verif.Text
/-! The builder methods of queries, text parameters, document properties and processors, and the equality and `Display` of elements. -/
namespace Folia

/-- The builder methods of `Query` (src/query.rs:82-142). -/
inductive QueryCall where
  | element (value : Cmp ElementType)
  | contexttype (value : Cmp ElementType)
  | elementgroup (value : Cmp ElementGroup)
  | set (value : Cmp String)
  | cls (value : Cmp String)
  | processor (value : Cmp String)
  | annotator (value : Cmp String)
  | annotatortype (value : Cmp ProcessorType)
  | subset (value : Cmp String)
  | confidence (value : Cmp F64)

/-- One call of a builder method of `Query` (src/query.rs:82-142). -/
def Query.call (q : Query) : QueryCall → Query
  | .element v => { q with elementtype := v }
  | .contexttype v => { q with contexttype := v }
  | .elementgroup v => { q with elementgroup := v }
  | .set v => { q with set := v }
  | .cls v => { q with cls := v }
  | .processor v => { q with processor := v }
  | .annotator v => { q with annotator := v }
  | .annotatortype v => { q with annotatortype := v }
  | .subset v => { q with subset := v }
  | .confidence v => { q with confidence := v }

/-- `Query::select` (src/query.rs:145-147) followed by builder calls. -/
def Query.build (calls : List QueryCall) : Query := calls.foldl Query.call {}

/-- The builder methods of `TextParameters` (src/text.rs:41-54). -/
inductive TextCall where
  | retaintokenisation (value : Bool)
  | set (value : String)
  | textclass (value : String)

/-- One call of a builder method of `TextParameters` (src/text.rs:41-54). -/
def TextParameters.call (p : TextParameters) : TextCall → TextParameters
  | .retaintokenisation v => { p with retaintokenisation := v }
  | .set v => { p with set := some v }
  | .textclass v => { p with textclass := some v }

/-- `TextParameters::new` (src/text.rs:37-39) followed by builder calls. -/
def TextParameters.build (calls : List TextCall) : TextParameters := calls.foldl TextParameters.call {}

/-- The builder methods of `DocumentProperties` (src/document.rs:72-89). -/
inductive PropCall where
  | bodytype (value : BodyType)
  | autodeclare (value : Bool)
  | declaration (t : AnnotationType) (set : Option String)
  | processor (value : ProcTree)

/-- One call of a builder method of `DocumentProperties` (src/document.rs:72-89). -/
def DocumentProperties.call (p : DocumentProperties) : PropCall → DocumentProperties
  | .bodytype v => { p with bodytype := v }
  | .autodeclare v => { p with autodeclare := v }
  | .declaration t s => { p with declare := p.declare ++ [(t, s)] }
  | .processor v => { p with processor := some v }

/-- `DocumentProperties::default` (src/document.rs:60-69) followed by builder calls. -/
def DocumentProperties.build (calls : List PropCall) : DocumentProperties := calls.foldl DocumentProperties.call {}

/-- A digit of `hex::encode` (src/metadata.rs:392). -/
def hexDigit (n : Nat) : Char := "0123456789abcdef".toList.getD n '0'

/-- `hex::encode` (src/metadata.rs:392): two lower case digits for each byte. -/
def hexEncode : List UInt8 → List Char
  | [] => []
  | b :: bs => hexDigit (b.toNat / 16) :: hexDigit (b.toNat % 16) :: hexEncode bs

/-- `format!("proc.{}.{}", name, hex)` (src/metadata.rs:392). -/
def generatedId (name : String) (random : List UInt8) : String :=
  String.ofList ("proc.".toList ++ name.toList ++ '.' :: hexEncode random)

/-- `Processor::new` (src/metadata.rs:386-412). The random bytes are a parameter. -/
def Processor.new (name : String) (random : List UInt8) : Processor := { id := generatedId name random, name }

/-- `Processor::this_library` (src/metadata.rs:415-441). The random bytes are a parameter; the version is that of Cargo.toml. -/
def Processor.thisLibrary (random : List UInt8) : Processor :=
  { id := generatedId "folia-rust" random, name := "folia-rust", version := "0.0.7", processortype := .generator, foliaVersion := FOLIAVERSION,
    src := "https://github.com/proycon/folia-rust", format := "text/html" }

/-- What `Processor::autofill` gets from its environment (src/metadata.rs:510-516). -/
structure Environment where
  host : String
  user : String
  command : String
  now : DateTime
  random : List UInt8

/-- `Processor::autofill` (src/metadata.rs:509-518). -/
def ProcTree.autofill (env : Environment) : ProcTree → ProcTree
  | .node p pending =>
    (ProcTree.node
      { p with host := env.host, begindatetime := some env.now, foliaVersion := FOLIAVERSION, user := env.user, command := env.command }
      pending).withNewSubprocessor (.node (Processor.thisLibrary env.random) [])

/-- `PartialEq for Element` (src/element.rs:471-476). The documents of the elements are not compared. -/
def ElementData.same (a b : ElementData) : Bool := a.key.isSome && a.key == b.key

/-- `to_string()` on an element, with `Display for Element` (src/element.rs:479-487); `to_string` panics if `fmt` returns an error. -/
def elementToString (d : Document) (F : Nat) (e : ElementData) : Res String :=
  match elementText d F e {} with
  | .ok text => .ok text
  | .error (.err _) => .error .panic
  | .error f => .error f

end Folia
