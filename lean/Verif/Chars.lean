import Verif.Indent
/-! The character level of XML: what quick-xml's writer writes for events and how its reader cuts characters into events (quick-xml 0.22, a
dependency that is not in `/repo`, so this file belongs to the trusted base). Bytes and encodings are not modelled. Nothing here is used by the
model; it serves to show that `readBack`, on which the properties about round trips rest, is what comes out of the characters. -/
namespace Folia

/-! ### The writer -/

/-- `push_attribute`: the name and the escaped value in double quotes. -/
def attrChars (a : String × String) : List Char := ' ' :: (a.1.toList ++ ('=' :: '"' :: (a.2.toList ++ ['"'])))

/-- `Writer::write_event`. -/
def WEvent.chars : WEvent → List Char
  | .start t as => '<' :: (t.toList ++ (as.flatMap attrChars ++ ['>']))
  | .empty t as => '<' :: (t.toList ++ (as.flatMap attrChars ++ ['/', '>']))
  | .endTag t => '<' :: '/' :: (t.toList ++ ['>'])
  | .text s => s.toList
  | .comment s => '<' :: '!' :: '-' :: '-' :: (s.toList ++ ['-', '-', '>'])

/-- All characters that are written. -/
def render (evs : List WEvent) : List Char := evs.flatMap WEvent.chars

/-! ### The reader -/

/-- A piece of XML, with names as they are written. -/
inductive Tok where
  | start (name : String) (attrs : List RAttr)
  | empty (name : String) (attrs : List RAttr)
  | endTag (name : String)
  | text (s : String)
  | cdata (s : String)
  | comment (s : String)
  | other
  | error
  deriving DecidableEq, Repr

/-- White space in XML. -/
def xmlSpace (c : Char) : Bool := c == ' ' || c == '\t' || c == '\n' || c == '\r'

/-- What is before and after the first occurrence of a character. -/
def upTo (x : Char) : List Char → Option (List Char × List Char)
  | [] => none
  | c :: cs => if c = x then some ([], cs) else (upTo x cs).map fun (a, b) => (c :: a, b)

/-- What is before and after the `>` that ends a tag: the first one outside quotes. `q` is the quote that is open. -/
def tagEnd : Option Char → List Char → Option (List Char × List Char)
  | _, [] => none
  | none, c :: cs =>
    if c = '>' then some ([], cs)
    else (tagEnd (if c = '"' ∨ c = '\'' then some c else none) cs).map fun (a, b) => (c :: a, b)
  | some q, c :: cs => (tagEnd (if c = q then none else some q) cs).map fun (a, b) => (c :: a, b)

/-- What is before and after the end of a comment. -/
def commentEnd : List Char → Option (List Char × List Char)
  | '-' :: '-' :: '>' :: rest => some ([], rest)
  | c :: cs => (commentEnd cs).map fun (a, b) => (c :: a, b)
  | [] => none

/-- What is before and after the end of a character data section. -/
def cdataEnd : List Char → Option (List Char × List Char)
  | ']' :: ']' :: '>' :: rest => some ([], rest)
  | c :: cs => (cdataEnd cs).map fun (a, b) => (c :: a, b)
  | [] => none

/-- Drop white space at the end. -/
def trimRight (cs : List Char) : List Char := (cs.reverse.dropWhile xmlSpace).reverse

/-- The attributes in a tag, after its name. A name that occurred before is an error; anything malformed is an error and ends the list. The fuel
is the number of characters. -/
def scanAttrs : Nat → List String → List Char → List RAttr
  | 0, _, _ => []
  | n + 1, seen, cs => match cs.dropWhile xmlSpace with
    | [] => []
    | cs => match upTo '=' cs with
      | none => [.bad]
      | some (key, rest) => match rest.dropWhile xmlSpace with
        | [] => [.bad]
        | q :: rest => if q = '"' ∨ q = '\'' then match upTo q rest with
            | none => [.bad]
            | some (value, rest) =>
              let k := String.ofList (trimRight key)
              (if k ∈ seen then .bad else .ok k (String.ofList value)) :: scanAttrs n (k :: seen) rest
          else [.bad]

/-- A start tag or an empty tag, without its brackets. -/
def scanTag (cs : List Char) : Tok :=
  let go (cs : List Char) : String × List RAttr :=
    (String.ofList (cs.takeWhile (!xmlSpace ·)), scanAttrs cs.length [] (cs.dropWhile (!xmlSpace ·)))
  match cs.reverse with
  | '/' :: rev => .empty (go rev.reverse).1 (go rev.reverse).2
  | _ => .start (go cs).1 (go cs).2

/-- What begins with `<!`: a comment, character data or a document type. Simplified: a document type has no `>` inside. -/
def scanBang : List Char → Option (Tok × List Char)
  | '-' :: '-' :: cs => (commentEnd cs).map fun (a, rest) => (.comment (String.ofList a), rest)
  | '[' :: 'C' :: 'D' :: 'A' :: 'T' :: 'A' :: '[' :: cs => (cdataEnd cs).map fun (a, rest) => (.cdata (String.ofList a), rest)
  | cs => (upTo '>' cs).map fun (_, rest) => (.other, rest)

/-- The first piece of XML, and what follows. Text goes up to the next `<`. Simplified: a processing instruction has no `>` inside. -/
def scanOne : List Char → Option (Tok × List Char)
  | '<' :: '/' :: cs => (upTo '>' cs).map fun (a, rest) => (.endTag (String.ofList (trimRight a)), rest)
  | '<' :: '!' :: cs => scanBang cs
  | '<' :: '?' :: cs => (upTo '>' cs).map fun (_, rest) => (.other, rest)
  | '<' :: cs => (tagEnd none cs).map fun (a, rest) => (scanTag a, rest)
  | cs => some (.text (String.ofList (cs.takeWhile (· != '<'))), cs.dropWhile (· != '<'))

/-- Cut characters into pieces. After an error there is nothing more. The fuel is the number of characters. -/
def scan : Nat → List Char → List Tok
  | 0, _ => []
  | _ + 1, [] => []
  | n + 1, c :: cs => match scanOne (c :: cs) with
    | some (t, rest) => t :: scan n rest
    | none => [.error]

/-! ### Namespaces -/

/-- The namespaces that a tag declares: prefix (empty for the default namespace) and name. -/
def declaredNs (as : List RAttr) : List (String × String) := as.filterMap fun
  | .ok k v => match k.toList with
    | ['x', 'm', 'l', 'n', 's'] => some ("", v)
    | 'x' :: 'm' :: 'l' :: 'n' :: 's' :: ':' :: p => some (String.ofList p, v)
    | _ => none
  | .bad => none

/-- The prefix of a name (empty if it has none) and the rest. -/
def splitName (name : String) : String × String :=
  match upTo ':' name.toList with
  | some (p, n) => (String.ofList p, String.ofList n)
  | none => ("", name)

/-- The namespace that a prefix stands for: the innermost declaration counts. `scopes` are the declarations of the open tags, innermost first. -/
def nsOf (scopes : List (List (String × String))) (pre : String) : Ns :=
  match scopes.flatten.find? (·.1 == pre) with
  | some (_, uri) => if uri = NSFOLIA then .folia else if uri = "" then .none else .other
  | none => .none

/-- `read_namespaced_event`: the namespaces of tags are resolved. -/
def resolveNs : List (List (String × String)) → List Tok → List REvent
  | _, [] => []
  | sc, .start n as :: rest =>
    .start (nsOf (declaredNs as :: sc) (splitName n).1) (splitName n).2 as :: resolveNs (declaredNs as :: sc) rest
  | sc, .empty n as :: rest => .empty (nsOf (declaredNs as :: sc) (splitName n).1) (splitName n).2 as :: resolveNs sc rest
  | sc, .endTag n :: rest => .endTag (nsOf sc (splitName n).1) (splitName n).2 :: resolveNs sc.tail rest
  | sc, .text s :: rest => .text s :: resolveNs sc rest
  | sc, .cdata s :: rest => .cdata s :: resolveNs sc rest
  | sc, .comment s :: rest => .comment s :: resolveNs sc rest
  | sc, .other :: rest => .other :: resolveNs sc rest
  | sc, .error :: rest => .error :: resolveNs sc rest

/-- What the reader yields for characters, before the check of end tags (see `checkEnds`). -/
def readXml (cs : List Char) : List REvent := resolveNs [] (scan cs.length cs)

end Folia
