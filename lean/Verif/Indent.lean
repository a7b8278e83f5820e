import Verif.Serialiser
/-! Pretty-printing: the indentation that quick-xml's writer adds (`Writer::new_with_indent`, quick-xml 0.22, a dependency that is not in `/repo`,
so this file belongs to the trusted base), and the serialisers with their `indent` parameter. -/
namespace Folia

/-- The writer begins a new line and indents it: `\n` and `len` blanks. -/
def lineBreak (len : Nat) : WEvent := .text ("\n" ++ String.ofList (List.replicate len ' '))

/-- What precedes a tag or a comment: a line break, unless the event before it was text or there is none. -/
def breakBefore (brk : Bool) (len : Nat) : List WEvent := if brk then [lineBreak len] else []

/-- quick-xml's writer with an indentation of `n` blanks: `brk` is its flag `should_line_break`, `len` the length of its current indentation.
Line breaks are written as text. A start tag makes the indentation grow, an end tag makes it shrink, before its own line break. -/
def indentFrom (n : Nat) : Bool → Nat → List WEvent → List WEvent
  | _, _, [] => []
  | brk, len, .start t as :: rest => breakBefore brk len ++ .start t as :: indentFrom n true (len + n) rest
  | brk, len, .endTag t :: rest => breakBefore brk (len - n) ++ .endTag t :: indentFrom n true (len - n) rest
  | brk, len, .empty t as :: rest => breakBefore brk len ++ .empty t as :: indentFrom n true len rest
  | brk, len, .comment s :: rest => breakBefore brk len ++ .comment s :: indentFrom n true len rest
  | _, len, .text s :: rest => .text s :: indentFrom n false len rest

/-- The writer that is chosen by the parameter `indent` (src/serialiser.rs:33-36, src/element.rs:443-446). -/
def indented (n : Nat) (evs : List WEvent) : List WEvent :=
  match n with
  | 0 => evs
  | n => indentFrom n false 0 evs

/-- `Document::xml` with its parameter `indent` (src/serialiser.rs:32-55). -/
def Document.xmlIndented (X : Ext) (d : Document) (F : Nat) (root : Nat) (indent : Nat) : Res (List WEvent) :=
  (d.xml X F root).map (indented indent)

/-- `Element::xml` with its parameter `indent` (src/element.rs:438-453). -/
def elementXmlIndented (X : Ext) (d : Document) (F : Nat) (e : ElementData) (indent : Nat) : Res (List WEvent) :=
  (elementXml X d F e).map (indented indent)

end Folia
