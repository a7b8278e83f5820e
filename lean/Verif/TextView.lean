import Verif.Text
/-! Specification vocabulary for text extraction: what it means that the text of an element is made up of the texts of its parts. Nothing
here is used by the model. -/
namespace Folia

/-- Asking the text of the element returns `s`, for some set, class and strictness. -/
def TextIs (d : Document) (retain : Bool) (e : ElementData) (s : String) : Prop :=
  ∃ set cls strict F, textByKey d set cls retain strict F e none = .ok s

/-- Asking the text of the element returns an error. -/
def TextFails (d : Document) (retain : Bool) (e : ElementData) : Prop :=
  ∃ set cls strict F k, textByKey d set cls retain strict F e none = .error (.err k)

/-- Asking the text delimiter of the element returns `s`. -/
def DelimiterIs (d : Document) (retain : Bool) (e : ElementData) (s : String) : Prop :=
  ∃ F, textDelimiter d retain F e = .ok s

/-- The types whose elements are parts of the text of their parent: structure elements, corrections and span annotations. -/
def TextPart (t : ElementType) : Prop :=
  ElementGroup.structural.contains t = true ∨ t = .correction ∨ ElementGroup.span.contains t = true

instance (t : ElementType) : Decidable (TextPart t) := by unfold TextPart; infer_instance

/-- The element that a data item of an element stands for when the text of that element is put together, if any: a child that is a part
of the text, or what a word reference refers to. -/
inductive StandsFor (d : Document) : Data → Option ElementData → Prop
  | child {k c} : d.getElement k = some c → TextPart c.elementtype → StandsFor d (.element k) (some c)
  | reference {k c o} : d.getElement k = some c → c.elementtype = .wordReference → c.resolve d = .ok o → StandsFor d (.element k) o
  | unrelated {k c} : d.getElement k = some c → ¬ TextPart c.elementtype → c.elementtype ≠ .wordReference →
      StandsFor d (.element k) none
  | missing {k} : d.getElement k = none → StandsFor d (.element k) none
  | text {s} : StandsFor d (.text s) none
  | comment {s} : StandsFor d (.comment s) none
  | span {k} : StandsFor d (.spanReference k) none
  | pending {e} : StandsFor d (.addElement e) none

/-- A part of a text: the element it is from, its text, and its delimiter. -/
structure Part where
  source : ElementData
  text : String
  delimiter : String

/-- The parts of the text of an element with the given data: all elements that its data items stand for and that have text, in order. -/
inductive Parts (d : Document) (retain : Bool) : List Data → List Part → Prop
  | nil : Parts d retain [] []
  | none {x xs ps} : StandsFor d x none → Parts d retain xs ps → Parts d retain (x :: xs) ps
  | silent {x xs ps c} : StandsFor d x (some c) → TextFails d retain c → Parts d retain xs ps → Parts d retain (x :: xs) ps
  | part {x xs ps c s t} : StandsFor d x (some c) → TextIs d retain c s → DelimiterIs d retain c t → Parts d retain xs ps →
      Parts d retain (x :: xs) (⟨c, s, t⟩ :: ps)

/-- Parts one after the other, each separated from the next by its own delimiter. There is no delimiter before a part that is a text
container (which only a word reference to a text content or to text markup gives). -/
def joined : List Part → String
  | [] => ""
  | [p] => p.text
  | p :: q :: ps => p.text ++ (if (props q.source.elementtype).textcontainer then "" else p.delimiter) ++ joined (q :: ps)

/-- The last text content among the data. -/
def LastContent (d : Document) (data : List Data) (c : ElementData) : Prop :=
  ∃ pre k post, data = pre ++ .element k :: post ∧ d.getElement k = some c ∧ c.elementtype = .textContent ∧
    ∀ j c', .element j ∈ post → d.getElement j = some c' → c'.elementtype ≠ .textContent

/-- There is no text content among the data. -/
def NoContent (d : Document) (data : List Data) : Prop :=
  ∀ j c, .element j ∈ data → d.getElement j = some c → c.elementtype ≠ .textContent

/-- The element is not a text container and can have text. -/
structure Speaks (e : ElementData) : Prop where
  plain : (props e.elementtype).textcontainer = false
  printable : (props e.elementtype).printable = true
  visible : (props e.elementtype).hidden = false

/-- The text of a text container: its data items one after the other. Beginning with `text`, reading the data gives the last argument.
Child elements that are printable contribute their own text, after the delimiter of their type if there is text before them. -/
inductive Inline (d : Document) (retain : Bool) : String → List Data → String → Prop
  | nil {text} : Inline d retain text [] text
  | text {text s rest res} : Inline d retain (text ++ s) rest res → Inline d retain text (.text s :: rest) res
  | markup {text k c s rest res} : d.getElement k = some c → (props c.elementtype).printable = true → TextIs d retain c s →
      Inline d retain ((if text = "" then "" else match (props c.elementtype).textdelimiter with
        | some td => text ++ td
        | none => text) ++ s) rest res → Inline d retain text (.element k :: rest) res
  | silent {text k c rest res} : d.getElement k = some c → (props c.elementtype).printable = false → Inline d retain text rest res →
      Inline d retain text (.element k :: rest) res
  | missing {text k rest res} : d.getElement k = none → Inline d retain text rest res → Inline d retain text (.element k :: rest) res
  | comment {text s rest res} : Inline d retain text rest res → Inline d retain text (.comment s :: rest) res
  | span {text k rest res} : Inline d retain text rest res → Inline d retain text (.spanReference k :: rest) res
  | pending {text e rest res} : Inline d retain text rest res → Inline d retain text (.addElement e :: rest) res

end Folia
