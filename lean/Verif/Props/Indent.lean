import Verif.Lemmas.Indent
import Verif.Samples
/-! C65: indentation makes no difference for reading. -/
namespace Folia
open Document

/-- An event is text. -/
def isChars : WEvent → Bool
  | .text _ => true
  | _ => false

/-- The character data of some events. -/
def chars (evs : List WEvent) : String := String.join (evs.filterMap fun
  | .text s => some s
  | _ => none)

theorem indentFrom_markup (n : Nat) : ∀ (evs : List WEvent) (brk : Bool) (len : Nat), (indentFrom n brk len evs).filter (!isChars ·) = evs.filter (!isChars ·)
  | [], _, _ => rfl
  | ev :: evs, brk, len => by
    have hb : ∀ (b : Bool) (l : Nat), (breakBefore b l).filter (!isChars ·) = [] := fun b l => by cases b <;> rfl
    have hc : ∀ (l : List WEvent) (c : WEvent), isChars c = false → (c :: l).filter (!isChars ·) = c :: l.filter (!isChars ·) := fun l c h =>
      List.filter_cons_of_pos (by rw [h]; rfl)
    cases ev with
    | text s =>
      have ht : ∀ l : List WEvent, (WEvent.text s :: l).filter (!isChars ·) = l.filter (!isChars ·) := fun l => List.filter_cons_of_neg (by simp [isChars])
      rw [indentFrom, ht, ht, indentFrom_markup n evs]
    | _ => rw [indentFrom, List.filter_append, hb, List.nil_append, hc _ _ rfl, hc _ _ rfl, indentFrom_markup n evs]

theorem indentFrom_sublist (n : Nat) : ∀ (evs : List WEvent) (brk : Bool) (len : Nat), evs.Sublist (indentFrom n brk len evs)
  | [], _, _ => .slnil
  | ev :: evs, brk, len => by
    cases ev with
    | text s => exact (indentFrom_sublist n evs _ _).cons_cons _
    | _ => exact ((indentFrom_sublist n evs _ _).cons_cons _).trans (List.sublist_append_right ..)

/-- Whatever document is written, with whatever indentation: what is read back is the same as without indentation, be it a document or a failure. -/
theorem C65_same_document {X : Ext} {d : Document} {G root n : Nat} {evs evs' : List WEvent} (h : d.xml X G root = .ok evs)
    (h' : d.xmlIndented X G root n = .ok evs') (F : Nat) (ps : DocumentProperties) :
    Document.parse X F ps (checkEnds [] (readBack evs')) = Document.parse X F ps (checkEnds [] (readBack evs)) := by
  unfold Document.xmlIndented at h'
  rw [h] at h'
  cases h'
  cases n with
  | zero => rfl
  | succ n => exact padded_parse (padded_check (padded_indent (n + 1) (metaClean_xml h) false 0 "" false nofun) [])

/-- Writing with indentation fails exactly if writing without fails. It writes the same tags, attributes and comments in the same order, and all the
text in between. -/
theorem C65_markup (X : Ext) (d : Document) (G root n : Nat) :
    (∀ f, d.xmlIndented X G root n = .error f ↔ d.xml X G root = .error f) ∧
    ∀ evs', d.xmlIndented X G root n = .ok evs' → ∃ evs, d.xml X G root = .ok evs ∧
      evs'.filter (!isChars ·) = evs.filter (!isChars ·) ∧ evs.Sublist evs' := by
  unfold Document.xmlIndented
  cases d.xml X G root with
  | error f => exact ⟨fun _ => Iff.rfl, nofun⟩
  | ok evs =>
    refine ⟨fun _ => ⟨nofun, nofun⟩, fun evs' h => ⟨evs, rfl, ?_⟩⟩
    cases h
    cases n with
    | zero => exact ⟨rfl, .refl _⟩
    | succ n => exact ⟨indentFrom_markup _ _ _ _, indentFrom_sublist _ _ _ _⟩

/-- A word of which two parts are marked up. -/
def Sample.styled : Document := runOps Sample.F [.addElementTo 0 (((ElementData.new .word).setAttrib (.id "w1")).addElement
  (((ElementData.new .textContent).addElement ((ElementData.new .textMarkupStyle).push (.text "con"))).addElement
    ((ElementData.new .textMarkupStyle).push (.text "cat"))))] Sample.fresh

/-- What is written for that word. -/
def Sample.styledXml (n : Nat) : Option (List WEvent) := match Sample.styled.getElement 4 with
  | some e => (elementXmlIndented Sample.X Sample.styled 60 e n).toOption
  | none => none

example : Sample.styledXml 0 = some [.start "w" [("xml:id", "w1")], .text "\n", .start "t" [], .start "t-style" [], .text "con", .endTag "t-style",
      .start "t-style" [], .text "cat", .endTag "t-style", .endTag "t", .endTag "w"] ∧
    Sample.styledXml 2 = some [.start "w" [("xml:id", "w1")], .text "\n", .start "t" [], .text "\n    ", .start "t-style" [], .text "con", .endTag "t-style",
      .text "\n    ", .start "t-style" [], .text "cat", .endTag "t-style", .text "\n  ", .endTag "t", .text "\n", .endTag "w"] := by
  decide +kernel

/-- A reader that takes the character data of a text content as it stands, as XML has it, sees another text after indentation: line breaks are put
around the parts that are marked up. (This library drops blank text when it reads, so that it is not affected, see `C65_same_document`.) -/
theorem C65_text_counterexample : ∃ d e, Reachable Sample.X Sample.F d ∧ d.getElement 3 = some e ∧ e.elementtype = .textContent ∧
    (elementXmlIndented Sample.X d 60 e 0).toOption.map chars = some "concat" ∧
    (elementXmlIndented Sample.X d 60 e 2).toOption.map chars = some "\n  con\n  cat\n" := by
  have h : (Sample.styled.getElement 3).map (fun e => (decide (e.elementtype = .textContent), (elementXmlIndented Sample.X Sample.styled 60 e 0).toOption.map chars,
      (elementXmlIndented Sample.X Sample.styled 60 e 2).toOption.map chars)) = some (true, some "concat", some "\n  con\n  cat\n") := by decide +kernel
  cases he : Sample.styled.getElement 3 with
  | none => rw [he] at h; cases h
  | some e =>
    rw [he] at h
    have h := Option.some.inj h
    exact ⟨Sample.styled, e, Sample.reachable_ops _ (.new Sample.fresh_eq), he, of_decide_eq_true (congrArg (·.1) h), congrArg (·.2.1) h, congrArg (·.2.2) h⟩

end Folia
