import Verif.Lemmas.Neat
import Verif.Props.Accept
import Verif.Props.Indent
/-! C76: what is written is read back, character by character. -/
namespace Folia
open Document

theorem xml_inside {X : Ext} {F : Nat} {d : Document} (hr : CleanReachable X F d) (hf : d.Forest) (hb : d.Live 0) {G : Nat} {evs : List WEvent}
    (h : d.xml X G 0 = .ok evs) : ∃ rest, evs = .start "FoLiA" (rootAttributes d) :: rest ∧ Inside 0 rest ∧ AllNeat rest := by
  obtain ⟨m, b, h1, h2, h3, h4, rfl⟩ := neat_xml h
  refine ⟨_, rfl, ?_, ?_⟩
  · obtain ⟨e, he⟩ := hb
    obtain ⟨A, _, items, _, N, hN⟩ := C36_exact (X := X) hr hf he (.inr rfl)
    have h5 := fuelled_mono (f := fun n => xmlElements X d n 0) (xmlElements_next X d 0) h2 (by simp) (Nat.le_max_left G N)
    rw [hN _ (Nat.le_max_right G N)] at h5
    cases h5
    refine inside_of_nesting "FoLiA" (st := []) ?_
    have := (((Balanced.text "\n").append (xmlMetadata_balanced h1)).append (itemXml_balanced A true (.node 0 e items))).append (.text "\n")
    exact this []
  · exact ((AllNeat.cons neat_nl h3).append h4 |>.append allNeat_nl).append (.cons (tagName_ok (by decide +kernel)) .nil)

/-- The characters of a document, with or without indentation, are cut by the reader into exactly the events that were written, all tags in the
namespace of FoLiA. In particular no identifier, class, text, comment or other value can be mistaken for markup. -/
theorem C76_characters {X : Ext} {F : Nat} {d : Document} (hr : CleanReachable X F d) (hf : d.Forest) (hb : d.Live 0) {G n : Nat} {evs : List WEvent}
    (h : d.xmlIndented X G 0 n = .ok evs) : readXml (render evs) = readBack evs := by
  unfold Document.xmlIndented at h
  obtain ⟨evs0, h0, rfl⟩ := map_ok h
  obtain ⟨rest, rfl, h1, h2⟩ := xml_inside hr hf hb h0
  cases n with
  | zero => exact readXml_written h1 h2
  | succ n => exact readXml_written (inside_indent (n + 1) h1 true (0 + (n + 1))) (neat_indent (n + 1) h2 true (0 + (n + 1)))

example : CleanReachable Sample.X Sample.F Sample.doc ∧ Sample.doc.Forest ∧ Sample.doc.Live 0 ∧ (Sample.doc.xmlIndented Sample.X 60 0 2).toOption.isSome = true :=
  ⟨Sample.doc_consistent.clean, Sample.doc_consistent.forest, Sample.doc_consistent.body, by decide +kernel⟩

/-- Hence parsing the characters of a document gives what the properties about round trips say about its events. -/
theorem C76_parsed {X : Ext} {F : Nat} {d : Document} (hr : Consistent X F d) {G n : Nat} {evs evs' : List WEvent} (h : d.xml X G 0 = .ok evs)
    (h' : d.xmlIndented X G 0 n = .ok evs') (F' : Nat) (ps : DocumentProperties) :
    Document.parse X F' ps (checkEnds [] (readXml (render evs'))) = Document.parse X F' ps (checkEnds [] (readBack evs)) := by
  rw [C76_characters hr.clean hr.forest hr.body h', C65_same_document h h']

/-- Two documents that are written as the same characters were written as the same events. -/
theorem C76_unambiguous {X : Ext} {F : Nat} {d d' : Document} (hr : Consistent X F d) (hr' : Consistent X F d') {G n : Nat} {evs evs' : List WEvent}
    (h : d.xmlIndented X G 0 n = .ok evs) (h' : d'.xmlIndented X G 0 n = .ok evs') (he : render evs = render evs') : readBack evs = readBack evs' := by
  rw [← C76_characters hr.clean hr.forest hr.body h, ← C76_characters hr'.clean hr'.forest hr'.body h', he]

/-- The value of an attribute for a reader that follows the XML recommendation (section 3.3.3): white space that is written literally stands for a
blank. quick-xml does not do this. -/
def conformingValue (raw : String) : Option String := unescape (String.ofList (raw.toList.map fun c => if xmlSpace c then ' ' else c))

def Sample.lines : Document := Sample.value (Document.new "a\nb" {})

/-- Line feeds in attributes are written literally. folia-rust reads them back, but other XML readers do not. -/
theorem C76_newline_counterexample : Document.new "a\nb" {} = .ok Sample.lines ∧ Sample.lines.id = "a\nb" ∧
    ∃ as evs raw, Sample.lines.xml Sample.X 60 0 = .ok (.start "FoLiA" as :: evs) ∧ ("xml:id", raw) ∈ as ∧ unescape raw = some Sample.lines.id ∧
      conformingValue raw = some "a b" := by
  refine ⟨Sample.value_eq (by decide +kernel), by decide +kernel, rootAttributes Sample.lines, (Sample.value (Sample.lines.xml Sample.X 60 0)).tail, escape Sample.lines.id,
    ?_, by simp [rootAttributes, wattr], C38_unescape_escape _, by decide +kernel⟩
  decide +kernel

/-- The tags in a piece of XML, with their namespaces. -/
def tagsOf (evs : List REvent) : List (Ns × String) := evs.filterMap fun
  | .start ns t _ => some (ns, t)
  | .empty ns t _ => some (ns, t)
  | _ => none

/-- An element that is written on its own, by `Element::xml`, has no namespace. -/
theorem C76_fragment_counterexample : (Sample.doc.getElement 2).map (fun e => (elementXml Sample.X Sample.doc 60 e).toOption.map fun evs =>
    (tagsOf (readXml (render evs))).map Prod.fst |>.eraseDups) = some (some [.none]) := by
  decide +kernel

/-- Two hyphens in a comment, which XML does not allow, are written as they are. -/
theorem C76_hyphens_counterexample : (WEvent.comment (escape "a--b")).chars = "<!--a--b-->".toList ∧ readXml "<!--a--b-->".toList = [.comment "a--b"] := by
  decide +kernel

end Folia
