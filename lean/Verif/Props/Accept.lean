import Verif.Lemmas.AcceptChecks
import Verif.Props.RoundBody
/-! C70: a document can always be written, and what was written can be read. -/
namespace Folia
open Document

/-- A consistent document is always written, as one text. -/
theorem C70_written {X : Ext} {F : Nat} {d : Document} (hr : Consistent X F d) : ∃ N evs, ∀ G, N ≤ G → d.xml X G 0 = .ok evs := by
  obtain ⟨N1, m, hm⟩ := metadata_total hr.clean hr.prov
  obtain ⟨A, _, e, items, _, N2, hN2⟩ := C36_document (X := X) hr.clean hr.forest hr.body
  exact ⟨max N1 N2, _, fun G hG => hN2 G (by omega) m (hm G (by omega))⟩

example : Consistent Sample.X Sample.F Sample.doc := Sample.doc_consistent

/-- What was written is accepted by the parser, whatever the fuel, as long as there is enough.

Missing for the full claim: the body must have contents and be a text or a speech. Processors have no dates; text and comments are legible and
attributes printable, as in `C45_tree_partial`. References to words come after the words, and are inside of spans; features with a
declaration are directly inside of elements whose type has an annotation type. There must be room for a declaration without set for each
annotation type. -/
theorem C70_accepted_partial {X : Ext} {F : Nat} {ps : DocumentProperties} {d : Document} (hr : Consistent X F d) (hu : NoDates d) (hps : ps.processor = none)
    (hfit : DeclarationsFit ps d) {G : Nat} {evs : List WEvent} (hxml : d.xml X G 0 = .ok evs) {e : ElementData} {items : List Item} (hb : Below d 0 e items)
    (hne : items ≠ []) (ht : e.elementtype = .text ∨ e.elementtype = .speech) (hl : LegibleIn (.node 0 e items))
    (hp : ∀ e', InTree e' (.node 0 e items) → Printable X e') (hread : Readable [] [] (.node 0 e items)) :
    ∃ N d', ∀ F', N ≤ F' → Document.parse X F' ps (checkEnds [] (readBack evs)) = .ok d' :=
  round_accepted hr.clean hr.forest hr.prov hu hxml hps hfit hb hne ht hl hp hread

/-- Writing and reading gives a document with the same body: the same elements, texts and comments in the same order and nesting, each element
with the same type, identifier, class, subset and other attributes.

Missing for the full claim: what `C70_accepted_partial` and `C45_tree_partial` say. -/
theorem C70_round_partial {X : Ext} {F : Nat} {ps : DocumentProperties} {d : Document} (hr : Consistent X F d) (hu : NoDates d) (hps : ps.processor = none)
    (hfit : DeclarationsFit ps d) {e : ElementData} {items : List Item} (hb : Below d 0 e items)
    (hne : items ≠ []) (ht : e.elementtype = .text ∨ e.elementtype = .speech) (hl : LegibleIn (.node 0 e items))
    (hw : ∀ e', InTree e' (.node 0 e items) → Rewritable X d e') (hread : Readable [] [] (.node 0 e items)) :
    ∃ N d', (∀ F', N ≤ F' → Rereads X F' ps d d') ∧ (RoomLeft d' →
      Matches (SameContent d d') d' none 0 (.node 0 e items) ∧ d'.elements.len = nodeCount (.node 0 e items)) := by
  obtain ⟨N1, evs, hxml⟩ := C70_written hr
  obtain ⟨N2, d', hacc⟩ := C70_accepted_partial hr hu hps hfit (hxml N1 (Nat.le_refl _)) hb hne ht hl (fun e' he' => (hw e' he').printable) hread
  have hre : ∀ F', N2 ≤ F' → Rereads X F' ps d d' := fun F' hF => ⟨N1, evs, hxml N1 (Nat.le_refl _), hacc F' hF⟩
  exact ⟨N2, d', hre, fun hroom => C45_tree_partial hr hps (hre N2 (Nat.le_refl _)) hb hl hw hroom⟩

/-- The hypotheses are met by a document with a span over two words and a feature. -/
example : Consistent Sample.X Sample.F Sample.doc ∧ NoDates Sample.doc ∧ DeclarationsFit {} Sample.doc ∧
    ∃ e items, Below Sample.doc 0 e items ∧ items ≠ [] ∧ (e.elementtype = .text ∨ e.elementtype = .speech) ∧ LegibleIn (.node 0 e items) ∧
      (∀ e', InTree e' (.node 0 e items) → Rewritable Sample.X Sample.doc e') ∧ Readable [] [] (.node 0 e items) := by
  refine ⟨Sample.doc_consistent, Sample.doc_nodates, by unfold DeclarationsFit; decide +kernel, ?_⟩
  obtain ⟨e, items, h1, h2, h3⟩ := bodyOk_sound (X := Sample.X) (d := Sample.doc) (n := 20) (by decide +kernel)
  obtain ⟨h4, h5, h6⟩ := bodyReadable_sound (n := 20) (by decide +kernel) h1
  exact ⟨e, items, h1, h5, h6, h2, h3, h4⟩

/-- Two sentences, with a chunk in the first one over the word of the second one. -/
def Sample.ahead : List Op := [
  .addElementTo 0 (((ElementData.new .sentence).setAttrib (.id "s1")).addElement (Sample.word "w1" "Hello")),
  .addElementTo 0 (((ElementData.new .sentence).setAttrib (.id "s2")).addElement (Sample.word "w2" "world")),
  .addElementTo 3 ((ElementData.new .chunkingLayer).addElement
    ((((ElementData.new .chunk).setAttrib (.set "chunks")).setAttrib (.cls "NP")).withSpan ["w2"]))]

/-- A span that refers to a later word is written, and the result is rejected. -/
theorem C70_ahead_counterexample : ∃ d evs, Consistent Sample.X Sample.F d ∧ NoDates d ∧ DeclarationsFit {} d ∧
    (∃ e items, Below d 0 e items ∧ LegibleIn (.node 0 e items) ∧ ∀ e', InTree e' (.node 0 e items) → Rewritable Sample.X d e') ∧
    (d.getElement 8).map (fun e => (e.elementtype, e.parent)) = some (.chunk, some 9) ∧
    d.xml Sample.X 100 0 = .ok evs ∧ Document.parse Sample.X Sample.F {} (checkEnds [] (readBack evs)) = .error (.err .parse) := by
  let d := runOps Sample.F Sample.ahead Sample.fresh
  exact ⟨d, Sample.value (d.xml Sample.X 100 0), Sample.consistent (by decide +kernel), noDates_of_check (by decide +kernel), by unfold DeclarationsFit; decide +kernel,
    bodyOk_sound (n := 20) (by decide +kernel), by decide +kernel, Sample.value_eq (by decide +kernel), Sample.parseError_eq (by decide +kernel)⟩

end Folia
