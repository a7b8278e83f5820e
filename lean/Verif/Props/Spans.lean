import Verif.Lemmas.Spans
import Verif.Decide
/-! C21: word references and the references back to spans. -/
namespace Folia
open Document

/-! ### C21 Word references create back references to the span -/

/-- After adding a span, each element refers to it as often as the span's word references refer to that element, and each of these word
references refers to an element. -/
theorem C21_back_references {X : Ext} {F : Nat} {d d' : Document} (hr : CleanReachable X F d) {p k : Nat} {e : ElementData}
    (hp : (d.getElement p).isSome) (hn : d.NewBuilder e) (hs : ElementGroup.span.contains e.elementtype = true)
    (h : addElementTo F p e d = (.ok k, d')) :
    (∀ j y, d'.getElement j = some y → spanRefs k y.data = wordRefs d' j e.data) ∧
    ∀ w, .addElement w ∈ e.data → w.elementtype = .wordReference →
      ∃ id t y, refersTo w = some id ∧ d'.elementKeyById id = some t ∧ d'.getElement t = some y ∧ .spanReference k ∈ y.data := by
  obtain ⟨pe, hpe⟩ := Option.isSome_iff_exists.mp hp
  exact back_references hr.cinv ⟨pe, hpe⟩ hn.1 hn.2 hs h

/-- The same for `annotate`. -/
theorem C21_annotate_back_references {X : Ext} {F : Nat} {d d' : Document} (hr : CleanReachable X F d) {p k : Nat} {e : ElementData}
    (hn : d.NewBuilder e) (hs : ElementGroup.span.contains e.elementtype = true) (h : annotate F p e d = (.ok k, d')) :
    (∀ j y, d'.getElement j = some y → spanRefs k y.data = wordRefs d' j e.data) ∧
    ∀ w, .addElement w ∈ e.data → w.elementtype = .wordReference →
      ∃ id t y, refersTo w = some id ∧ d'.elementKeyById id = some t ∧ d'.getElement t = some y ∧ .spanReference k ∈ y.data := by
  obtain ⟨d1, layer, h1, h2⟩ := annotate_adds h
  obtain ⟨pe, hpe, _⟩ := checkElementAddable_ok h2.accepted
  obtain ⟨hi1, hf1⟩ := layer_fresh hr.cinv hn.2 h1
  exact back_references hi1 ⟨pe, hpe⟩ hn.1 hf1 hs h2.run

/-- The same for `annotate_span`. -/
theorem C21_annotate_span_back_references {X : Ext} {F : Nat} {d d' : Document} (hr : CleanReachable X F d) {k : Nat} {e : ElementData}
    (hn : d.NewBuilder e) (h : annotateSpan F e d = (.ok k, d')) :
    (∀ j y, d'.getElement j = some y → spanRefs k y.data = wordRefs d' j e.data) ∧
    ∀ w, .addElement w ∈ e.data → w.elementtype = .wordReference →
      ∃ id t y, refersTo w = some id ∧ d'.elementKeyById id = some t ∧ d'.getElement t = some y ∧ .spanReference k ∈ y.data := by
  obtain ⟨hs, w, ws, _, hk⟩ := annotateSpan_ok h
  exact C21_annotate_back_references hr hn hs hk

/-- A word reference to an identifier that is neither in the document nor in the builder makes the call fail. -/
theorem C21_unknown_reference {X : Ext} {F : Nat} {d : Document} (hr : CleanReachable X F d) {p : Nat} {e w : ElementData} {id : String}
    (hp : (d.getElement p).isSome) (hn : d.NewBuilder e) (hs : ElementGroup.span.contains e.elementtype = true)
    (hw : .addElement w ∈ e.data) (ht : w.elementtype = .wordReference) (hid : refersTo w = some id) (hu : d.elementKeyById id = none)
    (hb : id ∉ builderIds e) (k : Nat) : (addElementTo F p e d).1 ≠ .ok k := by
  intro h
  obtain ⟨pe, hpe⟩ := Option.isSome_iff_exists.mp hp
  have h : addElementTo F p e d = (.ok k, (addElementTo F p e d).2) := Prod.ext h rfl
  obtain ⟨id', t, _, h1, h2, _⟩ := (C21_back_references hr hp hn hs h).2 w hw ht
  rw [hid] at h1; cases h1
  rcases (planted hr.cinv ⟨pe, hpe⟩ hn.1 hn.2 h).index id t h2 with h3 | h3
  · have : d.elementKeyById id = some t := h3
    rw [hu] at this; cases this
  · exact hb h3

example : Sample.doc.NewBuilder Sample.chunk ∧ (addElementTo Sample.F 8 Sample.chunk Sample.doc).1 = .ok 14 ∧
    ElementGroup.span.contains Sample.chunk.elementtype = true ∧ (annotate Sample.F 5 Sample.chunk Sample.doc).1 = .ok 14 ∧
    (annotateSpan Sample.F Sample.chunk Sample.doc).1.isOk = true ∧ wordRefs Sample.doc 2 Sample.chunk.data = 1 :=
  ⟨by decide +kernel, by decide +kernel, by decide +kernel, by decide +kernel, by decide +kernel, by decide +kernel⟩

example : Sample.doc.NewBuilder (Sample.chunk.withSpan ["nowhere"]) ∧ Sample.doc.elementKeyById "nowhere" = none ∧
    "nowhere" ∉ builderIds (Sample.chunk.withSpan ["nowhere"]) :=
  ⟨by decide +kernel, by decide +kernel, by decide +kernel⟩

end Folia
