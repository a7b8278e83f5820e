import Verif.Lemmas.Single
import Verif.Props.Tree
import Verif.Props.Declarations
/-! C09, C13, C22 and C52: what added elements report. -/
namespace Folia
open Document

/-- `b` is `e` itself or one of its pending children, at any depth. -/
inductive PartOf (b : ElementData) : ElementData → Prop
  | self : PartOf b b
  | child {e c : ElementData} : .addElement c ∈ e.data → PartOf b c → PartOf b e

theorem items_mem {d0 d : Document} {par : Option Nat} {c : ElementData} : ∀ {data ys : List Data}, .addElement c ∈ data → MaterialisedItems d0 d par ys data →
    ∃ j, Materialised d0 d par j c
  | [], _, h, _ => by cases h
  | .addElement e :: rest, ys, h, hm => by
    simp only [MaterialisedItems] at hm
    obtain ⟨j, ys', _, h1, h2⟩ := hm
    rcases List.mem_cons.mp h with h | h
    · cases h; exact ⟨j, h1⟩
    · exact items_mem h h2
  | .text s :: rest, ys, h, hm => by
    simp only [MaterialisedItems] at hm
    obtain ⟨ys', _, h2⟩ := hm
    exact items_mem ((List.mem_cons.mp h).resolve_left nofun) h2
  | .comment s :: rest, ys, h, hm => by
    simp only [MaterialisedItems] at hm
    obtain ⟨ys', _, h2⟩ := hm
    exact items_mem ((List.mem_cons.mp h).resolve_left nofun) h2
  | .element s :: rest, ys, h, hm => by simp only [MaterialisedItems] at hm
  | .spanReference s :: rest, ys, h, hm => by simp only [MaterialisedItems] at hm

theorem Materialised.part {d0 d : Document} {b e : ElementData} (hb : PartOf b e) : ∀ {par : Option Nat} {k : Nat}, Materialised d0 d par k e →
    ∃ j x, d0.getElement j = none ∧ d.getElement j = some x ∧ ReadsBack d0 d x b := by
  induction hb with
  | self =>
    intro par k h
    obtain ⟨x, _, _, h1, h2, _, h3, _⟩ := (materialised_eq ..).mp h
    exact ⟨k, x, h1, h2, h3⟩
  | child hm _ ih =>
    intro par k h
    obtain ⟨x, ys, _, h1, h2, _, h3, _, _, h4⟩ := (materialised_eq ..).mp h
    obtain ⟨j, hj⟩ := items_mem hm h4
    exact ih hj

/-! ### C09 Encoding preserves set, class and processor -/

/-- The element added for a builder reports the builder's set, class and processor, and keeps the other attributes in order. So do all
elements added for its pending children. -/
theorem C09_reads_back {X : Ext} {F : Nat} {d d' : Document} (hr : CleanReachable X F d) {p k : Nat} {e : ElementData}
    (hp : (d.getElement p).isSome) (hn : d.NewBuilder e) (h : addElementTo F p e d = (.ok k, d')) :
    (∃ x, d'.getElement k = some x ∧ ReadsBack d d' x e) ∧
    ∀ b, PartOf b e → ∃ j x, d.getElement j = none ∧ d'.getElement j = some x ∧ ReadsBack d d' x b := by
  have ht := (C18_builder_tree hr hp hn h).tree
  obtain ⟨x, _, _, _, h2, _, h3, _⟩ := (materialised_eq ..).mp ht
  exact ⟨⟨x, h2, h3⟩, fun b hb => ht.part hb⟩

/-- The same for `annotate`. -/
theorem C09_annotate_reads_back {X : Ext} {F : Nat} {d d' : Document} (hr : CleanReachable X F d) {p k : Nat} {e : ElementData}
    (hn : d.NewBuilder e) (h : annotate F p e d = (.ok k, d')) : ∃ x, d'.getElement k = some x ∧ ReadsBack d d' x e := by
  obtain ⟨d1, layer, h1, h2⟩ := annotate_planted hr.cinv hn.1 hn.2 h
  obtain ⟨x, _, _, _, h3, _, h4, _⟩ := (materialised_eq ..).mp h2.spec.tree
  refine ⟨x, h3, ?_⟩
  rcases h1 with rfl | ⟨holder, lt, set, lk, h1⟩
  · exact h4
  · exact ⟨h4.type, h4.declared, h4.set, h4.cls, h4.feature, fun id p hp hk => h4.processor id p hp (by unfold processorKeyById; rw [h1.procs]; exact hk), h4.others,
      h4.unclassed, h4.unsubset, h4.undeclared, h4.uncredited⟩

/-- An annotation without a set is resolved to the declaration that `declare` gives for its type without a set (see C07), and reports the
set of that declaration. -/
theorem C09_default_set {X : Ext} {F : Nat} {d d' : Document} (hr : CleanReachable X F d) {p k : Nat} {e : ElementData} {t : AnnotationType}
    (hp : (d.getElement p).isSome) (hn : d.NewBuilder e) (hz : builderSizeList e.data = 0) (ht : e.elementtype.annotationtype = some t)
    (hen : ∃ a ∈ e.attribs, a.encodable = true) (hs : e.set = .ok none) (h : addElementTo F p e d = (.ok k, d')) :
    ∃ x dk dec, d'.getElement k = some x ∧ (declare t none none none d).1 = .ok dk ∧ x.declarationKeyU = .ok (some dk) ∧
      d'.getDeclaration dk = some dec ∧ dec.annotationtype = t ∧ x.getSet d' = .ok dec.set := by
  obtain ⟨pe, hpe⟩ := Option.isSome_iff_exists.mp hp
  obtain ⟨e', d1, x, h1, h2, h3, h4, _⟩ := single_ok ⟨pe, hpe⟩ hn.2 hz h
  have hen' : e.encodable = true := by
    obtain ⟨a, h5, h6⟩ := hen
    unfold ElementData.encodable
    exact List.any_eq_true.mpr ⟨a, h5, h6⟩
  have hca : CleanAttribs e.attribs := by have := hn.1; cases e; simp only [CleanBuilder] at this; exact this.1
  obtain ⟨s, dk, h5, h6, h7⟩ := encode_declared ht hen' hca h1
  rw [hs] at h5; cases h5
  rcases h4 with h4 | ⟨_, h4⟩
  · obtain ⟨⟨x', hx', hb⟩, _⟩ := C09_reads_back hr hp hn h
    rw [h2] at hx'; cases hx'
    obtain ⟨dec, h8, h9⟩ := hb.declared t ht hen'
    have h10 := h7 x h4
    refine ⟨x, dk, dec, h2, h6, h10, ?_, h9, ?_⟩
    · unfold ElementData.getDeclaration at h8
      rw [h10] at h8
      injection h8
    · unfold ElementData.getSet
      rw [h8]
      rfl
  · rw [hen'] at h4; cases h4

/-- A class, an explicit set and a processor. -/
example : CleanReachable Sample.X Sample.F Sample.doc ∧ Sample.doc.NewBuilder (Sample.pos.setAttrib (.processor "p1")) ∧
    (Sample.doc.getElement 4).isSome ∧ (addElementTo Sample.F 4 (Sample.pos.setAttrib (.processor "p1")) Sample.doc).1 = .ok 12 ∧
    (annotate Sample.F 4 (Sample.pos.setAttrib (.processor "p1")) Sample.doc).1 = .ok 12 :=
  ⟨Sample.doc_clean, by decide +kernel, by decide +kernel, by decide +kernel, by decide +kernel⟩

/-- A class without a set. -/
example : Sample.doc.NewBuilder ((ElementData.new .posAnnotation).setAttrib (.cls "NN")) ∧
    ((ElementData.new .posAnnotation).setAttrib (.cls "NN")).set = .ok none ∧
    (addElementTo Sample.F 4 ((ElementData.new .posAnnotation).setAttrib (.cls "NN")) Sample.doc).1 = .ok 12 :=
  ⟨by decide +kernel, by decide +kernel, by decide +kernel⟩

/-! ### C52 Post-processing a layer only adds its set -/

/-- Builders whose attributes are kept: everything but layers without a set. Missing for the full claim: a layer without a set loses all
its attributes when the set of its spans is found, see the counterexample. -/
theorem C52_attributes_kept_partial {X : Ext} {F : Nat} {d d' : Document} (hr : CleanReachable X F d) {p k : Nat} {e : ElementData}
    (hp : (d.getElement p).isSome) (hn : d.NewBuilder e) (hl : ElementGroup.layer.contains e.elementtype = true → ∃ a ∈ e.attribs, a.encodable = true)
    (h : addElementTo F p e d = (.ok k, d')) :
    ∃ x, d'.getElement k = some x ∧ x.attribs.filter (!·.decodable) = e.attribs.filter (!·.encodable) := by
  obtain ⟨⟨x, h1, h2⟩, _⟩ := C09_reads_back hr hp hn h
  refine ⟨x, h1, ?_⟩
  rcases h2.others with h3 | ⟨h3, h4, _⟩
  · exact h3
  · obtain ⟨a, h5, h6⟩ := hl h3
    unfold ElementData.encodable at h4
    rw [List.any_eq_true.mpr ⟨a, h5, h6⟩] at h4
    cases h4

example : Sample.fresh.NewBuilder (((ElementData.new .chunkingLayer).setAttrib (.id "l")).setAttrib (.set "chunks")) ∧
    (addElementTo Sample.F 0 (((ElementData.new .chunkingLayer).setAttrib (.id "l")).setAttrib (.set "chunks")) Sample.fresh).1 = .ok 1 :=
  ⟨by decide +kernel, by decide +kernel⟩

/-- A layer with an identifier but without a set is added together with a chunk: the layer loses its identifier, although the index still
knows it. -/
theorem C52_counterexample : ∃ e : ElementData, Sample.fresh.NewBuilder e ∧ ElementGroup.layer.contains e.elementtype = true ∧ e.id = some "l" ∧
    (addElementTo Sample.F 0 e Sample.fresh).1 = .ok 2 ∧ (addElementTo Sample.F 0 e Sample.fresh).2.elementKeyById "l" = some 2 ∧
    ((addElementTo Sample.F 0 e Sample.fresh).2.getElement 2).map (·.id) = some none := by
  refine ⟨((ElementData.new .chunkingLayer).setAttrib (.id "l")).addElement ((ElementData.new .chunk).setAttrib (.set "chunks")),
    by decide +kernel, by decide +kernel, by decide +kernel, by decide +kernel, by decide +kernel, by decide +kernel⟩

/-! ### C22 A failing mutation leaves the document unchanged -/

/-- Failing calls of `attach_element` and `detach_element`, and calls of `annotate` that fail validation, change nothing.

Missing for the full claim: `add_element_to` and `annotate` can fail after they have added elements, see the counterexamples. -/
theorem C22_failure_unchanged_partial (F : Nat) (d : Document) :
    (∀ p c f, (attachElement p c d).1 = .error f → (attachElement p c d).2 = d) ∧
    (∀ c f, (detachElement c d).1 = .error f → (detachElement c d).2 = d) ∧
    (∀ p e, d.getElement p = none → (annotate F p e d).2 = d) ∧
    (∀ p pe (e : ElementData), d.getElement p = some pe → ElementGroup.span.contains e.elementtype = false → ¬ Accepts pe.elementtype e.elementtype →
      (annotate F p e d).2 = d) := by
  refine ⟨fun p c f h => ?_, fun c f h => ?_, fun p e h => by rw [C19_unknown_parent F e h], fun p pe e h1 h2 h3 => by rw [C19_rejected F h1 h2 h3]⟩
  · cases hp : d.getElement p with
    | none => rw [attach_unknown (Or.inl hp)]
    | some pe =>
      cases hc : d.getElement c with
      | none => rw [attach_unknown (Or.inr hc)]
      | some ce => rw [attach_run hp hc] at h; cases h
  · cases hc : d.getElement c with
    | none => exact detach_unknown hc
    | some ce => rw [detach_run hc] at h; cases h

example : (attachElement 0 40 Sample.doc).1.isOk = false ∧ (detachElement 40 Sample.doc).1.isOk = false := by decide +kernel

/-- `add_element_to` with an unknown parent reports an error but leaves the new element in the document. -/
theorem C22_unknown_parent_counterexample : ∃ e, (addElementTo Sample.F 40 e Sample.fresh).1 = .error (.err .internal) ∧
    Sample.fresh.getElement 1 = none ∧ ((addElementTo Sample.F 40 e Sample.fresh).2.getElement 1).isSome :=
  ⟨ElementData.new .sentence, by decide +kernel, by decide +kernel, by decide +kernel⟩

/-- `annotate` with a word reference to an unknown identifier reports an error but leaves the layer and the span in the document. -/
theorem C22_annotate_counterexample : ∃ e, (annotate Sample.F 5 e Sample.doc).1 = .error (.err .parse) ∧
    Sample.doc.getElement 12 = none ∧ ((annotate Sample.F 5 e Sample.doc).2.getElement 12).isSome :=
  ⟨Sample.chunk.withSpan ["w1", "nowhere"], by decide +kernel, by decide +kernel, by decide +kernel⟩

/-! ### C13 Features keep their subset and class -/

/-- A feature added under an annotation reports its subset and class, unless the stores of the declaration are full. -/
theorem C13_feature_reads_back {X : Ext} {F : Nat} {d d' : Document} (hr : CleanReachable X F d) {p k : Nat} {e : ElementData} {s c : String}
    (hp : (d.getElement p).isSome) (hn : d.NewBuilder e) (ht : e.elementtype = .feature) (hs : e.subset = .ok (some s)) (hc : e.cls = .ok (some c))
    (h : addElementTo F p e d = (.ok k, d')) : ∃ x, d'.getElement k = some x ∧
      ((x.getSubset d' = .ok (some s) ∧ x.getClass d' = .ok (some c)) ∨ ∃ dec, x.getDeclaration d' = .ok (some dec) ∧
        ((∃ st, dec.subsets = some st ∧ 65536 ≤ st.len) ∨ ∃ st, dec.subclasses = some st ∧ 4294967296 ≤ st.len)) := by
  obtain ⟨⟨x, h1, h2⟩, _⟩ := C09_reads_back hr hp hn h
  exact ⟨x, h1, h2.feature s c ht hs hc⟩

/-- The feature builder of the examples. -/
def Sample.feature : ElementData := ((ElementData.new .feature).setAttrib (.subset "number")).setAttrib (.cls "plural")

example : Sample.doc.NewBuilder Sample.feature ∧ (addElementTo Sample.F 6 Sample.feature Sample.doc).1 = .ok 12 ∧
    Sample.feature.subset = .ok (some "number") ∧ Sample.feature.cls = .ok (some "plural") :=
  ⟨by decide +kernel, by decide +kernel, by decide +kernel, by decide +kernel⟩

end Folia
