import Verif.Lemmas.Layers
import Verif.Props.Builders
/-! C20: span annotations share their layer. -/
namespace Folia
open Document

/-- The set that a span annotation is for: its own, or the one set declared for its type. -/
def SpanSet (d : Document) (e : ElementData) (t : AnnotationType) (s : String) : Prop :=
  e.set = .ok (some s) ∨ (e.set = .ok none ∧ d.getDefaultSet t = some s)

theorem spanSet_eq {d : Document} {e : ElementData} {t : AnnotationType} {s : String} (h : SpanSet d e t s) : d.spanSet e t = .ok s := by
  unfold spanSet
  rcases h with h | ⟨h, h'⟩ <;> rw [h]
  · rfl
  · show okOr .incomplete (d.getDefaultSet t) = _
    rw [h']; rfl

theorem layerFor_new {d d1 : Document} {p l : Nat} {lt : ElementType} {a : AnnotationType} {s : String} (ha : lt.annotationtype = some a)
    (h : AddedTo d d1 p l { elementtype := lt, attribs := [.set s] }) : LayerFor d1 lt s l := by
  obtain ⟨x, _, _, _, h3, _, h4, _⟩ := (materialised_eq ..).mp h.tree
  obtain ⟨dec, g1, g2⟩ := h4.declared a ha rfl
  refine ⟨x, dec, h3, h4.type, g1, by rw [g2]; exact ha, ?_⟩
  have := h4.set s (.inl (by show lt.annotationtype.isSome = true; rw [ha]; rfl)) rfl
  unfold ElementData.getSet at this
  rw [g1] at this
  injection this

/-- Being a layer does not change. -/
theorem layerFor_mono {d d' : Document} (hi : CInv d) (hd : DeclMono d d') {l : Nat} {e e' : ElementData} (h : d.getElement l = some e)
    (h' : d'.getElement l = some e') (ht : e'.elementtype = e.elementtype) (ha : e'.attribs = e.attribs) (lt : ElementType) (s : String) :
    LayerFor d lt s l ↔ LayerFor d' lt s l := by
  obtain ⟨plain, enc, g1, g2, g3⟩ := (hi.elem l e h).refs
  have v := (values_of_refs (d := d) g1 g2).1
  have v' := (values_of_refs (d := d') (e := e') (by rw [ha]; exact g1) g2).1
  constructor
  · rintro ⟨f, dec, i1, i2, i3, i4, i5⟩
    rw [h] at i1; cases i1
    rw [v] at i3; injection i3 with i3
    obtain ⟨dk, j1, j2⟩ := Option.bind_eq_some_iff.mp i3
    obtain ⟨dec', j3, j4⟩ := hd dk dec j2
    exact ⟨e', dec', h', ht.trans i2, by rw [v', j1]; exact congrArg Except.ok j3, by rw [i4, j4.type], j4.set.trans i5⟩
  · rintro ⟨f, dec, i1, i2, i3, i4, i5⟩
    rw [h'] at i1; cases i1
    rw [v'] at i3; injection i3 with i3
    obtain ⟨dk, j1, j2⟩ := Option.bind_eq_some_iff.mp i3
    obtain ⟨dec0, j0⟩ := g3.dec dk j1
    obtain ⟨dec', j3, j4⟩ := hd dk dec0 j0
    rw [j2] at j3; cases j3
    exact ⟨e, dec0, h, ht.symm.trans i2, by rw [v, j1]; exact congrArg Except.ok j0, by rw [i4, j4.type], j4.set.symm.trans i5⟩

theorem annotate_layer {d : Document} (hi : CInv d) {p : Nat} {pe e : ElementData}
    (hp : d.getElement p = some pe) (hw : (props pe.elementtype).wrefable = false) (hst : ElementGroup.structural.contains pe.elementtype = true)
    (hsp : ElementGroup.span.contains e.elementtype = true) {t : AnnotationType} {lt : ElementType} (ht : e.elementtype.annotationtype = some t)
    (hlt : t.layertype = some lt) {s : String} (hs : SpanSet d e t s) (hn : d.NewBuilder e) :
    ∃ N, ∀ G, N ≤ G → ∀ k d', annotate G p e d = (.ok k, d') → ∃ d1 l, Planted d1 d' l k e ∧ CInv d1 ∧
      ((d1 = d ∧ FirstSuch (LayerFor d lt s) (pe.data.filterMap dataKey) (some l)) ∨
       (FirstSuch (LayerFor d lt s) (pe.data.filterMap dataKey) none ∧ Planted d d1 p l { elementtype := lt, attribs := [.set s] } ∧
        LayerFor d1 lt s l ∧ ∃ pe1, d1.getElement p = some pe1 ∧ pe1.data = pe.data ++ [.element l])) := by
  obtain ⟨hl, _, a, ha⟩ := layertype_typed t lt hlt
  obtain ⟨N, o, h1, h2⟩ := layer_first hi hp hlt s
  refine ⟨N, fun G hG k d' h => ?_⟩
  obtain ⟨pe', hpe', h | h | ⟨_, t', lt', set, g1, g2, g3, h | h⟩⟩ := annotate_ok h
  · rw [hsp] at h; cases h.1
  · rw [hp] at hpe'; cases hpe'
    rw [hst] at h; cases h.2.2.1
  · rw [ht] at g1; cases g1
    rw [hlt] at g2; cases g2
    rw [spanSet_eq hs] at g3; cases g3
    obtain ⟨d1, l, i1, i2⟩ := addToLayer_ok h.2.2
    rw [h1 G hG] at i1
    rcases i1 with ⟨rfl, i1⟩ | ⟨i1, i3⟩
    · cases i1
      exact ⟨d1, l, i2.planted hi hn.1 hn.2, hi, .inl ⟨rfl, h2⟩⟩
    · cases i1
      obtain ⟨hlc, hli⟩ := layerBuilder_clean lt (some s)
      have hfr : d.FreshIds (builderIds (layerBuilder lt (some s))) := by rw [hli]; exact ⟨List.nodup_nil, by simp⟩
      have hp1 := i3.planted hi hlc hfr
      obtain ⟨hi1, hf1⟩ := layer_fresh hi hn.2 (.inr ⟨_, _, _, _, i3⟩)
      have hp1' : Planted d d1 p l { elementtype := lt, attribs := [.set s] } := by
        have := hp1
        rw [layerBuilder_eq] at this
        exact this
      refine ⟨d1, l, i2.planted hi1 hn.1 hf1, hi1, .inr ⟨h2, hp1', layerFor_new ha hp1'.spec, ?_⟩⟩
      refine single_data hp hfr ?_ ?_ ?_ i3.run
      · rw [layerBuilder_eq]; rfl
      · rw [layerBuilder_eq]; rintro rfl; exact absurd hl (by decide)
      · rw [layerBuilder_eq]
  · rw [hp] at hpe'; cases hpe'
    rw [hw] at h; cases h.1

/-- Annotating from an element that holds layers: the span annotation is added to the first layer of its type and set, or, if there is none,
to a new layer of this type and set. `G` bounds the rounds of the iterator.

Missing for the full claim: annotating from a word, where no layer is ever found, see the counterexample. -/
theorem C20_layer_partial {X : Ext} {F : Nat} {d : Document} (hr : CleanReachable X F d) {p : Nat} {pe e : ElementData}
    (hp : d.getElement p = some pe) (hw : (props pe.elementtype).wrefable = false) (hst : ElementGroup.structural.contains pe.elementtype = true)
    (hsp : ElementGroup.span.contains e.elementtype = true) {t : AnnotationType} {lt : ElementType} (ht : e.elementtype.annotationtype = some t)
    (hlt : t.layertype = some lt) {s : String} (hs : SpanSet d e t s) (hn : d.NewBuilder e) :
    ∃ N, ∀ G, N ≤ G → ∀ k d', annotate G p e d = (.ok k, d') →
      (∃ l, FirstSuch (LayerFor d lt s) (pe.data.filterMap dataKey) (some l) ∧ AddedTo d d' l k e) ∨
      (FirstSuch (LayerFor d lt s) (pe.data.filterMap dataKey) none ∧ ∃ d1 l, AddedTo d d1 p l { elementtype := lt, attribs := [.set s] } ∧
        LayerFor d1 lt s l ∧ AddedTo d1 d' l k e) := by
  obtain ⟨N, h⟩ := annotate_layer hr.cinv hp hw hst hsp ht hlt hs hn
  refine ⟨N, fun G hG k d' hk => ?_⟩
  obtain ⟨d1, l, h1, _, ⟨rfl, h2⟩ | ⟨h2, h3, h4, _⟩⟩ := h G hG k d' hk
  · exact .inl ⟨l, h2, h1.spec⟩
  · exact .inr ⟨h2, d1, l, h3.spec, h4, h1.spec⟩

/-- Two span annotations of the same type and set that are made from the same element end up in the same layer. -/
theorem C20_same_layer_partial {X : Ext} {F : Nat} {d : Document} (hr : CleanReachable X F d) {p : Nat} {pe e1 e2 : ElementData}
    (hp : d.getElement p = some pe) (hw : (props pe.elementtype).wrefable = false) (hst : ElementGroup.structural.contains pe.elementtype = true)
    (hsp1 : ElementGroup.span.contains e1.elementtype = true) (hsp2 : ElementGroup.span.contains e2.elementtype = true)
    {t : AnnotationType} {lt : ElementType} (ht1 : e1.elementtype.annotationtype = some t) (ht2 : e2.elementtype.annotationtype = some t)
    (hlt : t.layertype = some lt) {s : String} (hs1 : SpanSet d e1 t s) (hn1 : d.NewBuilder e1) :
    ∃ N1, ∀ G1, N1 ≤ G1 → ∀ k1 d1, annotate G1 p e1 d = (.ok k1, d1) → SpanSet d1 e2 t s → d1.NewBuilder e2 →
      ∃ N2, ∀ G2, N2 ≤ G2 → ∀ k2 d2, annotate G2 p e2 d1 = (.ok k2, d2) →
        ∃ l, LayerFor d1 lt s l ∧ (d2.getElement k1).map (·.parent) = some (some l) ∧ (d2.getElement k2).map (·.parent) = some (some l) ∧
          d2.elements.len = d1.elements.len + builderSize e2 := by
  obtain ⟨hl, _, a, ha⟩ := layertype_typed t lt hlt
  have hsl : ∀ t, ElementGroup.layer.contains t = true → ElementGroup.structural.contains t = true → False := by
    intro t h1 h2
    have : ∀ t ∈ ElementType.all, ElementGroup.layer.contains t = true → ElementGroup.structural.contains t = false := by decide +kernel
    rw [this t (ElementType.mem_all t) h1] at h2; cases h2
  obtain ⟨N1, h1⟩ := annotate_layer hr.cinv hp hw hst hsp1 ht1 hlt hs1 hn1
  refine ⟨N1, fun G1 hG1 k1 d1 hk1 hs2 hn2 => ?_⟩
  obtain ⟨d0, l, hpl, hi0, hcase⟩ := h1 G1 hG1 k1 d1 hk1
  obtain ⟨hi1, hdm1⟩ := hpl.steps.clean hi0
  -- before the second step `l` is the first layer below `p`
  obtain ⟨pe0, hp0, hpt0, hfirst0⟩ : ∃ pe0, d0.getElement p = some pe0 ∧ pe0.elementtype = pe.elementtype ∧
      FirstSuch (LayerFor d0 lt s) (pe0.data.filterMap dataKey) (some l) := by
    rcases hcase with ⟨rfl, hf⟩ | ⟨hf, hpl0, hlf, pe0, hp0, hd0⟩
    · exact ⟨pe, hp, rfl, hf⟩
    · obtain ⟨_, hdm0⟩ := hpl0.steps.clean hr.cinv
      obtain ⟨pe', pe'', _, _, i1, i2, i3, _⟩ := hpl0.spec.parent
      rw [hp] at i1; cases i1
      rw [hp0] at i2; cases i2
      refine ⟨pe0, hp0, i3, ?_⟩
      rw [hd0, List.filterMap_append]
      refine FirstSuch.snoc (hf.congr fun x hx => ?_) hlf []
      obtain ⟨i, hi, hix⟩ := List.mem_filterMap.mp hx
      obtain ⟨f, hf⟩ : ∃ f, d.getElement x = some f := by
        have := (hr.cinv.elem p pe hp).data i hi
        cases i <;> cases hix <;> first | exact this | exact this.imp fun _ h => h.1
      obtain ⟨f', hf', e1, e2⟩ : ∃ f', d0.getElement x = some f' ∧ f'.elementtype = f.elementtype ∧ f'.attribs = f.attribs := by
        by_cases hxp : x = p
        · subst hxp
          obtain ⟨pa, pb, _, _, j1, j2, j3, _, _, j4, _⟩ := hpl0.spec.parent
          rw [hf] at j1; cases j1
          exact ⟨pb, j2, j3, j4⟩
        · obtain ⟨f', j1, j2⟩ := hpl0.spec.others x f hf hxp
          exact ⟨f', j1, j2.type, j2.attribs⟩
      exact layerFor_mono hr.cinv hdm0 hf hf' e1 e2 lt s
  have hlf0 : LayerFor d0 lt s l := by cases hfirst0 with | some _ h _ => exact h
  have hpl_ne : p ≠ l := by
    rintro rfl
    obtain ⟨f, _, j1, j2, _⟩ := hlf0
    rw [hp0] at j1; cases j1
    exact hsl pe0.elementtype (by rw [j2]; exact hl) (by rw [hpt0]; exact hst)
  obtain ⟨pe1, hp1, hg1⟩ := hpl.spec.others p pe0 hp0 hpl_ne
  obtain ⟨refs, hrefs⟩ := hg1.data
  have hmono : ∀ x f, d0.getElement x = some f → (LayerFor d0 lt s x ↔ LayerFor d1 lt s x) := by
    intro x f hf
    obtain ⟨f', hf', e1, e2⟩ : ∃ f', d1.getElement x = some f' ∧ f'.elementtype = f.elementtype ∧ f'.attribs = f.attribs := by
      by_cases hxp : x = l
      · subst hxp
        obtain ⟨pa, pb, _, _, j1, j2, j3, _, _, j4, _⟩ := hpl.spec.parent
        rw [hf] at j1; cases j1
        exact ⟨pb, j2, j3, j4⟩
      · obtain ⟨f', j1, j2⟩ := hpl.spec.others x f hf hxp
        exact ⟨f', j1, j2.type, j2.attribs⟩
    exact layerFor_mono hi0 hdm1 hf hf' e1 e2 lt s
  have hfirst1 : FirstSuch (LayerFor d1 lt s) (pe1.data.filterMap dataKey) (some l) := by
    rw [hrefs, List.filterMap_append]
    refine FirstSuch.append (hfirst0.congr fun x hx => ?_) _
    obtain ⟨i, hi, hix⟩ := List.mem_filterMap.mp hx
    obtain ⟨f, hf⟩ : ∃ f, d0.getElement x = some f := by
      have := (hi0.elem p pe0 hp0).data i hi
      cases i <;> cases hix <;> first | exact this | exact this.imp fun _ h => h.1
    exact hmono x f hf
  obtain ⟨N2, h2⟩ := annotate_layer hi1 hp1 (by rw [hg1.type, hpt0]; exact hw) (by rw [hg1.type, hpt0]; exact hst) hsp2 ht2 hlt hs2 hn2
  refine ⟨N2, fun G2 hG2 k2 d2 hk2 => ⟨l, ?_, ?_⟩⟩
  · have ⟨f, _, j1, _⟩ := hlf0
    exact (hmono l f j1).mp hlf0
  obtain ⟨d1', l', hpl2, _, ⟨rfl, hf2⟩ | ⟨hf2, _⟩⟩ := h2 G2 hG2 k2 d2 hk2
  · have hll : l' = l := Option.some.inj (hf2.unique hfirst1)
    rw [hll] at hpl2
    obtain ⟨x1, _, _, j0, j1, j2, _⟩ := (materialised_eq ..).mp hpl.spec.tree
    obtain ⟨x2, _, _, _, j3, j4, _⟩ := (materialised_eq ..).mp hpl2.spec.tree
    refine ⟨?_, by rw [j3]; exact congrArg some j4, hpl2.spec.count⟩
    obtain ⟨x1', j5, j6⟩ : ∃ x', d2.getElement k1 = some x' ∧ x'.parent = x1.parent := by
      by_cases hkl : k1 = l
      · obtain ⟨f, _, i1, _⟩ := hlf0
        rw [← hkl, j0] at i1; cases i1
      · obtain ⟨x', j5, j6⟩ := hpl2.spec.others k1 x1 j1 hkl
        exact ⟨x', j5, j6.parent⟩
    rw [j5]
    exact congrArg some (j6.trans j2)
  · have := hfirst1.unique hf2; cases this

/-- The sentence of the sample document has a layer for chunks of the set "chunks"; a chunk annotated from the sentence joins it. -/
example : CleanReachable Sample.X Sample.F Sample.doc ∧ (Sample.doc.getElement 5).map (·.elementtype) = some .sentence ∧
    (props .sentence).wrefable = false ∧ ElementGroup.structural.contains .sentence = true ∧ SpanSet Sample.doc Sample.chunk .CHUNKING "chunks" ∧
    Sample.doc.NewBuilder Sample.chunk ∧ (annotate Sample.F 5 Sample.chunk Sample.doc).1 = .ok 14 ∧
    ((annotate Sample.F 5 Sample.chunk Sample.doc).2.getElement 14).map (·.parent) = some (some 8) :=
  ⟨Sample.doc_clean, by decide +kernel, by decide +kernel, by decide +kernel, .inl (by decide +kernel), by decide +kernel, by decide +kernel,
    by decide +kernel⟩

/-- A chunk annotated from a word of the sentence: the layer 8 of the sentence is for the set of the chunk, but a second layer for this set is
made below the same sentence. -/
theorem C20_word_counterexample : SpanSet Sample.doc Sample.chunk .CHUNKING "chunks" ∧
    (Sample.doc.getElement 5).map (fun e => e.data.filterMap dataKey) = some [2, 4, 8] ∧
    (Sample.doc.getElement 8).map (fun e => (e.elementtype, e.getSet Sample.doc)) = some (.chunkingLayer, .ok (some "chunks")) ∧
    (annotate Sample.F 2 Sample.chunk Sample.doc).1 = .ok 15 ∧ (annotateSpan Sample.F Sample.chunk Sample.doc).1 = .ok 15 ∧
    ((annotate Sample.F 2 Sample.chunk Sample.doc).2.getElement 15).map (·.parent) = some (some 12) ∧
    ((annotate Sample.F 2 Sample.chunk Sample.doc).2.getElement 12).map (fun e => (e.elementtype, e.parent,
      e.getSet (annotate Sample.F 2 Sample.chunk Sample.doc).2)) = some (.chunkingLayer, some 5, .ok (some "chunks")) ∧
    ((annotateSpan Sample.F Sample.chunk Sample.doc).2.getElement 15).map (·.parent) = some (some 12) :=
  ⟨.inl (by decide +kernel), by decide +kernel, by decide +kernel, by decide +kernel, by decide +kernel, by decide +kernel, by decide +kernel, by decide +kernel⟩

end Folia
