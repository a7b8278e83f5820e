import Verif.Lemmas.TextFrame
import Verif.Lemmas.Layers
import Verif.Props.Tree
/-! C78: annotating does not change texts. -/
namespace Folia
open Document

/-- No word reference in the document already refers to one of these identifiers. -/
def NotAwaited (d : Document) (ids : List String) : Prop :=
  ∀ j x i, d.getElement j = some x → x.elementtype = .wordReference → x.idref = some i → i ∉ ids

/-- Every element of `d` has the same text in `d'`, or fails to have text in the same way, for all parameters. -/
def SameTexts (d d' : Document) : Prop := ∀ j x, d.getElement j = some x →
  ∀ G set cls set' cls' strict retain, d'.textByKey G j set' cls' strict retain = d.textByKey G j set cls strict retain

theorem sim_texts {d d' : Document} (h : TextSim (Both d d') d d') (hf : ∀ j x, d.getElement j = some x → ∃ x', d'.getElement j = some x') : SameTexts d d' := by
  intro j x hj G set cls set' cls' strict retain
  obtain ⟨x', hj'⟩ := hf j x hj
  simp only [Document.textByKey, hj, hj']
  exact h.text set cls set' cls' retain G strict none ⟨j, hj, hj'⟩

theorem Planted.forth {d d' : Document} {p k : Nat} {e : ElementData} (h : Planted d d' p k e) (j : Nat) (x : ElementData) (hj : d.getElement j = some x) :
    ∃ x', d'.getElement j = some x' := by
  obtain ⟨x', hx', _⟩ := h.steps.element_forward j x hj
  exact ⟨x', hx'⟩

/-- Adding an element, with everything below it, changes no text if the parent cannot have text, or if the parent is no text container and
the new element is neither structure, correction, span annotation, word reference nor text content.

Missing for the full claim: no text delimiter may be taken from the parent; see `C78_delimiter_counterexample`. No word reference may
already refer to an identifier of the new elements; see `C78_awaited_counterexample`. -/
theorem C78_added_partial {X : Ext} {F : Nat} {d d' : Document} (hr : CleanReachable X F d) {p k : Nat} {e pe : ElementData} (hpe : d.getElement p = some pe)
    (hn : d.NewBuilder e) (h : addElementTo F p e d = (.ok k, d')) (hw : NotAwaited d (builderIds e))
    (h1 : Heard pe.elementtype → Inert e.elementtype ∧ (props pe.elementtype).textcontainer = false)
    (h2 : (props pe.elementtype).textdelimiter = none → ∀ j x, d.getElement j = some x → Heard x.elementtype → ¬ TakesDelimiter d j p) : SameTexts d d' := by
  have hpl := planted hr.cinv ⟨pe, hpe⟩ hn.1 hn.2 h
  exact sim_texts (added_sim hr.cinv hpl hpe hw h1 h2) hpl.forth

/-- The type is a layer, or holds alternatives: its elements have no text. -/
def Aside (t : ElementType) : Prop := ElementGroup.layer.contains t = true ∨ t = .alternative ∨ t = .alternativeLayers

instance (t : ElementType) : Decidable (Aside t) := by unfold Aside; infer_instance
instance (t : ElementType) : Decidable (Heard t) := by unfold Heard; infer_instance
instance (t : ElementType) : Decidable (Inert t) := by unfold Inert; infer_instance

/-- No element with text takes its delimiter from a layer or alternative. -/
def LayersDelimitNothing (d : Document) : Prop := ∀ j x y ye, d.getElement j = some x → Heard x.elementtype → TakesDelimiter d j y →
  d.getElement y = some ye → ¬ Aside ye.elementtype

theorem aside_unheard (t : ElementType) (h : Aside t) : ¬ Heard t ∧ Inert t := by
  have : ∀ t ∈ ElementType.all, Aside t → ¬ Heard t ∧ Inert t := by decide +kernel
  exact this t (ElementType.mem_all t) h

theorem structural_speaks (t : ElementType) (h : ElementGroup.structural.contains t = true) :
    (props t).textcontainer = false ∧ (props t).textdelimiter ≠ none := by
  have : ∀ t ∈ ElementType.all, ElementGroup.structural.contains t = true → (props t).textcontainer = false ∧ (props t).textdelimiter ≠ none := by decide +kernel
  exact this t (ElementType.mem_all t) h

theorem holder_types (t lt : ElementType) (hl : ElementGroup.layer.contains lt = true) (h : holdsLayer t lt = true) :
    (props t).textcontainer = false ∧ ((props t).textdelimiter = none → Aside t) := by
  have : ∀ t ∈ ElementType.all, ∀ lt ∈ ElementType.all, ElementGroup.layer.contains lt = true → holdsLayer t lt = true →
      (props t).textcontainer = false ∧ ((props t).textdelimiter = none → Aside t) := by decide +kernel
  exact this t (ElementType.mem_all t) lt (ElementType.mem_all lt) hl h

/-- After adding to `p`, delimiters are taken from the same elements as before unless they were taken from `p`. -/
theorem takes_planted {d d' : Document} (hi : CInv d) {p k : Nat} {e pe : ElementData} (hpl : Planted d d' p k e) (hpe : d.getElement p = some pe) {j y : Nat}
    (h : TakesDelimiter d' j y) : (∃ x, d.getElement j = some x) →
    (TakesDelimiter d j y ∧ ∃ x, d.getElement y = some x) ∨ ((props pe.elementtype).textdelimiter = none ∧ TakesDelimiter d j p) := by
  induction h with
  | refl => exact fun hj => .inl ⟨.refl, hj⟩
  | @last j e' c y hj ht hl _ ih =>
    rintro ⟨x, hx⟩
    by_cases hjp : j = p
    · subst hjp
      rw [hx] at hpe; cases hpe
      obtain ⟨_, pe', _, _, a1, a2, a3, _⟩ := hpl.spec.parent
      rw [hx] at a1; cases a1
      rw [hj] at a2; cases a2
      exact .inr ⟨by rw [← a3]; exact ht, .refl⟩
    · obtain ⟨x', b1, b2⟩ := hpl.spec.others j x hx hjp
      rw [hj] at b1; cases b1
      obtain ⟨refs, hd⟩ := b2.data
      rw [hd] at hl
      have hl := hl.unrefs
      rw [b2.type] at ht
      have hc := (hi.elem j x hx).data _ hl.mem
      rcases ih hc with ⟨h1, h2⟩ | ⟨h1, h2⟩
      · exact .inl ⟨.last hx ht hl h1, h2⟩
      · exact .inr ⟨h1, .last hx ht hl h2⟩

theorem SameTexts.trans {a b c : Document} (h : SameTexts a b) (h' : SameTexts b c) (hf : ∀ j x, a.getElement j = some x → ∃ x', b.getElement j = some x') :
    SameTexts a c := by
  intro j x hj G set cls set' cls' strict retain
  obtain ⟨x', hx'⟩ := hf j x hj
  rw [h' j x' hx' G set cls set' cls' strict retain, h j x hj G set cls set cls strict retain]

theorem texts_layer {F : Nat} {d d' : Document} (hi : CInv d) (hfill : Filled d) {lookup holder k : Nat} {t : AnnotationType} {lt : ElementType} {s : String} {e he le : ElementData}
    (hlt : t.layertype = some lt) (hc : CleanBuilder e) (hf : d.FreshIds (builderIds e)) (hw : NotAwaited d (builderIds e)) (hq : LayersDelimitNothing d)
    (hl : d.getElement lookup = some le) (hh : d.getElement holder = some he)
    (htypes : (props he.elementtype).textcontainer = false ∧ ((props he.elementtype).textdelimiter = none → Aside he.elementtype))
    (hN : ∃ o, getLayerKey d F lookup t (some s) = .ok o ∧ FirstSuch (LayerFor d lt s) (le.data.filterMap dataKey) o)
    (h : addToLayer F lookup holder t lt (some s) e d = (.ok k, d')) : SameTexts d d' := by
  obtain ⟨d1, layer, h1, h2⟩ := addToLayer_ok h
  have hlay := (layertype_typed t lt hlt).1
  have haside : Aside lt := .inl hlay
  rcases h1 with ⟨rfl, h1⟩ | ⟨_, h1⟩
  · obtain ⟨o, h3, h4⟩ := hN
    rw [h3] at h1
    cases h1
    have hfor : LayerFor d1 lt s layer := by
      cases h4 with
      | some _ h _ => exact h
    obtain ⟨x, _, hx, hxt, _⟩ := hfor
    have hpl := h2.planted hi hc hf
    refine sim_texts (added_sim hi hpl hx hw (fun hh => ?_) fun _ j y hj hy ht => ?_) hpl.forth
    · rw [hxt] at hh
      exact absurd hh (aside_unheard lt haside).1
    · exact hq j y layer x hj hy ht hx (by rw [hxt]; exact haside)
  · obtain ⟨hlc, hli⟩ := layerBuilder_clean lt (some s)
    have hp1 := h1.planted hi hlc (by rw [hli]; exact ⟨List.nodup_nil, by simp⟩)
    have hi1 := (hp1.steps.clean hi).1
    have hbt : (layerBuilder lt (some s)).elementtype = lt := by rw [layerBuilder_eq]
    have hs1 : SameTexts d d1 := by
      refine sim_texts (added_sim hi hp1 hh (fun j x i _ _ _ => by rw [hli]; simp) (fun _ => ⟨?_, htypes.1⟩) fun hn j y hj hy ht => ?_) hp1.forth
      · rw [hbt]; exact (aside_unheard lt haside).2
      · exact hq j y holder he hj hy ht hh (htypes.2 hn)
    have hf1 : d1.FreshIds (builderIds e) := by
      refine ⟨hf.1, fun id hid => ?_⟩
      cases hk : d1.elementKeyById id with
      | none => rfl
      | some k =>
        rcases hp1.index id k hk with h3 | h3
        · have := hf.2 id hid
          unfold Document.elementKeyById Store.idToKey at this
          rw [h3] at this; cases this
        · rw [hli] at h3; cases h3
    have hpl := h2.planted hi1 hc hf1
    have htree := (materialised_eq ..).mp hp1.spec.tree
    obtain ⟨lx, ys, refs, hnone, hlx, _, hrb, hdata, _, hitems⟩ := htree
    have hlxt : lx.elementtype = lt := by rw [hrb.type, hbt]
    have hcount : ∀ j x, d1.getElement j = some x → j ≠ layer → ∃ x0, d.getElement j = some x0 ∧ x.elementtype = x0.elementtype ∧ x.attribs = x0.attribs := by
      intro j x hj hjl
      have hsize : builderSize (layerBuilder lt (some s)) = 1 := by rw [layerBuilder_eq]; rfl
      have hcnt := hp1.spec.count
      rw [hsize] at hcnt
      have lt_of : ∀ {d : Document} {j : Nat} {x : ElementData}, d.getElement j = some x → j < d.elements.len := fun h => Store.get_lt h
      have hj1 := lt_of hj
      have hl1 := lt_of hlx
      have hl2 : ¬ layer < d.elements.len := fun h => by
        obtain ⟨y, hy⟩ := hfill layer h
        have hy : d.getElement layer = some y := hy
        rw [hnone] at hy; cases hy
      obtain ⟨x0, hx0⟩ := hfill j (by omega)
      have hx0 : d.getElement j = some x0 := hx0
      refine ⟨x0, hx0, ?_⟩
      by_cases hjh : j = holder
      · subst hjh
        obtain ⟨_, _, _, _, a1, a2, a3, _, _, a4, _⟩ := hp1.spec.parent
        rw [hx0] at a1; cases a1
        rw [hj] at a2; cases a2
        exact ⟨a3, a4⟩
      · obtain ⟨x', b1, b2⟩ := hp1.spec.others j x0 hx0 hjh
        rw [hj] at b1; cases b1
        exact ⟨b2.type, b2.attribs⟩
    refine hs1.trans (sim_texts (added_sim hi1 hpl hlx ?_ (fun hh => ?_) fun _ j y hj hy ht => ?_) hpl.forth) hp1.forth
    · intro j x i hj hjt hji
      by_cases hjl : j = layer
      · subst hjl
        rw [hlx] at hj; cases hj
        rw [hlxt] at hjt
        subst hjt
        exact absurd hlay (by decide +kernel)
      · obtain ⟨x0, a1, a2, a3⟩ := hcount j x hj hjl
        exact hw j x0 i a1 (by rw [← a2]; exact hjt) (by rw [← hji]; simp only [ElementData.idref, a3])
    · rw [hlxt] at hh
      exact absurd hh (aside_unheard lt haside).1
    · by_cases hjl : j = layer
      · subst hjl
        rw [hlx] at hj; cases hj
        rw [hlxt] at hy
        exact absurd hy (aside_unheard lt haside).1
      · obtain ⟨x0, a1, a2, a3⟩ := hcount j y hj hjl
        rcases takes_planted hi hp1 hh ht ⟨x0, a1⟩ with ⟨_, x, hx⟩ | ⟨b1, b2⟩
        · rw [hnone] at hx; cases hx
        · exact hq j x0 holder he a1 (by rw [← a2]; exact hy) b2 hh (htypes.2 b1)

/-- Annotating a structure element with anything that is not structure, a correction or text content, by `annotate`, changes no text of any
element. Span annotations count here, also if they need a new layer.

Missing for the full claim: no element may take its delimiter from a layer or alternative. No word reference may already refer to an
identifier of the new elements. The parent is a structure element; see `C78_added_partial` for others. -/
theorem C78_annotate_partial {X : Ext} {F : Nat} {d : Document} (hr : CleanReachable X F d) {p : Nat} {pe e : ElementData} (hp : d.getElement p = some pe)
    (hst : ElementGroup.structural.contains pe.elementtype = true) (hn : d.NewBuilder e) (hk : Inert e.elementtype ∨ ElementGroup.span.contains e.elementtype = true)
    (hw : NotAwaited d (builderIds e)) (hq : LayersDelimitNothing d) :
    ∃ N, ∀ G, N ≤ G → ∀ k d', annotate G p e d = (.ok k, d') → SameTexts d d' := by
  have hi := hr.cinv
  have hfill := (cleanReachable_reachable hr).filled
  obtain ⟨hs1, hs2⟩ := structural_speaks _ hst
  have hN : ∃ N, ∀ G, N ≤ G → ∀ t lt s, e.elementtype.annotationtype = some t → t.layertype = some lt → d.spanSet e t = .ok s →
      ∃ o, getLayerKey d G p t (some s) = .ok o ∧ FirstSuch (LayerFor d lt s) (pe.data.filterMap dataKey) o := by
    cases ht : e.elementtype.annotationtype with
    | none => exact ⟨0, by intro _ _ _ _ _ h; cases h⟩
    | some t =>
      cases hlt : t.layertype with
      | none => exact ⟨0, by intro _ _ t' _ _ h h'; cases h; rw [hlt] at h'; cases h'⟩
      | some lt =>
        cases hss : d.spanSet e t with
        | error f => exact ⟨0, by intro _ _ t' _ _ h _ h''; cases h; rw [hss] at h''; cases h''⟩
        | ok s =>
          obtain ⟨N, o, h1, h2⟩ := layer_first hi hp hlt s
          refine ⟨N, fun G hG t' lt' s' e1 e2 e3 => ?_⟩
          cases e1
          rw [hlt] at e2; cases e2
          rw [hss] at e3; cases e3
          exact ⟨o, h1 G hG, h2⟩
  obtain ⟨N, hN⟩ := hN
  refine ⟨N, fun G hG k d' h => ?_⟩
  obtain ⟨pe0, hpe0, h⟩ := annotate_ok h
  rw [hp] at hpe0; cases hpe0
  rcases h with ⟨h1, h2⟩ | ⟨_, _, h2, _⟩ | ⟨_, t, lt, s, e1, e2, e3, h⟩
  · have hin : Inert e.elementtype := hk.resolve_right (by rw [h1]; simp)
    have hpl := h2.planted hi hn.1 hn.2
    exact sim_texts (added_sim hi hpl hp hw (fun _ => ⟨hin, hs1⟩) fun hn => absurd hn hs2) hpl.forth
  · rw [hst] at h2; cases h2
  · rcases h with ⟨_, _, h⟩ | ⟨_, sel, common, a, _, _, h3, h⟩
    · exact texts_layer hi hfill e2 hn.1 hn.2 hw hq hp hp ⟨hs1, fun h => absurd h hs2⟩ (hN G hG t lt s e1 e2 e3) h
    · have ha := List.find?_some h3
      split at ha
      · rename_i ae hae
        exact texts_layer hi hfill e2 hn.1 hn.2 hw hq hp hae (holder_types _ lt (layertype_typed t lt e2).1 ha) (hN G hG t lt s e1 e2 e3) h
      · cases ha

theorem store_items_mem {d : Document} {j : Nat} {x : ElementData} (h : d.getElement j = some x) : some x ∈ d.elements.items := by
  have h : d.elements.get j = some x := h
  unfold Store.get at h
  split at h
  · rename_i a ha
    cases h
    exact List.mem_of_getElem? ha
  · cases h

/-- A sufficient check for `LayersDelimitNothing`: the last child of an element whose type has no delimiter is not of such a type. -/
def Sample.delimitsDirectly (d : Document) : Bool := d.elements.items.all fun
  | some e => (props e.elementtype).textdelimiter.isSome || e.data.all fun
    | .element c => match d.getElement c with
      | some x => !decide (Aside x.elementtype)
      | none => true
    | _ => true
  | none => true

theorem Sample.delimitsDirectly_sound {d : Document} (h : Sample.delimitsDirectly d = true) : LayersDelimitNothing d := by
  have key : ∀ {j y}, TakesDelimiter d j y → ∀ x ye, d.getElement j = some x → ¬ Aside x.elementtype → d.getElement y = some ye → ¬ Aside ye.elementtype := by
    intro j y ht
    induction ht with
    | refl => intro x ye h1 h2 h3; rw [h1] at h3; cases h3; exact h2
    | @last j e c y hj hn hl hrest ih =>
      intro x ye h1 h2 h3
      cases hc : d.getElement c with
      | none =>
        cases hrest with
        | refl => rw [hc] at h3; cases h3
        | last h _ _ _ => rw [hc] at h; cases h
      | some ce =>
        refine ih ce ye hc ?_ h3
        have hm : some e ∈ d.elements.items := store_items_mem hj
        have h4 := List.all_eq_true.mp h _ hm
        simp only [hn, Option.isSome_none, Bool.false_or] at h4
        have h5 := List.all_eq_true.mp h4 _ hl.mem
        simp only [hc] at h5
        simpa using h5
  intro j x y ye h1 h2 h3 h4
  exact key h3 x ye h1 (fun ha => (aside_unheard _ ha).1 h2) h4

/-- A sufficient check for `NotAwaited`. -/
def Sample.notAwaited (d : Document) (ids : List String) : Bool := d.elements.items.all fun
  | some e => e.elementtype != .wordReference || match e.idref with
    | some i => !ids.contains i
    | none => true
  | none => true

theorem Sample.notAwaited_sound {d : Document} {ids : List String} (h : Sample.notAwaited d ids = true) : NotAwaited d ids := by
  intro j x i hj ht hi hm
  have h1 := List.all_eq_true.mp h _ (store_items_mem hj)
  simp [ht, hi, hm] at h1

/-- The hypotheses are met by a span annotation over two words, which needs a new layer, and by a part-of-speech annotation. -/
example : CleanReachable Sample.X Sample.F Sample.doc ∧ (Sample.doc.getElement 2).map (·.elementtype) = some .word ∧
    ElementGroup.structural.contains .word = true ∧ Sample.doc.NewBuilder Sample.chunk ∧ ElementGroup.span.contains Sample.chunk.elementtype = true ∧
    Sample.doc.NewBuilder Sample.pos ∧ Inert Sample.pos.elementtype ∧ NotAwaited Sample.doc (builderIds Sample.chunk) ∧ LayersDelimitNothing Sample.doc ∧
    (annotate Sample.F 2 Sample.chunk Sample.doc).1 = .ok 15 ∧ (annotate Sample.F 2 Sample.pos Sample.doc).1 = .ok 12 ∧ Sample.doc.text Sample.F 5 {} = .ok "Hello world" :=
  ⟨Sample.doc_clean, by decide +kernel, by decide +kernel, by decide +kernel, by decide +kernel, by decide +kernel, by decide +kernel,
    Sample.notAwaited_sound (by decide +kernel), Sample.delimitsDirectly_sound (by decide +kernel), by decide +kernel, by decide +kernel, by decide +kernel⟩

/-- A correction around a word, followed by another word. -/
def Sample.correctedWord : Document := runOps Sample.F [.addElementTo 0 ((((ElementData.new .sentence).setAttrib (.id "s")).addElement
  ((ElementData.new .correction).addElement (Sample.word "w1" "Hello"))).addElement (Sample.word "w2" "world"))] Sample.fresh

/-- Adding a description to a correction can change the text: the correction takes its delimiter from its last child, which is now the
description, and so the words are no longer separated. -/
theorem C78_delimiter_counterexample : CleanReachable Sample.X Sample.F Sample.correctedWord ∧
    (Sample.correctedWord.getElement 3).map (·.elementtype) = some .correction ∧ Inert .description ∧
    (annotate Sample.F 3 (ElementData.new .description) Sample.correctedWord).1 = .ok 7 ∧ Sample.correctedWord.text Sample.F 0 {} = .ok "Hello world" ∧
    (annotate Sample.F 3 (ElementData.new .description) Sample.correctedWord).2.text Sample.F 0 {} = .ok "Helloworld" :=
  ⟨.ops _ Sample.fresh_clean (by decide +kernel), by decide +kernel, by decide +kernel, by decide +kernel, by decide +kernel, by decide +kernel⟩

/-- A chunk with a word reference to an identifier that no element has yet, and an alternative. -/
def Sample.awaitingOps : List Op := [.addElement ((ElementData.new .chunk).setAttrib (.set "chunks")),
  .addElement ((ElementData.new .wordReference).setAttrib (.idref "w9")), .attachElement 1 2, .addElementTo 0 (ElementData.new .alternative)]

/-- See `Sample.awaitingOps`. -/
def Sample.awaiting : Document := runOps Sample.F Sample.awaitingOps Sample.fresh

/-- That no word reference may already refer to the new identifier cannot be left out: adding a word to an alternative, which has no text,
gives a chunk elsewhere a text. None of the calls that lead to this fails. -/
theorem C78_awaited_counterexample : CleanReachable Sample.X Sample.F Sample.awaiting ∧
    (∀ n, n < 4 → ∃ o, Sample.awaitingOps[n]? = some o ∧ (o.run Sample.F (runOps Sample.F (Sample.awaitingOps.take n) Sample.fresh)).1 = .ok ()) ∧
    Sample.awaiting.NewBuilder (Sample.word "w9" "later") ∧ (Sample.awaiting.getElement 3).map (·.elementtype) = some .alternative ∧ ¬ Heard .alternative ∧
    LayersDelimitNothing Sample.awaiting ∧ (addElementTo Sample.F 3 (Sample.word "w9" "later") Sample.awaiting).1 = .ok 5 ∧
    Sample.awaiting.text Sample.F 1 {} = .error (.err .noText) ∧
    (addElementTo Sample.F 3 (Sample.word "w9" "later") Sample.awaiting).2.text Sample.F 1 {} = .ok "later" := by
  refine ⟨.ops _ Sample.fresh_clean (by decide +kernel), fun n hn => ?_, by decide +kernel, by decide +kernel, by decide +kernel,
    Sample.delimitsDirectly_sound (by decide +kernel), by decide +kernel, by decide +kernel, by decide +kernel⟩
  match n, hn with
  | 0, _ => exact ⟨_, rfl, by decide +kernel⟩
  | 1, _ => exact ⟨_, rfl, by decide +kernel⟩
  | 2, _ => exact ⟨_, rfl, by decide +kernel⟩
  | 3, _ => exact ⟨_, rfl, by decide +kernel⟩

end Folia
