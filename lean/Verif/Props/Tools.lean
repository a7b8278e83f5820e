import Verif.Lemmas.Tools
import Verif.Props.Parser
import Verif.Props.Select
import Verif.Props.Traced
import Verif.Props.Accept
import Verif.Props.Indent
import Verif.Props.SafeParse
/-! C87, C88: reading followed by writing, and reading followed by selecting, as in the tools of src/bin. -/
namespace Folia
open Document

/-! ### C88 -/

/-- Selecting the elements of a type in a document that was read gives exactly the elements of that type in the source, in the order of the
source, each with the attributes it has in the source. -/
theorem C88_read_select {X : Ext} {F : Nat} {ps : DocumentProperties} (hcl : ∀ p, ps.processor = some p → CleanProc p)
    {header gap : List REvent} (hh : metadataEnd ∉ header) (hg : ∀ ev ∈ gap, isStart ev = false) {tag tag' : String} {attrs : List RAttr}
    (htag : tag ≠ "FoLiA") {nodes : List XNode} (hid : (attrIds attrs ++ XNode.idsList nodes).Nodup) {rest : List REvent} {d : Document}
    (h : Document.parse X F ps (source header gap tag attrs (XNode.eventsList nodes ++ .endTag .folia tag' :: rest)) = .ok d)
    {t : ElementType} (ht : ElementGroup.span.contains t = false) :
    ∃ data keys N, XNode.meaningList X nodes = some data ∧ (∀ G, N ≤ G → select d G 0 (Selector.elements.element (.is t)) .always = .ok keys) ∧
      Answers d d keys ((builderElementsList data).filter (·.elementtype == t)) := by
  obtain ⟨_, _, _, data, x, _, _, h3, h4, _, _, h7, _, h9, h10⟩ := C42_tree hcl hh hg htag hid h
  have hr : CleanReachable X F d := .parse hcl h
  have hlive : ∀ k e, d.getElement k = some e → ∀ x ∈ e.data, DataLive d x := fun k e he => (hr.cinv.elem k e he).data
  obtain ⟨items, hb⟩ := below_exists hr ⟨h9, h10⟩ h4
  have hgo : (Recursion.always).eval = fun _ => true := rfl
  obtain ⟨_, hdata, hsh⟩ := hb
  have hk := typed_stored (d0 := d) ht hlive items 0 x.elementtype 0 1 (some 0) data hsh (by rw [← hdata]; exact hlive 0 x h4)
    (by rw [← hdata]; exact h7)
  refine ⟨data, _, rounds items + 1, h3, fun G hG => ?_, hk⟩
  unfold select selectByKey
  rw [collect_below (cleanReachable_reachable hr) ⟨h4, hdata, hsh⟩ rfl .always true hG]
  have hmem : ∀ i ∈ chosen d (Selector.elements.element (.is t)) (preorder (fun _ => true) 0 x.elementtype 0 1 items),
      ∃ k e, i.data = .element k ∧ d.getElement k = some e ∧ ElementGroup.span.contains e.elementtype = false := by
    intro i hi
    obtain ⟨h1, h2⟩ := mem_chosen.mp hi
    have hl := occurs_live hr ((mem_preorder ⟨h4, hdata, hsh⟩ _).mp h1)
    cases hd : i.data with
    | text => rw [hd] at h2; cases h2
    | comment => rw [hd] at h2; cases h2
    | addElement => rw [hd] at h2; cases h2
    | element k =>
      rw [hd] at h2 hl
      obtain ⟨e, he⟩ := hl
      rw [(type_matches t he).1] at h2
      refine ⟨k, e, rfl, he, ?_⟩
      rw [eq_of_beq (Except.ok.inj h2)]; exact ht
    | spanReference k =>
      rw [hd] at h2 hl
      obtain ⟨e, he, hs⟩ := hl
      rw [(type_matches t he).2] at h2
      rw [eq_of_beq (Except.ok.inj h2), ht] at hs
      cases hs
  have hres : results { doc := d, selector := Selector.elements.element (.is t), recursion := .always, inclusive := false, spanreferences := true } []
      (preorder Recursion.always.eval 0 x.elementtype 0 1 items) =
      chosen d (Selector.elements.element (.is t)) (preorder (fun _ => true) 0 x.elementtype 0 1 items) := by
    unfold results
    rw [if_pos rfl, hgo]
    refine firstOccurrences_plain _ _ fun i hi => ?_
    obtain ⟨k, e, h1, h2, h3⟩ := hmem i hi
    rw [h1, spanOf, h2]
    simp only
    rw [h3]; rfl
  rw [hres]
  refine elementKeys_eq fun i hi k hk => ?_
  obtain ⟨k', e, h1, h2, _⟩ := hmem i hi
  have : k = k' := by rw [itemKey, h1] at hk; exact (Option.some.inj hk).symm
  exact ⟨e, this ▸ h2⟩

/-- Selecting the span annotations of a type in a document that was read gives each annotation of that type in the source exactly once. They come in
the order in which they, or references to them from words, are met. -/
theorem C88_read_select_spans {X : Ext} {F : Nat} {ps : DocumentProperties} (hcl : ∀ p, ps.processor = some p → CleanProc p)
    {header gap : List REvent} (hh : metadataEnd ∉ header) (hg : ∀ ev ∈ gap, isStart ev = false) {tag tag' : String} {attrs : List RAttr}
    (htag : tag ≠ "FoLiA") {nodes : List XNode} (hid : (attrIds attrs ++ XNode.idsList nodes).Nodup) {rest : List REvent} {d : Document}
    (h : Document.parse X F ps (source header gap tag attrs (XNode.eventsList nodes ++ .endTag .folia tag' :: rest)) = .ok d)
    {t : ElementType} (ht : ElementGroup.span.contains t = true) :
    ∃ data keys keys' N, XNode.meaningList X nodes = some data ∧ (∀ G, N ≤ G → select d G 0 (Selector.elements.element (.is t)) .always = .ok keys) ∧
      keys.Perm keys' ∧ keys.Nodup ∧ Answers d d keys' ((builderElementsList data).filter (·.elementtype == t)) := by
  obtain ⟨tb, _, _, data, x, h1, _, h3, h4, _, ⟨_, _, h5⟩, h7, h8, h9, h10⟩ := C42_tree hcl hh hg htag hid h
  have hr : CleanReachable X F d := .parse hcl h
  have hf : d.Forest := ⟨h9, h10⟩
  obtain ⟨items, hb⟩ := below_exists hr hf h4
  obtain ⟨keys, ⟨N, hN⟩, hmem, hnd⟩ := C25_spans_once hr hf h4 (Selector.elements.element (.is t)) rfl .always
  have hst : StoredItems 1 d d (some 0) (ownItems (items.map Item.data)) data := by rw [← hb.2.1]; exact h7
  have htype : ∀ k ∈ keys, ∃ e, d.getElement k = some e ∧ e.elementtype = t := by
    intro k hk
    obtain ⟨y, p, i, n, hy, ho, hm⟩ := (hmem k).mp hk
    have hl := occurs_live hr ho
    obtain ⟨e, he⟩ : ∃ e, d.getElement k = some e := by
      rcases hy with rfl | rfl
      · exact hl
      · exact hl.imp fun _ h => h.1
    refine ⟨e, he, ?_⟩
    rcases hy with rfl | rfl
    · rw [(type_matches t he).1] at hm; exact eq_of_beq (Except.ok.inj hm)
    · rw [(type_matches t he).2] at hm; exact eq_of_beq (Except.ok.inj hm)
  have hkeys : keys.Nodup := by
    rw [List.filter_eq_self.mpr ?_] at hnd
    · exact hnd
    intro k hk
    obtain ⟨e, he, ht'⟩ := htype k hk
    rw [he]; simp only [ht', ht]
  have hroot := nodeKeysIn_nodup h9 h10 (show Shows d (.node 0 x items) from hb)
  rw [nodeKeysIn, List.nodup_cons] at hroot
  refine ⟨data, keys, (nodeKeys items).filter (kindIs d (· == t)), N, h3, hN, ?_, hkeys, nodes_stored (· == t) items (some 0) data hb.2.2 hst⟩
  rw [List.perm_ext_iff_of_nodup hkeys (hroot.2.sublist List.filter_sublist)]
  intro k
  rw [List.mem_filter]
  constructor
  · intro hk
    obtain ⟨e, he, ht'⟩ := htype k hk
    refine ⟨?_, by rw [kindIs, he]; simp only [ht', beq_self_eq_true]⟩
    rcases nodeKeys_all hf hb hst h8 he with rfl | h
    · rw [h4] at he; cases he
      rw [show x.elementtype = tb from h5.type] at ht'
      subst ht'
      unfold bodyTypeOf at h1
      split at h1
      · cases h1; cases ht
      · split at h1
        · cases h1; cases ht
        · cases h1
    · exact h
  · rintro ⟨hk, hk'⟩
    obtain ⟨y, hy, hyd⟩ := nodeKeys_preorder items 0 x.elementtype 0 1 hk
    unfold kindIs at hk'
    split at hk'
    · rename_i e he
      refine (hmem k).mpr ⟨.element k, y.parentKey, y.cursor, y.depth, .inl rfl, ?_, (type_matches t he).1.trans (congrArg Except.ok hk')⟩
      have := (mem_preorder (go := fun _ => true) hb y).mp hy
      rw [hyd] at this
      exact (occurs_congr fun t => by simp [Descends]).mp this
    · cases hk'

/-- A sentence of two words that are one entity. -/
def Sample.entityNode : XNode := .elem "s" [.ok "xml:id" "s1"] [.empty "w" [.ok "xml:id" "w1"], .empty "w" [.ok "xml:id" "w2"],
  .elem "entities" [] [.elem "entity" [.ok "class" "person"] [.empty "wref" [.ok "id" "w1"], .empty "wref" [.ok "id" "w2"]]]]

/-- The hypotheses are met by a document with an entity. It is met three times, at both words and in its layer, and selected once. -/
example : ∃ d keys N, Document.parse Sample.X Sample.F {} (Sample.around (XNode.eventsList [Sample.entityNode])) = .ok d ∧
    (∀ G, N ≤ G → select d G 0 (Selector.elements.element (.is .entity)) .always = .ok keys) ∧ keys.length = 1 := by
  obtain ⟨d, hd⟩ : ∃ d, Document.parse Sample.X Sample.F {} (Sample.around (XNode.eventsList [Sample.entityNode])) = .ok d :=
    ⟨_, Sample.value_eq (by decide +kernel)⟩
  obtain ⟨data, keys, keys', N, h1, h2, h3, _, h4⟩ := C88_read_select_spans (ps := {}) (fun _ hp => nomatch hp) (nodes := [Sample.entityNode])
    (attrs := [.ok "xml:id" "t"]) (header := Sample.header) (gap := []) (tag := "text") (tag' := "text") (rest := [.endTag .folia "FoLiA"])
    (by decide) (by decide) (by decide) (by decide) hd (t := .entity) rfl
  refine ⟨d, keys, N, hd, h2, ?_⟩
  rw [h3.length_eq, h4.length]
  have : (XNode.meaningList Sample.X [Sample.entityNode]).map (fun data => ((builderElementsList data).filter (·.elementtype == .entity)).length) = some 1 := by
    decide +kernel
  rw [h1] at this
  exact Option.some.inj this

/-- The benchmark prints the number of words in the source. -/
theorem C88_words {X : Ext} {F : Nat} {header gap : List REvent} (hh : metadataEnd ∉ header) (hg : ∀ ev ∈ gap, isStart ev = false)
    {tag tag' : String} {attrs : List RAttr} (htag : tag ≠ "FoLiA") {nodes : List XNode} (hid : (attrIds attrs ++ XNode.idsList nodes).Nodup)
    {rest : List REvent} {d : Document}
    (h : Document.parse X F {} (source header gap tag attrs (XNode.eventsList nodes ++ .endTag .folia tag' :: rest)) = .ok d) :
    ∃ data N, XNode.meaningList X nodes = some data ∧
      ∀ G, N ≤ G → benchSelect X F G (source header gap tag attrs (XNode.eventsList nodes ++ .endTag .folia tag' :: rest)) =
        .ok ((builderElementsList data).countP (·.elementtype == .word)) := by
  obtain ⟨data, keys, N, h1, h2, h3⟩ := C88_read_select (ps := {}) (fun _ hp => nomatch hp) hh hg htag hid h (t := .word) rfl
  refine ⟨data, N, h1, fun G hG => ?_⟩
  unfold benchSelect
  rw [h]
  simp only [unwrapRes, bind, Except.bind]
  rw [h2 G hG]
  simp only [pure, Except.pure, h3.length, List.countP_eq_length_filter]

/-- The hypotheses are met by the sample of C42, which has one word. -/
example : ∃ N, ∀ G, N ≤ G → benchSelect Sample.X Sample.F G Sample.xml = .ok 1 := by
  obtain ⟨data, N, h1, h2⟩ := C88_words (nodes := [Sample.node]) (by decide) (by decide) (by decide) (by decide) Sample.parsed_eq
  refine ⟨N, fun G hG => ?_⟩
  refine (h2 G hG).trans ?_
  have : (XNode.meaningList Sample.X [Sample.node]).map (fun data => (builderElementsList data).countP (·.elementtype == .word)) = some 1 := by decide +kernel
  rw [h1] at this
  exact congrArg Except.ok (Option.some.inj this)

/-! ### C87 -/

/-- A source in which all identifiers differ is written again after reading: the root around the metadata and the body of the source, with the
same tags, texts and comments in the same order and nesting. What is written is read as the same document as without the indentation.

Missing for the full claim: sources with repeated identifiers, see the counterexample, and what the attributes become, see C36 and C42. -/
theorem C87_lint_partial {X : Ext} {F : Nat} {header gap : List REvent} (hh : metadataEnd ∉ header) (hg : ∀ ev ∈ gap, isStart ev = false)
    {tag tag' : String} {attrs : List RAttr} (htag : tag ≠ "FoLiA") {nodes : List XNode} (hid : (attrIds attrs ++ XNode.idsList nodes).Nodup)
    {rest : List REvent} {evs : List REvent} (hevs : evs = source header gap tag attrs (XNode.eventsList nodes ++ .endTag .folia tag' :: rest))
    (hp : (sourceProcIds evs).Nodup) {d : Document} (h : Document.parse X F {} evs = .ok d) :
    ∃ N out plain m t as fs data, bodyTypeOf tag = some t ∧ attrsMeaning X t attrs = some (as, fs) ∧ XNode.meaningList X nodes = some data ∧
      marks out = .opened "FoLiA" :: marks m ++ builderMarks ⟨t, as, data, none, none⟩ ++ [.closed "FoLiA"] ∧
      ∀ G, N ≤ G → lint X F G evs = .ok out ∧ xmlMetadata d G = .ok m ∧ d.xml X G 0 = .ok plain ∧
        ∀ F' ps, Document.parse X F' ps (checkEnds [] (readBack out)) = Document.parse X F' ps (checkEnds [] (readBack plain)) := by
  subst hevs
  obtain ⟨t, as, fs, data, x, h1, h2, h3, h4, _, ⟨_, _, h5⟩, h6, _, h9, h10⟩ := C42_tree (ps := {}) (fun _ hp => nomatch hp) hh hg htag hid h
  have hr : CleanReachable X F d := .parse (ps := {}) (fun _ hp => nomatch hp) h
  obtain ⟨N1, m, hm⟩ := metadata_total hr (C73_forest_partial (.parse (ps := {}) hp (fun _ hp => nomatch hp) h))
  obtain ⟨A, _, e, items, hb, N2, hN⟩ := C36_document (X := X) hr ⟨h9, h10⟩ ⟨x, h4⟩
  obtain ⟨hb1, hb2, hb3⟩ := hb
  rw [h4] at hb1; cases hb1
  have hi := marks_stored (A := A) items true (some 0) data hb3 (by rw [← hb2]; exact h6)
  obtain ⟨plain, hmark, hx⟩ : ∃ plain, marks plain = .opened "FoLiA" :: marks m ++ builderMarks ⟨t, as, data, none, none⟩ ++ [.closed "FoLiA"] ∧
      ∀ G, max N1 N2 ≤ G → d.xml X G 0 = .ok plain := by
    refine ⟨_, ?_, fun G hG => hN G (Nat.le_trans (Nat.le_max_right ..) hG) m (hm G (Nat.le_trans (Nat.le_max_left ..) hG))⟩
    have hbody : marks (itemXml A true (.node 0 x items)) = builderMarks ⟨t, as, data, none, none⟩ := by
      rw [itemXml, builderMarks, show x.elementtype = t from h5.type]
      split
      · rename_i hemp
        rw [List.isEmpty_iff.mp hemp, itemsXml] at hi
        rw [← hi]
        simp [marks, marks_nl]
      · simp only [marks_append, marks_nl, hi]
        simp [marks]
    simp only [marks_append, hbody]
    have hn : textMark "\n" = [] := by decide
    simp [marks, hn]
  refine ⟨max N1 N2, indented 4 plain, plain, m, t, as, fs, data, h1, h2, h3, (marks_indented 4 plain).trans hmark,
    fun G hG => ⟨?_, hm G (Nat.le_trans (Nat.le_max_left ..) hG), hx G hG, fun F' ps => ?_⟩⟩
  · unfold lint
    rw [h]
    simp only [bind, Except.bind, xmlIndented, hx G hG, Except.map]
  · exact C65_same_document (n := 4) (hx G hG) (by rw [xmlIndented, hx G hG]; rfl) F' ps

/-- The hypotheses are met by the sample of C42; these are the tags, texts and comments of its body. -/
example : metadataEnd ∉ Sample.header ∧ (attrIds [.ok "xml:id" "doc.text"] ++ XNode.idsList [Sample.node]).Nodup ∧ (sourceProcIds Sample.xml).Nodup ∧
    Document.parse Sample.X Sample.F {} Sample.xml = .ok Sample.parsed ∧
    (XNode.meaningList Sample.X [Sample.node]).map builderMarksList = some [.opened "w", .opened "t", .text "Tom &amp; ", .text "Jerry", .closed "t",
      .comment " tagged ", .opened "pos", .opened "feat", .text "NN", .closed "feat", .opened "feat", .closed "feat", .closed "pos", .opened "lemma",
      .closed "lemma", .closed "w"] :=
  ⟨by decide, by decide, by decide +kernel, Sample.parsed_eq, by decide +kernel⟩

/-- A source that is rejected is reported with the error of the parser. -/
theorem C87_rejected {X : Ext} {F : Nat} {evs : List REvent} {f : Fault} (h : Document.parse X F {} evs = .error f) (G : Nat) :
    lint X F G evs = .error f := by
  unfold lint
  rw [h]; rfl

/-- A source in which an empty tag has the identifier of the body. -/
def Sample.ownChild : List REvent := Sample.around [.empty .folia "s" [.ok "xml:id" "t"]]

/-- This source is accepted, but the document that is read cannot be written: the linter does not end. -/
theorem C87_twice_counterexample : (∃ d, Document.parse Sample.X Sample.F {} Sample.ownChild = .ok d) ∧
    ∃ N, ∀ G, N ≤ G → lint Sample.X Sample.F G Sample.ownChild = .error .fuel := by
  have hok : ∃ d, Document.parse Sample.X Sample.F {} Sample.ownChild = .ok d := ⟨_, Sample.value_eq (by decide +kernel)⟩
  refine ⟨hok, ?_⟩
  obtain ⟨d, hd⟩ := hok
  obtain ⟨N, m, hm⟩ := metadata_total (X := Sample.X) (F := Sample.F) (.parse (ps := {}) (fun _ hp => nomatch hp) hd)
    (C73_forest_partial (X := Sample.X) (F := Sample.F) (.parse (ps := {}) (by decide +kernel) (fun _ hp => nomatch hp) hd))
  refine ⟨N, fun G hG => ?_⟩
  have h0 : (Document.parse Sample.X Sample.F {} Sample.ownChild).toOption.map (fun d => (d.getElement 0).map fun e => (e.parent, e.data.map (·.isElem 0))) =
      some (some (some 0, [true])) := by decide +kernel
  rw [hd] at h0
  obtain ⟨e, he, h1⟩ := Option.map_eq_some_iff.mp (Option.some.inj h0)
  have hx : e.data[0]? = some (.element 0) := by
    have hd := (Prod.mk.inj h1).2
    cases hdd : e.data with
    | nil => rw [hdd] at hd; cases hd
    | cons x xs =>
      rw [hdd] at hd
      simp only [List.map_cons, List.cons.injEq] at hd
      cases x with
      | element c => simp only [DataType.isElem, beq_iff_eq] at hd; rw [hd.1]; rfl
      | _ => simp [DataType.isElem] at hd
  unfold lint xmlIndented Document.xml
  rw [hd]
  simp only [bind, Except.bind]
  rw [xmlElements_loop he hx (Prod.mk.inj h1).1 G, hm G hG]
  rfl

end Folia
