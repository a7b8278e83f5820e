import Verif.Lemmas.Parse
import Verif.Samples
import Verif.Decide
import Verif.Text
import Verif.Props.Tables
/-! C42, C43, C44, C58: what the parser makes of the events of the body. -/
namespace Folia
open Document

/-! ### C42 -/

/-- The tree below the body after a successful run of the parser is the tree of the source. -/
theorem C42_tree {X : Ext} {F : Nat} {ps : DocumentProperties} (hcl : ∀ p, ps.processor = some p → CleanProc p)
    {header gap : List REvent} (hh : metadataEnd ∉ header) (hg : ∀ ev ∈ gap, isStart ev = false) {tag tag' : String} {attrs : List RAttr}
    (htag : tag ≠ "FoLiA") {nodes : List XNode} (hid : (attrIds attrs ++ XNode.idsList nodes).Nodup) {rest : List REvent} {d : Document}
    (h : Document.parse X F ps (source header gap tag attrs (XNode.eventsList nodes ++ .endTag .folia tag' :: rest)) = .ok d) :
    ∃ t as fs data x, bodyTypeOf tag = some t ∧ attrsMeaning X t attrs = some (as, fs) ∧ XNode.meaningList X nodes = some data ∧
      d.getElement 0 = some x ∧ x.parent = none ∧
      (∃ d0, (ps.processor = none → d0.processors = d.processors) ∧ ReadsBack d0 d x ⟨t, as, data, none, none⟩) ∧
      StoredItems 1 d d (some 0) (ownItems x.data) data ∧ d.elements.len = builderSizeList data + 1 ∧ LinksAgree d ∧ Acyclic d := by
  rcases parse_prefix X F ps hcl hh hg tag attrs htag with hp | ⟨d1, hb, hp⟩
  · obtain ⟨f, hf⟩ := hp _
    rw [hf] at h; cases h
  rw [hp] at h
  obtain ⟨t, as, fs, x, d0, b1, b2, b3, b4, b5, b6, b7, b8⟩ := hb.body
  rcases hr : parseElements X F (XNode.eventsList nodes ++ .endTag .folia tag' :: rest) [0] d1 with ⟨f | u, d'⟩
  · rw [hr] at h; cases h
  rw [hr] at h
  cases h
  obtain ⟨data, d2, r1, r2, r3⟩ := nodes_runs X F nodes _ 0 [] d1 d hr
  have hfresh : d1.FreshIds (builderIdsList data) := by
    have hsub := meaningList_ids r1
    rw [List.nodup_append] at hid
    refine ⟨hid.2.1.sublist hsub, fun id hm => ?_⟩
    cases hk : d1.elementKeyById id with
    | none => rfl
    | some k =>
      have h1 := b8 id k hk
      have h2 := (id_sublist t as []).subset (by rw [h1]; simp : id ∈ _)
      rw [(attrsMeaning_ids b2).1] at h2
      exact absurd rfl (hid.2.2 id h2 id (hsub.subset hm))
  obtain ⟨⟨_, hf0⟩, _⟩ := r3 d1 x hb.inv rfl b3 b4 hfresh
  simp only [parseElements, if_true] at r2
  cases r2
  obtain ⟨⟨ys, hf⟩, _⟩ := r3 d x hb.inv hf0.ran.procs.symm b3 b4 hfresh
  obtain ⟨x', h1, h2⟩ := hf.ran.old 0 x (Store.get_lt b3) b3
  have hown : ownItems x'.data = ys := by rw [h2.data, b5, if_pos rfl]; rfl
  refine ⟨t, as, fs, data, x', b1, b2, r1, h1, by rw [h2.parent, b4], ⟨d0, fun hn => by rw [b7 hn, hf.ran.procs], ?_⟩, ?_, by rw [hf.size, hb.len]; omega,
    hf.ran.links hb.links, (hf.ran.ranked hb.links hb.ranked).acyclic (hf.ran.links hb.links)⟩
  · exact (b6.mono (hb.inv.elem 0 x b3).refs (hf.ran.steps.clean hb.inv).2 hf.ran.steps.procMono h2.type h2.attribs).congr rfl rfl
  · have := hf.items
    rw [hb.len] at this
    rw [hown]; exact this

/-- A header with a declaration. -/
def Sample.header : List REvent := [.other, .start .folia "FoLiA" [.ok "xml:id" "doc", .ok "version" "2.4.0"], .text "\n", .start .folia "metadata" [],
  .start .folia "annotations" [], .start .folia "pos-annotation" [.ok "set" "brown"], .empty .folia "annotator" [.ok "processor" "p1"],
  .endTag .folia "pos-annotation", .endTag .folia "annotations", .start .folia "provenance" [],
  .empty .folia "processor" [.ok "xml:id" "p1", .ok "name" "tagger"], .endTag .folia "provenance"]

/-- A word with text and a part-of-speech tag with a feature. -/
def Sample.node : XNode := .elem "w" [.ok "xml:id" "w1", .ok "class" "WORD"] [.text "\n  ", .elem "t" [] [.text "Tom &amp; ", .cdata "Jerry"],
  .comment " tagged ", .elem "pos" [.ok "class" "N", .ok "head" "NN"] [.empty "feat" [.ok "subset" "number", .ok "class" "sing"]],
  .foreign true "note" [] [.empty "lemma" [.ok "class" "tom"]]]

/-- A document with that word. -/
def Sample.xml : List REvent := source Sample.header [.text "\n"] "text" [.ok "xml:id" "doc.text"] (XNode.eventsList [Sample.node] ++ [.endTag .folia "text", .endTag .folia "FoLiA"])

/-- What the parser makes of it. -/
def Sample.parsed : Document := Sample.value (Document.parse Sample.X Sample.F {} Sample.xml)

theorem Sample.parsed_eq : Document.parse Sample.X Sample.F {} Sample.xml = .ok Sample.parsed := Sample.value_eq (by decide +kernel)

/-- The hypotheses of `C42_tree` are met by a document with declarations, provenance, attributes that stand for features, and foreign elements. -/
example : metadataEnd ∉ Sample.header ∧ (∀ ev ∈ [REvent.text "\n"], isStart ev = false) ∧
    (attrIds [.ok "xml:id" "doc.text"] ++ XNode.idsList [Sample.node]).Nodup ∧ Document.parse Sample.X Sample.F {} Sample.xml = .ok Sample.parsed ∧
    Sample.types Sample.parsed = [some .text, some .word, some .textContent, some .posAnnotation, some .feature, some .feature, some .lemmaAnnotation] :=
  ⟨by decide, by decide, by decide, Sample.parsed_eq, by decide +kernel⟩

/-! ### C43 -/

/-- The opposite of C43: if a document is accepted, then so is every truncation of it after the start tag of the body. -/
theorem C43_truncated_accepted {X : Ext} {F : Nat} {ps : DocumentProperties} (hcl : ∀ p, ps.processor = some p → CleanProc p)
    {header gap : List REvent} (hh : metadataEnd ∉ header) (hg : ∀ ev ∈ gap, isStart ev = false) {tag : String} {attrs : List RAttr}
    (htag : tag ≠ "FoLiA") {read lost : List REvent} {d : Document} (h : Document.parse X F ps (source header gap tag attrs (read ++ lost)) = .ok d) :
    ∃ d', Document.parse X F ps (source header gap tag attrs read) = .ok d' := by
  rcases parse_prefix X F ps hcl hh hg tag attrs htag with hp | ⟨d1, _, hp⟩
  · obtain ⟨f, hf⟩ := hp _
    rw [hf] at h; cases h
  rw [hp] at h
  rcases hr : parseElements X F (read ++ lost) [0] d1 with ⟨f | u, d'⟩
  · rw [hr] at h; cases h
  obtain ⟨u', d'', h1⟩ := parseElements_take lost read [0] d1 u d' hr
  exact ⟨d'', by rw [hp, h1]; rfl⟩

/-- A truncated document is accepted and its open elements are silently dropped from the tree: here a word and its text. -/
theorem C43_counterexample : ∃ d x, Document.parse Sample.X Sample.F {} (source Sample.header [] "text" []
      [.start .folia "w" [.ok "xml:id" "w1"], .start .folia "t" [], .text "Tom"]) = .ok d ∧ d.getElement 0 = some x ∧ x.data = [] ∧
    d.elementKeyById "w1" = some 1 := by
  let d := Sample.value (Document.parse Sample.X Sample.F {} (source Sample.header [] "text" [] [.start .folia "w" [.ok "xml:id" "w1"], .start .folia "t" [], .text "Tom"]))
  have h : (d.getElement 0).map (fun e => decide (e.data.length = 0)) = some true := by decide +kernel
  obtain ⟨x, hx, h⟩ := Option.map_eq_some_iff.mp h
  exact ⟨d, x, Sample.value_eq (by decide +kernel), hx, List.length_eq_zero_iff.mp (of_decide_eq_true h), by decide +kernel⟩

/-- Whatever is accepted has a root, metadata that end, and after that the start tag of a body: truncation before that is rejected. -/
theorem C43_before_body_partial {X : Ext} {F : Nat} {ps : DocumentProperties} {evs : List REvent} {d : Document}
    (h : Document.parse X F ps evs = .ok d) : ∃ pre root mid gap tag attrs rest,
      evs = pre ++ .start .folia "FoLiA" root :: mid ++ .endTag .folia "metadata" :: gap ++ .start .folia tag attrs :: rest ∧
      (∀ ev ∈ gap, isStart ev = false) ∧ (tag = "text" ∨ tag = "speech") := by
  obtain ⟨pre, root, mid, gap, tag, attrs, t, rest, _, h1, h2, h3, _⟩ := parse_found h
  refine ⟨pre, root, mid, gap, tag, attrs, rest, h1, h2, ?_⟩
  unfold bodyTypeOf at h3
  by_cases ht : tag = "text"
  · exact Or.inl ht
  · by_cases hs : tag = "speech"
    · exact Or.inr hs
    · rw [if_neg ht, if_neg hs] at h3; cases h3

example : Document.parse Sample.X Sample.F {} Sample.xml = .ok Sample.parsed := Sample.parsed_eq

/-! ### C44 -/

/-- If the end tag after a path of open elements does not belong to the innermost of them, then parsing fails. -/
theorem C44_own_check {X : Ext} {F : Nat} {ps : DocumentProperties} (hcl : ∀ p, ps.processor = some p → CleanProc p)
    {header gap : List REvent} (hh : metadataEnd ∉ header) (hg : ∀ ev ∈ gap, isStart ev = false) {tag : String} {attrs : List RAttr}
    (htag : tag ≠ "FoLiA") {path : List Frame} {innermost : Frame} (hlast : path.getLast? = some innermost) {nodes : List XNode} {tag' : String}
    (hne : tag' ≠ innermost.tag) (hid : (attrIds attrs ++ (Frame.ids path ++ XNode.idsList nodes)).Nodup) (rest : List REvent) :
    ∃ f, Document.parse X F ps (source header gap tag attrs (Frame.events path ++ (XNode.eventsList nodes ++ .endTag .folia tag' :: rest))) = .error f := by
  rcases parse_prefix X F ps hcl hh hg tag attrs htag with hp | ⟨d1, hb, hp⟩
  · exact hp _
  obtain ⟨t, as, fs, x, d0, b1, b2, b3, b4, b5, b6, b7, b8⟩ := hb.body
  rcases hr : parseElements X F (Frame.events path ++ (XNode.eventsList nodes ++ .endTag .folia tag' :: rest)) [0] d1 with ⟨f | u, d'⟩
  · exact ⟨f, by rw [hp, hr]; rfl⟩
  have hfresh : d1.FreshIds (Frame.ids path ++ XNode.idsList nodes) := by
    rw [List.nodup_append] at hid
    refine ⟨hid.2.1, fun id hm => ?_⟩
    cases hk : d1.elementKeyById id with
    | none => rfl
    | some k =>
      have h1 := b8 id k hk
      have h2 := (id_sublist t as []).subset (by rw [h1]; simp : id ∈ _)
      rw [(attrsMeaning_ids b2).1] at h2
      exact absurd rfl (hid.2.2 id h2 id hm)
  obtain ⟨t, h1, h2⟩ := (path_end X F tag' rest nodes path 0 [] d1 d' x u hb.inv b3 b4 hfresh hr).2 innermost hlast
  exact absurd (((C40_tag_bijection _ _).mp h1).trans ((C40_tag_bijection _ _).mp h2).symm) hne

/-- The hypotheses are met: an end tag of a word inside a text. -/
example : metadataEnd ∉ Sample.header ∧ "w" ≠ (Frame.mk [] "t" []).tag ∧
    ([] ++ (Frame.ids [Frame.mk [Sample.node] "w" [.ok "xml:id" "w2"], Frame.mk [] "t" []] ++ XNode.idsList [.text "Tom"])).Nodup := by decide

/-- An error of the reader makes parsing fail, unless it comes after the end of the body. -/
theorem C44_reader_error {X : Ext} {F : Nat} {ps : DocumentProperties} {read rest : List REvent}
    (h : ¬ ∃ header gap tag attrs inside, read = source header gap tag attrs inside ∧ bodyDepth 0 inside = none) :
    ∃ f, Document.parse X F ps (read ++ .error :: rest) = .error f := by
  cases hp : Document.parse X F ps (read ++ .error :: rest) with
  | error f => exact ⟨f, rfl⟩
  | ok d => exact absurd (parse_error hp) h

/-- An end tag that does not belong to the innermost open element makes parsing fail, unless it comes after the end of the body. The
reader replaces such an end tag by an error. -/
theorem C44_mismatch {X : Ext} {F : Nat} {ps : DocumentProperties} {read rest : List REvent} {ns : Ns} {tag : String} {opened : List (Ns × String)}
    (hn : nestedOpen [] read = some opened) (hm : opened.head? ≠ some (ns, tag))
    (h : ¬ ∃ header gap tag attrs inside, read = source header gap tag attrs inside ∧ bodyDepth 0 inside = none) :
    ∃ f, Document.parse X F ps (checkEnds [] (read ++ .endTag ns tag :: rest)) = .error f := by
  obtain ⟨rest', hr⟩ := checkEnds_mismatch ns tag rest read [] opened hn hm
  rw [hr]
  exact C44_reader_error h

/-- The hypotheses are met by a document that closes a text with the end tag of a word. -/
example : let read := source [.start .folia "FoLiA" [], .start .folia "metadata" []] [] "text" [] [.start .folia "w" [], .start .folia "t" [], .text "Tom"]
    nestedOpen [] read = some [(.folia, "t"), (.folia, "w"), (.folia, "text"), (.folia, "FoLiA")] ∧ some (Ns.folia, "t") ≠ some (Ns.folia, "w") ∧
    ¬ ∃ header gap tag attrs inside, read = source header gap tag attrs inside ∧ bodyDepth 0 inside = none := by
  refine ⟨by decide, by decide, ?_⟩
  rintro ⟨header, gap, tag, attrs, inside, h, ho⟩
  have h1 := bodyDepth_closed ho
  have hc := congrArg (List.countP isEnd) h
  simp only [source, List.countP_append, List.countP_cons] at hc
  simp [isEnd, metadataEnd] at hc
  omega

/-- The parser itself does not look at the end tag of the body: it relies on the reader. -/
theorem C44_body_end_counterexample : ∃ d, Document.parse Sample.X Sample.F {} (source Sample.header [] "text" [] [.endTag .folia "speech"]) = .ok d :=
  ⟨_, Sample.value_eq (by decide +kernel)⟩

/-! ### C58 -/

/-- Every element of the source, at any depth, is stored with its own pieces of text taken over literally and in order, as long as they are not blank. -/
theorem C58_literal_partial {X : Ext} {F : Nat} {ps : DocumentProperties} (hcl : ∀ p, ps.processor = some p → CleanProc p)
    {header gap : List REvent} (hh : metadataEnd ∉ header) (hg : ∀ ev ∈ gap, isStart ev = false) {tag tag' : String} {attrs : List RAttr}
    (htag : tag ≠ "FoLiA") {nodes : List XNode} (hid : (attrIds attrs ++ XNode.idsList nodes).Nodup) {rest : List REvent} {d : Document}
    (h : Document.parse X F ps (source header gap tag attrs (XNode.eventsList nodes ++ .endTag .folia tag' :: rest)) = .ok d)
    {etag : String} {eattrs : List RAttr} {children : List XNode} (hin : XNode.Has etag eattrs children nodes) :
    ∃ k x, d.getElement k = some x ∧ x.elementtype.asStr = etag ∧ textItems x.data = (XNode.looseTexts children).filter fun s => !(s.toList.all isWs) := by
  obtain ⟨_, _, _, data, x, _, _, h1, _, _, _, h2, _⟩ := C42_tree hcl hh hg htag hid h
  obtain ⟨t, as, fs, zs, par, c, e1, e2, e3, e4⟩ := has_stored (extra := []) hin h1 h2
  simp only [Stored] at e4
  obtain ⟨y, _, y1, _, y2, y3⟩ := e4
  refine ⟨c, y, y1, by rw [y2.type]; exact ((C40_tag_bijection _ _).mp e1).symm, ?_⟩
  rw [← textItems_own, storedItems_text y3, textItems_append, textItems_shortcuts e2, meaningList_text e3]; rfl

example : XNode.Has "t" [] [.text "Tom &amp; ", .cdata "Jerry"] [Sample.node] ∧ XNode.looseTexts [.text "Tom &amp; ", .cdata "Jerry"] = ["Tom & ", "Jerry"] :=
  ⟨.inside (List.mem_cons_self ..) (.here (by simp)), by decide +kernel⟩

/-- A blank between two pieces of inline markup is lost: `<t><t-str>Tom</t-str> <t-str>Jerry</t-str></t>` reads `TomJerry`. -/
theorem C58_counterexample : ∃ d x, Document.parse Sample.X Sample.F {} (source Sample.header [] "text" [] (XNode.eventsList
      [.elem "t" [] [.elem "t-str" [] [.text "Tom"], .text " ", .elem "t-str" [] [.text "Jerry"]]] ++ [.endTag .folia "text"])) = .ok d ∧
    d.getElement 1 = some x ∧ x.elementtype = .textContent ∧ elementText d Sample.F x {} = .ok "TomJerry" := by
  let d := Sample.value (Document.parse Sample.X Sample.F {} (source Sample.header [] "text" [] (XNode.eventsList
      [.elem "t" [] [.elem "t-str" [] [.text "Tom"], .text " ", .elem "t-str" [] [.text "Jerry"]]] ++ [.endTag .folia "text"])))
  have h : (d.getElement 1).map (fun e => decide (e.elementtype = .textContent ∧ elementText d Sample.F e {} = .ok "TomJerry")) = some true := by decide +kernel
  obtain ⟨x, hx, h⟩ := Option.map_eq_some_iff.mp h
  exact ⟨d, x, Sample.value_eq (by decide +kernel), hx, of_decide_eq_true h⟩

end Folia
