import Verif.Lemmas.AcceptChecks
import Verif.Props.Parser
/-! C71: which sources the parser accepts. -/
namespace Folia
open Document

/-- A well-formed source is accepted: if the source is accepted up to the start tag of the body, every tag and attribute in the body has a
meaning, identifiers are distinct, and the elements fit (`FitsAll`), then the source with that body is accepted. The list `L` has
everything that is declared or needs to be, and fits in the store. -/
theorem C71_accepted {X : Ext} {F : Nat} {ps : DocumentProperties} (hcl : ∀ p, ps.processor = some p → CleanProc p)
    {header gap : List REvent} (hh : metadataEnd ∉ header) (hg : ∀ ev ∈ gap, isStart ev = false) {tag : String} {attrs : List RAttr} {t : ElementType}
    (ht : bodyTypeOf tag = some t) {d0 : Document} (h0 : Document.parse X F ps (source header gap tag attrs []) = .ok d0)
    {nodes : List XNode} {data : List Data} (hm : XNode.meaningList X nodes = some data) {L : List DeclName} (hL : L.length ≤ cap16)
    (hroom : ∀ k dec, d0.getDeclaration k = some dec → (dec.annotationtype, dec.set) ∈ L) (hfit : FitsAll L [t] ((attrIds attrs).take 1) data)
    (hid : (attrIds attrs ++ XNode.idsList nodes).Nodup) (hcap : 1 + builderSizeList data ≤ cap32) (tag' : String) (rest : List REvent) :
    ∃ N d, ∀ F', N ≤ F' → Document.parse X F' ps (source header gap tag attrs (XNode.eventsList nodes ++ .endTag .folia tag' :: rest)) = .ok d := by
  rcases parse_prefix_all X ps hcl hh hg tag attrs (bodyTypeOf_ne ht) with hp | ⟨d1, hb, hp⟩
  · obtain ⟨f, hf⟩ := hp F []
    rw [hf] at h0; cases h0
  have hd1 : d1 = d0 := by
    rw [hp] at h0
    simp only [parseElements] at h0
    exact Except.ok.inj h0
  subst hd1
  obtain ⟨t', as, fs, x, d0, b1, b2, b3, b4, b5, b6, b7, b8⟩ := hb.body
  rw [ht] at b1
  cases b1
  have hidf : IdsFound d1 := (cleanReachable_reachable (.parse hcl h0)).idsFound
  have hlay : ElementGroup.layer.contains t = false := by
    unfold bodyTypeOf at ht
    split at ht
    · cases ht; decide
    · split at ht
      · cases ht; decide
      · cases ht
  have hsub := meaningList_ids hm
  have hnd := List.nodup_append.mp hid
  have hknown : (ElementData.mk t as [] none none).id.toList = (attrIds attrs).take 1 := by
    rw [← (attrsMeaning_ids b2).1]
    unfold ElementData.id
    simp only
    clear b2 b6 b8
    induction as with
    | nil => rfl
    | cons a as ih => cases a <;> first | exact ih | rfl
  have hprep : Prepared L 0 [] [t] ((attrIds attrs).take 1) d1 data := by
    refine ⟨⟨hb.inv, hb.links, hb.ranked, hidf, hroom⟩, ⟨x, b3, b4⟩, ⟨⟨x, b3, b6.type⟩, trivial⟩, hfit, ?_, ?_, by rw [hb.len]; exact hcap⟩
    · intro i hi
      rw [← hknown] at hi
      exact ⟨0, hidf 0 x i b3 (by rw [readsBack_id b6 hlay]; simpa using hi)⟩
    · refine ⟨hnd.2.1.sublist hsub, fun id hm => ?_⟩
      cases hk : d1.elementKeyById id with
      | none => rfl
      | some k =>
        have h2 := (id_sublist t as []).subset (by rw [b8 id k hk]; simp : id ∈ _)
        rw [(attrsMeaning_ids b2).1] at h2
        exact absurd rfl (hnd.2.2 id h2 id (hsub.subset hm))
  obtain ⟨N, d', n1, n2, n3⟩ := nodes_admits X hL nodes 0 [] _ _ d1 data hm hprep
  refine ⟨N, d', fun F' hF => ?_⟩
  rw [hp, n3 F' hF]
  simp only [parseElements, if_true]
  rfl

/-- A word with a part-of-speech tag and features, and a chunk over that word. -/
def Sample.nodes : List XNode := [Sample.node, .elem "chunking" [] [.elem "chunk" [.ok "class" "NP", .ok "set" "chunks"] [.empty "wref" [.ok "id" "w1"]]]]

/-- What they mean. -/
def Sample.meant : List Data := match XNode.meaningList Sample.X Sample.nodes with
  | some data => data
  | none => []

/-- What they need to have declared. -/
def Sample.named : List DeclName := [(.POS, some "brown"), (.TEXT, some DEFAULT_TEXT_SET), (.TOKEN, none), (.POS, none), (.LEMMA, none), (.CHUNKING, some "chunks")]

/-- A document with an empty body. -/
def Sample.empty : Document := Sample.value (Document.parse Sample.X Sample.F {} (source Sample.header [.text "\n"] "text" [.ok "xml:id" "doc.text"] []))

theorem Sample.empty_eq : Document.parse Sample.X Sample.F {} (source Sample.header [.text "\n"] "text" [.ok "xml:id" "doc.text"] []) = .ok Sample.empty :=
  Sample.value_eq (by decide +kernel)

theorem Sample.meant_eq : XNode.meaningList Sample.X Sample.nodes = some Sample.meant := by
  have h : (XNode.meaningList Sample.X Sample.nodes).isSome = true := by decide +kernel
  unfold Sample.meant
  cases hd : XNode.meaningList Sample.X Sample.nodes with
  | none => rw [hd] at h; cases h
  | some data => rfl

theorem Sample.named_all {d : Document} (h : (d.declarations.items.all fun o => o.all fun x => decide ((x.annotationtype, x.set) ∈ Sample.named)) = true) :
    ∀ k dec, d.getDeclaration k = some dec → (dec.annotationtype, dec.set) ∈ Sample.named := by
  intro k dec hk
  have := List.all_eq_true.mp h _ (List.mem_of_getElem? (Store.get_eq_some.mp hk))
  rw [Option.all_some] at this
  exact of_decide_eq_true this

/-- The hypotheses are met by a source with a word, a part-of-speech tag with features and a chunk over the word. -/
example : Document.parse Sample.X Sample.F {} (source Sample.header [.text "\n"] "text" [.ok "xml:id" "doc.text"] []) = .ok Sample.empty ∧
    bodyTypeOf "text" = some .text ∧ XNode.meaningList Sample.X Sample.nodes = some Sample.meant ∧
    (∀ k dec, Sample.empty.getDeclaration k = some dec → (dec.annotationtype, dec.set) ∈ Sample.named) ∧
    FitsAll Sample.named [.text] ((attrIds [.ok "xml:id" "doc.text"]).take 1) Sample.meant ∧
    (attrIds [.ok "xml:id" "doc.text"] ++ XNode.idsList Sample.nodes).Nodup ∧ 1 + builderSizeList Sample.meant ≤ cap32 :=
  ⟨Sample.empty_eq, by decide, Sample.meant_eq, Sample.named_all (by decide +kernel), fitsAll_sound _ _ _ _ (by decide +kernel), by decide, by decide +kernel⟩

/-- A source with an unknown tag, an unknown attribute or a malformed value, text or attribute in its body is rejected. -/
theorem C71_malformed {X : Ext} {F : Nat} {ps : DocumentProperties} (hcl : ∀ p, ps.processor = some p → CleanProc p)
    {header gap : List REvent} (hh : metadataEnd ∉ header) (hg : ∀ ev ∈ gap, isStart ev = false) {tag : String} {attrs : List RAttr}
    (htag : tag ≠ "FoLiA") {nodes : List XNode} (hm : XNode.meaningList X nodes = none) (rest : List REvent) :
    ∃ f, Document.parse X F ps (source header gap tag attrs (XNode.eventsList nodes ++ rest)) = .error f := by
  rcases parse_prefix X F ps hcl hh hg tag attrs htag with hp | ⟨d1, hb, hp⟩
  · exact hp _
  rw [hp]
  rcases hr : parseElements X F (XNode.eventsList nodes ++ rest) [0] d1 with ⟨f | u, d'⟩
  · exact ⟨f, rfl⟩
  · obtain ⟨data, d2, r1, _⟩ := nodes_runs X F nodes _ 0 [] d1 d' hr
    rw [hm] at r1; cases r1

theorem tagged_meaning {X : Ext} {tag : String} {attrs : List RAttr} {xs : List XNode} (h : XNode.Tagged tag attrs xs) :
    ∀ {data : List Data}, XNode.meaningList X xs = some data → ∃ t r, ElementType.fromStr tag = some t ∧ attrsMeaning X t attrs = some r := by
  induction h with
  | elem hm =>
    intro data hd
    obtain ⟨ys', h1, _⟩ := meaningList_mem hd hm
    obtain ⟨t, as, fs, zs, e1, e2, _⟩ := elem_meaning h1
    exact ⟨t, _, e1, e2⟩
  | empty hm =>
    intro data hd
    obtain ⟨ys', h1, _⟩ := meaningList_mem hd hm
    simp only [XNode.meaning, Option.bind_eq_bind] at h1
    obtain ⟨t, e1, h2⟩ := Option.bind_eq_some_iff.mp h1
    obtain ⟨r, e2, _⟩ := Option.bind_eq_some_iff.mp h2
    exact ⟨t, r, e1, e2⟩
  | inside hm _ ih =>
    intro data hd
    obtain ⟨ys', h1, _⟩ := meaningList_mem hd hm
    obtain ⟨t, as, fs, zs, _, _, e3, _⟩ := elem_meaning h1
    exact ih e3
  | foreign hm _ ih =>
    intro data hd
    obtain ⟨ys', h1, _⟩ := meaningList_mem hd hm
    simp only [XNode.meaning] at h1
    exact ih h1

/-- An unknown tag in the body, at any depth, makes parsing fail. -/
theorem C71_unknown_tag {X : Ext} {F : Nat} {ps : DocumentProperties} (hcl : ∀ p, ps.processor = some p → CleanProc p)
    {header gap : List REvent} (hh : metadataEnd ∉ header) (hg : ∀ ev ∈ gap, isStart ev = false) {tag : String} {attrs : List RAttr}
    (htag : tag ≠ "FoLiA") {nodes : List XNode} {etag : String} {eattrs : List RAttr} (hin : XNode.Tagged etag eattrs nodes)
    (hu : ∀ t : ElementType, t.asStr ≠ etag) (rest : List REvent) :
    ∃ f, Document.parse X F ps (source header gap tag attrs (XNode.eventsList nodes ++ rest)) = .error f := by
  refine C71_malformed hcl hh hg htag ?_ rest
  cases hm : XNode.meaningList X nodes with
  | none => rfl
  | some data =>
    obtain ⟨t, _, h1, _⟩ := tagged_meaning hin hm
    exact absurd ((C40_tag_bijection _ _).mp h1).symm (hu t)

/-- An unknown attribute in the body makes parsing fail: one that is neither an attribute of FoLiA nor stands for a feature of the element. -/
theorem C71_unknown_attribute {X : Ext} {F : Nat} {ps : DocumentProperties} (hcl : ∀ p, ps.processor = some p → CleanProc p)
    {header gap : List REvent} (hh : metadataEnd ∉ header) (hg : ∀ ev ∈ gap, isStart ev = false) {tag : String} {attrs : List RAttr}
    (htag : tag ≠ "FoLiA") {nodes : List XNode} {etag : String} {eattrs : List RAttr} (hin : XNode.Tagged etag eattrs nodes)
    {k v : String} (hmem : .ok k v ∈ eattrs) (hu : ∀ s, Attribute.parse X k s = none) (hf : ∀ t : ElementType, t.asStr = etag → isShortcut t k = false)
    (rest : List REvent) : ∃ f, Document.parse X F ps (source header gap tag attrs (XNode.eventsList nodes ++ rest)) = .error f := by
  refine C71_malformed hcl hh hg htag ?_ rest
  cases hm : XNode.meaningList X nodes with
  | none => rfl
  | some data =>
    obtain ⟨t, r, h1, h2⟩ := tagged_meaning hin hm
    have hno : ∀ (l : List RAttr) (r : List Attribute × List Data), .ok k v ∈ l → attrsMeaning X t l = some r → False := by
      intro l
      induction l with
      | nil => intro r h; cases h
      | cons a l ih =>
        intro r hmem h
        cases a with
        | bad => cases h
        | ok k' v' =>
          simp only [attrsMeaning, Option.bind_eq_bind] at h
          obtain ⟨value, _, h4⟩ := Option.bind_eq_some_iff.mp h
          obtain ⟨⟨as, fs⟩, h3, h5⟩ := Option.bind_eq_some_iff.mp h4
          rcases List.mem_cons.mp hmem with heq | hmem
          · cases heq
            simp only [hu] at h5
            rw [if_neg (by rw [hf t ((C40_tag_bijection _ _).mp h1).symm]; decide)] at h5
            cases h5
          · exact ih _ hmem h3
    exact absurd (hno _ _ hmem h2) id

/-- The hypotheses are met by a body with a misspelt tag and an attribute that FoLiA does not have. -/
example : XNode.Tagged "wort" [.ok "colour" "red"] [Sample.node, .elem "s" [] [.empty "wort" [.ok "colour" "red"]]] ∧
    (∀ t : ElementType, t.asStr ≠ "wort") ∧ (∀ s, Attribute.parse Sample.X "colour" s = none) ∧ ∀ t : ElementType, isShortcut t "colour" = false := by
  refine ⟨.inside (.tail _ (.head _)) (.empty (.head _)), fun t => ?_, fun s => ?_, fun t => ?_⟩
  · have h : ∀ t ∈ ElementType.all, t.asStr ≠ "wort" := by decide +kernel
    exact h t (ElementType.mem_all t)
  · rfl
  · have h : ∀ t ∈ ElementType.all, isShortcut t "colour" = false := by decide +kernel
    exact h t (ElementType.mem_all t)

/-- Two sentences with a word each; the words have the same identifier. -/
def Sample.repeated : List XNode := [.elem "s" [.ok "xml:id" "s1"] [.elem "w" [.ok "xml:id" "w1"] [.elem "t" [] [.text "Tom"]]],
  .elem "s" [.ok "xml:id" "s2"] [.elem "w" [.ok "xml:id" "w1"] [.elem "t" [] [.text "Jerry"]]]]

/-- What the parser makes of them. -/
def Sample.merged : Document :=
  Sample.value (Document.parse Sample.X Sample.F {} (source Sample.header [] "text" [] (XNode.eventsList Sample.repeated ++ [.endTag .folia "text"])))

/-- A source that repeats an identifier is not valid FoLiA. It is accepted: the second word is lost, and the first one is moved out of its
sentence and gets both texts. -/
theorem C71_repeated_counterexample : ¬ (XNode.idsList Sample.repeated).Nodup ∧
    Document.parse Sample.X Sample.F {} (source Sample.header [] "text" [] (XNode.eventsList Sample.repeated ++ [.endTag .folia "text"])) = .ok Sample.merged ∧
    Sample.types Sample.merged = [some .text, some .sentence, some .word, some .textContent, some .sentence, some .textContent] ∧
    (Sample.merged.getElement 1).map (fun e => (e.id, e.data.length)) = some (some "s1", 0) ∧
    (Sample.merged.getElement 2).map (fun e => (e.id, e.parent, e.data.length)) = some (some "w1", some 4, 2) :=
  ⟨by decide, Sample.value_eq (by decide +kernel), by decide +kernel, by decide +kernel, by decide +kernel⟩

end Folia
