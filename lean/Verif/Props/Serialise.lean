import Verif.Lemmas.Xml
/-! C36 (serialisation is well nested and complete), C37 (written attributes), C56 (serialising one element). -/
namespace Folia
open Document

/-! ### C37 -/

/-- The attributes of every element can be written; which ones they are is said by `AttrsAre`. -/
theorem C37_written {X : Ext} {F : Nat} {d : Document} (hr : CleanReachable X F d) {k : Nat} {e : ElementData} (he : d.getElement k = some e) :
    ∃ l, elementAttrs X d (defaultMask d.declarations.items) e = .ok l ∧ AttrsAre X d e l := by
  obtain ⟨plain, enc, hat, hp, hlive⟩ := (hr.cinv.elem k e he).refs
  have hk := keysU_of_refs hat hp
  obtain ⟨v1, v2, v3, v4, v5, v6⟩ := values_of_refs (d := d) hat hp
  refine ⟨_, elementAttrs_eq hat hp hlive.dec, ?_⟩
  have hpr : printedAttrs X e.attribs = printedAttrs X plain := by rw [hat, printedAttrs_append, printedAttrs_refs, List.append_nil]
  refine ⟨_, by rw [hpr], ?_⟩
  cases hdk : enc.dec with
  | none => left; exact ⟨by rw [hk.1, hdk], rfl⟩
  | some dk =>
    obtain ⟨dec, hdec⟩ := hlive.dec dk hdk
    right
    simp only [hdec]
    rw [hdk] at v3 v4 v5
    simp only [Option.bind_some, hdec] at v3 v4 v5
    refine ⟨dk, dec, _, _, _, _, by rw [hk.1, hdk], hdec, v4, v5, by rw [refAttrs], ?_, ?_⟩
    · have hdef : getDefaultKey d.declarations.items dec.annotationtype = some dk ↔
          ∀ j dec', d.getDeclaration j = some dec' → dec'.annotationtype = dec.annotationtype → j = dk := by
        rw [getDefaultKey_iff]
        constructor
        · intro h j dec' h1 h2; exact h.2 j dec' (getDeclaration_items h1) h2
        · intro h; exact ⟨⟨dec, getDeclaration_items hdec, rfl⟩, fun j dec' h1 h2 => h j dec' (items_getDeclaration h1) h2⟩
      by_cases h : getDefaultKey d.declarations.items dec.annotationtype = some dk ∨ e.elementtype = .feature
      · left
        rw [if_pos h]
        exact ⟨h.symm.imp_right hdef.mp, rfl⟩
      · right
        rw [if_neg h]
        refine ⟨⟨fun h' => h (.inr h'), Classical.byContradiction fun hn => h (.inl (hdef.mpr fun j dec' h1 h2 =>
          Classical.byContradiction fun h3 => hn ⟨j, dec', h1, h2, h3⟩))⟩, v3⟩
    · have hsole : dec.processors.map some = [enc.proc] ↔ ∃ p, dec.processors = [p] ∧ e.processorKeyU = .ok (some p) := by
        rw [hk.2.2.1]
        rcases dec.processors with _ | ⟨p, _ | ⟨q, r⟩⟩
        · simp
        · simp [eq_comm]
        · simp
      by_cases h : dec.processors.map some = [enc.proc]
      · left; rw [if_pos h]; exact ⟨hsole.mp h, rfl⟩
      · right; rw [if_neg h]; exact ⟨fun h' => h (hsole.mpr h'), v6⟩

theorem AttribType.asStr_inj {a b : AttribType} (h : a.asStr = b.asStr) : a = b := by
  cases a <;> first | (cases b <;> first | rfl | (exfalso; revert h; decide))

theorem printedAttrs_names (X : Ext) : ∀ as : List Attribute, ((printedAttrs X as).map (·.1)).Sublist (as.map fun a => a.attribtype.asStr)
  | [] => .slnil
  | a :: as => by
    simp only [printedAttrs, List.filterMap_cons]
    cases a.display X with
    | error f => exact (printedAttrs_names X as).cons _
    | ok v => exact (printedAttrs_names X as).cons_cons _

theorem wattrOpt_names (k : String) (v : Option String) : ((wattrOpt k v).map (·.1)).Sublist [k] := by
  cases v
  · exact List.nil_sublist _
  · exact List.Sublist.refl _

/-- No attribute name is written twice, if the element does not have two attributes of the same type. -/
theorem C37_unique_names_partial {X : Ext} {F : Nat} {d : Document} (hr : CleanReachable X F d) {k : Nat} {e : ElementData} (he : d.getElement k = some e)
    (hd : e.DistinctAttribs) {l} (h : elementAttrs X d (defaultMask d.declarations.items) e = .ok l) : (l.map (·.1)).Nodup := by
  obtain ⟨plain, enc, hat, hp, hlive⟩ := (hr.cinv.elem k e he).refs
  rw [elementAttrs_eq hat hp hlive.dec] at h
  have h := (Except.ok.inj h).symm
  obtain ⟨refs, hl, hsub⟩ : ∃ refs, l = printedAttrs X plain ++ refs ∧ (refs.map (·.1)).Sublist ["set", "subset", "class", "processor"] := by
    refine ⟨_, h, ?_⟩
    split
    · exact List.nil_sublist _
    · split
      · exact List.nil_sublist _
      · simp only [refAttrs, List.map_append]
        exact (((wattrOpt_names "set" _).append (wattrOpt_names "subset" _)).append (wattrOpt_names "class" _)).append (wattrOpt_names "processor" _)
  rw [hl, List.map_append, List.nodup_append]
  have hnd : (plain.map fun a => a.attribtype.asStr).Nodup := by
    have : (plain.map Attribute.attribtype).Nodup := by
      unfold ElementData.DistinctAttribs at hd
      rw [hat, List.map_append] at hd
      exact (List.nodup_append.mp hd).1
    have h2 := List.Pairwise.map (S := fun a b => a ≠ b) AttribType.asStr (fun a b hab hc => hab (AttribType.asStr_inj hc)) this
    rw [List.map_map] at h2
    exact h2
  refine ⟨(printedAttrs_names X plain).nodup hnd, hsub.nodup (by decide), ?_⟩
  intro a ha b hb hab
  subst hab
  obtain ⟨at', hat', rfl⟩ := List.mem_map.mp ((printedAttrs_names X plain).subset ha)
  have := hp at' hat'
  have hb := hsub.subset hb
  revert this hb
  cases at' <;> simp [Attribute.attribtype, AttribType.asStr, Attribute.encodable, Attribute.decodable]


/-- Does the computation succeed? -/
def Sample.isOk {α : Type} (r : Res α) : Bool := match r with | .ok _ => true | .error _ => false

/-- A paragraph that was built with two attributes of the same type. -/
def Sample.doubled : Document :=
  runOps Sample.F [.addElementTo 0 ((ElementData.new .paragraph).withAttribs [.n "1", .n "2"])] Sample.fresh

/-- Without that condition the output is not well-formed XML: the builder accepts two attributes of the same type, both are written, and
parsing the output fails. -/
theorem C37_duplicates_counterexample : ∃ (d : Document) (k : Nat) (e : ElementData) (l : List (String × String)), CleanReachable Sample.X Sample.F d ∧
    d.getElement k = some e ∧ elementAttrs Sample.X d (defaultMask d.declarations.items) e = .ok l ∧ ¬ (l.map (·.1)).Nodup ∧
    ∃ evs, d.xml Sample.X 100 0 = .ok evs ∧ ∃ f, Document.parse Sample.X 100 {} (readBack evs) = .error f := by
  have hr : CleanReachable Sample.X Sample.F Sample.doubled := Sample.clean_ops _ (fun o ho d => by
    simp only [List.mem_singleton] at ho; subst ho
    simp [Op.Clean, CleanBuilder, CleanData, ElementData.new, ElementData.withAttribs, Attribute.decodable]) (.new (by intro p h; cases h) Sample.fresh_eq)
  have h : (Sample.doubled.getElement 1).map (fun e => decide (elementAttrs Sample.X Sample.doubled (defaultMask Sample.doubled.declarations.items) e =
    .ok [("n", "1"), ("n", "2")])) = some true := by decide +kernel
  obtain ⟨e, he, h⟩ := Option.map_eq_some_iff.mp h
  have hx : Sample.isOk (Sample.doubled.xml Sample.X 100 0) = true := by decide +kernel
  have hp : Sample.isOk (Document.parse Sample.X 100 {} (readBack (Sample.value (Sample.doubled.xml Sample.X 100 0)))) = false := by decide +kernel
  refine ⟨Sample.doubled, 1, e, _, hr, he, of_decide_eq_true h, by decide, _, Sample.value_eq hx, ?_⟩
  generalize Document.parse Sample.X 100 {} _ = r at hp ⊢
  cases r with
  | ok d => cases hp
  | error f => exact ⟨f, rfl⟩

/-! ### C36 -/

/-- Serialising an element writes exactly the recursive serialisation of the tree below it, with the attributes of C37. The element must have
a parent or be the body, see `C56`. -/
theorem C36_exact {X : Ext} {F : Nat} {d : Document} (hr : CleanReachable X F d) (hf : d.Forest) {k : Nat} {e : ElementData}
    (he : d.getElement k = some e) (hk : e.parent ≠ none ∨ k = 0) :
    ∃ A : ElementData → List (String × String), (∀ k e, d.getElement k = some e → AttrsAre X d e (A e)) ∧
    ∃ items, Below d k e items ∧ ∃ N, ∀ G, N ≤ G → xmlElements X d G k = .ok (itemXml A true (.node k e items)) := by
  have hA : ∀ k e, d.getElement k = some e → elementAttrs X d (defaultMask d.declarations.items) e =
      .ok ((elementAttrs X d (defaultMask d.declarations.items) e).toOption.getD []) := by
    intro k e he
    obtain ⟨l, hl, _⟩ := C37_written (X := X) hr he
    rw [hl]
    rfl
  refine ⟨_, fun k e he => ?_, xmlElements_tree hr hf he hk hA⟩
  obtain ⟨l, hl, h⟩ := C37_written (X := X) hr he
  simp only [hl]
  exact h

/-- Whatever is written for an element is well nested: every end tag closes the innermost open tag, and in the end nothing is open. -/
theorem C36_element_nested {X : Ext} {F : Nat} {d : Document} (hr : CleanReachable X F d) (hf : d.Forest) {k : Nat} {e : ElementData}
    (he : d.getElement k = some e) (hk : e.parent ≠ none ∨ k = 0) {G : Nat} {evs : List WEvent} (h : xmlElements X d G k = .ok evs) :
    nesting [] evs = some [] := by
  obtain ⟨A, _, items, _, N, hN⟩ := C36_exact (X := X) hr hf he hk
  have h1 := fuelled_mono (f := fun n => xmlElements X d n k) (xmlElements_next X d k) h (by simp) (Nat.le_max_left G N)
  rw [hN _ (Nat.le_max_right G N)] at h1
  cases h1
  exact itemXml_balanced A true _ []

/-- A whole document is written as a root tag around the metadata and the body. -/
theorem C36_document {X : Ext} {F : Nat} {d : Document} (hr : CleanReachable X F d) (hf : d.Forest) (hb : d.Live 0) :
    ∃ A : ElementData → List (String × String), (∀ k e, d.getElement k = some e → AttrsAre X d e (A e)) ∧
    ∃ e items, Below d 0 e items ∧ ∃ N, ∀ G, N ≤ G → ∀ m, xmlMetadata d G = .ok m → d.xml X G 0 = .ok (
      [.start "FoLiA" [("xmlns", escape NSFOLIA), ("xmlns:xlink", escape NSXLINK), ("xml:id", escape d.id), ("version", escape FOLIAVERSION),
        ("generator", escape GENERATOR)], .text "\n"] ++ m ++ itemXml A true (.node 0 e items) ++ [.text "\n", .endTag "FoLiA"]) := by
  obtain ⟨e, he⟩ := hb
  obtain ⟨A, hA, items, hbel, N, hN⟩ := C36_exact (X := X) hr hf he (.inr rfl)
  refine ⟨A, hA, e, items, hbel, N, fun G hG m hm => ?_⟩
  unfold Document.xml
  rw [hm, hN G hG]
  rfl

/-- The same for whole documents, including the metadata. -/
theorem C36_document_nested {X : Ext} {F : Nat} {d : Document} (hr : CleanReachable X F d) (hf : d.Forest) (hb : d.Live 0) {G : Nat} {evs : List WEvent}
    (h : d.xml X G 0 = .ok evs) : nesting [] evs = some [] := by
  obtain ⟨e, he⟩ := hb
  obtain ⟨A, _, items, _, N, hN⟩ := C36_exact (X := X) hr hf he (.inr rfl)
  unfold Document.xml at h
  cases h1 : xmlMetadata d G with
  | error f => rw [h1] at h; cases h
  | ok m =>
    cases h2 : xmlElements X d G 0 with
    | error f => rw [h1, h2] at h; cases h
    | ok b =>
      have h3 := fuelled_mono (f := fun n => xmlElements X d n 0) (xmlElements_next X d 0) h2 (by simp) (Nat.le_max_left G N)
      rw [hN _ (Nat.le_max_right G N)] at h3
      cases h3
      rw [h1, h2] at h
      have := ((((Balanced.text "\n").append (xmlMetadata_balanced h1)).append (itemXml_balanced A true (.node 0 e items))).append
        (.text "\n")).wrap "FoLiA" [wattr "xmlns" NSFOLIA, wattr "xmlns:xlink" NSXLINK, wattr "xml:id" d.id, wattr "version" FOLIAVERSION,
            wattr "generator" GENERATOR]
      have hev := Except.ok.inj h
      subst hev
      simpa [nl, List.append_assoc] using this []

/-- The document of the samples, the way `nesting` sees it: the hypotheses of the theorems above are met. -/
example : CleanReachable Sample.X Sample.F Sample.doc ∧ Sample.doc.Forest ∧ Sample.doc.Live 0 ∧
    xmlElements Sample.X Sample.doc 100 2 = .ok [.start "w" [("xml:id", "w1"), ("class", "WORD")], .text "\n", .start "t" [], .text "Hello", .endTag "t",
      .text "\n", .start "pos" [("class", "NN")], .text "\n", .empty "feat" [("subset", "number"), ("class", "singular")], .text "\n", .endTag "pos",
      .text "\n", .endTag "w"] ∧ (match Sample.doc.xml Sample.X 100 0 with
        | .ok evs => nesting [] evs
        | .error _ => none) = some [] := by
  refine ⟨Sample.doc_clean, Sample.doc_forest, Option.isSome_iff_exists.mp ?_, by decide +kernel, by decide +kernel⟩
  decide +kernel

/-! ### C56 -/

/-- Every element that is attached somewhere (or is the body) is written with everything below it. -/
theorem C56_attached_partial {X : Ext} {F : Nat} {d : Document} (hr : CleanReachable X F d) (hf : d.Forest) {k : Nat} {e : ElementData}
    (he : d.getElement k = some e) (hk : e.parent ≠ none ∨ k = 0) :
    ∃ A : ElementData → List (String × String), (∀ k e, d.getElement k = some e → AttrsAre X d e (A e)) ∧
    ∃ items, Below d k e items ∧ ∃ N, ∀ G, N ≤ G → elementXml X d G e = .ok (itemXml A true (.node k e items)) := by
  obtain ⟨A, hA, items, hb, N, hN⟩ := C36_exact (X := X) hr hf he hk
  refine ⟨A, hA, items, hb, N, fun G hG => ?_⟩
  unfold elementXml
  rw [(hr.cinv.elem k e he).key]
  exact hN G hG

/-- The sample document after its first word has been detached. -/
def Sample.detached : Document := (Op.run Sample.F (.detachElement 2) Sample.doc).2

/-- Detached elements are not written as themselves: the first tag is that of the body of the document. -/
theorem C56_detached_counterexample : ∃ (d : Document) (k : Nat) (e : ElementData), CleanReachable Sample.X Sample.F d ∧ d.getElement k = some e ∧
    e.elementtype = .word ∧ ∃ rest, ∃ N, ∀ G, N ≤ G → elementXml Sample.X d G e = .ok (.start "text" [] :: rest) := by
  have h : (Sample.detached.getElement 2).map (fun e => decide (e.elementtype = .word ∧ elementXml Sample.X Sample.detached 100 e =
      .ok [.start "text" [], .text "\n", .start "t" [], .text "Hello", .endTag "t", .text "\n", .start "pos" [("class", "NN")], .text "\n",
        .empty "feat" [("subset", "number"), ("class", "singular")], .text "\n", .endTag "pos", .text "\n", .endTag "text"])) = some true := by
    decide +kernel
  obtain ⟨e, he, h⟩ := Option.map_eq_some_iff.mp h
  obtain ⟨h1, h2⟩ := of_decide_eq_true h
  have hn : ∀ n, Fuelled (elementXml Sample.X Sample.detached n e) (elementXml Sample.X Sample.detached (n + 1) e) := by
    intro n
    unfold elementXml
    cases e.key with
    | none => exact .rfl
    | some k => exact xmlElements_next _ _ _ _
  exact ⟨Sample.detached, 2, e, .op _ Sample.doc_clean trivial, he, h1, _, 100,
    fun G hG => fuelled_mono (f := fun n => elementXml Sample.X Sample.detached n e) hn h2 (by simp) hG⟩

end Folia
