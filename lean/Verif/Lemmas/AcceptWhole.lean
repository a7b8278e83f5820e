import Verif.Lemmas.AcceptRest
import Verif.Lemmas.RoundRefs
import Verif.Lemmas.RoundSame
/-! A document that was written can be read. -/
namespace Folia
open Document

/-! ### The number of elements -/

theorem Prim.elemCap {C : Prop} {d d' : Document} (h : Prim C d d') (hd : d.elements.items.length ≤ cap32) : d'.elements.items.length ≤ cap32 := by
  cases h with
  | admin h _ _ _ _ => rw [h]; exact hd
  | declare t s a f => rw [(declare_elements ..).1]; exact hd
  | addClass k c => rw [(OnlyDecls.addClass k c d).1]; exact hd
  | addElem e ctx _ =>
    obtain ⟨_, h⟩ := addElem_elements e ctx d
    rcases h with ⟨f, _, he⟩ | ⟨e1, _, _, _, _, he, henc⟩
    · rw [he]; exact hd
    · rw [he]; exact Store.length_add cap32 d.elements e1 hd
  | setParent | orphan | pushElem | pushText | pushSpan | unlink | layer =>
    show (d.elements.update _ _).items.length ≤ _
    rw [Store.length_update]; exact hd
  | addDeclaration | annotator | addProc | chain | procParent | procPush | activate => exact hd

theorem CleanReachable.elemCap {X : Ext} {F : Nat} {d : Document} (hr : CleanReachable X F d) : d.elements.items.length ≤ cap32 :=
  Steps.inv Prim.elemCap hr.steps (Nat.zero_le _)

mutual
theorem nodeKeysIn_live {d : Document} : ∀ (i : Item), Shows d i → ∀ k ∈ nodeKeysIn i, k < d.elements.items.length
  | .text _, _, k, h => by simp [nodeKeysIn] at h
  | .comment _, _, k, h => by simp [nodeKeysIn] at h
  | .ref _, _, k, h => by simp [nodeKeysIn] at h
  | .node j e items, hs, k, h => by
    simp only [nodeKeysIn, List.mem_cons] at h
    rcases h with rfl | h
    · exact Store.get_lt hs.1
    · exact nodeKeys_live items hs.2.2 k h
theorem nodeKeys_live {d : Document} : ∀ (items : List Item), ShowsAll d items → ∀ k ∈ nodeKeys items, k < d.elements.items.length
  | [], _, k, h => by simp [nodeKeys] at h
  | i :: is, hs, k, h => by
    simp only [nodeKeys, List.mem_append] at h
    rcases h with h | h
    · exact nodeKeysIn_live i hs.1 k h
    · exact nodeKeys_live is hs.2 k h
end

/-! ### The head -/

/-- Reading what was written goes on with the body, from a document with the metadata. -/
theorem meta_found {X : Ext} {ps : DocumentProperties} {d : Document} {G : Nat} {ts : List ProcTree} {evs : List WEvent} (hx : DeclsExact d)
    (hlen : (keptDecls d.declarations.items).length ≤ cap16) (hts : (procIdsList ts).Nodup) (hsz : procSizeList ts ≤ cap16) (hu : UndatedList ts)
    (hp : concatRes (xmlProcessor d G) d.chain = .ok (procsXml ts)) (hxml : d.xml X G 0 = .ok evs) (hnest : nesting [] evs = some [])
    (hend : ∀ m, xmlMetadata d G = .ok (m ++ [.endTag "metadata", nl]) → ∀ t, .endTag t ∈ m → t ≠ "metadata") :
    ∃ d2 m tail, MetaBack d { autodeclare := ps.autodeclare, id := d.id, version := FOLIAVERSION } d2 ts ∧ CInv d2 ∧
      xmlMetadata d G = .ok m ∧ evs = [.start "FoLiA" [wattr "xmlns" NSFOLIA, wattr "xmlns:xlink" NSXLINK, wattr "xml:id" d.id,
          wattr "version" FOLIAVERSION, wattr "generator" GENERATOR], nl] ++ m ++ tail ∧
      ∀ body rest F d', parseBody X (readBackAux "\n" tail) = .ok (some body, rest) → runDoc (parseRest X F ps body rest) d2 = .ok ((), d') →
        Document.parse X F ps (checkEnds [] (readBack evs)) = .ok d' := by
  have hce := checkEnds_readBackAux evs [] [] "" hnest
  rw [List.map_nil] at hce
  obtain ⟨m, tail, hm, rfl⟩ := xml_parts hxml
  obtain ⟨inner, d2, st, pend, rfl, hw, hcp, hmb⟩ := wRun_metadata
    (d1 := { autodeclare := ps.autodeclare, id := d.id, version := FOLIAVERSION }) ⟨rfl, rfl, rfl, rfl⟩ hx hlen hts hsz hu hp hm
  have h1 := parseRoot_written { autodeclare := ps.autodeclare } d (inner ++ [.endTag "metadata", nl] ++ tail)
  rw [← List.append_assoc] at h1
  unfold readBack at h1
  have h2 := parseMeta_wRun inner _ _ _ _ _ _ (hend _ hm) hw ([.endTag "metadata", nl] ++ tail)
  rw [← List.append_assoc] at h2
  have h3 : ∃ evs', parseMeta d2 st (readBackAux pend ([.endTag "metadata", nl] ++ tail)) = .ok (d2, evs') ∧ evs' = readBackAux "\n" tail := by
    simp only [List.cons_append, List.nil_append, readBackAux]
    obtain ⟨tx, hf⟩ := flush_calm hcp st
    rw [parseMeta_flush hf]
    exact ⟨_, by simp only [parseMeta]; rfl, by simp only [nl, readBackAux]; rfl⟩
  obtain ⟨evs', h3, hevs'⟩ := h3
  have hc2 : CInv d2 := by
    have hc : CInv { autodeclare := ps.autodeclare, id := d.id, version := FOLIAVERSION } := Prim.cinv (d := {}) (.admin rfl rfl rfl rfl rfl) cinv_empty
    rw [h3] at h2
    exact ((parseMeta_steps (C := True) _ hc.ix h2).clean hc).1
  refine ⟨d2, _, tail, hmb, hc2, hm, rfl, fun body rest F d' hb hrun => ?_⟩
  unfold readBack
  rw [hce]
  unfold Document.parse
  rw [h1]
  simp only [bind, Except.bind, pure, Except.pure]
  rw [h2, h3]
  simp only
  rw [hevs', hb]
  simp only
  rw [hrun]

/-! ### The body -/

/-- Where the body starts, the parser finds it. -/
theorem body_found_forth {X : Ext} {A : ElementData → List (String × String)} {B : ElementData → List Attribute} {e : ElementData} {items : List Item}
    (hA : AttrsBack X A B (.node 0 e items)) (hl : LegibleIn (.node 0 e items)) (hne : items ≠ []) (ht : e.elementtype = .text ∨ e.elementtype = .speech) :
    ∃ nodes tail, parseBody X (readBackAux "\n" (itemXml A true (.node 0 e items) ++ [nl, .endTag "FoLiA"])) =
        .ok (some ⟨e.elementtype, B e, [], none, none⟩, XNode.eventsList nodes ++ .endTag .folia e.elementtype.asStr :: tail) ∧
      XNode.meaningList X nodes = some (itemsBuilder B items) := by
  cases items with
  | nil => exact absurd rfl hne
  | cons i is =>
    simp only [LegibleIn] at hl
    obtain ⟨nodes, p', data', h1, m', h2, h3, h4⟩ := items_back (i :: is) true _ _ [] (newline_held (nlAfterStart e.elementtype)) hl
      fun j hj e' he' => hA e' (.inner hj he')
    have hat := hA e .here
    have hbo : bodyOf X e.elementtype (readAttrs [] (A e)) = .ok (some ⟨e.elementtype, B e, [], none, none⟩) := by
      have hm := parseAttributes_meaning X e.elementtype (readAttrs [] (A e))
      rw [hat] at hm
      obtain ⟨cs, g1, _⟩ := hm
      unfold bodyOf
      rw [g1]
      rfl
    have hmean := meaningList_join h3 (pendNode_meaning (X := X) h2)
    rw [h4] at hmean
    refine ⟨nodes ++ pendNode p', readBackAux "" [nl, .endTag "FoLiA"], ?_, hmean⟩
    simp only [itemXml, List.isEmpty_cons, Bool.false_eq_true, if_false, List.cons_append, List.nil_append, List.append_assoc, readBackAux, Bool.not_true,
      Bool.false_and]
    rw [readBack_newline, String.empty_append, h1]
    rw [if_neg (by decide)]
    simp only [List.cons_append, List.nil_append, parseBody]
    have hev : XNode.eventsList nodes ++ readBackAux p' (.endTag e.elementtype.asStr :: [nl, .endTag "FoLiA"]) =
        XNode.eventsList (nodes ++ pendNode p') ++ .endTag .folia e.elementtype.asStr :: readBackAux "" [nl, .endTag "FoLiA"] := by
      simp only [readBackAux, eventsList_append, pendNode_events, List.append_assoc]
    rw [hev]
    rcases ht with ht | ht <;> rw [ht] at hbo ⊢
    · rw [if_pos (by decide), hbo]; rfl
    · rw [if_neg (by decide), if_pos (by decide), hbo]; rfl

/-! ### What was written fits -/

mutual
theorem idents_builder {d : Document} {B : ElementData → List Attribute} : ∀ (items : List Item), (∀ i ∈ items, ∀ e, InTree e i → AttrsOf d e (B e)) →
    builderIdsList (itemsBuilder B items) = identsIn items
  | [], _ => rfl
  | i :: is, hB => by
    simp only [itemsBuilder, builderIdsList_append, identsIn]
    rw [ident_builder i (hB i (List.mem_cons_self ..)), idents_builder is fun j hj => hB j (List.mem_cons_of_mem _ hj)]
theorem ident_builder {d : Document} {B : ElementData → List Attribute} : ∀ (i : Item), (∀ e, InTree e i → AttrsOf d e (B e)) →
    builderIdsList (itemBuilder B i) = identsOf i
  | .text _, _ => rfl
  | .comment _, _ => rfl
  | .ref _, _ => rfl
  | .node k e items, hB => by
    simp only [itemBuilder, builderIdsList, builderIds_eq, identsOf, List.append_nil]
    rw [idents_builder items fun j hj e' he' => hB e' (.inner hj he'), (hB e .here).id]
end

/-- The declarations there may be after reading what was written for a document. -/
def declNames (ps : DocumentProperties) (d : Document) : List DeclName :=
  (allDeclarations d).map (fun dec => (dec.annotationtype, dec.set)) ++ AnnotationType.all.map (·, none) ++ ps.declare

theorem declNames_length {ps : DocumentProperties} {d : Document} (h : DeclarationsFit ps d) : (declNames ps d).length ≤ cap16 := by
  unfold declNames
  simp only [List.length_append, List.length_map]
  have : (allDeclarations d).length ≤ d.declarations.items.length := List.length_filterMap_le ..
  unfold DeclarationsFit Store.len at h
  omega

theorem declNames_unset (ps : DocumentProperties) (d : Document) (t : AnnotationType) : (t, none) ∈ declNames ps d :=
  List.mem_append_left _ (List.mem_append_right _ (List.mem_map.mpr ⟨t, AnnotationType.mem_all t, rfl⟩))

theorem declNames_decl (ps : DocumentProperties) {d : Document} {k : Nat} {dec : Declaration} (h : d.getDeclaration k = some dec) :
    (dec.annotationtype, dec.set) ∈ declNames ps d :=
  List.mem_append_left _ (List.mem_append_left _ (List.mem_map.mpr ⟨dec, List.mem_filterMap.mpr ⟨some dec, List.mem_of_getElem? (Store.get_eq_some.mp h), rfl⟩, rfl⟩))

theorem encodes_written {ps : DocumentProperties} {d : Document} {e : ElementData} {as : List Attribute} {c : Option ElementType} {data : List Data} (he : RefsOk d e)
    (hc : ∀ a ∈ e.attribs, a.encodable = false) (ha : AttrsOf d e as)
    (hf : e.elementtype = .feature → e.declarationKeyU ≠ .ok none → ∃ c' t, c = some c' ∧ c'.annotationtype = some t) :
    Encodes (declNames ps d) c ⟨e.elementtype, as, data, none, none⟩ := by
  have hc' : ∀ a ∈ ownAttribs e, a.encodable = false := fun a ha => hc a (List.mem_filter.mp ha).1
  rcases ha with ⟨h1, rfl⟩ | ⟨k, dec, set, subset, cls, proc, h1, rfl⟩
  · have := own_encodable hc' e.elementtype data
    exact ⟨fun t s h => absurd h (by rw [this]; simp), fun h => absurd h (by rw [this]; simp)⟩
  · obtain ⟨g1, _⟩ := builder_refs hc' set subset cls proc e.elementtype data
    constructor
    · intro t s _ ht hs
      rw [g1] at hs
      cases hs
      rcases h1.set with ⟨_, rfl⟩ | ⟨_, hset⟩
      · exact declNames_unset ps d t
      · rw [set_of_key h1.key h1.stored] at hset
        cases hset
        have := (refs_listed he ht h1.key h1.stored).1
        rw [← this]
        exact declNames_decl ps h1.stored
    · intro _ _ hfe
      obtain ⟨c', t, h2, h3⟩ := hf hfe (by rw [h1.key]; simp)
      refine ⟨c', t, h2, h3, fun s hs => ?_⟩
      rw [g1] at hs
      cases hs
      rcases h1.set with ⟨_, rfl⟩ | ⟨⟨hn, _⟩, _⟩
      · exact declNames_unset ps d t
      · exact absurd hfe hn

theorem lastIdref_written {d : Document} {e : ElementData} {as : List Attribute} (hc : ∀ a ∈ e.attribs, a.encodable = false) (ha : AttrsOf d e as)
    (t : ElementType) (data : List Data) : (ElementData.mk t as data none none).lastIdref = e.lastIdref := by
  have hc' : ∀ a ∈ ownAttribs e, a.encodable = false := fun a ha => hc a (List.mem_filter.mp ha).1
  have h0 : e.lastIdref = (ElementData.mk t (ownAttribs e) data none none).lastIdref := foldl_idref (p := fun a => !a.decodable && a != .ignore) (by
    rintro a ha s rfl; cases ha) e.attribs none
  rcases ha with ⟨_, rfl⟩ | ⟨k, dec, set, subset, cls, proc, _, rfl⟩
  · exact h0.symm
  · have h1 := (builder_refs hc' set subset cls proc t data).2.2.2.2.1
    rw [h0, lastIdref_filter (e := ⟨t, ownAttribs e ++ refAttribs set subset cls proc, data, none, none⟩) (p := (!·.encodable)) (by rintro a ha s rfl; cases ha)]
    simp only at h1 ⊢
    rw [h1]

mutual
theorem fits_items {ps : DocumentProperties} {d : Document} {B : ElementData → List Attribute} : ∀ (items : List Item) (above : List ElementType) (known : List String),
    (∀ i ∈ items, ∀ e, InTree e i → AttrsOf d e (B e) ∧ RefsOk d e ∧ ∀ a ∈ e.attribs, a.encodable = false) → ReadableAll above known items →
    FitsAll (declNames ps d) above known (itemsBuilder B items)
  | [], _, _, _, _ => by simp only [itemsBuilder, FitsAll]
  | i :: is, above, known, hB, h => by
    simp only [ReadableAll] at h
    simp only [itemsBuilder]
    rw [fitsAll_append, ident_builder i fun e he => (hB i (List.mem_cons_self ..) e he).1]
    exact ⟨fits_item i above known (hB i (List.mem_cons_self ..)) h.1, fits_items is above _ (fun j hj => hB j (List.mem_cons_of_mem _ hj)) h.2⟩
theorem fits_item {ps : DocumentProperties} {d : Document} {B : ElementData → List Attribute} : ∀ (i : Item) (above : List ElementType) (known : List String),
    (∀ e, InTree e i → AttrsOf d e (B e) ∧ RefsOk d e ∧ ∀ a ∈ e.attribs, a.encodable = false) → Readable above known i →
    FitsAll (declNames ps d) above known (itemBuilder B i)
  | .text _, _, _, _, _ => by simp only [itemBuilder, FitsAll]
  | .comment _, _, _, _, _ => by simp only [itemBuilder, FitsAll]
  | .ref _, _, _, _, _ => by simp only [itemBuilder, FitsAll]
  | .node k e items, above, known, hB, h => by
    simp only [Readable] at h
    obtain ⟨h1, h2, h3⟩ := h
    obtain ⟨b1, b2, b3⟩ := hB e .here
    have hids := ident_builder (.node k e items) fun e he => (hB e he).1
    simp only [itemBuilder, builderIdsList, List.append_nil] at hids
    simp only [itemBuilder, FitsAll, Fits, and_true]
    refine ⟨encodes_written b2 b3 b1 h2, ?_, fun ht => ?_⟩
    · rw [b1.id]
      exact fits_items items _ _ (fun j hj e' he' => hB e' (.inner hj he')) h3
    · rw [hids]
      obtain ⟨⟨i, r1, r2⟩, r3⟩ := h1 ht
      exact ⟨⟨i, by rw [lastIdref_written b3 b1]; exact r1, r2⟩, r3⟩
end

/-- A document that was written is read again. -/
theorem round_accepted {X : Ext} {F : Nat} {ps : DocumentProperties} {d : Document} {G : Nat} {evs : List WEvent} (hr : CleanReachable X F d) (hf : d.Forest)
    (hp : d.ProvForest) (hu : ∀ c ∈ d.chain, UndatedBelow d c)
    (hxml : d.xml X G 0 = .ok evs) (hps : ps.processor = none) (hroom : DeclarationsFit ps d) {e : ElementData} {items : List Item} (hbel : Below d 0 e items)
    (hne : items ≠ []) (hty : e.elementtype = .text ∨ e.elementtype = .speech) (hl : LegibleIn (.node 0 e items))
    (hpe : ∀ e', InTree e' (.node 0 e items) → Printable X e') (hread : Readable [] [] (.node 0 e items)) :
    ∃ N d', ∀ F, N ≤ F → Document.parse X F ps (checkEnds [] (readBack evs)) = .ok d' := by
  have hb : d.Live 0 := ⟨e, hbel.1⟩
  obtain ⟨ts, hts, _, _⟩ := C50_written hr hp
  have hwr : ∃ N, ∀ G, N ≤ G → concatRes (xmlProcessor d G) d.chain = .ok (procsXml ts) := xmlProcessors_tree ts d.chain none 0 hts
  obtain ⟨N2, hN2⟩ := hwr
  have hpm : concatRes (xmlProcessor d G) d.chain = .ok (procsXml ts) := by
    obtain ⟨m, _, hm, _⟩ := xml_parts hxml
    unfold xmlMetadata at hm
    simp only [bind, Except.bind] at hm
    cases hd0 : xmlDeclarations d with
    | error e => rw [hd0] at hm; cases hm
    | ok decs0 =>
      rw [hd0] at hm
      simp only [xmlProvenance] at hm
      cases hc : concatRes (xmlProcessor d G) d.chain with
      | error e => rw [hc] at hm; cases hm
      | ok r =>
        have := fuelled_mono (f := fun n => concatRes (xmlProcessor d n) d.chain) (fun n => concatRes_next (xmlProcessor_next d n) _) hc (by simp)
          (Nat.le_max_left G N2)
        rw [hN2 _ (Nat.le_max_right G N2)] at this
        exact this.symm
  obtain ⟨hids, hsz⟩ := forest_fresh hr hp hts
  have hx : DeclsExact d := hr.cinv.decls.exact
  have hlen : (keptDecls d.declarations.items).length ≤ cap16 := Nat.le_trans (keptDecls_length _) hr.caps.decls
  obtain ⟨d2, m, tail, hmb, hc2, hm, hev, hgo⟩ := meta_found (ps := ps) hx hlen hids hsz (undatedList_stored ts _ _ hu hts) hpm hxml
    (C36_document_nested hr hf hb hxml) (fun m hm => metadata_noEnd hpm hm)
  obtain ⟨A, hA, e1, items1, hbel1, rfl⟩ := body_written hr hf hb hxml hm hev
  obtain ⟨rfl, rfl⟩ := below_unique hbel hbel1
  let B : ElementData → List Attribute := fun e' => match attrsMeaning X e'.elementtype (readAttrs [] (A e')) with
    | some (as, _) => as
    | none => []
  have henc := (cleanReachable_reachable hr).encoded
  have hAB : ∀ e', InTree e' (.node 0 e items) → attrsMeaning X e'.elementtype (readAttrs [] (A e')) = some (B e', []) ∧ AttrsOf d e' (B e') := by
    intro e' he'
    obtain ⟨k, hk⟩ := inTree_live hbel he'
    obtain ⟨as, g1, g2⟩ := attrs_read (hA k e' hk) (hpe e' he') (henc k e' hk)
    have : B e' = as := by simp only [B, g1]
    rw [this]
    exact ⟨g1, g2⟩
  have hBall : ∀ e', InTree e' (.node 0 e items) → AttrsOf d e' (B e') ∧ RefsOk d e' ∧ ∀ a ∈ e'.attribs, a.encodable = false := by
    intro e' he'
    obtain ⟨k, hk⟩ := inTree_live hbel he'
    exact ⟨(hAB e' he').2, (hr.cinv.elem k e' hk).refs, henc k e' hk⟩
  obtain ⟨nodes, tail', hpb, hmean⟩ := body_found_forth (fun e' he' => (hAB e' he').1) hl hne hty
  have hBe := (hAB e .here).2
  have hnd : (builderIdsList (itemBuilder B (.node 0 e items))).Nodup := by
    rw [item_ids _ hbel fun e' he' => (hAB e' he').2]
    exact ids_nodup hf (cleanReachable_reachable hr).idsFound hbel
  simp only [itemBuilder, builderIdsList, builderIds_eq, List.append_nil] at hnd
  have hsize : 1 + builderSizeList (itemsBuilder B items) ≤ cap32 := by
    have h1 := nodup_length_le _ _ (nodeKeysIn_nodup hf.links hf.acyclic hbel) (nodeKeysIn_live _ hbel)
    have h2 := hr.elemCap
    rw [items_size]
    simp only [nodeKeysIn, List.length_cons] at h1
    omega
  have hdn : ps.declare.length ≤ cap32 := by
    unfold DeclarationsFit at hroom
    have : cap16 ≤ cap32 := by decide
    omega
  simp only [Readable, List.nil_append] at hread
  obtain ⟨N, d', hfin⟩ := rest_accepts (X := X) hps (declNames_length hroom) hty hc2 (by rw [hmb.same]) hBe.clean (fun k dec hk => by
      rw [hmb.decls k] at hk
      obtain ⟨dec0, hj, rfl⟩ := Option.map_eq_some_iff.mp hk
      have := keptDecls_mem (List.mem_of_getElem? hj)
      obtain ⟨j, hj⟩ := List.mem_iff_getElem?.mp this
      exact declNames_decl ps (d := d) (k := j) (dec := dec0) (Store.get_eq_some.mpr hj))
    (fun k dec st hk hst => by
      rw [hmb.decls k] at hk
      obtain ⟨dec0, hj, rfl⟩ := Option.map_eq_some_iff.mp hk
      cases hst)
    (fun ts hts => List.mem_append_right _ hts) hdn hmean
    (by rw [hBe.id]; exact fits_items items _ _ (fun i hi e' he' => hBall e' (.inner hi he')) hread.2.2) hnd hsize
  exact ⟨N, d', fun F hF => hgo _ _ F d' hpb (hfin F hF _ _)⟩

end Folia
