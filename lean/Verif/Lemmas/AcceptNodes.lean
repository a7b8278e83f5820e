import Verif.Lemmas.AcceptEncode
import Verif.Lemmas.AcceptLayer
import Verif.Lemmas.Ids
import Verif.Lemmas.Spans
/-! The events of nodes that fit are accepted. -/
namespace Folia
open Document

theorem Prim.found_mono {C : Prop} {d d' : Document} (h : Prim C d d') {i : String} {k : Nat} (hk : d.elements.index.find i = some k) :
    d'.elements.index.find i = some k := by
  have same : d'.elements.index = d.elements.index → d'.elements.index.find i = some k := fun he => by rw [he]; exact hk
  have keep : d'.elements = d.elements → d'.elements.index.find i = some k := fun he => same (by rw [he])
  cases h with
  | admin he _ hp _ _ => exact keep he
  | addDeclaration dec _ => exact keep rfl
  | declare t s a f => exact keep (declare_elements ..).1
  | addClass k c => exact keep (OnlyDecls.addClass k c d).1
  | annotator k p _ => exact keep rfl
  | addElem e ctx _ =>
    obtain ⟨hs, h⟩ := addElem_elements e ctx d
    rcases h with ⟨f, _, he⟩ | ⟨e1, _, _, _, _, he, _⟩
    · exact keep he
    · rcases Store.add_spec cap32 d.elements e1 with ⟨id, k, _, _, heq⟩ | ⟨heq, _⟩ | ⟨hnone, _, s', heq, _, hget, hix⟩
      · rw [heq] at he; exact keep he
      · rw [heq] at he; exact keep he
      · rw [heq] at he
        simp only at he
        rw [he, hix, if_neg, hk]
        intro hc
        rw [hnone i hc] at hk; cases hk
  | setParent | orphan | pushElem | pushText | pushSpan | unlink | layer => exact same (Store.update_index ..)
  | addProc p _ => exact keep rfl
  | chain | activate => exact keep rfl
  | procParent | procPush => exact keep rfl

/-- An identifier is found. -/
def Known (d : Document) (i : String) : Prop := ∃ k, d.elements.index.find i = some k

theorem Steps.known {C : Prop} {d d' : Document} (h : Steps C d d') {i : String} (hk : Known d i) : Known d' i := by
  obtain ⟨k, hk⟩ := hk
  refine ⟨k, Steps.lift (R := fun a b => a.elements.index.find i = some k → b.elements.index.find i = some k) (fun _ h => h) (fun f g h => g (f h))
    (fun hp hk => hp.found_mono hk) h hk⟩

/-- What holds of a document while it is read. -/
structure Reading (L : List DeclName) (d : Document) : Prop where
  inv : CInv d
  links : LinksAgree d
  ranked : Ranked d
  ids : IdsFound d
  room : Room L d

theorem Reading.ran {L : List DeclName} {d d' : Document} {n : Nat} {f : Nat → List Data} {ids : List String} (h : Reading L d) (hr : Ran n d d' f ids)
    (hroom : Room L d') : Reading L d' :=
  ⟨(hr.steps.clean h.inv).1, hr.links h.links, hr.ranked h.links h.ranked, hr.steps.idsFound h.ids, hroom⟩

/-- The elements on the stack have the types. -/
def OpenAs (d : Document) : List Nat → List ElementType → Prop
  | [], [] => True
  | k :: ks, t :: ts => (∃ e, d.getElement k = some e ∧ e.elementtype = t) ∧ OpenAs d ks ts
  | _, _ => False

theorem OpenAs.ran {d d' : Document} {f : Nat → List Data} {ids : List String} (hr : Ran d.elements.len d d' f ids) : ∀ {ks : List Nat} {ts : List ElementType},
    OpenAs d ks ts → OpenAs d' ks ts
  | [], [], _ => trivial
  | k :: ks, t :: ts, h => by
    obtain ⟨⟨e, he, ht⟩, h⟩ := h
    obtain ⟨e', he', hk⟩ := hr.old k e (Store.get_lt he) he
    exact ⟨⟨e', he', hk.type.trans ht⟩, h.ran hr⟩
  | [], _ :: _, h => h.elim
  | _ :: _, [], h => h.elim

theorem OpenAs.mono {d d' : Document} (hr : ∀ k e, d.getElement k = some e → ∃ e', d'.getElement k = some e' ∧ e'.elementtype = e.elementtype) :
    ∀ {ks : List Nat} {ts : List ElementType}, OpenAs d ks ts → OpenAs d' ks ts
  | [], [], _ => trivial
  | k :: ks, t :: ts, h => by
    obtain ⟨⟨e, he, ht⟩, h⟩ := h
    obtain ⟨e', he', hk⟩ := hr k e he
    exact ⟨⟨e', he', hk.trans ht⟩, h.mono hr⟩
  | [], _ :: _, h => h.elim
  | _ :: _, [], h => h.elim

/-! ### After an element -/

theorem spanSelector_live {d : Document} {k : Nat} {e : ElementData} (he : d.getElement k = some e) :
    spanSelector.matches d (.element k) = .ok (ElementGroup.span.contains e.elementtype) := by
  have : spanSelector.matches d (.element k) = SelCore.matchesElement spanSelector.core d e := by
    show SelCore.matches spanSelector.core d (.element k) = _
    unfold SelCore.matches
    simp only [he]
    rfl
  rw [this]
  show andAlso (.ok (ElementGroup.span.contains e.elementtype)) _ = _
  cases ElementGroup.span.contains e.elementtype <;> rfl

theorem firstMatch_ok {d : Document} : ∀ {ks : List Nat} {ts : List ElementType}, OpenAs d ks ts → (∃ t ∈ ts, ElementGroup.span.contains t = true) →
    ∃ k, firstMatch d spanSelector ks = .ok (some k)
  | [], [], _, h => by obtain ⟨_, h, _⟩ := h; cases h
  | k :: ks, t :: ts, ⟨⟨e, he, ht⟩, h⟩, hs => by
    simp only [firstMatch, spanSelector_live he, ht]
    cases hc : ElementGroup.span.contains t with
    | true => exact ⟨k, rfl⟩
    | false =>
      refine firstMatch_ok h ?_
      obtain ⟨t', hm, ht'⟩ := hs
      rcases List.mem_cons.mp hm with rfl | hm
      · rw [hc] at ht'; cases ht'
      · exact ⟨t', hm, ht'⟩
  | [], _ :: _, h, _ => h.elim
  | _ :: _, [], h, _ => h.elim

theorem postAdd_ok {L : List DeclName} {d : Document} {key : Nat} {stack : List Nat} {ts : List ElementType} {e : ElementData} (h : Reading L d)
    (he : d.getElement key = some e) (ho : OpenAs d stack ts)
    (hw : e.elementtype = .wordReference → (∃ i, e.lastIdref = some i ∧ Known d i) ∧ ∃ t ∈ ts, ElementGroup.span.contains t = true) :
    ∃ N d', Room L d' ∧ ∀ F, N ≤ F → postAdd F key (some stack) d = (.ok (), d') := by
  have hroom : ∀ F d', postAdd F key (some stack) d = (.ok (), d') → Room L d' := by
    intro F d' hp
    have hu := postAdd_upds F key (some stack) d
    rw [hp] at hu
    exact h.room.of_eq hu.decls
  suffices ∃ N d', ∀ F, N ≤ F → postAdd F key (some stack) d = (.ok (), d') by
    obtain ⟨N, d', hp⟩ := this
    exact ⟨N, d', hroom N d' (hp N (Nat.le_refl _)), hp⟩
  by_cases ht : e.elementtype = .wordReference
  · obtain ⟨⟨i, hi, tk, htk⟩, hs⟩ := hw ht
    obtain ⟨sk, hsk⟩ := firstMatch_ok ho hs
    obtain ⟨te, hte⟩ := h.inv.ix.elems i tk htk
    refine ⟨0, { d with elements := d.elements.update tk fun e => e.push (.spanReference sk) }, fun F _ => ?_⟩
    have htk' : d.elementKeyById i = some tk := htk
    unfold postAdd
    simp only [M.run_bind, M.run_get, he, ht, if_true, hi, M.ofRes, spanKey, hsk, htk', hte, updElement, M.run_modify]
  · by_cases hl : (ElementGroup.layer.contains e.elementtype && !e.hasAttrib .SET) = true
    · obtain ⟨r, N, hr⟩ := layerDecl_ok h.inv h.ranked he e.elementtype
      cases r with
      | some dk =>
        refine ⟨N, { d with elements := d.elements.update key fun e => e.withAttribs [.declarationRef dk] }, fun F hF => ?_⟩
        unfold postAdd
        simp only [M.run_bind, M.run_get, he, ht, if_false, hl, if_true, M.ofRes, hr F hF, updElement, M.run_modify]
      | none =>
        refine ⟨N, d, fun F hF => ?_⟩
        unfold postAdd
        simp only [M.run_bind, M.run_get, he, ht, if_false, hl, if_true, M.ofRes, hr F hF, M.run_pure]
    · refine ⟨0, d, fun F _ => ?_⟩
      unfold postAdd
      simp only [M.run_bind, M.run_get, he, ht, if_false, hl, Bool.false_eq_true, M.run_pure]

theorem foldl_idref {p : Attribute → Bool} (hp : ∀ a, p a = false → ∀ s, a ≠ .idref s) : ∀ (as : List Attribute) (acc : Option String),
    as.foldl (fun acc a => match a with | .idref s => some s | _ => acc) acc =
      (as.filter p).foldl (fun acc a => match a with | .idref s => some s | _ => acc) acc
  | [], _ => rfl
  | a :: as, acc => by
    rw [List.filter_cons]
    cases hpa : p a with
    | true => simp only [if_true, List.foldl_cons]; exact foldl_idref hp as _
    | false =>
      have := hp a hpa
      simp only [Bool.false_eq_true, if_false, List.foldl_cons]
      rw [← foldl_idref hp as]

theorem lastIdref_filter {e : ElementData} {p : Attribute → Bool} (hp : ∀ a, p a = false → ∀ s, a ≠ .idref s) :
    e.lastIdref = { e with attribs := e.attribs.filter p }.lastIdref := foldl_idref hp e.attribs none

theorem readsBack_idref {d0 d : Document} {x b : ElementData} (h : ReadsBack d0 d x b) (ht : b.elementtype = .wordReference) : x.lastIdref = b.lastIdref := by
  rcases h.others with h1 | ⟨h1, _⟩
  · rw [lastIdref_filter (e := x) (p := (!·.decodable)) (by rintro a ha s rfl; cases ha),
      lastIdref_filter (e := b) (p := (!·.encodable)) (by rintro a ha s rfl; cases ha)]
    unfold ElementData.lastIdref
    simp only [h1]
  · rw [ht] at h1; exact absurd h1 (by decide)

/-! ### Adding -/

/-- An element without contents can be added. -/
theorem leaf_accepts {L : List DeclName} {d : Document} {e : ElementData} {top : Nat} {pe : ElementData} (h : Reading L d) (hL : L.length ≤ cap16)
    (hcl : CleanAttribs e.attribs) (hpar : e.parent = none) (hdata : ∀ x ∈ e.data, ∃ s, x = .text s) (hfresh : d.FreshIds e.id.toList)
    (htop : d.getElement top = some pe) (he : Encodes L (some pe.elementtype) e) (hcap : d.elements.len < cap32) :
    ∃ k d1 x, addElem e (some top) d = (.ok k, d1) ∧ Reading L d1 ∧ (∀ i ∈ e.id.toList, Known d1 i) ∧ k = d.elements.len ∧
      Ran d.elements.len d d1 (fun _ => []) e.id.toList ∧ d1.elements.len = d.elements.len + 1 ∧ (∀ j, j ≠ k → d1.getElement j = d.getElement j) ∧
      d1.getElement k = some x ∧ x.parent = none ∧ x.data = e.data ∧ ReadsBack d d1 x e := by
  obtain ⟨k, d1, h1, hroom⟩ := addElem_ok (ctx := some top) h.inv.decls.exact h.room hL hcl he (by rintro c' ⟨⟩; exact ⟨top, pe, rfl, htop, rfl⟩) hcap
  obtain ⟨l1, l2, l3, l4, x, l5, l6, l7, l8⟩ := leaf h.inv rfl hcl hpar hdata hfresh h1
  have hr := h.ran l2 hroom
  refine ⟨k, d1, x, h1, hr, ?_, l1, l2, l3, l4, l5, l6, l7, l8⟩
  intro i hi
  obtain ⟨_, _, _, _, e', henc, hget⟩ := addElem_fresh (fun id hid => hfresh.2 id (by simp [hid])) h1
  refine ⟨k, hr.ids k _ i (by rw [hget, if_pos rfl]) ?_⟩
  show e'.id = some i
  rw [encode_id (by rw [henc])]
  simpa using hi

theorem attach_ok {d : Document} {p c : Nat} {pe ce : ElementData} (hp : d.getElement p = some pe) (hc : d.getElement c = some ce) :
    ∃ d', attachElement p c d = (.ok (), d') ∧ d'.declarations = d.declarations := ⟨_, attach_run hp hc, rfl⟩

theorem fitsAll_append {L : List DeclName} {above : List ElementType} : ∀ {a b : List Data} {known : List String},
    FitsAll L above known (a ++ b) ↔ FitsAll L above known a ∧ FitsAll L above (known ++ builderIdsList a) b
  | [], b, known => by simp [FitsAll, builderIdsList]
  | x :: a, b, known => by
    cases x <;> simp only [List.cons_append, FitsAll, builderIdsList, fitsAll_append (a := a), List.append_assoc, and_assoc]

theorem shortcutFeature_facts (s v : String) : CleanAttribs (shortcutFeature s v).attribs ∧ (shortcutFeature s v).data = [.text v] ∧
    (shortcutFeature s v).id = none ∧ (shortcutFeature s v).parent = none ∧ (shortcutFeature s v).elementtype = .feature := by
  refine ⟨?_, rfl, rfl, rfl, rfl⟩
  intro a ha
  simp only [shortcutFeature, ElementData.withChildren, ElementData.withAttribs, ElementData.new, ElementData.push, List.foldl_cons,
    List.foldl_nil, List.mem_cons, List.not_mem_nil, or_false] at ha
  rcases ha with rfl | rfl <;> rfl

theorem fits_eq {L : List DeclName} {above : List ElementType} {known : List String} (e : ElementData) : Fits L above known e ↔
    Encodes L above.head? e ∧ FitsAll L (e.elementtype :: above) (known ++ e.id.toList) e.data ∧
      (e.elementtype = .wordReference → RefersBack above (known ++ builderIds e) e) := by
  cases e; simp only [Fits]

/-- Features that stand for attributes can be added. -/
theorem shortcuts_accept {L : List DeclName} (hL : L.length ≤ cap16) {key : Nat} {t : ElementType} {above : List ElementType} : ∀ (cs : List ElementData) (d : Document)
    (known : List String), (∀ c ∈ cs, ∃ s v, c = shortcutFeature s v) → Reading L d → (∃ ke, d.getElement key = some ke ∧ ke.elementtype = t) →
    FitsAll L (t :: above) known (cs.map .addElement) → d.elements.len + builderSizeList (cs.map .addElement) ≤ cap32 →
    ∃ d', addShortcuts key cs d = (.ok (), d') ∧ Room L d'
  | [], d, _, _, h, _, _, _ => ⟨d, rfl, h.room⟩
  | c :: cs, d, known, hcs, h, ⟨ke, hk, hkt⟩, hf, hcap => by
    obtain ⟨s, v, hc⟩ := hcs c (List.mem_cons_self ..)
    obtain ⟨c1, c2, c3, c4, c5⟩ := shortcutFeature_facts s v
    rw [← hc] at c1 c2 c3 c4 c5
    simp only [List.map_cons, FitsAll, builderSizeList, builderSize_eq, c2] at hf hcap
    obtain ⟨hf1, hf2⟩ := hf
    rw [fits_eq] at hf1
    obtain ⟨k, da, x, a1, a2, _, a4, a5, a6, a7, a8, a9, a10, a11⟩ := leaf_accepts (top := key) h hL c1 c4 (by rw [c2]; simp)
      (by rw [c3]; exact ⟨List.nodup_nil, by simp⟩) hk (by rw [hkt]; exact hf1.1) (by omega)
    have hkl : key < d.elements.len := Store.get_lt hk
    have hka : da.getElement key = some ke := by rw [a7 key (by omega), hk]
    obtain ⟨d1, b1, b2⟩ := attach_ok hka a8
    have hone : addShortcuts key [c] d = (.ok (), d1) := by
      show M.bind (M.bind (addElem c (some key)) fun ck => attachElement key ck) (fun _ => pure ()) d = _
      simp only [M.bind, a1, b1]; rfl
    obtain ⟨ys, hfill⟩ := shortcuts_fills (d0 := d) [c] d d1 (fun c' hc' => hcs c' (by simp at hc'; simp [hc'])) h.inv rfl ⟨ke, hk⟩ hone
    have hr1 := h.ran hfill.ran (a2.room.of_eq b2)
    obtain ⟨ke', g1, g2⟩ := hfill.ran.old key ke hkl hk
    obtain ⟨d', h1, h2⟩ := shortcuts_accept hL cs d1 _ (fun c hc => hcs c (List.mem_cons_of_mem _ hc)) hr1 ⟨ke', g1, g2.type.trans hkt⟩ hf2 (by
      have := hfill.size
      simp only [List.map_cons, List.map_nil, builderSizeList, builderSize_eq, c2] at this
      omega)
    refine ⟨d', ?_, h2⟩
    show M.bind (M.bind (addElem c (some key)) fun ck => attachElement key ck) (fun _ => addShortcuts key cs) d = _
    simp only [M.bind, a1, b1, h1]

theorem shortcuts_ids : ∀ (cs : List ElementData), (∀ c ∈ cs, ∃ s v, c = shortcutFeature s v) → builderIdsList (cs.map .addElement) = []
  | [], _ => by simp [builderIdsList]
  | c :: cs, h => by
    obtain ⟨s, v, hc⟩ := h c (List.mem_cons_self ..)
    obtain ⟨_, c2, c3, _, _⟩ := shortcutFeature_facts s v
    rw [← hc] at c2 c3
    simp [builderIdsList, builderIds_eq, c2, c3, shortcuts_ids cs fun c hc => h c (List.mem_cons_of_mem _ hc)]

/-- A tag with a meaning can be read. -/
theorem tag_ok {X : Ext} {tag : String} {attrs : List RAttr} {t : ElementType} {as : List Attribute} {fs : List Data}
    (ht : ElementType.fromStr tag = some t) (ha : attrsMeaning X t attrs = some (as, fs)) :
    ∃ cs, asParseError (parseElementTag X tag attrs) = .ok (⟨t, as, [], none, none⟩, cs) ∧ cs.map DataType.addElement = fs := by
  have hm := parseAttributes_meaning X t attrs
  rw [ha] at hm
  obtain ⟨cs, h1, h2⟩ := hm
  refine ⟨cs, ?_, h2⟩
  unfold parseElementTag
  rw [ht]
  simp only [h1]
  rfl

/-- The events add the data to the element on top of the stack. -/
def Admits (X : Ext) (L : List DeclName) (evs : List REvent) (top : Nat) (below : List Nat) (d : Document) (data : List Data) : Prop :=
  ∃ N d1, Room L d1 ∧ (∀ i ∈ builderIdsList data, Known d1 i) ∧
    ∀ F, N ≤ F → ∀ rest, parseElements X F (evs ++ rest) (top :: below) d = parseElements X F rest (top :: below) d1

/-- What must hold before the events. -/
structure Prepared (L : List DeclName) (top : Nat) (below : List Nat) (ts : List ElementType) (known : List String) (d : Document) (data : List Data) : Prop where
  reading : Reading L d
  orphan : ∃ pe, d.getElement top = some pe ∧ pe.parent = none
  opened : OpenAs d (top :: below) ts
  fits : FitsAll L ts known data
  known : ∀ i ∈ known, Known d i
  fresh : d.FreshIds (builderIdsList data)
  cap : d.elements.len + builderSizeList data ≤ cap32

theorem admits_nothing {X : Ext} {L : List DeclName} {top : Nat} {below : List Nat} {ts : List ElementType} {known : List String} {d : Document}
    (h : Prepared L top below ts known d []) {evs : List REvent}
    (he : ∀ F rest, parseElements X F (evs ++ rest) (top :: below) d = parseElements X F rest (top :: below) d) : Admits X L evs top below d [] :=
  ⟨0, d, h.reading.room, by simp [builderIdsList], fun F _ rest => he F rest⟩

theorem admits_text {X : Ext} {L : List DeclName} {top : Nat} {below : List Nat} {ts : List ElementType} {known : List String} {d : Document} {s : String} {x : Data}
    (hx : x.Textual) (h : Prepared L top below ts known d (unlessBlank s x)) {ev : REvent}
    (he : ∀ F rest, parseElements X F (ev :: rest) (top :: below) =
      (do if notBlank s then pushData (top :: below) x
          parseElements X F rest (top :: below) : M Document Unit)) : Admits X L [ev] top below d (unlessBlank s x) := by
  unfold unlessBlank at h ⊢
  by_cases hb : s.toList.all isWs = true
  · rw [if_pos hb] at h ⊢
    refine admits_nothing h fun F rest => ?_
    show parseElements X F (ev :: rest) _ d = _
    rw [he, notBlank_eq, hb]
    rfl
  · rw [if_neg hb]
    refine ⟨0, { d with elements := d.elements.update top (·.push x) }, h.reading.room.of_eq rfl, ?_, fun F _ rest => ?_⟩
    · cases x <;> first | (cases hx; done) | simp [builderIdsList]
    · show parseElements X F (ev :: rest) _ d = _
      rw [he, notBlank_eq]
      simp only [Bool.not_eq_true] at hb
      rw [hb]
      rfl

theorem admits_fills {X : Ext} {L : List DeclName} {xs : List XNode} {top : Nat} {below : List Nat} {ts : List ElementType} {known : List String} {d d1 : Document}
    {data : List Data} {N : Nat} (hm : XNode.meaningList X xs = some data) (h : Prepared L top below ts known d data) 
    (he : ∀ F, N ≤ F → ∀ rest, parseElements X F (XNode.eventsList xs ++ rest) (top :: below) d = parseElements X F rest (top :: below) d1) :
    ∃ ys, Fills d d d1 top ys data := by
  have h1 := he N (Nat.le_refl _) []
  obtain ⟨data', d1', h2, h3, h4⟩ := nodes_runs X N xs [] top below d d1 h1
  rw [hm] at h2; cases h2
  cases h3
  obtain ⟨pe, h5, h6⟩ := h.orphan
  exact (h4 d pe h.reading.inv rfl h5 h6 h.fresh).1

theorem FreshIds_left {d : Document} {a b : List String} (h : d.FreshIds (a ++ b)) : d.FreshIds a :=
  ⟨(List.nodup_append.mp h.1).1, fun id hid => h.2 id (List.mem_append_left _ hid)⟩

theorem closeTag_ok {F : Nat} {tag : String} {key top : Nat} {below : List Nat} {d d' d'' : Document} {e : ElementData} {t : ElementType}
    (hp : postAdd F key (some (top :: below)) d = (.ok (), d')) (he : d'.getElement key = some e) (ht : ElementType.fromStr tag = some t)
    (het : e.elementtype = t) (ha : attachElement top key d' = (.ok (), d'')) : closeTag F tag key (top :: below) d = (.ok (), d'') := by
  unfold closeTag
  simp only [M.run_bind, hp, M.run_get, he, ht, het, ne_eq, not_true_eq_false, if_false, ha]

theorem startTag_ok {X : Ext} {tag : String} {attrs : List RAttr} {top : Nat} {below : List Nat} {d da db : Document} {e : ElementData} {cs : List ElementData} {key : Nat}
    (hq : asParseError (parseElementTag X tag attrs) = .ok (e, cs)) (h1 : addElem e (some top) d = (.ok key, da)) (h2 : addShortcuts key cs da = (.ok (), db)) :
    startTag X tag attrs (top :: below) d = (.ok key, db) := by
  unfold startTag
  simp only [M.run_bind, M.ofRes, hq, List.head?_cons, M.mapErr, h1, h2, M.run_pure]

theorem emptyTag_ok {X : Ext} {F : Nat} {tag : String} {attrs : List RAttr} {top : Nat} {below : List Nat} {d da db dc dd : Document} {e : ElementData}
    {cs : List ElementData} {key : Nat}
    (hq : asParseError (parseElementTag X tag attrs) = .ok (e, cs)) (h1 : addElem e (some top) d = (.ok key, da)) (h2 : attachElement top key da = (.ok (), db))
    (h3 : addShortcuts key cs db = (.ok (), dc)) (h4 : postAdd F key (some (top :: below)) dc = (.ok (), dd)) :
    emptyTag X F tag attrs (top :: below) d = (.ok (), dd) := by
  unfold emptyTag
  simp only [M.run_bind, M.ofRes, hq, List.head?_cons, M.mapErr, h1, h2, h3, h4]

mutual
theorem node_admits (X : Ext) {L : List DeclName} (hL : L.length ≤ cap16) : ∀ (x : XNode) (top : Nat) (below : List Nat) (ts : List ElementType) (known : List String)
    (d : Document) (data : List Data), x.meaning X = some data → Prepared L top below ts known d data → Admits X L x.events top below d data
  | .text s, top, below, ts, known, d, data, hm, h => by
    simp only [XNode.meaning] at hm
    cases hu : unescape s with
    | none => rw [hu] at hm; cases hm
    | some t =>
      rw [hu] at hm; cases hm
      simp only [XNode.events]
      exact admits_text (x := .text t) trivial h fun F rest => by simp only [parseElements, hu]
  | .cdata s, top, below, ts, known, d, data, hm, h => by
    simp only [XNode.meaning] at hm; cases hm
    simp only [XNode.events]
    exact admits_text (x := .text s) trivial h fun F rest => by simp only [parseElements]
  | .comment s, top, below, ts, known, d, data, hm, h => by
    simp only [XNode.meaning] at hm; cases hm
    simp only [XNode.events]
    exact admits_text (x := .comment s) trivial h fun F rest => by simp only [parseElements]
  | .instruction, top, below, ts, known, d, data, hm, h => by
    simp only [XNode.meaning] at hm; cases hm
    exact admits_nothing h fun F rest => by simp only [XNode.events, List.cons_append, List.nil_append, parseElements]
  | .foreignEmpty named tag attrs, top, below, ts, known, d, data, hm, h => by
    simp only [XNode.meaning] at hm; cases hm
    exact admits_nothing h fun F rest => by simp only [XNode.events, List.cons_append, List.nil_append, parseElements, if_neg (foreignNs_ne named)]
  | .foreign named tag attrs children, top, below, ts, known, d, data, hm, h => by
    simp only [XNode.meaning] at hm
    obtain ⟨N, d1, h1, h2, h3⟩ := nodes_admits X hL children top below ts known d data hm h
    refine ⟨N, d1, h1, h2, fun F hF rest => ?_⟩
    simp only [XNode.events, List.cons_append, List.append_assoc, parseElements, if_neg (foreignNs_ne named)]
    rw [h3 F hF]
    simp only [List.nil_append, parseElements, if_neg (foreignNs_ne named)]
  | .empty tag attrs, top, below, ts, known, d, data, hm, h => by
    simp only [XNode.meaning] at hm
    cases ht : ElementType.fromStr tag with
    | none => rw [ht] at hm; cases hm
    | some t =>
    rw [ht] at hm
    simp only [Option.bind_eq_bind, Option.bind_some] at hm
    cases ha : attrsMeaning X t attrs with
    | none => rw [ha] at hm; cases hm
    | some r =>
    obtain ⟨as, fs⟩ := r
    rw [ha] at hm
    simp only [Option.bind_some] at hm
    cases hm
    obtain ⟨cs, hq, rfl⟩ := tag_ok ht ha
    obtain ⟨c1, c2, c3⟩ := tag_clean hq
    simp only at c1 c3
    obtain ⟨hr, ⟨pe, htop, hpe⟩, hop, hfit, hkn, hfr, hcap⟩ := h
    have hids := shortcuts_ids cs c3
    simp only [builderIdsList, builderIds_eq, hids, List.append_nil] at hfr
    simp only [builderSizeList, builderSize_eq] at hcap
    simp only [FitsAll, and_true] at hfit
    rw [fits_eq] at hfit
    obtain ⟨f1, f2, f3⟩ := hfit
    obtain ⟨ts, rfl⟩ : ∃ us, ts = pe.elementtype :: us := by
      cases ts with
      | nil => exact hop.elim
      | cons u us => obtain ⟨⟨e, g1, g2⟩, _⟩ := hop; rw [htop] at g1; cases g1; exact ⟨us, by rw [g2]⟩
    obtain ⟨k, da, x, a1, a2, a3, a4, a5, a6, a7, a8, a9, a10, a11⟩ := leaf_accepts (e := ⟨t, as, [], none, none⟩) hr hL c1 c2 (by simp) hfr htop
      ⟨f1.typed, f1.feature⟩ (by omega)
    have htl : top < d.elements.len := Store.get_lt htop
    have htopa : da.getElement top = some pe := by rw [a7 top (by omega), htop]
    obtain ⟨db, b1, b2⟩ := attach_ok htopa a8
    obtain ⟨g1, g2, g3, g4, _⟩ := attach_ran (n := d.elements.len) (Nat.le_of_eq a4.symm) a2.inv.ix htopa a8 a9 (by omega)
      (fun _ => not_above_orphan htopa hpe) b1
    have hrb := a2.ran g1 (a2.room.of_eq b2)
    obtain ⟨dc, s1, s2⟩ := shortcuts_accept hL (t := t) (above := pe.elementtype :: ts) cs db _ c3 hrb ⟨_, g4, a11.type⟩ f2 (by rw [g2, a6]; omega)
    obtain ⟨ys, hfill⟩ := shortcuts_fills (d0 := db) cs db dc c3 hrb.inv rfl ⟨_, g4⟩ s1
    have hrc := hrb.ran hfill.ran s2
    obtain ⟨xc, hxc, hkc⟩ := hfill.ran.old k _ (Store.get_lt g4) g4
    have hsteps : Steps True d dc := (a5.steps.trans g1.steps).trans hfill.ran.steps
    have hrd : Ran d.elements.len d dc (fun j => if j = top then [.element k] else []) _ :=
      ((a5.trans g1).trans (hfill.ran.le (m := d.elements.len) (by omega) (g := fun _ => []) fun j hj => by rw [if_neg (by omega)])).le
        (Nat.le_refl _) fun j _ => by simp
    have hopc := hop.ran hrd
    have hid : ∀ i ∈ builderIds ⟨t, as, cs.map .addElement, none, none⟩, Known dc i := by
      intro i hi
      rw [builderIds_eq] at hi
      simp only [hids, List.append_nil] at hi
      exact (g1.steps.trans hfill.ran.steps).known (a3 i hi)
    obtain ⟨N, dd, p1, p2⟩ := postAdd_ok hrc hxc hopc (by
      intro hw
      have htw : t = .wordReference := (hkc.type.trans a11.type).symm.trans hw
      obtain ⟨⟨i, hi1, hi2⟩, hs⟩ := f3 htw
      refine ⟨⟨i, ?_, ?_⟩, hs⟩
      · have e1 : xc.lastIdref = x.lastIdref := by unfold ElementData.lastIdref; rw [hkc.attribs]
        rw [e1, readsBack_idref a11 htw]; exact hi1
      · rcases List.mem_append.mp hi2 with hi2 | hi2
        · exact hsteps.known (hkn i hi2)
        · exact hid i hi2)
    refine ⟨N, dd, p1, ?_, fun F hF rest => ?_⟩
    · intro i hi
      simp only [builderIdsList, List.append_nil] at hi
      have hu := postAdd_ran (n := d.elements.len) (Nat.le_of_eq a4.symm) hrc.inv.ix (p2 N (Nat.le_refl _))
      exact hu.steps.known (hid i hi)
    · simp only [XNode.events, List.cons_append, List.nil_append, parseElements, if_true]
      rw [M.run_bind, emptyTag_ok hq a1 b1 s1 (p2 F hF)]
  | .elem tag attrs children, top, below, ts, known, d, data, hm, h => by
    simp only [XNode.meaning] at hm
    cases ht : ElementType.fromStr tag with
    | none => rw [ht] at hm; cases hm
    | some t =>
    rw [ht] at hm
    simp only [Option.bind_eq_bind, Option.bind_some] at hm
    cases ha : attrsMeaning X t attrs with
    | none => rw [ha] at hm; cases hm
    | some r =>
    obtain ⟨as, fs⟩ := r
    rw [ha] at hm
    simp only [Option.bind_some] at hm
    cases hks : XNode.meaningList X children with
    | none => rw [hks] at hm; cases hm
    | some ks =>
    rw [hks] at hm
    simp only [Option.bind_some] at hm
    cases hm
    obtain ⟨cs, hq, rfl⟩ := tag_ok ht ha
    obtain ⟨c1, c2, c3⟩ := tag_clean hq
    simp only at c1 c3
    obtain ⟨hr, ⟨pe, htop, hpe⟩, hop, hfit, hkn, hfr, hcap⟩ := h
    have hids := shortcuts_ids cs c3
    simp only [builderIdsList, builderIds_eq, builderIdsList_append, hids, List.append_nil, List.nil_append] at hfr
    simp only [builderSizeList, builderSize_eq, builderSizeList_append] at hcap
    simp only [FitsAll, and_true] at hfit
    rw [fits_eq] at hfit
    obtain ⟨f1, f2, f3⟩ := hfit
    simp only [fitsAll_append, hids, List.append_nil] at f2
    obtain ⟨ts, rfl⟩ : ∃ us, ts = pe.elementtype :: us := by
      cases ts with
      | nil => exact hop.elim
      | cons u us => obtain ⟨⟨e, g1, g2⟩, _⟩ := hop; rw [htop] at g1; cases g1; exact ⟨us, by rw [g2]⟩
    obtain ⟨k, da, x, a1, a2, a3, a4, a5, a6, a7, a8, a9, a10, a11⟩ := leaf_accepts (e := ⟨t, as, [], none, none⟩) hr hL c1 c2 (by simp)
      (FreshIds_left hfr) htop ⟨f1.typed, f1.feature⟩ (by omega)
    have htl : top < d.elements.len := Store.get_lt htop
    obtain ⟨db, s1, s2⟩ := shortcuts_accept hL (t := t) (above := pe.elementtype :: ts) cs da _ c3 a2 ⟨_, a8, a11.type⟩ f2.1 (by rw [a6]; omega)
    obtain ⟨ys, hfill⟩ := shortcuts_fills (d0 := da) cs da db c3 a2.inv rfl ⟨_, a8⟩ s1
    have hrb := a2.ran hfill.ran s2
    obtain ⟨xb, hxb, hkb⟩ := hfill.ran.old k _ (Store.get_lt a8) a8
    have hrdb : Ran d.elements.len d db (fun _ => []) _ :=
      (a5.trans (hfill.ran.le (m := d.elements.len) (by omega) (g := fun _ => []) fun j hj => by rw [if_neg (by omega)])).le
        (Nat.le_refl _) fun j _ => by simp
    have hprep : Prepared L k (top :: below) (t :: pe.elementtype :: ts) (known ++ (ElementData.mk t as [] none none).id.toList) db ks := by
      refine ⟨hrb, ⟨xb, hxb, by rw [hkb.parent, a9]⟩, ⟨⟨xb, hxb, hkb.type.trans a11.type⟩, hop.ran hrdb⟩, f2.2, ?_, ?_, ?_⟩
      · intro i hi
        rcases List.mem_append.mp hi with hi | hi
        · exact hrdb.steps.known (hkn i hi)
        · exact hfill.ran.steps.known (a3 i hi)
      · exact hrdb.fresh (by rw [hids, List.append_nil]; exact hfr)
      · rw [hfill.size, a6]; omega
    obtain ⟨N1, dc, n1, n2, n3⟩ := nodes_admits X hL children k (top :: below) _ _ db ks hks hprep
    obtain ⟨zs, hkids⟩ := admits_fills hks hprep n3
    have hrc := hrb.ran hkids.ran n1
    obtain ⟨xc, hxc, hkc⟩ := hkids.ran.old k _ (Store.get_lt hxb) hxb
    have hdbl : d.elements.len < db.elements.len := by have := hfill.size; omega
    have hrdc : Ran d.elements.len d dc (fun _ => []) _ :=
      (hrdb.trans (hkids.ran.le (m := d.elements.len) (by omega) (g := fun _ => []) fun j hj => by rw [if_neg (by omega)])).le
        (Nat.le_refl _) fun j _ => by simp
    have hopc := hop.ran hrdc
    have hid : ∀ i ∈ builderIds ⟨t, as, cs.map .addElement ++ ks, none, none⟩, Known dc i := by
      intro i hi
      rw [builderIds_eq] at hi
      simp only [builderIdsList_append, hids, List.nil_append] at hi
      rcases List.mem_append.mp hi with hi | hi
      · exact (hfill.ran.steps.trans hkids.ran.steps).known (a3 i hi)
      · exact n2 i hi
    have htc : xc.elementtype = t := hkc.type.trans (hkb.type.trans a11.type)
    obtain ⟨N2, dd, p1, p2⟩ := postAdd_ok hrc hxc hopc (by
      intro hw
      have htw : t = .wordReference := htc.symm.trans hw
      obtain ⟨⟨i, hi1, hi2⟩, hs⟩ := f3 htw
      refine ⟨⟨i, ?_, ?_⟩, hs⟩
      · have e1 : xc.lastIdref = x.lastIdref := by unfold ElementData.lastIdref; rw [hkc.attribs, hkb.attribs]
        rw [e1, readsBack_idref a11 htw]; exact hi1
      · rcases List.mem_append.mp hi2 with hi2 | hi2
        · exact hrdc.steps.known (hkn i hi2)
        · exact hid i hi2)
    have hpost := p2 N2 (Nat.le_refl _)
    have hu := postAdd_upds N2 k (some (top :: below)) dc
    rw [hpost] at hu
    have hur := postAdd_ran (n := d.elements.len) (Nat.le_of_eq a4.symm) hrc.inv.ix hpost
    obtain ⟨xd, hxd, hxt⟩ : ∃ xd, dd.getElement k = some xd ∧ xd.elementtype = t := by
      rcases hu.elems k with ⟨h1, _⟩ | ⟨y, y', h1, h2, h3⟩
      · rw [hxc] at h1; cases h1
      · rw [hxc] at h1; cases h1
        exact ⟨y', h2, h3.type.trans htc⟩
    obtain ⟨pt, hpt, _⟩ := (hrdc.trans hur).old top pe htl htop
    obtain ⟨d1, b1, b2⟩ := attach_ok hpt hxd
    refine ⟨max N1 N2, d1, p1.of_eq b2, ?_, fun F hF rest => ?_⟩
    · intro i hi
      simp only [builderIdsList, List.append_nil] at hi
      obtain ⟨j, hj⟩ := hur.steps.known (hid i hi)
      refine ⟨j, ?_⟩
      have hb1 := attach_run hpt hxd
      rw [b1] at hb1
      cases hb1
      simp only [Store.update_index]
      split <;> simp only [Store.update_index, hj]
    · simp only [XNode.events, List.cons_append, List.append_assoc, parseElements, if_true]
      rw [M.run_bind, startTag_ok hq a1 s1]
      simp only
      rw [n3 F (by omega)]
      simp only [List.nil_append, parseElements, if_true]
      rw [M.run_bind, closeTag_ok (p2 F (by omega)) hxd ht hxt b1]
theorem nodes_admits (X : Ext) {L : List DeclName} (hL : L.length ≤ cap16) : ∀ (xs : List XNode) (top : Nat) (below : List Nat) (ts : List ElementType)
    (known : List String) (d : Document) (data : List Data), XNode.meaningList X xs = some data → Prepared L top below ts known d data →
    Admits X L (XNode.eventsList xs) top below d data
  | [], top, below, ts, known, d, data, hm, h => by
    simp only [XNode.meaningList] at hm; cases hm
    exact admits_nothing h fun F rest => by simp only [XNode.eventsList, List.nil_append]
  | x :: xs, top, below, ts, known, d, data, hm, h => by
    simp only [XNode.meaningList] at hm
    cases hx : x.meaning X with
    | none => rw [hx] at hm; cases hm
    | some as =>
    rw [hx] at hm
    simp only [Option.bind_eq_bind, Option.bind_some] at hm
    cases hxs : XNode.meaningList X xs with
    | none => rw [hxs] at hm; cases hm
    | some bs =>
    rw [hxs] at hm
    cases hm
    obtain ⟨hr, ⟨pe, htop, hpe⟩, hop, hfit, hkn, hfr, hcap⟩ := h
    rw [fitsAll_append] at hfit
    rw [builderIdsList_append] at hfr
    rw [builderSizeList_append] at hcap
    have hp1 : Prepared L top below ts known d as := ⟨hr, ⟨pe, htop, hpe⟩, hop, hfit.1, hkn, FreshIds_left hfr, by omega⟩
    obtain ⟨N1, d1, n1, n2, n3⟩ := node_admits X hL x top below ts known d as hx hp1
    obtain ⟨ys, hf1⟩ := admits_fills (X := X) (xs := [x]) (by simp only [XNode.meaningList, hx]; simp) hp1
      (fun F hF rest => by simp only [XNode.eventsList, List.append_nil]; exact n3 F hF rest)
    obtain ⟨pe', q1, q2⟩ := hf1.ran.old top pe (Store.get_lt htop) htop
    have hp2 : Prepared L top below ts (known ++ builderIdsList as) d1 bs := by
      refine ⟨hr.ran hf1.ran n1, ⟨pe', q1, by rw [q2.parent, hpe]⟩, hop.ran hf1.ran, hfit.2, ?_, hf1.ran.fresh hfr, by rw [hf1.size]; omega⟩
      intro i hi
      rcases List.mem_append.mp hi with hi | hi
      · exact hf1.ran.steps.known (hkn i hi)
      · exact n2 i hi
    obtain ⟨N2, d2, m1, m2, m3⟩ := nodes_admits X hL xs top below ts _ d1 bs hxs hp2
    obtain ⟨zs, hf2⟩ := admits_fills hxs hp2 m3
    refine ⟨max N1 N2, d2, m1, ?_, fun F hF rest => ?_⟩
    · intro i hi
      rw [builderIdsList_append] at hi
      rcases List.mem_append.mp hi with hi | hi
      · exact hf2.ran.steps.known (n2 i hi)
      · exact m2 i hi
    · simp only [XNode.eventsList, List.append_assoc]
      rw [n3 F (by omega), m3 F (by omega)]
end

end Folia
