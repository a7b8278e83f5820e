import Verif.Lemmas.ReadsBack
/-! Adding a builder tree with fresh identifiers: induction over the builder. -/
namespace Folia
open Document

theorem ReadsBack.congr {d0 d : Document} {x b b' : ElementData} (h : ReadsBack d0 d x b) (ht : b'.elementtype = b.elementtype)
    (ha : b'.attribs = b.attribs) : ReadsBack d0 d x b' := by
  cases b; cases b'
  cases ht; cases ha
  exact ⟨h.type, h.declared, h.set, h.cls, h.feature, h.processor, h.others, h.unclassed, h.unsubset, h.undeclared, h.uncredited⟩

/-- Elements that stay, up to a parent for orphans, fixed layers and appended references. -/
def Stays (d0 d d' : Document) : Prop := ∀ j x, d0.getElement j = none → d.getElement j = some x → ∃ x', d'.getElement j = some x' ∧
  (x.parent ≠ none → x'.parent = x.parent) ∧ Upd x x' x'.parent True

theorem materialised_eq (d0 d : Document) (par : Option Nat) (k : Nat) (b : ElementData) :
    Materialised d0 d par k b ↔ ∃ x ys refs, d0.getElement k = none ∧ d.getElement k = some x ∧ x.parent = par ∧
      ReadsBack d0 d x b ∧ x.data = ys ++ List.map .spanReference refs ∧ (kids ys).Nodup ∧ MaterialisedItems d0 d (some k) ys b.data := by
  cases b; simp only [Materialised]

/-- Changes to an element that keep what it reports. -/
theorem readsBack_upd {d0 d d' : Document} (hi : CInv d) (hs : Steps True d d') {k : Nat} {x x' b : ElementData} {p : Option Nat} {fix : Prop}
    (hk : d.getElement k = some x) (h : ReadsBack d0 d x b) (hu : Upd x x' p fix) : ReadsBack d0 d' x' b := by
  obtain ⟨_, hmono⟩ := hs.clean hi
  rcases hu.attribs with ha | ⟨_, hf⟩
  · exact h.mono (hi.elem k x hk).refs hmono hs.procMono hu.type ha
  · exact h.fixed hu.type hf

mutual
theorem materialised_mono {d0 d d' : Document} (hi : CInv d) (hs : Steps True d d') (hst : Stays d0 d d') :
    ∀ (b : ElementData) (k : Nat) (par par' : Option Nat), Materialised d0 d par k b →
      (∀ x', d'.getElement k = some x' → x'.parent = par') → Materialised d0 d' par' k b
  | ⟨t, as, data, key, p⟩, k, par, par', h, hp => by
    simp only [Materialised] at h ⊢
    obtain ⟨x, ys, refs, h0, h1, h2, h3, h4, hn, h5⟩ := h
    obtain ⟨x', h6, h7, h8⟩ := hst k x h0 h1
    obtain ⟨refs', h9⟩ := h8.data
    refine ⟨x', ys, refs ++ refs', h0, h6, hp x' h6, readsBack_upd hi hs h1 h3 h8, by rw [h9, h4]; simp, hn, ?_⟩
    exact items_mono hi hs hst data ys (some k) (some k) h5 fun c hc y hy0 hy x' hx' => (by
      obtain ⟨y', h10, h11, _⟩ := hst c y hy0 hy.1
      rw [hx'] at h10; cases h10
      rw [h11 (by rw [hy.2]; simp), hy.2])
theorem items_mono {d0 d d' : Document} (hi : CInv d) (hs : Steps True d d') (hst : Stays d0 d d') :
    ∀ (data : List Data) (ys : List Data) (par par' : Option Nat), MaterialisedItems d0 d par ys data →
      (∀ c ∈ kids ys, ∀ x, d0.getElement c = none → (d.getElement c = some x ∧ x.parent = par) → ∀ x', d'.getElement c = some x' → x'.parent = par') →
      MaterialisedItems d0 d' par' ys data
  | [], ys, par, par', h, hp => by simp only [MaterialisedItems] at h ⊢; exact h
  | .text s :: rest, ys, par, par', h, hp => by
    simp only [MaterialisedItems] at h ⊢
    obtain ⟨ys', rfl, h⟩ := h
    exact ⟨ys', rfl, items_mono hi hs hst rest ys' par par' h fun c hc => hp c hc⟩
  | .comment s :: rest, ys, par, par', h, hp => by
    simp only [MaterialisedItems] at h ⊢
    obtain ⟨ys', rfl, h⟩ := h
    exact ⟨ys', rfl, items_mono hi hs hst rest ys' par par' h fun c hc => hp c hc⟩
  | .element k :: rest, ys, par, par', h, hp => by simp only [MaterialisedItems] at h
  | .spanReference k :: rest, ys, par, par', h, hp => by simp only [MaterialisedItems] at h
  | .addElement e :: rest, ys, par, par', h, hp => by
    simp only [MaterialisedItems] at h ⊢
    obtain ⟨c, ys', rfl, h1, h2⟩ := h
    refine ⟨c, ys', rfl, ?_, items_mono hi hs hst rest ys' par par' h2 fun c hc => hp c (List.mem_cons_of_mem _ hc)⟩
    have := (materialised_eq ..).mp h1
    obtain ⟨x, _, _, h0, h3, h4, _⟩ := this
    exact materialised_mono hi hs hst e c par par' h1 fun x' hx' => hp c (List.mem_cons_self ..) x h0 ⟨h3, h4⟩ x' hx'
end

/-- The document grew by elements with identifiers among `ids`. -/
structure Grew (d d' : Document) (ids : List String) : Prop where
  steps : Steps True d d'
  procs : d'.processors = d.processors
  old : ∀ j e, d.getElement j = some e → ∃ e', d'.getElement j = some e' ∧ Grown e e'
  index : ∀ id k, d'.elements.index.find id = some k → d.elements.index.find id = some k ∨ id ∈ ids
  links : LinksAgree d → LinksAgree d'
  ranked : LinksAgree d → Ranked d → Ranked d'

theorem Grew.refl (d : Document) : Grew d d [] :=
  ⟨.refl d, rfl, fun _ e h => ⟨e, h, .refl e⟩, fun _ _ h => Or.inl h, fun h => h, fun _ h => h⟩

theorem Grew.trans {a b c : Document} {ids ids' : List String} (h : Grew a b ids) (h' : Grew b c ids') : Grew a c (ids ++ ids') := by
  refine ⟨h.steps.trans h'.steps, h'.procs.trans h.procs, ?_, ?_, fun hl => h'.links (h.links hl), fun hl hr => h'.ranked (h.links hl) (h.ranked hl hr)⟩
  · intro j e he
    obtain ⟨e1, h1, h2⟩ := h.old j e he
    obtain ⟨e2, h3, h4⟩ := h'.old j e1 h1
    exact ⟨e2, h3, h2.trans h4⟩
  · intro id k hk
    rw [List.mem_append]
    rcases h'.index id k hk with h1 | h1
    · rcases h.index id k h1 with h2 | h2
      · exact Or.inl h2
      · exact Or.inr (Or.inl h2)
    · exact Or.inr (Or.inr h1)

theorem Grew.fresh {a b : Document} {ids ids' : List String} (h : Grew a b ids) (hf : a.FreshIds (ids ++ ids')) : b.FreshIds ids' := by
  obtain ⟨hn, hf⟩ := hf
  rw [List.nodup_append] at hn
  refine ⟨hn.2.1, fun id hid => ?_⟩
  cases hk : b.elementKeyById id with
  | none => rfl
  | some k =>
    rcases h.index id k hk with h1 | h1
    · have := hf id (by simp [hid])
      unfold Document.elementKeyById Store.idToKey at this
      rw [h1] at this; cases this
    · exact absurd rfl (hn.2.2 id h1 id hid)

theorem Grew.stays {d d' : Document} {ids : List String} (h : Grew d d' ids) (d0 : Document) : Stays d0 d d' := by
  intro j x _ hx
  obtain ⟨x', h1, h2⟩ := h.old j x hx
  exact ⟨x', h1, fun _ => h2.parent, h2.type, h2.key, rfl, Or.inl h2.attribs, h2.data⟩

/-- What adding the children of a builder achieves. -/
structure KidsOk (d0 d d' : Document) (ys data : List Data) (added : List Nat) : Prop where
  grew : Grew d d' (builderIdsList data)
  nodup : (kids ys).Nodup
  new : ∀ c ∈ kids ys, d.elements.len ≤ c ∧ ∃ ce, d'.getElement c = some ce ∧ ce.parent = none
  added : added = kids ys
  items : MaterialisedItems d0 d' none ys data
  size : d'.elements.len = d.elements.len + builderSizeList data
  live : ∀ x ∈ ys, DataLive d' x

/-- What adding a builder without attaching it achieves. -/
structure Born (d0 d d' : Document) (ck : Nat) (e : ElementData) : Prop where
  grew : Grew d d' (builderIds e)
  new : d.elements.len ≤ ck
  orphan : ∃ x, d'.getElement ck = some x ∧ x.parent = none
  tree : Materialised d0 d' none ck e
  size : d'.elements.len = d.elements.len + builderSize e

theorem id_congr {e e' : ElementData} (h : e'.attribs = e.attribs) : e'.id = e.id := by unfold ElementData.id; rw [h]

theorem findSome_filter {β : Type} {f : Attribute → Option β} (hf : ∀ a, a.encodable = true → f a = none) (as : List Attribute) :
    (as.filter (!·.encodable)).findSome? f = as.findSome? f := by
  induction as with
  | nil => rfl
  | cons a as ih =>
    cases ha : a.encodable with
    | true => simp [ha, hf a ha, ih]
    | false => simp only [List.filter_cons, ha, Bool.not_false, if_true, List.findSome?_cons, ih]

theorem findSome_refs {β : Type} {f : Attribute → Option β} (hf : ∀ a, a.decodable = true → f a = none) (enc : Enc) :
    (encRefs enc).findSome? f = none := by
  rw [List.findSome?_eq_none_iff]
  intro a h
  simp only [encRefs, List.mem_append, Option.mem_toList, Option.map_eq_some_iff] at h
  rcases h with ⟨_, _, rfl⟩ | ⟨_, _, rfl⟩ | ⟨_, _, rfl⟩ | ⟨_, _, rfl⟩ <;> exact hf _ rfl

theorem encode_id {e e' : ElementData} {ctx : Option Nat} {d : Document} (h : (encode e ctx d).1 = .ok e') : e'.id = e.id := by
  rcases encode_attribs h with ⟨_, rfl⟩ | ⟨_, enc, ha⟩
  · rfl
  · rw [encodedAttribs_eq] at ha
    unfold ElementData.id
    rw [ha, List.findSome?_append, findSome_filter, findSome_refs, Option.or_none]
    · intro a ha; cases a <;> first | rfl | cases ha
    · intro a ha; cases a <;> first | rfl | cases ha

/-- Adding an element with a fresh identifier. -/
theorem addElem_fresh {e : ElementData} {ctx : Option Nat} {d d2 : Document} {ck : Nat} (hfresh : ∀ id, e.id = some id → d.elementKeyById id = none)
    (h : addElem e ctx d = (.ok ck, d2)) :
    ck = d.elements.len ∧ d2.processors = d.processors ∧ d2.elements.len = d.elements.len + 1 ∧
    (∀ id k, d2.elements.index.find id = some k → d.elements.index.find id = some k ∨ e.id = some id) ∧
    ∃ e', encode e ctx d = (.ok e', { d2 with elements := d.elements }) ∧
      ∀ j, d2.getElement j = if j = ck then some { e' with key := some ck } else d.getElement j := by
  rw [addElem_eq] at h
  rcases henc : encode e ctx d with ⟨f | e', d'⟩
  · rw [henc] at h; cases h
  · have hs := OnlyDecls.encode e ctx d
    have hid := encode_id (e := e) (ctx := ctx) (d := d) (e' := e') (by rw [henc])
    rw [henc] at h hs
    simp only [Prod.mk.injEq] at h
    obtain ⟨h1, rfl⟩ := h
    have hel : d'.elements = d.elements := hs.elements
    rw [hel] at h1
    simp only [hel]
    rcases Store.add_spec cap32 d.elements e' with ⟨id, k, h2, h3, _⟩ | ⟨h2, _⟩ | ⟨_, _, s', h2, h3, h4, h5⟩
    · rw [maybeId_eq, hid] at h2
      have := hfresh id h2
      unfold Document.elementKeyById Store.idToKey at this
      rw [h3] at this; cases this
    · rw [h2] at h1; cases h1
    · rw [h2] at h1 ⊢
      cases h1
      refine ⟨rfl, hs.processors, by unfold Store.len; rw [h3]; simp, ?_, e', ?_, ?_⟩
      · intro id k hk
        simp only [h5] at hk
        split at hk
        · rename_i hm; rw [maybeId_eq, hid] at hm; exact Or.inr hm
        · exact Or.inl hk
      · have : d' = { d' with elements := d.elements } := by rw [← hel]
        rw [← this]
      · intro j; exact h4 j

/-- Adopting the children that were just added. -/
def adoptAll (F ck : Nat) : Option (List Nat) → M Document Unit
  | some cs => M.forEach (adopt F ck) cs
  | none => pure ()

theorem adoptAll_upds {F ck : Nat} {o : Option (List Nat)} {cs : List Nat} (ho : o = some cs ∨ (o = none ∧ cs = [])) {d d' : Document}
    (h : adoptAll F ck o d = (.ok (), d')) : Upds d d' (fun j q => if j ∈ cs then some ck else q) (· ∈ cs) := by
  rcases ho with rfl | ⟨rfl, rfl⟩
  · exact forEach_adopt_upds F ck cs d d' h
  · cases h; exact (Upds.refl d _).weaken (fun _ _ => by simp) fun _ h => h

theorem does_adoptAll (F ck : Nat) (o : Option (List Nat)) : Does True (·.Live ck) (adoptAll F ck o) fun _ => (·.Live ck) := by
  cases o with
  | none => exact Does.pure fun _ h => h
  | some cs => exact Does.forEach _ fun c _ => does_adopt F ck c

theorem born {F : Nat} {d0 d d1 d2 d3 : Document} {e e1 : ElementData} {o : Option (List Nat)} {ctx : Option Nat} {ck : Nat}
    (hi : CInv d) (hp0 : d.processors = d0.processors) (hl0 : d0.elements.len ≤ d.elements.len) (hcb : CleanHead e) (hfresh : d.FreshIds (builderIds e)) {added : List Nat}
    (hk : KidsOk d0 d d1 e1.data e.data added) (ho : o = some added ∨ (o = none ∧ added = []))
    (ht : e1.elementtype = e.elementtype) (ha : e1.attribs = e.attribs) (hpar : e1.parent = e.parent)
    (hadd : addElem e1 ctx d1 = (.ok ck, d2)) (had : adoptAll F ck o d2 = (.ok (), d3)) : Born d0 d d3 ck e := by
  have hids : builderIds e = e.id.toList ++ builderIdsList e.data := by cases e; simp [builderIds]
  obtain ⟨hi1, _⟩ := hk.grew.steps.clean hi
  have hfr1 : ∀ id, e1.id = some id → d1.elementKeyById id = none := by
    intro id hid
    rw [id_congr ha] at hid
    have hf : d.FreshIds (builderIdsList e.data ++ e.id.toList) := by
      rw [hids] at hfresh
      refine ⟨?_, fun i h => hfresh.2 i (by simp only [List.mem_append] at h ⊢; exact h.symm)⟩
      have := hfresh.1
      rw [List.nodup_append] at this ⊢
      exact ⟨this.2.1, this.1, fun a h b h' heq => this.2.2 b h' a h heq.symm⟩
    exact (hk.grew.fresh hf).2 id (by simp [hid])
  obtain ⟨hck, hpr, hlen, hix, e', henc, hget⟩ := addElem_fresh hfr1 hadd
  have hst12 : Steps True d1 d2 := by
    have := (does_addElem (C := True) e1 ctx d1 hi1.ix fun _ => ⟨by rw [ha]; exact hcb.1, hk.live, by rw [hpar]; exact hcb.2⟩).1
    rw [hadd] at this; exact this
  obtain ⟨hi2, _⟩ := hst12.clean hi1
  have hlive2 : d2.Live ck := ⟨_, by rw [hget, if_pos rfl]⟩
  have hst23 : Steps True d2 d3 := by
    have := (does_adoptAll F ck o d2 hi2.ix hlive2).1
    rw [had] at this; exact this
  have hst13 := hst12.trans hst23
  obtain ⟨hi3, hmono3⟩ := hst13.clean hi1
  have hu := adoptAll_upds ho had
  rw [hk.added] at hu
  obtain ⟨ht', hd', _, hpar'⟩ := encode_result e1 ctx d1 e' (by rw [henc])
  have hnone : d1.getElement ck = none := by
    cases hg : d1.getElement ck with
    | none => rfl
    | some x => have := Store.get_lt hg; rw [hck] at this; simp only [Store.len] at this; omega
  have hltd : ∀ c ∈ kids e1.data, c ≠ ck := by
    rintro c hc rfl
    obtain ⟨_, ce, h1, _⟩ := hk.new c hc
    rw [hnone] at h1; cases h1
  have hckn : ck ∉ kids e1.data := fun h => hltd ck h rfl
  have hold : ∀ j, j ≠ ck → (d1.getElement j = none ∧ d3.getElement j = none) ∨
      ∃ x x', d1.getElement j = some x ∧ d3.getElement j = some x' ∧
        Upd x x' (if j ∈ kids e1.data then some ck else x.parent) (j ∈ kids e1.data) := by
    intro j hj
    have := hu.elems j
    rw [hget, if_neg hj] at this
    exact this
  obtain ⟨x3, hx3, hux⟩ : ∃ x3, d3.getElement ck = some x3 ∧ Upd { e' with key := some ck } x3 none False := by
    rcases hu.elems ck with ⟨h1, _⟩ | ⟨x, x', h1, h2, h3⟩
    · rw [hget, if_pos rfl] at h1; cases h1
    · rw [hget, if_pos rfl] at h1
      cases h1
      refine ⟨x', h2, ?_⟩
      rw [if_neg hckn] at h3
      have h3 := h3.mono (fix' := False) hckn
      have hpn : ({ e' with key := some ck } : ElementData).parent = none := by
        show e'.parent = none
        rw [hpar', hpar]; exact hcb.2
      exact ⟨h3.type, h3.key, h3.parent.trans hpn, h3.attribs, h3.data⟩
  have hgraft : Graft d1 d3 ck (kids e1.data) := by
    refine ⟨hnone, hold, ⟨x3, hx3, hux.parent, ?_⟩, hk.nodup, fun c hc => (hk.new c hc).2⟩
    rw [hux.kids]; show kids e'.data = _; rw [hd']
  have hlen1 : d.elements.len ≤ d1.elements.len := hk.grew.steps.len_mono
  have hnotin : ∀ j x, d.getElement j = some x → j ∉ kids e1.data ∧ j ≠ ck := by
    intro j x hx
    have hlt := Store.get_lt hx
    have hlt : j < d.elements.len := hlt
    refine ⟨fun hm => ?_, by omega⟩
    have := (hk.new j hm).1; omega
  have hgrew : Grew d d3 (builderIds e) := by
    refine ⟨hk.grew.steps.trans hst13, ?_, ?_, ?_, fun hl => hgraft.links (hk.grew.links hl),
      fun hl hr => hgraft.ranked (hk.grew.links hl) (hk.grew.ranked hl hr)⟩
    · rw [hu.procs, hpr, hk.grew.procs]
    · intro j x hx
      obtain ⟨hn1, hn2⟩ := hnotin j x hx
      obtain ⟨x1, h1, h2⟩ := hk.grew.old j x hx
      rcases hold j hn2 with ⟨h3, _⟩ | ⟨y, y', h3, h4, h5⟩
      · rw [h1] at h3; cases h3
      · rw [h1] at h3; cases h3
        rw [if_neg hn1] at h5
        exact ⟨y', h4, h2.trans (h5.mono hn1).grown⟩
    · intro id k hidk
      rw [hu.index] at hidk
      rw [hids, List.mem_append]
      rcases hix id k hidk with h1 | h1
      · rcases hk.grew.index id k h1 with h2 | h2
        · exact Or.inl h2
        · exact Or.inr (Or.inr h2)
      · rw [id_congr ha] at h1
        exact Or.inr (Or.inl (by simp [h1]))
  have hsize : d3.elements.len = d.elements.len + builderSize e := by
    have h1 := hu.len
    have h2 := hk.size
    have h3 : builderSize e = builderSizeList e.data + 1 := by cases e; simp [builderSize]
    omega
  refine ⟨hgrew, by omega, ⟨x3, hx3, hux.parent⟩, ?_, hsize⟩
  rw [materialised_eq]
  obtain ⟨refs, hrefs⟩ := hux.data
  have hdata : x3.data = e1.data ++ List.map .spanReference refs := by
    rw [hrefs]; show e'.data ++ _ = _; rw [hd']
  have hnew : d0.getElement ck = none := by
    cases hg : d0.getElement ck with
    | none => rfl
    | some x =>
      have : ck < d0.elements.len := Store.get_lt hg
      omega
  refine ⟨x3, e1.data, refs, hnew, hx3, hux.parent, ?_, hdata, hk.nodup, ?_⟩
  · -- what the element reports
    have hattr : x3.attribs = e'.attribs := by
      rcases hux.attribs with h | h
      · exact h
      · exact h.1.elim
    have htyp : x3.elementtype = e.elementtype := by rw [hux.type]; show e'.elementtype = _; rw [ht', ht]
    have hdd := ddoes_encode e1 ctx d1 hi1.decls trivial
    rw [henc] at hdd
    obtain ⟨hdi, hdg, hres⟩ := hdd
    rcases hres e' rfl with ⟨hne, rfl⟩ | ⟨hen, enc, heq, hok⟩
    · have hcl : ∀ a ∈ e'.attribs, a.decodable = false := by rw [ha]; exact hcb.1
      refine (readsBack_plain d0 d3 (x := x3) (b := e') (by rw [htyp, ht]) hne (Or.inl ?_) (Or.inl ?_)).congr ht.symm ha.symm
      rotate_left
      · intro a h
        unfold ElementData.encodable at hne
        rw [List.any_eq_false] at hne
        rw [hattr] at h
        exact ⟨by simpa using hne a h, hcl a h⟩
      rw [hattr]
      rw [List.filter_eq_self.mpr (fun a h => by simp [hcl a h])]
      unfold ElementData.encodable at hne
      rw [List.filter_eq_self.mpr]
      intro a h
      rw [List.any_eq_false] at hne
      simp [hne a h]
    · have hrb : ReadsBack d0 { d2 with elements := d1.elements } e' e1 := by
        refine readsBack_enc ?_ ?_ hen (by rw [ha]; exact hcb.1) hok ht' (by rw [heq])
        · have := hi1.procs
          unfold ProcsExact at this ⊢
          rw [show ({ d2 with elements := d1.elements } : Document).processors = d1.processors from hpr]; exact this
        · show d2.processors = _; rw [hpr, hk.grew.procs, hp0]
      have hro : RefsOk { d2 with elements := d1.elements } e' := by
        refine ⟨e1.attribs.filter (!·.encodable), enc, ?_, ?_, ?_⟩
        · rw [heq]; exact encodedAttribs_eq _ _
        · intro a h
          rw [List.mem_filter] at h
          exact ⟨by simpa using h.2, hcb.1 a (by rw [← ha]; exact h.1)⟩
        · rw [ht']; exact refLive_of_encOk hok
      have hdm : DeclMono { d2 with elements := d1.elements } d3 := (hst23.clean hi2).2
      have hpm : ProcMono { d2 with elements := d1.elements } d3 := hst23.procMono
      exact (hrb.mono hro hdm hpm (by rw [htyp, ht', ht]) hattr).congr ht.symm ha.symm
  · have hstays : Stays d0 d1 d3 := by
      intro j x _ hx
      have hj : j ≠ ck := by rintro rfl; rw [hnone] at hx; cases hx
      rcases hold j hj with ⟨h3, _⟩ | ⟨y, y', h3, h4, h5⟩
      · rw [hx] at h3; cases h3
      · rw [hx] at h3; cases h3
        refine ⟨y', h4, fun hpn => ?_, by rw [h5.parent]; exact h5.mono fun _ => trivial⟩
        rw [h5.parent]
        split
        · rename_i hm
          obtain ⟨_, ce, h6, h7⟩ := hk.new j hm
          rw [hx] at h6; cases h6
          exact absurd h7 hpn
        · rfl
    refine items_mono hi1 hst13 hstays e.data e1.data none (some ck) hk.items ?_
    intro c hc x _ _ x' hx'
    rcases hold c (hltd c hc) with ⟨_, h4⟩ | ⟨y, y', h3, h4, h5⟩
    · rw [hx'] at h4; cases h4
    · rw [hx'] at h4; cases h4
      rw [h5.parent, if_pos hc]

theorem text_items {d0 d : Document} : ∀ {data : List Data}, CleanData data → data.any isUnborn = false →
    MaterialisedItems d0 d none data data ∧ builderIdsList data = [] ∧ builderSizeList data = 0 ∧ kids data = []
  | [], _, _ => ⟨by simp [MaterialisedItems], by simp [builderIdsList], by simp [builderSizeList], rfl⟩
  | x :: rest, hc, hu => by
    rw [List.any_cons, Bool.or_eq_false_iff] at hu
    cases x with
    | text s =>
      obtain ⟨h1, h2, h3, h4⟩ := text_items (d0 := d0) (d := d) (by simpa only [CleanData] using hc) hu.2
      exact ⟨by simp only [MaterialisedItems]; exact ⟨rest, rfl, h1⟩, by simp only [builderIdsList]; exact h2,
        by simp only [builderSizeList]; exact h3, h4⟩
    | comment s =>
      obtain ⟨h1, h2, h3, h4⟩ := text_items (d0 := d0) (d := d) (by simpa only [CleanData] using hc) hu.2
      exact ⟨by simp only [MaterialisedItems]; exact ⟨rest, rfl, h1⟩, by simp only [builderIdsList]; exact h2,
        by simp only [builderSizeList]; exact h3, h4⟩
    | element k => simp only [CleanData] at hc
    | spanReference k => simp only [CleanData] at hc
    | addElement e => exact absurd hu.1 (by simp [isUnborn])

mutual
theorem addChildren_ok (F : Nat) : ∀ (e : ElementData) (d0 d d' : Document) (r : ElementData × Option (List Nat)), CInv d →
    d.processors = d0.processors → d0.elements.len ≤ d.elements.len → CleanBuilder e → d.FreshIds (builderIdsList e.data) →
    addChildren F e d = (.ok r, d') →
    ∃ added, KidsOk d0 d d' r.1.data e.data added ∧ (r.2 = some added ∨ (r.2 = none ∧ added = [])) ∧
      r.1.elementtype = e.elementtype ∧ r.1.attribs = e.attribs ∧ r.1.parent = e.parent
  | ⟨t, as, data, k, p⟩, d0, d, d', r, hi, hp, hl, hc, hf, h => by
    have hc' : CleanData data := by simp only [CleanBuilder] at hc; exact hc.2.1
    rw [addChildren_run] at h
    by_cases hu : data.any isUnborn
    · simp only [hu, if_true] at h
      obtain ⟨rs, d1, h1, h2⟩ := bind_ok h
      cases h2
      have := addChildrenList_ok F data d0 d d' rs hi hp hl hc' hf h1
      exact ⟨rs.2, this, Or.inl rfl, rfl, rfl, rfl⟩
    · simp only [hu] at h
      cases h
      obtain ⟨h1, h2, hz, h3⟩ := text_items (d0 := d0) (d := d) hc' (by simpa using hu)
      refine ⟨[], ⟨by rw [h2]; exact .refl d, by rw [h3]; exact List.nodup_nil, by rw [h3]; simp, h3.symm, h1, by rw [hz]; rfl,
        cleanData_not_unborn data hc' (by simpa using hu)⟩, Or.inr ⟨rfl, rfl⟩, rfl, rfl, rfl⟩
theorem addChildrenList_ok (F : Nat) : ∀ (data : List Data) (d0 d d' : Document) (r : List Data × List Nat), CInv d →
    d.processors = d0.processors → d0.elements.len ≤ d.elements.len → CleanData data → d.FreshIds (builderIdsList data) →
    addChildrenList F data d = (.ok r, d') → KidsOk d0 d d' r.1 data r.2
  | [], d0, d, d', r, hi, hp, hl, hc, hf, h => by
    simp only [addChildrenList] at h
    cases h
    exact ⟨by simp only [builderIdsList]; exact .refl d, List.nodup_nil, by simp [kids], rfl, by simp [MaterialisedItems],
      by simp [builderSizeList], by simp⟩
  | .text s :: rest, d0, d, d', r, hi, hp, hl, hc, hf, h => by
    simp only [addChildrenList] at h
    obtain ⟨rs, d1, h1, h2⟩ := bind_ok h
    cases h2
    simp only [CleanData] at hc
    simp only [builderIdsList] at hf
    have := addChildrenList_ok F rest d0 d d' rs hi hp hl hc hf h1
    refine ⟨by simp only [builderIdsList]; exact this.grew, this.nodup, this.new, this.added, ?_,
      by simp only [builderSizeList]; exact this.size, ?_⟩
    · simp only [MaterialisedItems]; exact ⟨_, rfl, this.items⟩
    · intro x hx
      rcases List.mem_cons.mp hx with rfl | hx
      · trivial
      · exact this.live x hx
  | .comment s :: rest, d0, d, d', r, hi, hp, hl, hc, hf, h => by
    simp only [addChildrenList] at h
    obtain ⟨rs, d1, h1, h2⟩ := bind_ok h
    cases h2
    simp only [CleanData] at hc
    simp only [builderIdsList] at hf
    have := addChildrenList_ok F rest d0 d d' rs hi hp hl hc hf h1
    refine ⟨by simp only [builderIdsList]; exact this.grew, this.nodup, this.new, this.added, ?_,
      by simp only [builderSizeList]; exact this.size, ?_⟩
    · simp only [MaterialisedItems]; exact ⟨_, rfl, this.items⟩
    · intro x hx
      rcases List.mem_cons.mp hx with rfl | hx
      · trivial
      · exact this.live x hx
  | .element k :: rest, d0, d, d', r, hi, hp, hl, hc, hf, h => by simp only [CleanData] at hc
  | .spanReference k :: rest, d0, d, d', r, hi, hp, hl, hc, hf, h => by simp only [CleanData] at hc
  | .addElement e :: rest, d0, d, d', r, hi, hp, hl, hc, hf, h => by
    simp only [CleanData] at hc
    simp only [builderIdsList] at hf
    simp only [addChildrenList] at h
    obtain ⟨r1, d1, h1, h⟩ := bind_ok h
    obtain ⟨ck, d2, h2, h⟩ := bind_ok h
    have h : (adoptAll F ck r1.2 >>= fun _ => addChildrenList F rest >>= fun rs => pure (DataType.element ck :: rs.1, ck :: rs.2)) d2 = (.ok r, d') := by
      cases hr : r1.2 with
      | none => rw [hr] at h; exact h
      | some gs => rw [hr] at h; exact h
    obtain ⟨_, d3, h3, h⟩ := bind_ok h
    obtain ⟨rs, d4, h4, h⟩ := bind_ok h
    cases h
    have hfe : d.FreshIds (builderIds e) := ⟨(List.nodup_append.mp hf.1).1, fun i h => hf.2 i (by simp [h])⟩
    have hids : builderIds e = e.id.toList ++ builderIdsList e.data := by cases e; simp [builderIds]
    have hfl : d.FreshIds (builderIdsList e.data) := by
      rw [hids] at hfe
      exact ⟨(List.nodup_append.mp hfe.1).2.1, fun i h => hfe.2 i (by simp [h])⟩
    obtain ⟨added, hk, ho, ht, ha, hpa⟩ := addChildren_ok F e d0 d d1 r1 hi hp hl hc.1 hfl h1
    have hhead : CleanHead e := by
      have := hc.1
      cases e
      simp only [CleanBuilder] at this
      exact ⟨this.1, this.2.2⟩
    have hb := born hi hp hl hhead hfe hk ho ht ha hpa h2 h3
    obtain ⟨hi3, _⟩ := hb.grew.steps.clean hi
    have hlen3 : d.elements.len ≤ d3.elements.len := hb.grew.steps.len_mono
    have hrest := addChildrenList_ok F rest d0 d3 d' rs hi3 (by rw [hb.grew.procs]; exact hp) (by omega) hc.2 (hb.grew.fresh hf) h4
    obtain ⟨x, hx, hxp⟩ := hb.orphan
    have hckl : ck < d3.elements.len := Store.get_lt hx
    obtain ⟨x', hx', hgx⟩ := hrest.grew.old ck x hx
    have hkids : kids (DataType.element ck :: rs.1) = ck :: kids rs.1 := rfl
    refine ⟨by simp only [builderIdsList]; exact hb.grew.trans hrest.grew, ?_, ?_, ?_, ?_, ?_, ?_⟩
    · rw [hkids, List.nodup_cons]
      refine ⟨fun hm => ?_, hrest.nodup⟩
      have := (hrest.new ck hm).1
      omega
    · intro c hc
      rw [hkids] at hc
      rcases List.mem_cons.mp hc with rfl | hc
      · exact ⟨hb.new, x', hx', hgx.parent.trans hxp⟩
      · obtain ⟨h5, h6⟩ := hrest.new c hc
        exact ⟨by omega, h6⟩
    · rw [hkids, ← hrest.added]
    · simp only [MaterialisedItems]
      refine ⟨ck, rs.1, rfl, ?_, hrest.items⟩
      refine materialised_mono hi3 hrest.grew.steps (hrest.grew.stays d0) e ck none none hb.tree fun y hy => ?_
      rw [hx'] at hy; cases hy
      exact hgx.parent.trans hxp
    · have h6 := hb.size
      have h7 := hrest.size
      simp only [builderSizeList]
      omega
    · intro y hy
      rcases List.mem_cons.mp hy with rfl | hy
      · exact ⟨x', hx'⟩
      · exact hrest.live y hy
end

/-- What a successful `add_element_to` with a clean builder with fresh identifiers achieves. -/
structure Planted (d d' : Document) (p ck : Nat) (e : ElementData) : Prop where
  spec : AddedTo d d' p ck e
  index : ∀ id k, d'.elements.index.find id = some k → d.elements.index.find id = some k ∨ id ∈ builderIds e
  steps : Steps True d d'
  procs : d'.processors = d.processors
  links : LinksAgree d → LinksAgree d'
  ranked : LinksAgree d → Ranked d → Ranked d'

theorem mapErr_ok {σ α : Type} {k : ErrKind} {m : M σ α} {s s' : σ} {a : α} (h : M.mapErr k m s = (.ok a, s')) : m s = (.ok a, s') := by
  unfold M.mapErr at h
  rcases hm : m s with ⟨e | b, s1⟩
  · rw [hm] at h; cases e <;> cases h
  · rw [hm] at h; exact h

/-- A new element is not above an old one. -/
theorem not_above_new {d0 d : Document} {ck p : Nat}
    (hp : ∀ j x, d0.getElement j = some x → ∃ x', d.getElement j = some x' ∧ x'.parent = x.parent) (hpl : ∃ x, d0.getElement p = some x)
    (hpar : ∀ j x q, d0.getElement j = some x → x.parent = some q → ∃ y, d0.getElement q = some y) (hck : d0.getElement ck = none) :
    ¬ d.Above ck p := by
  intro h
  have key : ∀ a k, d.Above a k → (∃ x, d0.getElement k = some x) → ∃ x, d0.getElement a = some x := by
    intro a k h
    induction h with
    | parent h =>
      rintro ⟨x, hx⟩
      obtain ⟨y, hy, hyp⟩ := h
      obtain ⟨x', h1, h2⟩ := hp _ x hx
      rw [hy] at h1; cases h1
      exact hpar _ x _ hx (h2 ▸ hyp)
    | up h _ ih =>
      rintro ⟨x, hx⟩
      obtain ⟨y, hy, hyp⟩ := h
      obtain ⟨x', h1, h2⟩ := hp _ x hx
      rw [hy] at h1; cases h1
      exact ih (hpar _ x _ hx (h2 ▸ hyp))
  obtain ⟨x, h1⟩ := key _ _ h hpl
  rw [hck] at h1; cases h1

theorem Upds.links {d d' : Document} {fix : Nat → Prop} (h : Upds d d' (fun _ p => p) fix) (hl : LinksAgree d) : LinksAgree d' := by
  constructor
  · intro p c
    rw [h.lists, hl.agree]
    unfold Document.HasParent
    rcases h.elems c with ⟨h1, h2⟩ | ⟨e, e', h1, h2, h3⟩
    · simp [h1, h2]
    · simp only [h1, h2, Option.some.injEq, exists_eq_left', h3.parent]
  · intro p e' he'
    rcases h.elems p with ⟨_, h2⟩ | ⟨e, e2, h1, h2, h3⟩
    · rw [he'] at h2; cases h2
    · rw [he'] at h2; cases h2
      rw [h3.kids]; exact hl.once p e h1

theorem Upds.ranked {d d' : Document} {par : Nat → Option Nat → Option Nat} {fix : Nat → Prop} (h : Upds d d' par fix) (hr : Ranked d) : Ranked d' := by
  obtain ⟨r, hr⟩ := hr
  exact ⟨r, fun p c hpc => hr p c ((h.lists p c).mp hpc)⟩

theorem planted {F p : Nat} {e : ElementData} {d d' : Document} {ck : Nat} (hi : CInv d) (hp : d.Live p) (hc : CleanBuilder e)
    (hf : d.FreshIds (builderIds e)) (h : addElementTo F p e d = (.ok ck, d')) : Planted d d' p ck e := by
  unfold addElementTo at h
  obtain ⟨r1, d1, h1, h⟩ := bind_ok h
  obtain ⟨ck', d2, h2, h⟩ := bind_ok h
  have h2 := mapErr_ok h2
  have h : (adoptAll F ck' r1.2 >>= fun _ => attachElement p ck' >>= fun _ => postAdd F ck' none >>= fun _ => pure ck') d2 = (.ok ck, d') := by
    cases hr : r1.2 with
    | none => rw [hr] at h; exact h
    | some gs => rw [hr] at h; exact h
  obtain ⟨_, d3, h3, h⟩ := bind_ok h
  obtain ⟨_, d4, h4, h⟩ := bind_ok h
  obtain ⟨_, d5, h5, h⟩ := bind_ok h
  cases h
  have hids : builderIds e = e.id.toList ++ builderIdsList e.data := by cases e; simp [builderIds]
  have hfl : d.FreshIds (builderIdsList e.data) := by
    have hf := hf
    rw [hids] at hf
    exact ⟨(List.nodup_append.mp hf.1).2.1, fun i h => hf.2 i (by simp [h])⟩
  obtain ⟨added, hk, ho, ht, ha, hpa⟩ := addChildren_ok F e d d d1 r1 hi rfl (Nat.le_refl _) hc hfl h1
  have hhead : CleanHead e := by
    cases e
    simp only [CleanBuilder] at hc
    exact ⟨hc.1, hc.2.2⟩
  have hb := born hi rfl (Nat.le_refl _) hhead hf hk ho ht ha hpa h2 h3
  obtain ⟨hi3, _⟩ := hb.grew.steps.clean hi
  obtain ⟨pe, hpe⟩ := hp
  obtain ⟨pe3, hpe3, hgp⟩ := hb.grew.old p pe hpe
  obtain ⟨x, hx, hxp⟩ := hb.orphan
  have hpck : p ≠ ck := by
    rintro rfl
    have : p < d.elements.len := Store.get_lt hpe
    have := hb.new
    omega
  have hnew : d.getElement ck = none := by
    obtain ⟨_, _, _, h0, _⟩ := (materialised_eq ..).mp hb.tree
    exact h0
  have hst34 : Steps True d3 d4 := by
    have := (does_attachElement (C := True) p ck d3 hi3.ix trivial).1
    rw [h4] at this; exact this
  obtain ⟨hi4, _⟩ := hst34.clean hi3
  have hst45 : Steps True d4 d' := by
    have := (does_postAdd (C := True) F ck none d4 hi4.ix trivial).1
    rw [h5] at this; exact this
  have hrun := attach_run hpe3 hx
  rw [h4, hxp] at hrun
  simp only [Prod.mk.injEq, true_and] at hrun
  have hget4 : ∀ j, d4.getElement j = (d3.getElement j).map fun y =>
      if j = p then y.push (.element ck) else if j = ck then { y with parent := some p } else y := by
    intro j
    rw [hrun]
    show Store.get (Store.update (Store.update _ _ _) _ _) j = _
    rw [Store.get_update, Store.get_update]
    show (if j = p then Option.map _ (if j = ck then Option.map _ (d3.getElement j) else d3.getElement j) else
      if j = ck then Option.map _ (d3.getElement j) else d3.getElement j) = _
    by_cases hjp : j = p
    · subst hjp; simp [hpck]
    · by_cases hjc : j = ck
      · subst hjc; simp [hjp]
      · simp [hjp, hjc]
  have hu := postAdd_upds F ck none d4
  rw [h5] at hu
  have hproc4 : d4.processors = d3.processors := by rw [hrun]
  have hix4 : d4.elements.index = d3.elements.index := by rw [hrun]; simp
  have hst35 := hst34.trans hst45
  have hstays : Stays d d3 d' := by
    intro j y hn hy
    have hjp : j ≠ p := by rintro rfl; rw [hpe] at hn; cases hn
    have h4j := hget4 j
    rw [hy] at h4j
    simp only [Option.map_some, if_neg hjp] at h4j
    rcases hu.elems j with ⟨h6, _⟩ | ⟨z, z', h6, h7, h8⟩
    · rw [h4j] at h6; cases h6
    · rw [h4j] at h6
      cases h6
      refine ⟨z', h7, fun hyp => ?_, ?_⟩
      · rw [h8.parent]
        split
        · rename_i hj; subst hj; rw [hx] at hy; cases hy; exact absurd hxp hyp
        · rfl
      · by_cases hj : j = ck
        · rw [if_pos hj] at h8
          exact ⟨h8.type, h8.key, rfl, h8.attribs.imp _root_.id fun h => ⟨trivial, h.2⟩, h8.data⟩
        · rw [if_neg hj] at h8
          exact ⟨h8.type, h8.key, rfl, h8.attribs.imp _root_.id fun h => ⟨trivial, h.2⟩, h8.data⟩
  have hattach : LinksAgree d3 → ∀ j, d4.getElement j = (d3.getElement j).map fun e =>
      { e with parent := if j = ck then some p else e.parent,
               data := e.data.filter (!·.isElem ck) ++ if j = p then [.element ck] else [] } := by
    intro hl j
    obtain ⟨s, hs1, _, _, hs2⟩ := attach_effect hl hpe3 hx
    rw [h4] at hs1
    simp only [Prod.mk.injEq, true_and] at hs1
    rw [hs1]; exact hs2 j
  have hna : ¬ d3.Above ck p := by
    refine not_above_new (d0 := d) ?_ ⟨pe, hpe⟩ ?_ hnew
    · intro j y hy
      obtain ⟨y', h6, h7⟩ := hb.grew.old j y hy
      exact ⟨y', h6, h7.parent⟩
    · intro j y q hy hq
      exact (hi.elem j y hy).parent q hq
  have hlen4 : d4.elements.len = d3.elements.len := by rw [hrun]; simp [Store.len]
  refine ⟨⟨?_, ?_, ?_, ?_⟩, ?_, (hb.grew.steps.trans hst35), ?_, ?_, ?_⟩
  · refine materialised_mono hi3 hst35 hstays e ck none (some p) hb.tree fun y hy => ?_
    have h4j := hget4 ck
    rw [hx] at h4j
    simp only [Option.map_some, if_neg (Ne.symm hpck), if_true] at h4j
    rcases hu.elems ck with ⟨h6, _⟩ | ⟨z, z', h6, h7, h8⟩
    · rw [h4j] at h6; cases h6
    · rw [h4j] at h6; cases h6
      rw [hy] at h7; cases h7
      exact h8.parent
  · have h4j := hget4 p
    rw [hpe3] at h4j
    simp only [Option.map_some, if_true] at h4j
    rcases hu.elems p with ⟨h6, _⟩ | ⟨z, z', h6, h7, h8⟩
    · rw [h4j] at h6; cases h6
    · rw [h4j] at h6; cases h6
      obtain ⟨refs, hr1⟩ := hgp.data
      obtain ⟨refs', hr2⟩ := h8.data
      refine ⟨pe, z', refs, refs', hpe, h7, h8.type.trans hgp.type, h8.key.trans hgp.key, h8.parent.trans hgp.parent, ?_, ?_⟩
      · rcases h8.attribs with h9 | ⟨h9, _⟩
        · exact h9.trans hgp.attribs
        · exact absurd h9 hpck
      · rw [hr2]
        show (pe3.data ++ [.element ck]) ++ _ = _
        rw [hr1]
  · intro j y hy hjp
    have hjc : j ≠ ck := by rintro rfl; rw [hnew] at hy; cases hy
    obtain ⟨y3, hy3, hg3⟩ := hb.grew.old j y hy
    have h4j := hget4 j
    rw [hy3] at h4j
    simp only [Option.map_some, if_neg hjp, if_neg hjc] at h4j
    rcases hu.elems j with ⟨h6, _⟩ | ⟨z, z', h6, h7, h8⟩
    · rw [h4j] at h6; cases h6
    · rw [h4j] at h6; cases h6
      exact ⟨z', h7, hg3.trans (h8.mono hjc).grown⟩
  · rw [hu.len, hlen4, hb.size]
  · intro id k hk
    rw [hu.index, hix4] at hk
    exact hb.grew.index id k hk
  · rw [hu.procs, hproc4, hb.grew.procs]
  · intro hl
    have hl3 := hb.grew.links hl
    exact hu.links (attach_links hl3 ⟨pe3, hpe3⟩ ⟨x, hx⟩ (hattach hl3))
  · intro hl hr
    have hl3 := hb.grew.links hl
    exact hu.ranked (attach_ranked hl3 (hb.grew.ranked hl hr) ⟨pe3, hpe3⟩ hpck hna (hattach hl3))

end Folia
