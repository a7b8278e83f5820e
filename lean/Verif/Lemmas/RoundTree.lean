import Verif.Lemmas.RoundBody
import Verif.Lemmas.Ids
import Verif.Lemmas.Preorder
/-! Written and read back, the body gives the same tree again. -/
namespace Folia
open Document

/-- What is written as set, subset, class and processor of an element; see `AttrsAre`. -/
structure RefsOf (d : Document) (e : ElementData) (k : Nat) (dec : Declaration) (set subset cls proc : Option String) : Prop where
  key : e.declarationKeyU = .ok (some k)
  stored : d.getDeclaration k = some dec
  subset : e.getSubset d = .ok subset
  cls : e.getClass d = .ok cls
  set : (e.elementtype = .feature ∨ ∀ j dec', d.getDeclaration j = some dec' → dec'.annotationtype = dec.annotationtype → j = k) ∧ set = none ∨
    (e.elementtype ≠ .feature ∧ ∃ j dec', d.getDeclaration j = some dec' ∧ dec'.annotationtype = dec.annotationtype ∧ j ≠ k) ∧ e.getSet d = .ok set
  proc : (∃ p, dec.processors = [p] ∧ e.processorKeyU = .ok (some p)) ∧ proc = none ∨
    (¬ ∃ p, dec.processors = [p] ∧ e.processorKeyU = .ok (some p)) ∧ e.getProcessorId d = .ok proc

/-- The attributes that are read back for an element. -/
def AttrsOf (d : Document) (e : ElementData) (as : List Attribute) : Prop :=
  (e.declarationKeyU = .ok none ∧ as = ownAttribs e) ∨
  ∃ k dec set subset cls proc, RefsOf d e k dec set subset cls proc ∧ as = ownAttribs e ++ refAttribs set subset cls proc

theorem attrs_read {X : Ext} {d : Document} {e : ElementData} {l : List (String × String)} (h : AttrsAre X d e l) (hp : Printable X e)
    (hc : ∀ a ∈ e.attribs, a.encodable = false) : ∃ as, attrsMeaning X e.elementtype (readAttrs [] l) = some (as, []) ∧ AttrsOf d e as := by
  have hc' : ∀ a ∈ ownAttribs e, a.encodable = false := fun a ha => hc a (List.mem_filter.mp ha).1
  obtain ⟨refs, rfl, ⟨h1, rfl⟩ | ⟨k, dec, set, subset, cls, proc, h1, h2, h3, h4, rfl, h5, h6⟩⟩ := h
  · refine ⟨ownAttribs e, ?_, .inl ⟨h1, rfl⟩⟩
    have := attrs_back (t := e.elementtype) hp hc' none none none none
    simpa [wattrOpt, refAttribs] using this
  · exact ⟨_, attrs_back hp hc' set subset cls proc, .inr ⟨k, dec, set, subset, cls, proc, ⟨h1, h2, h3, h4, h5, h6⟩, rfl⟩⟩

theorem refAttribs_cases {set subset cls proc : Option String} {a : Attribute} (h : a ∈ refAttribs set subset cls proc) :
    (∃ s, a = .set s) ∨ (∃ s, a = .subset s) ∨ (∃ s, a = .cls s) ∨ ∃ s, a = .processor s := by
  unfold refAttribs at h
  simp only [List.mem_append, Option.mem_toList, Option.map_eq_some_iff] at h
  rcases h with ((⟨v, _, rfl⟩ | ⟨v, _, rfl⟩) | ⟨v, _, rfl⟩) | ⟨v, _, rfl⟩
  · exact .inl ⟨v, rfl⟩
  · exact .inr (.inl ⟨v, rfl⟩)
  · exact .inr (.inr (.inl ⟨v, rfl⟩))
  · exact .inr (.inr (.inr ⟨v, rfl⟩))

theorem AttrsOf.clean {d : Document} {e : ElementData} {as : List Attribute} (h : AttrsOf d e as) : CleanAttribs as := by
  have own : ∀ a ∈ ownAttribs e, a.decodable = false := fun a ha => by
    have := (List.mem_filter.mp ha).2
    simp only [Bool.and_eq_true, Bool.not_eq_true'] at this
    exact this.1
  rcases h with ⟨_, rfl⟩ | ⟨k, dec, set, subset, cls, proc, _, rfl⟩
  · exact own
  · intro a ha
    rcases List.mem_append.mp ha with ha | ha
    · exact own a ha
    · rcases refAttribs_cases ha with ⟨_, rfl⟩ | ⟨_, rfl⟩ | ⟨_, rfl⟩ | ⟨_, rfl⟩ <;> rfl

theorem ownAttribs_id (e : ElementData) (t : ElementType) (data : List Data) : (ElementData.mk t (ownAttribs e) data none none).id = e.id := by
  unfold ElementData.id ownAttribs
  simp only
  induction e.attribs with
  | nil => rfl
  | cons a as ih =>
    rw [List.filter_cons]
    cases a <;> simp [Attribute.decodable] <;> exact ih

theorem AttrsOf.id {d : Document} {e : ElementData} {as : List Attribute} (h : AttrsOf d e as) (t : ElementType) (data : List Data) :
    (ElementData.mk t as data none none).id = e.id := by
  rcases h with ⟨_, rfl⟩ | ⟨k, dec, set, subset, cls, proc, _, rfl⟩
  · exact ownAttribs_id e t data
  · rw [← ownAttribs_id e t data]
    unfold ElementData.id
    simp only [List.findSome?_append]
    rw [Option.or_eq_left_of_none]
    rw [List.findSome?_eq_none_iff]
    intro a ha
    rcases refAttribs_cases ha with ⟨_, rfl⟩ | ⟨_, rfl⟩ | ⟨_, rfl⟩ | ⟨_, rfl⟩ <;> rfl

/-! ### Identifiers -/

/-- The identifier of an element. -/
def idAt (d : Document) (k : Nat) : Option String := (d.getElement k).bind ElementData.id

mutual
theorem items_ids {d : Document} {B : ElementData → List Attribute} : ∀ (items : List Item), ShowsAll d items → (∀ i ∈ items, ∀ e, InTree e i → AttrsOf d e (B e)) →
    builderIdsList (itemsBuilder B items) = (nodeKeys items).filterMap (idAt d)
  | [], _, _ => rfl
  | i :: is, hs, hB => by
    simp only [itemsBuilder, builderIdsList_append, nodeKeys, List.filterMap_append]
    rw [item_ids i hs.1 (hB i (List.mem_cons_self ..)), items_ids is hs.2 fun j hj => hB j (List.mem_cons_of_mem _ hj)]
theorem item_ids {d : Document} {B : ElementData → List Attribute} : ∀ (i : Item), Shows d i → (∀ e, InTree e i → AttrsOf d e (B e)) →
    builderIdsList (itemBuilder B i) = (nodeKeysIn i).filterMap (idAt d)
  | .text _, _, _ => rfl
  | .comment _, _, _ => rfl
  | .ref _, _, _ => rfl
  | .node k e items, hs, hB => by
    simp only [itemBuilder, builderIdsList, builderIds_eq, nodeKeysIn, List.append_nil, List.filterMap_cons]
    rw [items_ids items hs.2.2 fun j hj e' he' => hB e' (.inner hj he'), (hB e .here).id]
    have : idAt d k = e.id := by unfold idAt; rw [hs.1]; rfl
    rw [this]
    cases e.id <;> rfl
end

theorem ids_nodup {d : Document} (hf : d.Forest) (hi : IdsFound d) {i : Item} (hs : Shows d i) : ((nodeKeysIn i).filterMap (idAt d)).Nodup := by
  refine List.Pairwise.filterMap (R := fun a b => a ≠ b) (S := fun a b => a ≠ b) _ ?_ (nodeKeysIn_nodup hf.links hf.acyclic hs)
  intro a a' hne b hb b' hb' hbb
  subst hbb
  unfold idAt at hb hb'
  obtain ⟨e, he, h1⟩ := Option.bind_eq_some_iff.mp hb
  obtain ⟨e', he', h2⟩ := Option.bind_eq_some_iff.mp hb'
  have h3 := hi a e b he h1
  rw [hi a' e' b he' h2] at h3
  exact hne (Option.some.inj h3).symm

/-! ### Sizes -/

mutual
theorem items_size {B : ElementData → List Attribute} : ∀ (items : List Item), builderSizeList (itemsBuilder B items) = (nodeKeys items).length
  | [] => rfl
  | i :: is => by simp only [itemsBuilder, builderSizeList_append, nodeKeys, List.length_append, item_size i, items_size is]
theorem item_size {B : ElementData → List Attribute} : ∀ (i : Item), builderSizeList (itemBuilder B i) = (nodeKeysIn i).length
  | .text _ => rfl
  | .comment _ => rfl
  | .ref _ => rfl
  | .node k e items => by simp [itemBuilder, builderSizeList, builderSize, nodeKeysIn, items_size items]
end

/-! ### Trees -/

mutual
theorem items_match {R : ElementData → ElementData → Prop} {lo : Nat} {d0 d' : Document} {B : ElementData → List Attribute} : ∀ (items : List Item) (par : Option Nat) (ys : List Data),
    StoredItems lo d0 d' par ys (itemsBuilder B items) →
    (∀ i ∈ items, ∀ e, InTree e i → ∀ k x data, d'.getElement k = some x → ReadsBack d0 d' x ⟨e.elementtype, B e, data, none, none⟩ → R e x) →
    MatchesAll R d' par ys items
  | [], par, ys, h, _ => by simpa only [itemsBuilder, StoredItems, MatchesAll] using h
  | .text s :: is, par, ys, h, hR => by
    simp only [itemsBuilder, itemBuilder, List.cons_append, List.nil_append, StoredItems] at h
    obtain ⟨ys', h1, h2⟩ := h
    simp only [MatchesAll]
    exact ⟨ys', h1, items_match is par ys' h2 fun i hi => hR i (List.mem_cons_of_mem _ hi)⟩
  | .comment s :: is, par, ys, h, hR => by
    simp only [itemsBuilder, itemBuilder, List.cons_append, List.nil_append, StoredItems] at h
    obtain ⟨ys', h1, h2⟩ := h
    simp only [MatchesAll]
    exact ⟨ys', h1, items_match is par ys' h2 fun i hi => hR i (List.mem_cons_of_mem _ hi)⟩
  | .ref k :: is, par, ys, h, hR => by
    simp only [itemsBuilder, itemBuilder, List.nil_append] at h
    simp only [MatchesAll]
    exact items_match is par ys h fun i hi => hR i (List.mem_cons_of_mem _ hi)
  | .node k e items :: is, par, ys, h, hR => by
    simp only [itemsBuilder, itemBuilder, List.cons_append, List.nil_append, StoredItems] at h
    obtain ⟨c, ys', h1, h2, h3⟩ := h
    simp only [MatchesAll]
    exact ⟨c, ys', h1, node_match (.node k e items) par c k e items rfl h2 (hR _ (List.mem_cons_self ..)), items_match is par ys' h3 fun i hi => hR i (List.mem_cons_of_mem _ hi)⟩
theorem node_match {R : ElementData → ElementData → Prop} {lo : Nat} {d0 d' : Document} {B : ElementData → List Attribute} : ∀ (i : Item) (par : Option Nat) (k' k : Nat) (e : ElementData)
    (items : List Item), i = .node k e items → Stored lo d0 d' par k' ⟨e.elementtype, B e, itemsBuilder B items, none, none⟩ →
    (∀ e, InTree e i → ∀ k x data, d'.getElement k = some x → ReadsBack d0 d' x ⟨e.elementtype, B e, data, none, none⟩ → R e x) → Matches R d' par k' i
  | .text _, _, _, _, _, _, h, _, _ => nomatch h
  | .comment _, _, _, _, _, _, h, _, _ => nomatch h
  | .ref _, _, _, _, _, _, h, _, _ => nomatch h
  | .node k e items, par, k', k0, e0, items0, heq, h, hR => by
    cases heq
    simp only [Stored] at h
    obtain ⟨x, _, h1, h2, h3, h4⟩ := h
    simp only [Matches]
    exact ⟨x, h1, h2, hR e .here k' x _ h1 h3, items_match items (some k') _ h4 fun i hi e' he' => hR e' (.inner hi he')⟩
end

/-! ### The whole body -/

/-- The tree of a document that was written and read back. -/
theorem round_tree {X : Ext} {F F' : Nat} {ps : DocumentProperties} {d d' : Document} {G : Nat} {evs : List WEvent} (hr : CleanReachable X F d) (hf : d.Forest)
    (hb : d.Live 0) (hp : d.ProvForest)
    (hxml : d.xml X G 0 = .ok evs) (hps : ps.processor = none) (h : Document.parse X F' ps (checkEnds [] (readBack evs)) = .ok d')
    (hpr : ∀ e items, Below d 0 e items → LegibleIn (.node 0 e items) ∧ ∀ e', InTree e' (.node 0 e items) → Printable X e') :
    ∃ ts d2 e items B, Below d 0 e items ∧ items ≠ [] ∧ (e.elementtype = .text ∨ e.elementtype = .speech) ∧ ProcsStored 0 d none d.chain ts ∧
      MetaBack d { autodeclare := ps.autodeclare, id := d.id, version := FOLIAVERSION } d2 ts ∧
      SameHead d2 d' ∧ DeclMono d2 d' ∧ CInv d2 ∧ CInv d' ∧ (∀ e', InTree e' (.node 0 e items) → AttrsOf d e' (B e')) ∧
      d'.elements.len = (nodeKeysIn (.node 0 e items)).length ∧ d'.processors = d2.processors ∧
      (∀ R : ElementData → ElementData → Prop, (∀ e', InTree e' (.node 0 e items) → ∀ k x data, d'.getElement k = some x →
        ReadsBack d2 d' x ⟨e'.elementtype, B e', data, none, none⟩ → R e' x) → Matches R d' none 0 (.node 0 e items)) ∧
      ((∀ ts ∈ ps.declare, ∃ j procs, shapeOf d2 j = some (ts.1, ts.2, procs)) → Asks d2 none ⟨e.elementtype, B e, [], none, none⟩ →
        AsksItems d2 e.elementtype (itemsBuilder B items) → Pinned d2 d') ∧ d'.Forest := by
  obtain ⟨ts, d2, h1, h2, h3, h4, h5, h6, body, rest, m, tail, h7, h8, h9, h10⟩ := round_parts hr hf hb hp hxml hps h
  obtain ⟨A, hA, e, items, hbel, rfl⟩ := body_written hr hf hb hxml h8 h9
  obtain ⟨hl, hpe⟩ := hpr e items hbel
  let B : ElementData → List Attribute := fun e' => match attrsMeaning X e'.elementtype (readAttrs [] (A e')) with
    | some (as, _) => as
    | none => []
  have hAB : ∀ e', InTree e' (.node 0 e items) → attrsMeaning X e'.elementtype (readAttrs [] (A e')) = some (B e', []) ∧ AttrsOf d e' (B e') := by
    intro e' he'
    obtain ⟨k, hk⟩ := inTree_live hbel he'
    obtain ⟨as, g1, g2⟩ := attrs_read (hA k e' hk) (hpe e' he') ((cleanReachable_reachable hr).encoded k e' hk)
    have : B e' = as := by simp only [B, g1]
    rw [this]
    exact ⟨g1, g2⟩
  obtain ⟨hty, hne, rfl, nodes, tail', rfl, hmean⟩ := body_found (fun e' he' => (hAB e' he').1) hl h10
  have hBe := (hAB e .here).2
  have hem : d2.elements = {} := by rw [h2.same]
  obtain ⟨d1, x, r1, r2, r3, r4, r5, r6, r7, r8, r9, r10⟩ := rest_runs hps h6 hem hBe.clean h7
  obtain ⟨data, d3, s1, s2, s3⟩ := nodes_runs X F' nodes _ 0 [] d1 d' r1
  rw [hmean] at s1
  cases s1
  simp only [parseElements, if_true] at s2
  cases s2
  have hnd : (builderIdsList (itemBuilder B (.node 0 e items))).Nodup := by
    rw [item_ids _ hbel fun e' he' => (hAB e' he').2]
    exact ids_nodup hf (cleanReachable_reachable hr).idsFound hbel
  simp only [itemBuilder, builderIdsList, builderIds_eq, List.append_nil, List.nodup_append] at hnd
  have hfresh : d1.FreshIds (builderIdsList (itemsBuilder B items)) := by
    refine ⟨hnd.2.1, fun id hm => ?_⟩
    cases hk : d1.elementKeyById id with
    | none => rfl
    | some k =>
      have := r9 id k hk
      exact absurd rfl (hnd.2.2 id (by rw [hBe.id] at this ⊢; rw [this]; simp) id hm)
  obtain ⟨⟨ys, hfill⟩, hpin⟩ := s3 d2 x r2 r4 r5 r6 hfresh
  obtain ⟨x', g1, g2⟩ := hfill.ran.old 0 x (Store.get_lt r5) r5
  have hown : ownItems x'.data = ys := by rw [g2.data, r7, if_pos rfl]; rfl
  refine ⟨ts, d2, e, items, B, hbel, hne, hty, h1, h2, h3, h4, h6, (hfill.ran.steps.clean r2).1, fun e' he' => (hAB e' he').2, ?_, ?_, ?_, ?_, ?_⟩
  · rw [hfill.size, r3, items_size]; simp [nodeKeysIn]; omega
  · rw [hfill.ran.procs, r4]
  · intro R hR
    simp only [Matches]
    refine ⟨x', g1, by rw [g2.parent, r6], hR e .here 0 x' [] g1 ?_, ?_⟩
    · exact (r8.mono (r2.elem 0 x r5).refs (hfill.ran.steps.clean r2).2 hfill.ran.steps.procMono g2.type g2.attribs).congr rfl rfl
    · rw [hown]
      exact items_match items (some 0) ys hfill.items fun i hi e' he' => hR e' (.inner hi he')
  · intro hd ha hai
    have hp2 : Pinned d2 d2 := ⟨fun _ => rfl, rfl, by rw [h2.same], fun k y hy => by unfold getElement at hy; rw [hem] at hy; simp [Store.get] at hy⟩
    refine hpin d2 (r10 d2 hp2 ha hd) ?_
    rw [r8.type]
    exact hai
  · have hone : ∀ k y, d1.getElement k = some y → k = 0 ∧ y = x := by
      intro k y hy
      have : k < d1.elements.len := Store.get_lt hy
      rw [r3] at this
      have hk : k = 0 := by omega
      subst hk
      rw [r5] at hy
      cases hy
      exact ⟨rfl, rfl⟩
    have hlist : ∀ p c, ¬ d1.Lists p c := by
      rintro p c ⟨y, hy, hm⟩
      obtain ⟨_, rfl⟩ := hone p y hy
      rw [r7] at hm
      cases hm
    have hl1 : LinksAgree d1 := by
      refine ⟨fun p c => ⟨fun h => absurd h (hlist p c), ?_⟩, fun p y hy => ?_⟩
      · rintro ⟨y, hy, hm⟩
        obtain ⟨_, rfl⟩ := hone c y hy
        rw [r6] at hm
        cases hm
      · obtain ⟨_, rfl⟩ := hone p y hy
        rw [r7]
        exact List.nodup_nil
    have hl := hfill.ran.links hl1
    exact ⟨hl, (hfill.ran.ranked hl1 ⟨fun _ => 0, fun p c h => absurd h (hlist p c)⟩).acyclic hl⟩

end Folia
