import Verif.Lemmas.RoundSame
import Verif.Lemmas.RoundNames
/-! Sets and processors after writing and reading. -/
namespace Folia
open Document

/-- The processors of a declaration after reading. -/
def procsBack (d d2 : Document) (dec : Declaration) : List Nat := (procNames d dec.processors).filterMap d2.processorKeyById

section
variable {d d1 d2 : Document} {ts : List ProcTree} (hm : MetaBack d d1 d2 ts)
include hm

theorem decl_forth (hk : ∀ k dec, d.getDeclaration k = some dec → dec.processors ≠ []) {k : Nat} {dec : Declaration} (h : d.getDeclaration k = some dec) :
    ∃ j, shapeOf d2 j = some (dec.annotationtype, dec.set, procsBack d d2 dec) := by
  have hmem : dec ∈ keptDecls d.declarations.items := by
    rw [kept_filter, List.mem_filter]
    refine ⟨List.mem_filterMap.mpr ⟨some dec, List.mem_of_getElem? (Store.get_eq_some.mp h), rfl⟩, by simpa using hk k dec h⟩
  obtain ⟨j, hj⟩ := List.mem_iff_getElem?.mp hmem
  refine ⟨j, ?_⟩
  unfold shapeOf
  rw [hm.decls j, hj]
  rfl

theorem decl_back {j : Nat} {x : AnnotationType × Option String × List Nat} (h : shapeOf d2 j = some x) :
    ∃ k dec, d.getDeclaration k = some dec ∧ x = (dec.annotationtype, dec.set, procsBack d d2 dec) := by
  unfold shapeOf at h
  rw [hm.decls j] at h
  cases hj : (keptDecls d.declarations.items)[j]? with
  | none => rw [hj] at h; cases h
  | some dec =>
    rw [hj] at h
    have hmem := keptDecls_mem (List.mem_of_getElem? hj)
    obtain ⟨k, hk⟩ := List.mem_iff_getElem?.mp hmem
    exact ⟨k, dec, Store.get_eq_some.mpr hk, (Option.some.inj h).symm⟩

/-- Declarations of the same type and set are the same. -/
theorem shape_unique {i j : Nat} {t : AnnotationType} {s : Option String} {p q : List Nat} (hi : shapeOf d2 i = some (t, s, p)) (hj : shapeOf d2 j = some (t, s, q)) :
    i = j := by
  obtain ⟨a, a1, a2, a3, _⟩ := shapeOf_some hi
  obtain ⟨b, b1, b2, b3, _⟩ := shapeOf_some hj
  have h1 := (declarationKeyById_iff hm.exact t s i).mpr ⟨a, a1, a2, a3⟩
  rw [(declarationKeyById_iff hm.exact t s j).mpr ⟨b, b1, b2, b3⟩] at h1
  exact (Option.some.inj h1).symm

/-- The only declaration of its type stays the only one. -/
theorem sole_forth {k : Nat} {dec : Declaration} (h : d.getDeclaration k = some dec)
    (hu : ∀ j dec', d.getDeclaration j = some dec' → dec'.annotationtype = dec.annotationtype → j = k) {i j : Nat} {x : AnnotationType × Option String × List Nat}
    (hi : shapeOf d2 i = some x) (hx : x.1 = dec.annotationtype) (hj : shapeOf d2 j = some (dec.annotationtype, dec.set, procsBack d d2 dec)) : i = j := by
  obtain ⟨k', dec', h1, rfl⟩ := decl_back hm hi
  have := hu k' dec' h1 hx
  subst this
  rw [h] at h1
  cases h1
  exact shape_unique hm hi hj

end

/-- Processors that were written are known again. -/
theorem proc_forth {d d1 d2 : Document} {ts : List ProcTree} (hm : MetaBack d d1 d2 ts) (hx : ProcsExact d2) (hts : ProcsStored 0 d none d.chain ts) {p : Nat} {y : Processor}
    (hp : d.getProcessor p = some y) (hc : ∃ c ∈ d.chain, d.ProcOver c p) : ∃ p2 y2, d2.processorKeyById y.id = some p2 ∧ d2.getProcessor p2 = some y2 ∧ y2.id = y.id := by
  obtain ⟨c, hc1, hc2⟩ := hc
  obtain ⟨j, y2, h1, h2⟩ := trees_ids_live ts _ _ hm.stored _ (over_in_trees ts _ _ hts hc1 hc2 hp)
  exact ⟨j, y2, (processorKeyById_iff hx y.id j).mpr ⟨y2, h1, h2⟩, h1, h2⟩

theorem listed_forth {d d2 : Document} {dec : Declaration} {p p2 : Nat} {y : Processor} (hm : p ∈ dec.processors) (hp : d.getProcessor p = some y)
    (h : d2.processorKeyById y.id = some p2) : p2 ∈ procsBack d d2 dec := by
  refine List.mem_filterMap.mpr ⟨y.id, List.mem_filterMap.mpr ⟨p, hm, by rw [hp]; rfl⟩, h⟩

theorem sole_proc {d d2 : Document} {dec : Declaration} {p p2 : Nat} {y : Processor} (hd : dec.processors = [p]) (hp : d.getProcessor p = some y)
    (h : d2.processorKeyById y.id = some p2) : procsBack d d2 dec = [p2] := by
  unfold procsBack procNames
  rw [hd]
  simp [hp, h]

/-- The processor that an element reports. -/
theorem procId_of_key {d : Document} {e : ElementData} {p : Nat} {y : Processor} (hk : e.processorKeyU = .ok (some p)) (hp : d.getProcessor p = some y) :
    e.getProcessorId d = .ok (some y.id) := by
  unfold ElementData.getProcessorId ElementData.getProcessor
  rw [hk]
  simp only [bind, Except.bind, pure, Except.pure, hp]

theorem procId_none {d : Document} {e : ElementData} (hk : e.processorKeyU = .ok none) : e.getProcessorId d = .ok none := by
  unfold ElementData.getProcessorId ElementData.getProcessor
  rw [hk]
  rfl

theorem procKey_of_id {d : Document} {e : ElementData} (hr : RefsOk d e) {id : String} (h : e.getProcessorId d = .ok (some id)) :
    ∃ p y, e.processorKeyU = .ok (some p) ∧ d.getProcessor p = some y ∧ y.id = id := by
  obtain ⟨plain, enc, h1, h2, h3⟩ := hr
  have hv := (values_of_refs (d := d) h1 h2).2.2.2.2.2
  rw [h] at hv
  obtain ⟨y, hy, rfl⟩ := Option.map_eq_some_iff.mp (Except.ok.inj hv).symm
  obtain ⟨p, hp, hy⟩ := Option.bind_eq_some_iff.mp hy
  exact ⟨p, y, by rw [(keysU_of_refs h1 h2).2.2.1, hp], hy, rfl⟩

theorem set_of_key {d : Document} {e : ElementData} {k : Nat} {dec : Declaration} (hk : e.declarationKeyU = .ok (some k)) (hd : d.getDeclaration k = some dec) :
    e.getSet d = .ok dec.set := by
  unfold ElementData.getSet ElementData.getDeclaration
  rw [hk]
  simp only [bind, Except.bind, pure, Except.pure, hd]

theorem own_encodable {e : ElementData} (hc : ∀ a ∈ ownAttribs e, a.encodable = false) (t : ElementType) (data : List Data) :
    (ElementData.mk t (ownAttribs e) data none none).encodable = false := by
  have := (builder_refs hc none none none none t data).2.2.2.2.2
  simpa [refAttribs] using this

/-- The declaration of an element has its annotation type and lists its processor. -/
theorem refs_listed {d : Document} {e : ElementData} (he : RefsOk d e) {t : AnnotationType} (ht : e.elementtype.annotationtype = some t) {k : Nat}
    (hk : e.declarationKeyU = .ok (some k)) {dec : Declaration} (hd : d.getDeclaration k = some dec) :
    dec.annotationtype = t ∧ ∀ p, e.processorKeyU = .ok (some p) → p ∈ dec.processors := by
  obtain ⟨plain, enc, q1, q2, q3⟩ := he
  obtain ⟨k1, _, k3, _⟩ := keysU_of_refs q1 q2
  rw [k1] at hk
  have hk := Except.ok.inj hk
  refine ⟨q3.kind k dec t hk hd ht, fun p hp => q3.listed k dec p hk ?_ hd⟩
  rw [k3] at hp
  exact Except.ok.inj hp

/-- What is asked for when an element is read back. -/
theorem asks_back {d d1 d2 : Document} {ps : DocumentProperties} {ts : List ProcTree} (hm : MetaBack d d1 d2 ts)
    (hs : Settled ps d) {e : ElementData} (he : RefsOk d e) (hc : ∀ a ∈ e.attribs, a.encodable = false) (hcr : FeatureFits d e) {as : List Attribute} (ha : AttrsOf d e as)
    {c : Option ElementType} (hpar : ∀ c', c = some c' → ∃ pk pe, e.parent = some pk ∧ d.getElement pk = some pe ∧ pe.elementtype = c') (data : List Data) :
    Asks d2 c ⟨e.elementtype, as, data, none, none⟩ := by
  have hc' : ∀ a ∈ ownAttribs e, a.encodable = false := fun a ha => hc a (List.mem_filter.mp ha).1
  have hkept : ∀ k dec, d.getDeclaration k = some dec → dec.processors ≠ [] := fun k dec h => (hs.kept k dec h).1
  rcases ha with ⟨h1, rfl⟩ | ⟨k, dec, set, subset, cls, proc, h1, rfl⟩
  · have := own_encodable hc' e.elementtype data
    exact ⟨fun t s h => (by rw [this] at h; cases h), fun t s c' h => (by rw [this] at h; cases h)⟩
  · obtain ⟨g1, g2, g3, g4, g5, g6⟩ := builder_refs hc' set subset cls proc e.elementtype data
    obtain ⟨j, hj⟩ := decl_forth hm hkept h1.stored
    have hproc : ∀ id p, proc = some id → d2.processorKeyById id = some p →
        (∀ q, e.processorKeyU = .ok (some q) → q ∈ dec.processors) → p ∈ procsBack d d2 dec := by
      intro id p hid hp hl
      rcases h1.proc with ⟨_, h⟩ | ⟨_, h⟩
      · rw [hid] at h; cases h
      · rw [hid] at h
        obtain ⟨q, y, q1, q2, rfl⟩ := procKey_of_id he h
        exact listed_forth (hl q q1) q2 hp
    refine ⟨fun t s _ ht hset => ?_, fun t s c' _ ht hcc hct hset => ?_⟩
    · rw [g1] at hset
      cases hset
      obtain ⟨l1, l2⟩ := refs_listed he ht h1.key h1.stored
      refine ⟨j, dec.set, procsBack d d2 dec, by rw [← l1]; exact hj, ?_, fun id p hid hp => ?_⟩
      · rcases h1.set with ⟨hf | hu, rfl⟩ | ⟨_, hset⟩
        · simp only at ht
          rw [hf] at ht
          cases ht
        · exact .inr ⟨rfl, fun i x hi hxt => sole_forth hm h1.stored hu hi (hxt.trans l1.symm) hj⟩
        · rw [set_of_key h1.key h1.stored] at hset
          exact .inl (Except.ok.inj hset)
      · rw [g4] at hid
        exact hproc id p (Except.ok.inj hid) hp l2
    · simp only at ht
      obtain ⟨l1, l2⟩ := hcr k ht h1.key
      obtain ⟨pk, pe, p1, p2, p3⟩ := hpar c' hcc
      obtain ⟨k', dec', u1, u2, u3⟩ := l2 pk pe t p1 p2 (by rw [p3]; exact hct)
      obtain ⟨j', hj'⟩ := decl_forth hm hkept u1
      have hset0 : set = none := by
        rcases h1.set with ⟨_, h⟩ | ⟨⟨h, _⟩, _⟩
        · exact h
        · exact absurd ht h
      rw [g1, hset0] at hset
      cases hset
      refine ⟨j', dec'.set, _, by rw [← u2]; exact hj', .inr ⟨rfl, fun i x hi hxt => ?_⟩, fun id p hid hp => ?_⟩
      · exact sole_forth hm u1 (fun i dec'' hi' ht' => u3 i dec'' hi' (ht'.trans u2)) hi (hxt.trans u2.symm) hj'
      · rw [g4] at hid
        have hid := Except.ok.inj hid
        rcases h1.proc with ⟨_, h⟩ | ⟨_, h⟩
        · rw [hid] at h; cases h
        · rw [hid, procId_none l1] at h
          cases h

mutual
theorem asksItems_back {d d1 d2 : Document} {ps : DocumentProperties} {ts : List ProcTree} (hm : MetaBack d d1 d2 ts)
    (hs : Settled ps d) (hi : CInv d) (hc : Encoded d) (hl : LinksAgree d) {B : ElementData → List Attribute} :
    ∀ (items : List Item) (k : Nat) (e : ElementData), d.getElement k = some e → (∀ c, .element c ∈ items.map Item.data → d.HasParent c k) → ShowsAll d items →
    (∀ i ∈ items, ∀ e', InTree e' i → FeatureFits d e' ∧ AttrsOf d e' (B e')) → AsksItems d2 e.elementtype (itemsBuilder B items)
  | [], _, _, _, _, _, _ => by simp only [itemsBuilder, AsksItems]
  | i :: is, k, e, he, hp, hsh, hB => by
    simp only [itemsBuilder]
    rw [asksItems_append]
    refine ⟨asksItem_back hm hs hi hc hl i k e he (fun c h => hp c (by rw [List.map_cons]; exact List.mem_cons.mpr (.inl h.symm))) hsh.1 (hB i (List.mem_cons_self ..)), ?_⟩
    exact asksItems_back hm hs hi hc hl is k e he (fun c h => hp c (List.mem_cons_of_mem _ h)) hsh.2 fun j hj => hB j (List.mem_cons_of_mem _ hj)
theorem asksItem_back {d d1 d2 : Document} {ps : DocumentProperties} {ts : List ProcTree} (hm : MetaBack d d1 d2 ts)
    (hs : Settled ps d) (hi : CInv d) (hc : Encoded d) (hl : LinksAgree d) {B : ElementData → List Attribute} :
    ∀ (i : Item) (k : Nat) (e : ElementData), d.getElement k = some e → (∀ c, i.data = .element c → d.HasParent c k) → Shows d i →
    (∀ e', InTree e' i → FeatureFits d e' ∧ AttrsOf d e' (B e')) → AsksItems d2 e.elementtype (itemBuilder B i)
  | .text _, _, _, _, _, _, _ => by simp only [itemBuilder, AsksItems]
  | .comment _, _, _, _, _, _, _ => by simp only [itemBuilder, AsksItems]
  | .ref _, _, _, _, _, _, _ => by simp only [itemBuilder, AsksItems]
  | .node k' e' items, k, e, he, hp, hsh, hB => by
    simp only [itemBuilder, AsksItems, AsksTree, and_true]
    obtain ⟨h1, h2⟩ := hB e' .here
    refine ⟨asks_back hm hs (hi.elem k' e' hsh.1).refs (hc k' e' hsh.1) h1 h2 ?_ _, ?_⟩
    · rintro c' ⟨⟩
      obtain ⟨e'', g1, g2⟩ := hp k' rfl
      rw [hsh.1] at g1
      cases g1
      exact ⟨k, e, g2, he, rfl⟩
    · exact asksItems_back hm hs hi hc hl items k' e' hsh.1 (fun c h => (hl.agree k' c).mp ⟨e', hsh.1, by rw [hsh.2.1]; exact h⟩) hsh.2.2
        fun j hj e'' h => hB e'' (.inner hj h)
end

/-- The declaration of an element that something was written for comes back. -/
theorem decl_same {d d1 d2 d' : Document} {ps : DocumentProperties} {ts : List ProcTree} (hm : MetaBack d d1 d2 ts) (hs : Settled ps d) {e x : ElementData}
    (he : RefsOk d e) (hx' : RefsOk d' x) (hc : ∀ a ∈ e.attribs, a.encodable = false) {k : Nat} {dec : Declaration} {set subset cls proc : Option String}
    (h1 : RefsOf d e k dec set subset cls proc) {data : List Data} (hp : Pinned d2 d') {t : AnnotationType} (ht : e.elementtype.annotationtype = some t)
    (hb : ReadsBack d2 d' x ⟨e.elementtype, ownAttribs e ++ refAttribs set subset cls proc, data, none, none⟩)
    (hen : (set.isSome || subset.isSome || cls.isSome || proc.isSome) = true) :
    ∃ k2 dec', x.declarationKeyU = .ok (some k2) ∧ d'.getDeclaration k2 = some dec' ∧ dec'.annotationtype = dec.annotationtype ∧ dec'.set = dec.set ∧
      dec'.processors = procsBack d d2 dec ∧ shapeOf d2 k2 = some (dec.annotationtype, dec.set, procsBack d d2 dec) := by
  have hc' : ∀ a ∈ ownAttribs e, a.encodable = false := fun a ha => hc a (List.mem_filter.mp ha).1
  have hkept : ∀ k dec, d.getDeclaration k = some dec → dec.processors ≠ [] := fun k dec h => (hs.kept k dec h).1
  obtain ⟨g1, g2, g3, g4, g5, g6⟩ := builder_refs hc' set subset cls proc e.elementtype data
  obtain ⟨l1, l2⟩ := refs_listed he ht h1.key h1.stored
  obtain ⟨j, hj⟩ := decl_forth hm hkept h1.stored
  obtain ⟨dec', d1', d2'⟩ := hb.declared t ht (by rw [g6]; exact hen)
  -- the declaration of the element that was read
  obtain ⟨k2, hk2, hdk2⟩ : ∃ k2, x.declarationKeyU = .ok (some k2) ∧ d'.getDeclaration k2 = some dec' := by
    obtain ⟨plain, enc, q1, q2, _⟩ := hx'
    rw [(values_of_refs (d := d') q1 q2).1] at d1'
    obtain ⟨k2, r1, r2⟩ := Option.bind_eq_some_iff.mp (Except.ok.inj d1')
    exact ⟨k2, by rw [(keysU_of_refs q1 q2).1, r1], r2⟩
  have hshape : shapeOf d2 k2 = some (t, dec'.set, dec'.processors) := by
    rw [← hp.shape k2]; unfold shapeOf; rw [hdk2, ← d2']; rfl
  have hkj : k2 = j := by
    rcases h1.set with ⟨hf | hu, hset⟩ | ⟨_, hset⟩
    · rw [hf] at ht; cases ht
    · exact sole_forth hm h1.stored hu hshape l1.symm hj
    · rw [set_of_key h1.key h1.stored] at hset
      have hset := Except.ok.inj hset
      cases hds : dec.set with
      | none =>
        obtain ⟨k3, dec3, u1, u2, u3⟩ := hs.unset k dec h1.stored hds
        have := u3 k dec h1.stored rfl
        subst this
        exact sole_forth hm h1.stored u3 hshape l1.symm hj
      | some s =>
        have h2 := hb.set s (.inl (by rw [ht]; rfl)) (by rw [g1, ← hset, hds])
        rw [set_of_key hk2 hdk2] at h2
        rw [Except.ok.inj h2] at hshape
        rw [hds, l1] at hj
        exact shape_unique hm hshape hj
  subst hkj
  have h9 := hshape
  rw [hj] at hshape
  have := Option.some.inj hshape
  simp only [Prod.mk.injEq] at this
  exact ⟨k2, dec', hk2, hdk2, d2'.trans l1.symm, this.2.1.symm, this.2.2.symm, hj⟩

/-- Sets and processors come back. -/
theorem same_credit {X : Ext} {d d1 d2 d' : Document} {ps : DocumentProperties} {ts : List ProcTree} (hm : MetaBack d d1 d2 ts) (hx : ProcsExact d2)
    (hts : ProcsStored 0 d none d.chain ts) (hs : Settled ps d) {e x : ElementData} {k' : Nat} (he : RefsOk d e) (hx' : RefsOk d' x) (hkx : d'.getElement k' = some x)
    (hc : ∀ a ∈ e.attribs, a.encodable = false) (hcr : Creditable X d e) {as : List Attribute} (ha : AttrsOf d e as) {data : List Data} (hp : Pinned d2 d')
    (hb : ReadsBack d2 d' x ⟨e.elementtype, as, data, none, none⟩) : SameCredit d d' e x := by
  intro htyped hlay
  have hc' : ∀ a ∈ ownAttribs e, a.encodable = false := fun a ha => hc a (List.mem_filter.mp ha).1
  have hkept : ∀ k dec, d.getDeclaration k = some dec → dec.processors ≠ [] := fun k dec h => (hs.kept k dec h).1
  obtain ⟨t, ht⟩ := Option.isSome_iff_exists.mp htyped
  rcases ha with ⟨h1, rfl⟩ | ⟨k, dec, set, subset, cls, proc, h1, rfl⟩
  · have hen := own_encodable hc' e.elementtype data
    obtain ⟨plain, enc, q1, q2, q3⟩ := he
    have hk := keysU_of_refs q1 q2
    have hdec : enc.dec = none := by rw [hk.1] at h1; exact Except.ok.inj h1
    have hpe : e.processorKeyU = .ok none := by rw [hk.2.2.1, q3.typed htyped hdec]
    rw [(undeclared_values ⟨plain, enc, q1, q2, q3⟩ h1).2.2, procId_none hpe]
    refine ⟨(undeclared_values hx' (hb.undeclared hen hlay)).2.2, procId_none (hb.uncredited (.inr hen) fun id h => ?_)⟩
    have h0 := (builder_refs hc' none none none none e.elementtype data).2.2.2.1
    simp only [refAttribs, Option.map_none, Option.toList_none, List.append_nil] at h0
    rw [h0] at h
    cases h
  · obtain ⟨g1, g2, g3, g4, g5, g6⟩ := builder_refs hc' set subset cls proc e.elementtype data
    obtain ⟨hw, p, hpk⟩ := hcr.credited k htyped hlay h1.key
    obtain ⟨l1, l2⟩ := refs_listed he ht h1.key h1.stored
    have hen : (set.isSome || subset.isSome || cls.isSome || proc.isSome) = true := by
      cases set with
      | some s => rfl
      | none => cases subset with
        | some s => rfl
        | none => cases cls with
          | some s => rfl
          | none => cases proc with
            | some s => rfl
            | none => exact absurd hw (unwritten h1)
    obtain ⟨k2, dec', hk2, hdk2, _, hset2, _, hj⟩ := decl_same hm hs he hx' hc h1 hp ht hb hen
    refine ⟨by rw [set_of_key hk2 hdk2, set_of_key h1.key h1.stored, hset2], ?_⟩
    -- the processor
    obtain ⟨y, hy⟩ : ∃ y, d.getProcessor p = some y := by
      obtain ⟨plain, enc, q1, q2, q3⟩ := he
      have := (keysU_of_refs q1 q2).2.2.1
      rw [hpk] at this
      exact q3.proc p (Except.ok.inj this).symm
    obtain ⟨p2, y2, r1, r2, r3⟩ := proc_forth hm hx hts hy ((hs.kept k dec h1.stored).2 p (l2 p hpk))
    rw [procId_of_key hpk hy]
    rcases h1.proc with ⟨⟨q, s1, s2⟩, _⟩ | ⟨_, hproc⟩
    · rw [hpk] at s2
      cases s2
      rw [sole_proc s1 hy r1] at hj
      have := hp.credit k' x hkx k2 _ _ p2 hk2 (by rw [hb.type]; exact htyped) (by rw [hb.type]; exact hlay) hj
      have hy2 : d'.getProcessor p2 = some y2 := by unfold Document.getProcessor; rw [hp.procs]; exact r2
      rw [procId_of_key this hy2, r3]
    · rw [procId_of_key hpk hy] at hproc
      exact hb.processor y.id p2 (by rw [g4, ← Except.ok.inj hproc]) r1

end Folia
