import Verif.Lemmas.Elements
import Verif.Lemmas.Exact
import Verif.Lemmas.Ids
import Verif.Serialiser
import Verif.Samples
/-! C01 (keys are permanent), C02 (identifier index), C06 (unique declarations), C10 (values are stable), C11 (accessors do not panic),
C12 (references resolve), C62 (identifiers), C63 (declarations fit). -/
namespace Folia
open Document

/-! ### C01 -/

/-- Whatever calls follow, successful or not, an element key keeps resolving to an element of the same type that reports this key. -/
theorem C01_keys_permanent {X : Ext} {F : Nat} {d : Document} (hr : Reachable X F d) (os : List Op) {k : Nat} {e : ElementData}
    (he : d.getElement k = some e) :
    ∃ e', (runOps F os d).getElement k = some e' ∧ e'.elementtype = e.elementtype ∧ e'.key = some k := by
  obtain ⟨e', h1, h2⟩ := (runOps_steps os hr.ixOk).element_forward k e he
  exact ⟨e', h1, h2.type, h2.key.trans (hr.keysOk k e he)⟩

/-- The element count never decreases, and all keys below it resolve: no element disappears. -/
theorem C01_count {X : Ext} {F : Nat} {d : Document} (hr : Reachable X F d) (os : List Op) :
    d.elements.len ≤ (runOps F os d).elements.len ∧ ∀ k, k < d.elements.len → ∃ e, (runOps F os d).getElement k = some e := by
  have hs := runOps_steps os hr.ixOk (F := F)
  exact ⟨hs.len_mono, fun k hk => hs.liveMono.elems k (hr.filled k hk)⟩

/-- The keys returned by the calls that add elements resolve. -/
theorem C01_returned_keys {X : Ext} {F : Nat} {d : Document} (hr : Reachable X F d) (e : ElementData) (p k : Nat) :
    ((addElement F e d).1 = .ok k → ∃ e', (addElement F e d).2.getElement k = some e') ∧
    ((addElementTo F p e d).1 = .ok k → ∃ e', (addElementTo F p e d).2.getElement k = some e') ∧
    ((annotate F p e d).1 = .ok k → ∃ e', (annotate F p e d).2.getElement k = some e') ∧
    ((annotateSpan F e d).1 = .ok k → ∃ e', (annotateSpan F e d).2.getElement k = some e') :=
  ⟨fun h => (does_addElement (C := False) F e nofun d hr.ixOk trivial).2 k h,
   fun h => (does_addElementTo (C := False) F p e nofun d hr.ixOk trivial).2 k h,
   fun h => (does_annotate (C := False) F p e nofun d hr.ixOk trivial).2 k h,
   fun h => (does_annotateSpan (C := False) F e nofun d hr.ixOk trivial).2 k h⟩

example : Reachable Sample.X Sample.F Sample.doc ∧ (Sample.doc.getElement 6).map (·.elementtype) = some .posAnnotation ∧
    (addElementTo Sample.F 5 (Sample.word "w3" "again") Sample.doc).1 = .ok 13 :=
  ⟨Sample.doc_reachable, by decide +kernel, by decide +kernel⟩

/-! ### C02 -/

/-- Looking up an element by identifier never panics, and finds an element exactly for the identifiers that have a key; it is the
element with that key. -/
theorem C02_index_sound {X : Ext} {F : Nat} {d : Document} (hr : Reachable X F d) (id : String) :
    d.getElementById id = .ok ((d.elementKeyById id).bind d.getElement) ∧
    ∀ k, d.elementKeyById id = some k → ∃ e, d.getElement k = some e ∧ d.getElementById id = .ok (some e) := by
  have hix : ∀ k, d.elements.index.find id = some k → ∃ e, d.getElement k = some e := fun k hk => hr.ixOk.elems id k hk
  unfold getElementById elementKeyById Store.getById Store.idToKey
  cases hf : d.elements.index.find id with
  | none => exact ⟨rfl, nofun⟩
  | some k =>
    obtain ⟨e, he⟩ := hix k hf
    have he' : d.elements.get k = some e := he
    simp only [he', Option.bind_some, getElement]
    refine ⟨trivial, ?_⟩
    rintro k' ⟨⟩
    exact ⟨e, he', rfl⟩

example : Sample.doc.elementKeyById "w2" = some 4 ∧ Sample.doc.elementKeyById "w3" = none := by decide +kernel

/-! ### C62 -/

/-- An element with an identifier is found by it. -/
theorem C62_found {X : Ext} {F : Nat} {d : Document} (hr : Reachable X F d) {k : Nat} {e : ElementData} (he : d.getElement k = some e) {i : String}
    (hi : e.id = some i) : d.elementKeyById i = some k ∧ d.getElementById i = .ok (some e) := by
  have h : d.elementKeyById i = some k := hr.idsFound k e i he hi
  obtain ⟨e', h1, h2⟩ := (C02_index_sound hr i).2 k h
  rw [he] at h1
  cases h1
  exact ⟨h, h2⟩

/-- No two elements have the same identifier. -/
theorem C62_distinct {X : Ext} {F : Nat} {d : Document} (hr : Reachable X F d) {j k : Nat} {a b : ElementData} (ha : d.getElement j = some a)
    (hb : d.getElement k = some b) {i : String} (hi : a.id = some i) (hi' : b.id = some i) : j = k := by
  have h1 := (C62_found hr ha hi).1
  rw [(C62_found hr hb hi').1] at h1
  exact (Option.some.inj h1).symm

/-- What is found by an identifier has that identifier, or is a layer that lost its attributes when its set was found (see `C52_counterexample`). -/
theorem C62_named {X : Ext} {F : Nat} {d : Document} (hr : Reachable X F d) {i : String} {e : ElementData} (h : d.getElementById i = .ok (some e)) :
    e.id = some i ∨ (ElementGroup.layer.contains e.elementtype = true ∧ ∃ dk, e.attribs = [.declarationRef dk]) := by
  rw [(C02_index_sound hr i).1] at h
  obtain ⟨k, h1, h2⟩ := Option.bind_eq_some_iff.mp (Except.ok.inj h)
  obtain ⟨e', h3, h4⟩ := hr.idsNamed i k h1
  rw [h2] at h3
  cases h3
  exact h4

example : Reachable Sample.X Sample.F Sample.doc ∧ (Sample.doc.getElement 4).map (·.id) = some (some "w2") :=
  ⟨Sample.doc_reachable, by decide +kernel⟩

/-! ### C63 -/

/-- The declaration of an element is of the annotation type of the element, and lists the processor of the element. An element of a type with
sets that has a processor has a declaration. -/
theorem C63_declared {X : Ext} {F : Nat} {d : Document} (hr : CleanReachable X F d) {k : Nat} {e : ElementData} (he : d.getElement k = some e) :
    (∀ dec, e.getDeclaration d = .ok (some dec) → (∀ t, e.elementtype.annotationtype = some t → dec.annotationtype = t) ∧
      ∀ p, e.processorKeyU = .ok (some p) → p ∈ dec.processors) ∧
    ∀ p, e.elementtype.annotationtype.isSome = true → e.processorKeyU = .ok (some p) → ∃ dec, e.getDeclaration d = .ok (some dec) := by
  obtain ⟨plain, enc, q1, q2, q3⟩ := (hr.cinv.elem k e he).refs
  obtain ⟨_, _, k3, _⟩ := keysU_of_refs q1 q2
  rw [(values_of_refs (d := d) q1 q2).1, k3]
  refine ⟨fun dec hd => ?_, fun p ht hp => ?_⟩
  · obtain ⟨dk, h1, h2⟩ := Option.bind_eq_some_iff.mp (Except.ok.inj hd)
    exact ⟨fun t ht => q3.kind dk dec t h1 h2 ht, fun p hp => q3.listed dk dec p h1 (Except.ok.inj hp) h2⟩
  · cases hdec : enc.dec with
    | none => rw [q3.typed ht hdec] at hp; cases hp
    | some dk =>
      obtain ⟨dec, h⟩ := q3.dec dk hdec
      exact ⟨dec, congrArg Except.ok h⟩

example : CleanReachable Sample.X Sample.F Sample.doc ∧
    (Sample.doc.getElement 6).map (fun e => (e.elementtype, e.processorKeyU, (e.getDeclaration Sample.doc).toOption.isSome)) =
      some (.posAnnotation, .ok (some 0), true) := ⟨Sample.doc_clean, by decide +kernel⟩

/-! ### C06 -/

/-- No document contains two declarations of the same annotation type and set. -/
theorem C06_unique {X : Ext} {F : Nat} {d : Document} (hr : Reachable X F d) {j k : Nat} {a b : Declaration}
    (hj : d.getDeclaration j = some a) (hk : d.getDeclaration k = some b) (ht : a.annotationtype = b.annotationtype) (hs : a.set = b.set) :
    j = k :=
  declarations_unique hr.declsExact hj hk ht hs

example : Reachable Sample.X Sample.F Sample.doc ∧ Sample.doc.declarations.len = 4 := ⟨Sample.doc_reachable, by decide +kernel⟩

/-! ### C11 -/

theorem accessors_return {d : Document} (hr : Encoded d) {k : Nat} {e : ElementData} (he : d.getElement k = some e) :
    (∃ v, e.declarationKeyU = .ok v) ∧ (∃ v, e.classKeyU = .ok v) ∧ (∃ v, e.subsetKeyU = .ok v) ∧ (∃ v, e.processorKeyU = .ok v) ∧
    (∃ v, e.getDeclaration d = .ok v) ∧ (∃ v, e.getProcessor d = .ok v) ∧ (∃ v, e.getSet d = .ok v) ∧ (∃ v, e.getClass d = .ok v) ∧
    (∃ v, e.getSubset d = .ok v) ∧ (∃ v, e.getProcessorId d = .ok v) ∧ (∃ v, e.getAnnotator d = .ok v) ∧
    (∃ v, e.getAnnotatortype d = .ok v) := by
  have henc := hr k e he
  have hkey : ∀ f, ∃ v, ElementData.keyAttr f e.attribs = .ok v := by
    intro f
    generalize e.attribs = as at henc
    induction as with
    | nil => exact ⟨none, rfl⟩
    | cons a as ih =>
      unfold ElementData.keyAttr
      cases f a with
      | some k => exact ⟨_, rfl⟩
      | none =>
        simp only [henc a (by simp)]
        exact ih fun b hb => henc b (by simp [hb])
  obtain ⟨dk, hdk⟩ := hkey (fun | .declarationRef k => some k | _ => none)
  obtain ⟨ck, hck⟩ := hkey (fun | .classRef k => some k | _ => none)
  obtain ⟨sk, hsk⟩ := hkey (fun | .subsetRef k => some k | _ => none)
  obtain ⟨pk, hpk⟩ := hkey (fun | .processorRef k => some k | _ => none)
  have h1 : e.declarationKeyU = .ok dk := unwrapRes_ok_eq hdk
  have h2 : e.classKeyU = .ok ck := unwrapRes_ok_eq hck
  have h3 : e.subsetKeyU = .ok sk := unwrapRes_ok_eq hsk
  have h4 : e.processorKeyU = .ok pk := unwrapRes_ok_eq hpk
  have h5 : ∃ v, e.getDeclaration d = .ok v := by
    unfold ElementData.getDeclaration; rw [h1]; cases dk <;> exact ⟨_, rfl⟩
  have h6 : ∃ v, e.getProcessor d = .ok v := by
    unfold ElementData.getProcessor; rw [h4]; cases pk <;> exact ⟨_, rfl⟩
  obtain ⟨dec, h5⟩ := h5
  obtain ⟨proc, h6⟩ := h6
  refine ⟨⟨_, h1⟩, ⟨_, h2⟩, ⟨_, h3⟩, ⟨_, h4⟩, ⟨_, h5⟩, ⟨_, h6⟩, ?_, ?_, ?_, ?_, ?_, ?_⟩
  · unfold ElementData.getSet; rw [h5]; cases dec <;> exact ⟨_, rfl⟩
  · unfold ElementData.getClass; rw [h2, h5, h3]; cases ck <;> cases dec <;> cases sk <;> exact ⟨_, rfl⟩
  · unfold ElementData.getSubset; rw [h5, h3]; cases dec <;> cases sk <;> exact ⟨_, rfl⟩
  · unfold ElementData.getProcessorId; rw [h6]; cases proc <;> exact ⟨_, rfl⟩
  · unfold ElementData.getAnnotator; rw [h6]; cases proc <;> exact ⟨_, rfl⟩
  · unfold ElementData.getAnnotatortype; rw [h6]; cases proc <;> exact ⟨_, rfl⟩

/-- The accessors of a stored element always return; none of them panics or fails. -/
theorem C11_accessors_return {X : Ext} {F : Nat} {d : Document} (hr : Reachable X F d) {k : Nat} {e : ElementData}
    (he : d.getElement k = some e) :
    (∃ v, e.declarationKeyU = .ok v) ∧ (∃ v, e.classKeyU = .ok v) ∧ (∃ v, e.subsetKeyU = .ok v) ∧ (∃ v, e.processorKeyU = .ok v) ∧
    (∃ v, e.getDeclaration d = .ok v) ∧ (∃ v, e.getProcessor d = .ok v) ∧ (∃ v, e.getSet d = .ok v) ∧ (∃ v, e.getClass d = .ok v) ∧
    (∃ v, e.getSubset d = .ok v) ∧ (∃ v, e.getProcessorId d = .ok v) ∧ (∃ v, e.getAnnotator d = .ok v) ∧
    (∃ v, e.getAnnotatortype d = .ok v) ∧ (∃ v, e.getIndex d = .ok v) ∧ (∃ v, e.resolve d = .ok v) := by
  obtain ⟨h1, h2, h3, h4, h5, h6, h7, h8, h9, h10, h11, h12⟩ := accessors_return hr.encoded he
  refine ⟨h1, h2, h3, h4, h5, h6, h7, h8, h9, h10, h11, h12, ?_, ?_⟩
  · unfold ElementData.getIndex
    rw [hr.keysOk k e he]
    cases e.getParent d <;> exact ⟨_, rfl⟩
  · unfold ElementData.resolve
    cases e.idref with
    | none => exact ⟨_, rfl⟩
    | some id => exact ⟨_, (C02_index_sound hr id).1⟩

example : (Sample.doc.getElement 6).map (fun e => (e.getSet Sample.doc, e.getClass Sample.doc, e.getProcessorId Sample.doc)) =
    some (.ok (some "brown"), .ok (some "NN"), .ok (some "p1")) := by decide +kernel

/-! ### C12 -/

/-- Every declaration, processor, subset and class reference of a stored element resolves. For the class this is stated for all
elements except features without a subset, see `C12_feature_counterexample`. -/
theorem C12_references_resolve_partial {X : Ext} {F : Nat} {d : Document} (hr : CleanReachable X F d) {k : Nat} {e : ElementData}
    (he : d.getElement k = some e) :
    (∀ dk, e.declarationKeyU = .ok (some dk) → ∃ dec, e.getDeclaration d = .ok (some dec)) ∧
    (∀ pk, e.processorKeyU = .ok (some pk) → ∃ p, e.getProcessor d = .ok (some p)) ∧
    (∀ sk, e.subsetKeyU = .ok (some sk) → ∃ s, e.getSubset d = .ok (some s)) ∧
    (∀ ck, e.classKeyU = .ok (some ck) → (e.elementtype = .feature → e.subsetKeyU ≠ .ok none) → ∃ c, e.getClass d = .ok (some c)) ∧
    ∀ p, e.parent = some p → ∃ pe, e.getParent d = some pe := by
  have hok := hr.cinv.elem k e he
  obtain ⟨plain, enc, h1, h2, h3⟩ := hok.refs
  obtain ⟨k1, k2, k3, k4⟩ := keysU_of_refs h1 h2
  obtain ⟨v1, v2, v3, v4, v5, v6⟩ := values_of_refs (d := d) h1 h2
  rw [k1, k2, k3, k4, v1, v2, v4, v5]
  refine ⟨?_, ?_, ?_, ?_, ?_⟩
  · intro dk hdk
    have hdk : enc.dec = some dk := by simpa using hdk
    obtain ⟨dec, hdec⟩ := h3.dec dk hdk
    exact ⟨dec, by simp [hdk, hdec]⟩
  · intro pk hpk
    have hpk : enc.proc = some pk := by simpa using hpk
    obtain ⟨p, hp⟩ := h3.proc pk hpk
    exact ⟨p, by simp [hpk, hp]⟩
  · intro sk hsk
    have hsk : enc.subset = some sk := by simpa using hsk
    obtain ⟨_, dk, dec, h4, h5, s, h6⟩ := h3.subset sk hsk
    exact ⟨s, by simp [hsk, h4, h5, h6]⟩
  · intro ck hck hf
    have hck : enc.cls = some ck := by simpa using hck
    obtain ⟨dk, dec, h4, h5, c, h6⟩ := h3.cls ck hck
    refine ⟨c, ?_⟩
    simp only [hck, h4, h5, Option.bind_some]
    by_cases ht : e.elementtype = .feature
    · rw [if_pos ht] at h6
      cases hs : enc.subset with
      | none => exact absurd (by rw [hs]) (hf ht)
      | some s => simp [h6]
    · rw [if_neg ht] at h6
      cases hs : enc.subset with
      | none => simp [h6]
      | some s => exact absurd (h3.subset s hs).1 ht
  · intro p hp
    obtain ⟨pe, hpe⟩ := hok.parent p hp
    exact ⟨pe, by unfold ElementData.getParent; rw [hp]; exact hpe⟩

/-- A document with a feature that has a class but no subset. -/
def Sample.featureOps : List Op := [
  .addElementTo 0 (ElementData.new .word),
  .addElementTo 1 ((ElementData.new .posAnnotation).setAttrib (.set "brown")),
  .addElementTo 2 ((ElementData.new .feature).setAttrib (.cls "singular"))]

theorem Sample.featureOps_clean : ∀ o ∈ Sample.featureOps, ∀ d, o.Clean d := by
  intro o ho d
  simp only [Sample.featureOps, List.mem_cons, List.not_mem_nil, or_false] at ho
  rcases ho with rfl | rfl | rfl
  all_goals
    simp [Op.Clean, ElementData.setAttrib, ElementData.delAttrib, ElementData.new, CleanBuilder, CleanData, List.findIdx?,
      List.findIdx?.go, Attribute.decodable]

/-- The class of a feature without subset is looked up in the wrong place: it has a class key, but no class is reported. -/
theorem C12_feature_counterexample : ∃ d, CleanReachable Sample.X Sample.F d ∧ ∃ e, d.getElement 3 = some e ∧
    e.classKeyU = .ok (some 0) ∧ e.getClass d = .ok none := by
  refine ⟨runOps Sample.F Sample.featureOps Sample.fresh, Sample.clean_ops _ Sample.featureOps_clean (.new (by intro p h; cases h) Sample.fresh_eq), ?_⟩
  have h : ((runOps Sample.F Sample.featureOps Sample.fresh).getElement 3).map (fun e =>
      (e.classKeyU, e.getClass (runOps Sample.F Sample.featureOps Sample.fresh))) = some (.ok (some 0), .ok none) := by decide +kernel
  cases he : (runOps Sample.F Sample.featureOps Sample.fresh).getElement 3 with
  | none => rw [he] at h; cases h
  | some e =>
    rw [he] at h
    simp only [Option.map_some, Option.some.injEq, Prod.mk.injEq] at h
    exact ⟨e, rfl, h.1, h.2⟩

/-- The data items of a stored element refer to stored elements only, and its span references to span
annotation elements only. -/
theorem C12_data_resolve {X : Ext} {F : Nat} {d : Document} (hr : CleanReachable X F d) {k : Nat} {e : ElementData}
    (he : d.getElement k = some e) :
    (∀ c, .element c ∈ e.data → ∃ x, d.getElement c = some x) ∧ (∀ c, .spanReference c ∈ e.data → ∃ x, d.getElement c = some x ∧ ElementGroup.span.contains x.elementtype = true) ∧
    ∀ x, .addElement x ∉ e.data :=
  have hok := hr.cinv.elem k e he
  ⟨fun _ hc => hok.data _ hc, fun _ hc => hok.data _ hc, fun _ hx => hok.data _ hx⟩

theorem display_ok (X : Ext) (a : Attribute) (hi : a ≠ .ignore) (hd : a.decodable = false) : ∃ v, a.display X = .ok v := by
  cases a <;> first | exact ⟨_, rfl⟩ | (cases hd; done) | exact absurd rfl hi

theorem plainAttrs_ok (X : Ext) (as : List Attribute) : ∃ v, plainAttrs X as = .ok v := by
  induction as with
  | nil => exact ⟨_, rfl⟩
  | cons a as ih =>
    unfold plainAttrs
    split
    · exact ih
    · rename_i h
      rw [not_or] at h
      obtain ⟨v, hv⟩ := display_ok X a h.1 (by simpa using h.2)
      obtain ⟨w, hw⟩ := ih
      rw [hv, hw]
      exact ⟨_, rfl⟩

/-- Writing the start tag of a stored element, and writing the declarations, never fails. -/
theorem C12_serialisable {X : Ext} {F : Nat} {d : Document} (hr : CleanReachable X F d) :
    (∀ k e, d.getElement k = some e → ∃ attrs, elementAttrs X d (defaultMask d.declarations.items) e = .ok attrs) ∧
    ∃ evs, xmlDeclarations d = .ok evs := by
  constructor
  · intro k e he
    have hok := hr.cinv.elem k e he
    obtain ⟨plain, enc, h1, h2, h3⟩ := hok.refs
    obtain ⟨k1, k2, k3, k4⟩ := keysU_of_refs h1 h2
    obtain ⟨v1, v2, v3, v4, v5, v6⟩ := values_of_refs (d := d) h1 h2
    obtain ⟨a, ha⟩ := plainAttrs_ok X e.attribs
    unfold elementAttrs
    rw [ha]
    have : ∃ b, encodedAttrs d (defaultMask d.declarations.items) e = .ok b := by
      unfold encodedAttrs
      rw [k1]
      cases hdec : enc.dec with
      | none => exact ⟨_, rfl⟩
      | some dk =>
        obtain ⟨dec, hget⟩ := h3.dec dk hdec
        have hlt : dk < (defaultMask d.declarations.items).length := by
          have := Store.get_lt hget
          simpa [defaultMask] using this
        have hm : expect (defaultMask d.declarations.items)[dk]? = .ok ((defaultMask d.declarations.items)[dk]) := by
          rw [List.getElem?_eq_getElem hlt]; rfl
        show ∃ b, (expect (defaultMask d.declarations.items)[dk]? >>= _) = Except.ok b
        rw [hm, v3, v4, v5, v6, k3]
        simp only [bind, Except.bind, pure, Except.pure]
        split <;> (split <;> (split <;> (try split) <;> exact ⟨_, rfl⟩))
    obtain ⟨b, hb⟩ := this
    rw [hb]
    exact ⟨_, rfl⟩
  · have hann : ∀ ps : List Nat, (∀ p ∈ ps, d.ProcLive p) → ∃ evs, xmlAnnotators d ps = .ok evs := by
      intro ps hps
      induction ps with
      | nil => exact ⟨_, rfl⟩
      | cons p ps ih =>
        obtain ⟨q, hq⟩ := hps p (by simp)
        obtain ⟨evs, hevs⟩ := ih fun p hp => hps p (by simp [hp])
        unfold xmlAnnotators
        rw [hq, hevs]
        exact ⟨_, rfl⟩
    have hlist : ∀ items : List (Option Declaration), (∀ dec, some dec ∈ items → DeclOk d dec) → ∃ evs, xmlDeclarationList d items = .ok evs := by
      intro items
      induction items with
      | nil => intro _; exact ⟨_, rfl⟩
      | cons x xs ih =>
        intro h
        obtain ⟨evs, hevs⟩ := ih fun dec hd => h dec (by simp [hd])
        cases x with
        | none => unfold xmlDeclarationList; exact ⟨evs, hevs⟩
        | some dec =>
          have hx : ∃ evs, xmlDeclaration d dec = .ok evs := by
            unfold xmlDeclaration
            split
            · exact ⟨_, rfl⟩
            · obtain ⟨evs, hevs⟩ := hann dec.processors (h dec (by simp)).procs
              rw [hevs]; exact ⟨_, rfl⟩
          obtain ⟨evs', hevs'⟩ := hx
          unfold xmlDeclarationList
          rw [hevs', hevs]
          exact ⟨_, rfl⟩
    obtain ⟨evs, hevs⟩ := hlist d.declarations.items fun dec hd => by
      obtain ⟨k, hk⟩ := List.getElem?_of_mem hd
      exact hr.cinv.decls.ok k dec (Store.get_eq_some.mpr hk)
    unfold xmlDeclarations
    rw [hevs]
    exact ⟨_, rfl⟩

example : CleanReachable Sample.X Sample.F Sample.doc ∧ (Sample.doc.getElement 7).map (fun e =>
    (e.subsetKeyU, e.classKeyU, e.getSubset Sample.doc, e.getClass Sample.doc)) =
    some (.ok (some 0), .ok (some 0), .ok (some "number"), .ok (some "singular")) := ⟨Sample.doc_clean, by decide +kernel⟩

/-! ### C10 -/

theorem option_bind_mono {α β : Type} {o : Option α} {f g : α → Option β} (h : ∀ a v, o = some a → f a = some v → g a = some v) {v : β}
    (hv : o.bind f = some v) : o.bind g = some v := by
  cases o with
  | none => cases hv
  | some a => exact h a v rfl hv

/-- No call of a history changes a set, class, subset or processor that a stored element reports. -/
theorem C10_known_values_stable {X : Ext} {F : Nat} {d : Document} (hr : CleanReachable X F d) (os : List Op) (hc : OpsClean F os d)
    {k : Nat} {e e' : ElementData} (he : d.getElement k = some e) (he' : (runOps F os d).getElement k = some e') (v : String) :
    (e.getSet d = .ok (some v) → e'.getSet (runOps F os d) = .ok (some v)) ∧
    (e.getClass d = .ok (some v) → e'.getClass (runOps F os d) = .ok (some v)) ∧
    (e.getSubset d = .ok (some v) → e'.getSubset (runOps F os d) = .ok (some v)) ∧
    (e.getProcessorId d = .ok (some v) → e'.getProcessorId (runOps F os d) = .ok (some v)) := by
  have hs := runOps_clean os hr.cinv.ix hc
  obtain ⟨hi', hmono⟩ := hs.clean hr.cinv
  have hpm := hs.procMono
  obtain ⟨plain, enc, h1, h2, h3⟩ := (hr.cinv.elem k e he).refs
  obtain ⟨e2, he2, hl⟩ := hs.element_forward k e he
  rw [he'] at he2; cases he2
  obtain ⟨v1, v2, v3, v4, v5, v6⟩ := values_of_refs (d := d) h1 h2
  rcases hl.attribs with ha | ⟨hlay, hn, dk, ha⟩
  · obtain ⟨w1, w2, w3, w4, w5, w6⟩ := values_of_refs (d := runOps F os d) (ha.trans h1) h2
    rw [v3, v4, v5, v6, w3, w4, w5, w6]
    simp only [Except.ok.injEq]
    cases hdec : enc.dec with
    | none =>
      simp only [Option.bind_none, Option.bind_fun_none]
      refine ⟨id, id, id, ?_⟩
      cases hp : enc.proc with
      | none => exact id
      | some p =>
        intro h
        simp only [Option.bind_some, Option.map_eq_some_iff] at h ⊢
        obtain ⟨q, h4, h5⟩ := h
        obtain ⟨q', h6, h7⟩ := hpm p q h4
        exact ⟨q', h6, by rw [h7]; exact h5⟩
    | some dk =>
      obtain ⟨dec, hget⟩ := h3.dec dk hdec
      obtain ⟨dec', hget', hg⟩ := hmono dk dec hget
      simp only [Option.bind_some, hget, hget']
      refine ⟨?_, ?_, ?_, ?_⟩
      · intro h; rw [hg.set]; exact h
      · refine option_bind_mono fun c v _ hv => ?_
        split
        · rename_i hsub; rw [if_pos hsub] at hv; exact hg.subclasses.get _ _ hv
        · rename_i hsub; rw [if_neg hsub] at hv; exact hg.classes.get _ _ hv
      · exact option_bind_mono fun c v _ hv => hg.subsets.get _ _ hv
      · intro h
        simp only [Option.map_eq_some_iff] at h ⊢
        obtain ⟨q, h4, h5⟩ := h
        cases hp : enc.proc with
        | none => rw [hp] at h4; cases h4
        | some p =>
          rw [hp] at h4
          obtain ⟨q', h6, h7⟩ := hpm p q h4
          exact ⟨q', h6, by rw [h7]; exact h5⟩
  · have hnodec := hasSet_of_refs h1 hn
    have hproc := h3.typed (layer_typed _ hlay).1 hnodec
    have hcls : enc.cls = none := by
      cases hcl : enc.cls with
      | none => rfl
      | some c =>
        obtain ⟨dk, _, h4, _⟩ := h3.cls c hcl
        rw [hnodec] at h4; cases h4
    rw [v3, v4, v5, v6]
    simp [hnodec, hproc, hcls]

/-- Absent values stay absent as well, except for the set of layers that have none yet and the class of features that have no subset:
see the two counterexamples. -/
theorem C10_values_unchanged_partial {X : Ext} {F : Nat} {d : Document} (hr : CleanReachable X F d) (os : List Op) (hc : OpsClean F os d)
    {k : Nat} {e e' : ElementData} (he : d.getElement k = some e) (he' : (runOps F os d).getElement k = some e')
    (hlayer : ElementGroup.layer.contains e.elementtype = true → e.hasAttrib .SET = true)
    (hfeature : e.elementtype = .feature → e.subsetKeyU ≠ .ok none) :
    e'.getSet (runOps F os d) = e.getSet d ∧ e'.getClass (runOps F os d) = e.getClass d ∧
    e'.getSubset (runOps F os d) = e.getSubset d ∧ e'.getProcessorId (runOps F os d) = e.getProcessorId d := by
  have hs := runOps_clean os hr.cinv.ix hc
  obtain ⟨hi', hmono⟩ := hs.clean hr.cinv
  have hpm := hs.procMono
  obtain ⟨plain, enc, h1, h2, h3⟩ := (hr.cinv.elem k e he).refs
  obtain ⟨e2, he2, hl⟩ := hs.element_forward k e he
  rw [he'] at he2; cases he2
  obtain ⟨v1, v2, v3, v4, v5, v6⟩ := values_of_refs (d := d) h1 h2
  rcases hl.attribs with ha | ⟨hlay, hn, dk, ha⟩
  · obtain ⟨w1, w2, w3, w4, w5, w6⟩ := values_of_refs (d := runOps F os d) (ha.trans h1) h2
    have hsub := (keysU_of_refs h1 h2).2.2.2
    rw [v3, v4, v5, v6, w3, w4, w5, w6]
    simp only [Except.ok.injEq]
    refine ⟨?_, ?_, ?_, ?_⟩
    · cases hdec : enc.dec with
      | none => rfl
      | some dk =>
        obtain ⟨dec, hget⟩ := h3.dec dk hdec
        obtain ⟨dec', hget', hg⟩ := hmono dk dec hget
        simp only [Option.bind_some, hget, hget']
        exact hg.set
    · cases hcls : enc.cls with
      | none => rfl
      | some c =>
        obtain ⟨dk, dec, hdec, hget, s, hs⟩ := h3.cls c hcls
        obtain ⟨dec', hget', hg⟩ := hmono dk dec hget
        simp only [hdec, Option.bind_some, hget, hget']
        by_cases ht : e.elementtype = .feature
        · rw [if_pos ht] at hs
          cases hsb : enc.subset with
          | none => exact absurd (by rw [hsub, hsb]) (hfeature ht)
          | some sb => simp only [Option.isSome_some, if_true]; rw [hs]; exact hg.subclasses.get _ _ hs
        · rw [if_neg ht] at hs
          cases hsb : enc.subset with
          | some sb => exact absurd (h3.subset sb hsb).1 ht
          | none => simp only [Option.isSome_none]; exact (hg.classes.get _ _ hs).trans hs.symm
    · cases hsb : enc.subset with
      | none => simp
      | some c =>
        obtain ⟨_, dk, dec, hdec, hget, s, hs⟩ := h3.subset c hsb
        obtain ⟨dec', hget', hg⟩ := hmono dk dec hget
        simp only [hdec, Option.bind_some, hget, hget']
        exact (hg.subsets.get _ _ hs).trans hs.symm
    · cases hp : enc.proc with
      | none => rfl
      | some p =>
        obtain ⟨q, hq⟩ := h3.proc p hp
        obtain ⟨q', h6, h7⟩ := hpm p q hq
        simp only [Option.bind_some, hq, h6, Option.map_some, Option.some.injEq]
        rw [h7]
  · rw [hlayer hlay] at hn; cases hn

/-- Adding a layer again under its known identifier gives it the set of its spans. -/
theorem C10_layer_counterexample : ∃ d, CleanReachable Sample.X Sample.F d ∧ ∃ os, OpsClean Sample.F os d ∧
    (d.getElement 1).map (·.getSet d) = some (.ok none) ∧
    ((runOps Sample.F os d).getElement 1).map (·.getSet (runOps Sample.F os d)) = some (.ok (some "chunks")) := by
  refine ⟨runOps Sample.F [.addElementTo 0 ((ElementData.new .chunkingLayer).setAttrib (.id "l"))] Sample.fresh,
    Sample.clean_ops _ ?_ (.new (by intro p h; cases h) Sample.fresh_eq),
    [.addElementTo 1 ((ElementData.new .chunk).setAttrib (.set "chunks")),
     .addElementTo 0 ((ElementData.new .chunkingLayer).setAttrib (.id "l"))], ?_, by decide +kernel, by decide +kernel⟩
  · intro o ho d
    simp only [List.mem_cons, List.not_mem_nil, or_false] at ho
    subst ho
    simp [Op.Clean, ElementData.setAttrib, ElementData.delAttrib, ElementData.new, CleanBuilder, CleanData, List.findIdx?,
      List.findIdx?.go, Attribute.decodable]
  · simp [OpsClean, Op.Clean, ElementData.setAttrib, ElementData.delAttrib, ElementData.new, CleanBuilder, CleanData, List.findIdx?,
      List.findIdx?.go, Attribute.decodable]

/-- The class of a feature without subset changes when a class is added to the declaration. -/
theorem C10_feature_counterexample : ∃ d, CleanReachable Sample.X Sample.F d ∧ ∃ os, OpsClean Sample.F os d ∧
    (d.getElement 3).map (·.getClass d) = some (.ok none) ∧
    ((runOps Sample.F os d).getElement 3).map (·.getClass (runOps Sample.F os d)) = some (.ok (some "VB")) :=
  ⟨runOps Sample.F Sample.featureOps Sample.fresh, Sample.clean_ops _ Sample.featureOps_clean (.new (by intro p h; cases h) Sample.fresh_eq),
    [.addClass 1 "VB"], by simp [OpsClean, Op.Clean], by decide +kernel, by decide +kernel⟩

example : OpsClean Sample.F [.declare .POS (some "other") none none, .detachElement 6, .addElementTo 2 Sample.pos] Sample.doc ∧
    (Sample.doc.getElement 6).map (·.getClass Sample.doc) = some (.ok (some "NN")) := by
  refine ⟨?_, by decide +kernel⟩
  simp [OpsClean, Op.Clean, Sample.pos, ElementData.setAttrib, ElementData.delAttrib, ElementData.new, CleanBuilder, CleanData,
    List.findIdx?, List.findIdx?.go, Attribute.decodable, Attribute.attribtype]

end Folia
