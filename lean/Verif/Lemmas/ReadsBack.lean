import Verif.Lemmas.Mat
/-! Encoded elements report what their builders asked for, and keep doing so. -/
namespace Folia
open Document

theorem plainAttr_none {f : Attribute → Option String} (hf : ∀ a, a.encodable = false → f a = none) :
    ∀ {as : List Attribute}, as.any Attribute.encodable = false → ∀ s, ElementData.plainAttr f as ≠ .ok (some s)
  | [], _, s => nofun
  | a :: as, h, s => by
    rw [List.any_cons, Bool.or_eq_false_iff] at h
    simp only [ElementData.plainAttr, hf a h.1]
    split
    · nofun
    · exact plainAttr_none hf h.2 s

/-- Nothing to encode: no set, class, subset or processor. -/
theorem plain_none {b : ElementData} (h : b.encodable = false) (s : String) :
    b.set ≠ .ok (some s) ∧ b.cls ≠ .ok (some s) ∧ b.subset ≠ .ok (some s) ∧ b.processor ≠ .ok (some s) := by
  refine ⟨plainAttr_none ?_ h s, plainAttr_none ?_ h s, plainAttr_none ?_ h s, plainAttr_none ?_ h s⟩ <;>
    (intro a ha; cases a <;> first | rfl | cases ha)

/-- The keys of elements without references, and of layers that only have a declaration. -/
theorem plain_keys {x : ElementData} {t : ElementType}
    (hn : PlainAttribs x.attribs ∨ (ElementGroup.layer.contains t = true ∧ ∃ dk, x.attribs = [.declarationRef dk])) :
    x.classKeyU = .ok none ∧ x.subsetKeyU = .ok none ∧ x.processorKeyU = .ok none ∧
      (ElementGroup.layer.contains t = false → x.declarationKeyU = .ok none) := by
  rcases hn with hn | ⟨hl, dk, hdk⟩
  · obtain ⟨h1, h2, h3, h4⟩ := keysU_of_refs (e := x) (plain := x.attribs) (enc := {}) (by simp [encRefs]) hn
    exact ⟨h2, h4, h3, fun _ => h1⟩
  · obtain ⟨h1, h2, h3, h4⟩ := keysU_of_refs (e := x) (plain := []) (enc := { dec := some dk }) (by rw [hdk]; rfl) (fun a h => by cases h)
    exact ⟨h2, h4, h3, fun h => by rw [hl] at h; cases h⟩

/-- A builder without anything to encode asks for nothing but its plain attributes. -/
theorem readsBack_plain (d0 d : Document) {x b : ElementData} (ht : x.elementtype = b.elementtype) (hb : b.encodable = false)
    (ho : x.attribs.filter (!·.decodable) = b.attribs.filter (!·.encodable) ∨
      (ElementGroup.layer.contains b.elementtype = true ∧ b.encodable = false ∧ ∃ dk, x.attribs = [.declarationRef dk]))
    (hn : PlainAttribs x.attribs ∨ (ElementGroup.layer.contains b.elementtype = true ∧ ∃ dk, x.attribs = [.declarationRef dk])) :
    ReadsBack d0 d x b where
  type := ht
  declared := fun t _ h => by rw [hb] at h; cases h
  set := fun s _ h => absurd h (plain_none hb s).1
  cls := fun s _ h => absurd h (plain_none hb s).2.1
  feature := fun s _ _ h => absurd h (plain_none hb s).2.2.1
  processor := fun id _ h => absurd h (plain_none hb id).2.2.2
  others := ho
  unclassed := fun _ => (plain_keys hn).1
  unsubset := fun _ => (plain_keys hn).2.1
  undeclared := fun _ h => (plain_keys hn).2.2.2 h
  uncredited := fun _ _ => (plain_keys hn).2.2.1

theorem feature_untyped : ElementType.annotationtype .feature = none := rfl

theorem optLen_full {cap : Nat} {st : Option StringStore} (hc : 0 < cap) (h : cap ≤ optLen st) : ∃ s, st = some s ∧ cap ≤ s.len := by
  cases st with
  | none => exact absurd h (by simp only [optLen]; omega)
  | some s => exact ⟨s, rfl, h⟩

/-- An element that was just encoded reports what its builder asked for. -/
theorem readsBack_enc {d0 d : Document} (hx : ProcsExact d) (hp : d.processors = d0.processors) {b x : ElementData} {ctx : Option Nat}
    {enc : Enc} (hen : b.encodable = true) (hc : CleanAttribs b.attribs) (hok : EncOk b ctx enc d) (ht : x.elementtype = b.elementtype)
    (ha : x.attribs = encodedAttribs b.attribs enc) : ReadsBack d0 d x b := by
  rw [encodedAttribs_eq] at ha
  have hpl : PlainAttribs (b.attribs.filter (!·.encodable)) := by
    intro a h
    rw [List.mem_filter] at h
    exact ⟨by simpa using h.2, hc a h.1⟩
  obtain ⟨v1, v2, v3, v4, v5, v6⟩ := values_of_refs (d := d) ha hpl
  have hcore := hok.core
  unfold CoreOk at hcore
  obtain ⟨u1, u2, u3, u4⟩ := keysU_of_refs ha hpl
  have hnames : (∀ ck, enc.cls = some ck → ∃ c, b.cls = .ok (some c)) ∧ (∀ sk, enc.subset = some sk → ∃ c, b.subset = .ok (some c)) := by
    cases hat : b.elementtype.annotationtype with
    | some t =>
      rw [hat] at hcore
      obtain ⟨⟨k, s, h1, h2, h3, ⟨dec', h6, h7, h8⟩⟩, h9⟩ := hcore
      exact ⟨fun ck hck => (h7 ck hck).imp fun _ h => h.1, fun sk hsk => by rw [h9] at hsk; cases hsk⟩
    | none =>
      rw [hat] at hcore
      simp only at hcore
      by_cases hf : b.elementtype = .feature
      · rw [if_pos hf] at hcore
        obtain ⟨pk, parent, t, _, _, _, ⟨k, s', h1, h2, h3, ⟨dec1, h6, h7, h8⟩, ⟨dec2, h9, h10, h11⟩⟩⟩ := hcore
        exact ⟨fun ck hck => (h7 ck hck).imp fun _ h => h.1, fun sk hsk => (h10 sk hsk).imp fun _ h => h.1⟩
      · rw [if_neg hf] at hcore
        exact ⟨fun ck hck => (by rw [hcore.2.1] at hck; cases hck), fun sk hsk => (by rw [hcore.2.2] at hsk; cases hsk)⟩
  refine ⟨ht, ?_, ?_, ?_, ?_, ?_, ?_, ?_, ?_, ?_, ?_⟩
  · intro t htt _
    rw [htt] at hcore
    obtain ⟨⟨k, s, h1, h2, ⟨dec, h3, h4, h5⟩, h6⟩, h7⟩ := hcore
    exact ⟨dec, by rw [v1, h1]; simp [h3], h4⟩
  · intro s hor hs
    have go : ∀ {k s' t}, enc.dec = some k → b.set = .ok s' → Declared k t s' d → x.getSet d = .ok (some s) := by
      intro k s' t h1 h2 h3
      rw [hs] at h2; cases h2
      obtain ⟨dec, h3, h4, h5⟩ := h3
      rw [v3, h1]; simp [h3, h5 (by simp)]
    cases hat : b.elementtype.annotationtype with
    | some t =>
      rw [hat] at hcore
      obtain ⟨⟨k, s', h1, h2, h3, _⟩, _⟩ := hcore
      exact go h1 h2 h3
    | none =>
      rw [hat] at hcore hor
      have hf : b.elementtype = .feature := by simpa using hor
      simp only [hf, if_true] at hcore
      obtain ⟨pk, parent, t, _, _, _, ⟨k, s', h1, h2, h3, _⟩⟩ := hcore
      exact go h1 h2 h3
  · intro c hat hcl
    cases hat' : b.elementtype.annotationtype with
    | none => rw [hat'] at hat; cases hat
    | some t =>
      rw [hat'] at hcore
      obtain ⟨⟨k, s, h1, h2, ⟨dec, h3, h4, h5⟩, ⟨dec', h6, h7, h8⟩⟩, h9⟩ := hcore
      rw [h3] at h6; cases h6
      cases he : enc.cls with
      | some ck =>
        obtain ⟨c', h10, h11⟩ := h7 ck he
        rw [hcl] at h10; cases h10
        left
        rw [v5, he, h1, h9]
        simpa [h3, Declaration.getClass] using h11
      | none =>
        right
        exact ⟨dec, by rw [v1, h1]; simp [h3], optLen_full (by decide) (h8 he c hcl)⟩
  · intro s c hf hs hcl
    rw [hf, feature_untyped] at hcore
    simp only [if_true] at hcore
    obtain ⟨pk, parent, t, _, _, _, ⟨k, s', h1, h2, ⟨dec, h3, h4, h5⟩, ⟨dec1, h6, h7, h8⟩, ⟨dec2, h9, h10, h11⟩⟩⟩ := hcore
    rw [h3] at h6 h9; cases h6; cases h9
    have hdec : x.getDeclaration d = .ok (some dec) := by rw [v1, h1]; simp [h3]
    cases hsub : enc.subset with
    | none => right; exact ⟨dec, hdec, Or.inl (optLen_full (by decide) (h11 hsub s hs))⟩
    | some sk =>
      cases he : enc.cls with
      | none => right; exact ⟨dec, hdec, Or.inr (optLen_full (by decide) (h8 he c hcl))⟩
      | some ck =>
        left
        obtain ⟨c', h12, h13⟩ := h7 ck he
        rw [hcl] at h12; cases h12
        obtain ⟨s'', h14, h15⟩ := h10 sk hsub
        rw [hs] at h14; cases h14
        rw [v4, v5, he, h1, hsub]
        constructor
        · simpa [h3, Declaration.getSubset] using h15
        · simpa [h3, Declaration.getSubclass] using h13
  · intro id p hpr hk
    have hk' : d.processorKeyById id = some p := by
      unfold processorKeyById at hk ⊢; rw [hp]; exact hk
    have := hok.explicit id p hpr hk'
    obtain ⟨q, h1, h2⟩ := (hx.index id p).mp hk'
    rw [v6, this]
    simp only [Option.bind_some, getProcessor, h1, Option.map_some]
    simp only [Storable.maybeId, Option.some.injEq] at h2
    rw [h2]
  · left
    rw [ha, List.filter_append]
    have h1 : (encRefs enc).filter (!·.decodable) = [] := by
      rw [List.filter_eq_nil_iff]
      intro a h
      simp only [encRefs, List.mem_append, Option.mem_toList, Option.map_eq_some_iff] at h
      rcases h with ⟨_, _, rfl⟩ | ⟨_, _, rfl⟩ | ⟨_, _, rfl⟩ | ⟨_, _, rfl⟩ <;> simp [Attribute.decodable]
    rw [h1, List.append_nil, List.filter_eq_self]
    intro a h
    simp [(hpl a h).2]
  · intro h
    rw [u2]
    cases hc : enc.cls with
    | none => rfl
    | some ck => obtain ⟨c, h1⟩ := hnames.1 ck hc; exact absurd h1 (h c)
  · intro h
    rw [u4]
    cases hc : enc.subset with
    | none => rfl
    | some ck => obtain ⟨c, h1⟩ := hnames.2 ck hc; exact absurd h1 (h c)
  · intro h; rw [hen] at h; cases h
  · intro h hp
    rw [u3]
    rcases h with h | h
    · rw [hok.none h hp]
    · rw [hen] at h; cases h

theorem full_mono {cap : Nat} {st st' : Option StringStore} (hc : 0 < cap) (hg : OptGrows st st') (h : ∃ s, st = some s ∧ cap ≤ s.len) :
    ∃ s, st' = some s ∧ cap ≤ s.len := by
  obtain ⟨s, rfl, h⟩ := h
  exact optLen_full hc (Nat.le_trans h hg.len)

/-- Growth of the document keeps what an element reports, as long as its attributes are the same. -/
theorem ReadsBack.mono {d0 d d' : Document} {x x' b : ElementData} (h : ReadsBack d0 d x b) (hr : RefsOk d x) (hd : DeclMono d d')
    (hp : ProcMono d d') (ht : x'.elementtype = x.elementtype) (ha : x'.attribs = x.attribs) : ReadsBack d0 d' x' b := by
  obtain ⟨plain, enc, h1, h2, h3⟩ := hr
  obtain ⟨v1, v2, v3, v4, v5, v6⟩ := values_of_refs (d := d) h1 h2
  obtain ⟨w1, w2, w3, w4, w5, w6⟩ := values_of_refs (d := d') (ha.trans h1) h2
  have hdec : ∀ dec, x.getDeclaration d = .ok (some dec) → ∃ dec', x'.getDeclaration d' = .ok (some dec') ∧ DeclGrows dec dec' := by
    intro dec hdec
    rw [v1] at hdec
    simp only [Except.ok.injEq, Option.bind_eq_some_iff] at hdec
    obtain ⟨k, hk, hg⟩ := hdec
    obtain ⟨dec', hg', hm⟩ := hd k dec hg
    exact ⟨dec', by rw [w1, hk]; simp [hg'], hm⟩
  have hset : ∀ s, x.getSet d = .ok (some s) → x'.getSet d' = .ok (some s) := by
    intro s hs
    rw [v3] at hs; rw [w3]
    simp only [Except.ok.injEq, Option.bind_eq_some_iff] at hs ⊢
    obtain ⟨dec, ⟨k, hk, hg⟩, hs⟩ := hs
    obtain ⟨dec', hg', hm⟩ := hd k dec hg
    exact ⟨dec', ⟨k, hk, hg'⟩, by rw [hm.set]; exact hs⟩
  have hcls : ∀ s, x.getClass d = .ok (some s) → x'.getClass d' = .ok (some s) := by
    intro s hs
    rw [v5] at hs; rw [w5]
    simp only [Except.ok.injEq, Option.bind_eq_some_iff] at hs ⊢
    obtain ⟨ck, hck, dec, ⟨k, hk, hg⟩, hs⟩ := hs
    obtain ⟨dec', hg', hm⟩ := hd k dec hg
    refine ⟨ck, hck, dec', ⟨k, hk, hg'⟩, ?_⟩
    split
    · rename_i hsub; rw [if_pos hsub] at hs; exact hm.subclasses.get _ _ hs
    · rename_i hsub; rw [if_neg hsub] at hs; exact hm.classes.get _ _ hs
  have hsub : ∀ s, x.getSubset d = .ok (some s) → x'.getSubset d' = .ok (some s) := by
    intro s hs
    rw [v4] at hs; rw [w4]
    simp only [Except.ok.injEq, Option.bind_eq_some_iff] at hs ⊢
    obtain ⟨dec, ⟨k, hk, hg⟩, ck, hck, hs⟩ := hs
    obtain ⟨dec', hg', hm⟩ := hd k dec hg
    exact ⟨dec', ⟨k, hk, hg'⟩, ck, hck, hm.subsets.get _ _ hs⟩
  have hkeys : x'.classKeyU = x.classKeyU ∧ x'.subsetKeyU = x.subsetKeyU ∧ x'.declarationKeyU = x.declarationKeyU ∧
      x'.processorKeyU = x.processorKeyU := by
    obtain ⟨p1, p2, p3, p4⟩ := keysU_of_refs h1 h2
    obtain ⟨q1, q2, q3, q4⟩ := keysU_of_refs (ha.trans h1) h2
    exact ⟨q2.trans p2.symm, q4.trans p4.symm, q1.trans p1.symm, q3.trans p3.symm⟩
  refine ⟨ht.trans h.type, ?_, fun s hs hb => hset s (h.set s hs hb), ?_, ?_, ?_, ?_, fun hb => hkeys.1.trans (h.unclassed hb),
    fun hb => hkeys.2.1.trans (h.unsubset hb), fun hb hl => hkeys.2.2.1.trans (h.undeclared hb hl),
    fun hb hp => hkeys.2.2.2.trans (h.uncredited hb hp)⟩
  · intro t htt hb
    obtain ⟨dec, h4, h5⟩ := h.declared t htt hb
    obtain ⟨dec', h6, h7⟩ := hdec dec h4
    exact ⟨dec', h6, h7.type.trans h5⟩
  · intro c hat hc
    rcases h.cls c hat hc with h4 | ⟨dec, h4, h5⟩
    · exact Or.inl (hcls c h4)
    · obtain ⟨dec', h6, h7⟩ := hdec dec h4
      exact Or.inr ⟨dec', h6, full_mono (by decide) h7.classes h5⟩
  · intro s c hf hs hc
    rcases h.feature s c hf hs hc with ⟨h4, h5⟩ | ⟨dec, h4, h5⟩
    · exact Or.inl ⟨hsub s h4, hcls c h5⟩
    · obtain ⟨dec', h6, h7⟩ := hdec dec h4
      exact Or.inr ⟨dec', h6, h5.imp (full_mono (by decide) h7.subsets) (full_mono (by decide) h7.subclasses)⟩
  · intro id p hpr hk
    have h4 := h.processor id p hpr hk
    rw [v6] at h4; rw [w6]
    simp only [Except.ok.injEq, Option.map_eq_some_iff, Option.bind_eq_some_iff] at h4 ⊢
    obtain ⟨q, ⟨k, hk, hq⟩, hid⟩ := h4
    obtain ⟨q', hq', heq⟩ := hp k q hq
    exact ⟨q', ⟨k, hk, hq'⟩, by rw [heq]; exact hid⟩
  · rw [ha]; exact h.others

theorem layer_typed' (t : ElementType) (h : ElementGroup.layer.contains t = true) : ∃ a, t.annotationtype = some a := by
  revert h
  cases t <;> first | (intro h; exact ⟨_, rfl⟩) | (intro h; exact absurd h (by decide))

/-- An element with a declaration has a set attribute. -/
theorem getDeclaration_hasSet {d : Document} {x : ElementData} {dec : Declaration} (h : x.getDeclaration d = .ok (some dec)) :
    x.hasAttrib .SET = true := by
  unfold ElementData.getDeclaration at h
  cases hk : x.declarationKeyU with
  | error f => rw [hk] at h; cases h
  | ok o =>
    cases o with
    | none => rw [hk] at h; cases h
    | some k =>
      have hk := unwrapRes_ok hk
      unfold ElementData.declarationKey at hk
      unfold ElementData.hasAttrib
      clear h
      generalize x.attribs = as at hk ⊢
      induction as with
      | nil => cases hk
      | cons a as ih =>
        rw [List.find?_cons]
        by_cases hs : a.attribtype == .SET
        · simp [hs]
        · simp only [hs]
          refine ih ?_
          simp only [ElementData.keyAttr] at hk
          split at hk
          · rename_i h; split at h
            · simp [Attribute.attribtype] at hs
            · cases h
          · split at hk
            · cases hk
            · exact hk

/-- Fixing a set-less layer keeps what it reports. -/
theorem ReadsBack.fixed {d0 d d' : Document} {x x' b : ElementData} (h : ReadsBack d0 d x b) (ht : x'.elementtype = x.elementtype)
    (hf : LayerFix x x') : ReadsBack d0 d' x' b := by
  obtain ⟨hl, hn, dk, hdk⟩ := hf
  rw [h.type] at hl
  have hb : b.encodable = false := by
    cases hb : b.encodable with
    | false => rfl
    | true =>
      obtain ⟨t, htt⟩ := layer_typed' _ hl
      obtain ⟨dec, h1, _⟩ := h.declared t htt hb
      rw [getDeclaration_hasSet h1] at hn; cases hn
  exact readsBack_plain d0 d' (ht.trans h.type) hb (Or.inr ⟨hl, hb, dk, hdk⟩) (Or.inr ⟨hl, dk, hdk⟩)

end Folia
