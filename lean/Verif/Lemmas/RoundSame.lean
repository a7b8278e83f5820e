import Verif.Lemmas.RoundTree
/-! What elements report after they were written and read back. -/
namespace Folia
open Document

mutual
theorem nodeCounts_keys : ∀ items : List Item, nodeCounts items = (nodeKeys items).length
  | [] => rfl
  | x :: xs => by rw [nodeCounts, nodeKeys, List.length_append, nodeCount_keys x, nodeCounts_keys xs]
theorem nodeCount_keys : ∀ i : Item, nodeCount i = (nodeKeysIn i).length
  | .node _ _ items => by rw [nodeCount, nodeKeysIn, List.length_cons, nodeCounts_keys items]
  | .text _ => rfl
  | .comment _ => rfl
  | .ref _ => rfl
end

theorem plainAttr_skip {f : Attribute → Option String} (hf : ∀ a, a.encodable = false → f a = none) : ∀ {own : List Attribute} (l : List Attribute),
    (∀ a ∈ own, a.encodable = false) → CleanAttribs own → ElementData.plainAttr f (own ++ l) = ElementData.plainAttr f l
  | [], l, _, _ => rfl
  | a :: own, l, h, hc => by
    simp only [List.cons_append, ElementData.plainAttr, hf a (h a (List.mem_cons_self ..))]
    rw [if_neg (by rw [hc a (List.mem_cons_self ..)]; simp)]
    exact plainAttr_skip hf l (fun b hb => h b (List.mem_cons_of_mem _ hb)) fun b hb => hc b (List.mem_cons_of_mem _ hb)

theorem own_clean (e : ElementData) : CleanAttribs (ownAttribs e) := fun a ha => by
  have := (List.mem_filter.mp ha).2
  simp only [Bool.and_eq_true, Bool.not_eq_true'] at this
  exact this.1

/-- What a builder with written attributes asks for. -/
theorem builder_refs {e : ElementData} (hc : ∀ a ∈ ownAttribs e, a.encodable = false) (set subset cls proc : Option String) (t : ElementType) (data : List Data) :
    let b : ElementData := ⟨t, ownAttribs e ++ refAttribs set subset cls proc, data, none, none⟩
    b.set = .ok set ∧ b.subset = .ok subset ∧ b.cls = .ok cls ∧ b.processor = .ok proc ∧ b.attribs.filter (!·.encodable) = ownAttribs e ∧
      b.encodable = (set.isSome || subset.isSome || cls.isSome || proc.isSome) := by
  have hcl := own_clean e
  refine ⟨?_, ?_, ?_, ?_, ?_, ?_⟩
  · refine (plainAttr_skip (fun a ha => ?_) _ hc hcl).trans ?_
    · cases a <;> first | rfl | cases ha
    · cases set <;> cases subset <;> cases cls <;> cases proc <;> rfl
  · refine (plainAttr_skip (fun a ha => ?_) _ hc hcl).trans ?_
    · cases a <;> first | rfl | cases ha
    · cases set <;> cases subset <;> cases cls <;> cases proc <;> rfl
  · refine (plainAttr_skip (fun a ha => ?_) _ hc hcl).trans ?_
    · cases a <;> first | rfl | cases ha
    · cases set <;> cases subset <;> cases cls <;> cases proc <;> rfl
  · refine (plainAttr_skip (fun a ha => ?_) _ hc hcl).trans ?_
    · cases a <;> first | rfl | cases ha
    · cases set <;> cases subset <;> cases cls <;> cases proc <;> rfl
  · show (ownAttribs e ++ refAttribs set subset cls proc).filter _ = _
    rw [List.filter_append, List.filter_eq_self.mpr fun a ha => by rw [hc a ha]; rfl]
    have : (refAttribs set subset cls proc).filter (!·.encodable) = [] := by
      cases set <;> cases subset <;> cases cls <;> cases proc <;> rfl
    rw [this, List.append_nil]
  · show (ownAttribs e ++ refAttribs set subset cls proc).any _ = _
    rw [List.any_append]
    have : (ownAttribs e).any Attribute.encodable = false := by
      rw [List.any_eq_false]; intro a ha; rw [hc a ha]; simp
    rw [this, Bool.false_or]
    cases set <;> cases subset <;> cases cls <;> cases proc <;> rfl

/-- Plain attributes that are kept. -/
theorem own_back {x e : ElementData} (h : x.attribs.filter (!·.decodable) = ownAttribs e) : ownAttribs x = ownAttribs e := by
  unfold ownAttribs at h ⊢
  have h1 : x.attribs.filter (fun a => !a.decodable && a != .ignore) = (x.attribs.filter (!·.decodable)).filter (· != .ignore) := by
    rw [List.filter_filter]
    congr 1
    funext a
    rw [Bool.and_comm]
  rw [h1, h, List.filter_filter]
  congr 1
  funext a
  cases a.decodable <;> cases (a != .ignore) <;> rfl

theorem reported_none {d : Document} {x : ElementData} : (x.classKeyU = .ok none → x.getClass d = .ok none) ∧
    (x.subsetKeyU = .ok none → (∃ o, x.getDeclaration d = .ok o) → x.getSubset d = .ok none) := by
  refine ⟨fun h => ?_, fun h ⟨o, ho⟩ => ?_⟩
  · unfold ElementData.getClass; rw [h]; rfl
  · unfold ElementData.getSubset; rw [ho]
    cases o with
    | none => rfl
    | some dec => simp only [bind, Except.bind, h]; rfl

/-- Without declaration there is neither class nor subset. -/
theorem undeclared_values {d : Document} {e : ElementData} (hr : RefsOk d e) (h : e.declarationKeyU = .ok none) : e.getClass d = .ok none ∧
    e.getSubset d = .ok none ∧ e.getSet d = .ok none := by
  obtain ⟨plain, enc, h1, h2, h3⟩ := hr
  have hk := (keysU_of_refs h1 h2).1
  rw [h] at hk
  have hdec : enc.dec = none := (Except.ok.inj hk).symm
  obtain ⟨_, _, v1, v2, v3, _⟩ := values_of_refs (d := d) h1 h2
  rw [v1, v2, v3, hdec]
  exact ⟨by cases enc.cls <;> rfl, rfl, rfl⟩

/-- If nothing is written, then the builder is plain. -/
theorem unwritten {X : Ext} {d : Document} {e : ElementData} {k : Nat} {dec : Declaration} (h : RefsOf d e k dec none none none none) : ¬ WritesRefs X d e := by
  intro hw
  refine hw (printedAttrs X e.attribs) ⟨[], by simp, .inr ⟨k, dec, none, none, none, none, h.key, h.stored, h.subset, h.cls, rfl, h.set, h.proc⟩⟩ rfl

theorem same_content {X : Ext} {d d2 d' : Document} {e x : ElementData} {as : List Attribute} {data : List Data} (he : RefsOk d e) (hx : RefsOk d' x)
    (hc : ∀ a ∈ e.attribs, a.encodable = false) (hw : Rewritable X d e) (hroom : RoomLeft d') (ha : AttrsOf d e as)
    (hb : ReadsBack d2 d' x ⟨e.elementtype, as, data, none, none⟩) : SameContent d d' e x := by
  have hc' : ∀ a ∈ ownAttribs e, a.encodable = false := fun a ha => hc a (List.mem_filter.mp ha).1
  have hdecl : ∃ o, x.getDeclaration d' = .ok o := by
    obtain ⟨plain, enc, h1, h2, _⟩ := hx
    exact ⟨_, (values_of_refs (d := d') h1 h2).1⟩
  have hstored : ∀ dec, x.getDeclaration d' = .ok (some dec) → ∃ k, d'.getDeclaration k = some dec := by
    intro dec hd
    obtain ⟨plain, enc, h1, h2, _⟩ := hx
    rw [(values_of_refs (d := d') h1 h2).1] at hd
    obtain ⟨k, _, hk⟩ := Option.bind_eq_some_iff.mp (Except.ok.inj hd)
    exact ⟨k, hk⟩
  rcases ha with ⟨h1, rfl⟩ | ⟨k, dec, set, subset, cls, proc, h1, rfl⟩
  · have h0 := builder_refs hc' none none none none e.elementtype data
    simp only [refAttribs, Option.map_none, Option.toList_none, List.append_nil] at h0
    obtain ⟨_, g2, g3, _, g5, _⟩ := h0
    obtain ⟨v1, v2, _⟩ := undeclared_values he h1
    refine ⟨hb.type, ?_, ?_, ?_⟩
    · rcases hb.others with h | ⟨hl, _, dk, h⟩
      · rw [g5] at h; exact own_back h
      · rcases hw.layer hl with h2 | h2
        · rw [h2]; unfold ownAttribs; rw [h]; rfl
        · exact absurd rfl (h2 (printedAttrs X e.attribs) ⟨[], by simp, .inl ⟨h1, rfl⟩⟩)
    · rw [v1]; exact reported_none.1 (hb.unclassed fun c h => by rw [g3] at h; cases h)
    · rw [v2]; exact reported_none.2 (hb.unsubset fun c h => by rw [g2] at h; cases h) hdecl
  · obtain ⟨g1, g2, g3, g4, g5, g6⟩ := builder_refs hc' set subset cls proc e.elementtype data
    have hkind : e.elementtype.annotationtype.isSome = true ∨ e.elementtype = .feature := by
      obtain ⟨plain, enc, q1, q2, q3⟩ := he
      have hk := (keysU_of_refs q1 q2).1
      rw [h1.key] at hk
      exact q3.declarable k (Except.ok.inj hk).symm
    refine ⟨hb.type, ?_, ?_, ?_⟩
    · rcases hb.others with h | ⟨hl, hne, dk, h⟩
      · rw [g5] at h; exact own_back h
      · rcases hw.layer hl with h2 | h2
        · rw [h2]; unfold ownAttribs; rw [h]; rfl
        · rw [g6] at hne
          simp only [Bool.or_eq_false_iff, Option.isSome_eq_false_iff, Option.isNone_iff_eq_none] at hne
          obtain ⟨⟨⟨rfl, rfl⟩, rfl⟩, rfl⟩ := hne
          exact absurd h2 (unwritten h1)
    · rw [h1.cls]
      cases cls with
      | none => exact reported_none.1 (hb.unclassed fun c h => by rw [g3] at h; cases h)
      | some c =>
        by_cases hfe : e.elementtype = .feature
        · obtain ⟨s, c', q1, q2⟩ := hw.feature hfe k h1.key
          rw [h1.subset] at q1
          cases q1
          rcases hb.feature s c hfe g2 g3 with h | ⟨dec', q3, q4⟩
          · exact h.2
          · obtain ⟨j, hj⟩ := hstored dec' q3
            obtain ⟨_, r2, r3⟩ := hroom j dec' hj
            rcases q4 with ⟨st, q5, q6⟩ | ⟨st, q5, q6⟩
            · exact absurd (r2 st q5) (by omega)
            · exact absurd (r3 st q5) (by omega)
        · rcases hb.cls c (hkind.resolve_right hfe) g3 with h | ⟨dec', q3, st, q5, q6⟩
          · exact h
          · obtain ⟨j, hj⟩ := hstored dec' q3
            exact absurd ((hroom j dec' hj).1 st q5) (by omega)
    · rw [h1.subset]
      cases subset with
      | none => exact reported_none.2 (hb.unsubset fun c h => by rw [g2] at h; cases h) hdecl
      | some s =>
        have hfe : e.elementtype = .feature := by
          obtain ⟨plain, enc, q1, q2, q3⟩ := he
          have hv := (values_of_refs (d := d) q1 q2).2.2.2.1
          rw [h1.subset] at hv
          obtain ⟨dec', _, hv⟩ := Option.bind_eq_some_iff.mp (Except.ok.inj hv).symm
          obtain ⟨sk, hsk, _⟩ := Option.bind_eq_some_iff.mp hv
          exact (q3.subset sk hsk).1
        obtain ⟨s', c, q1, q2⟩ := hw.feature hfe k h1.key
        rw [h1.cls] at q2
        cases q2
        rcases hb.feature s c hfe g2 g3 with h | ⟨dec', q3, q4⟩
        · exact h.1
        · obtain ⟨j, hj⟩ := hstored dec' q3
          obtain ⟨_, r2, r3⟩ := hroom j dec' hj
          rcases q4 with ⟨st, q5, q6⟩ | ⟨st, q5, q6⟩
          · exact absurd (r2 st q5) (by omega)
          · exact absurd (r3 st q5) (by omega)

end Folia
