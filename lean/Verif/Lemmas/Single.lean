import Verif.Lemmas.Tame
/-! Adding a single element. -/
namespace Folia
open Document

theorem addChildren_single {F : Nat} {e : ElementData} (hz : builderSizeList e.data = 0) (d : Document) : addChildren F e d = (.ok (e, none), d) := by
  have hu := noKids_unborn hz
  cases e
  rw [addChildren_run]
  simp only at hu
  simp [hu]

/-- The element that a successful `add_element_to` without pending children stores. -/
theorem single_ok {F p k : Nat} {e : ElementData} {d d' : Document} (hp : d.Live p) (hf : d.FreshIds (builderIds e)) (hz : builderSizeList e.data = 0)
    (h : addElementTo F p e d = (.ok k, d')) : ∃ e' d1 x, encode e (some p) d = (.ok e', d1) ∧ d'.getElement k = some x ∧
      x.elementtype = e.elementtype ∧ (x.attribs = e'.attribs ∨ (ElementGroup.layer.contains e.elementtype = true ∧ e.encodable = false)) ∧
      d'.declarations = d1.declarations := by
  unfold addElementTo at h
  rw [M.run_bind, addChildren_single hz] at h
  simp only at h
  obtain ⟨ck, d2, h2, h⟩ := bind_ok h
  have h2 := mapErr_ok h2
  have h : (attachElement p ck >>= fun _ => postAdd F ck none >>= fun _ => pure ck) d2 = (.ok k, d') := h
  obtain ⟨_, d3, h3, h⟩ := bind_ok h
  obtain ⟨_, d4, h4, h⟩ := bind_ok h
  cases h
  have hfr : ∀ id, e.id = some id → d.elementKeyById id = none := by
    intro id hid
    refine hf.2 id ?_
    cases e
    simp only [builderIds]
    simp [hid]
  obtain ⟨hck, _, _, _, e', henc, hget⟩ := addElem_fresh hfr h2
  have hr := encode_result e (some p) d e' (by rw [henc])
  obtain ⟨pe, hpe⟩ := hp
  have hpk : p ≠ k := by
    have : p < d.elements.len := Store.get_lt hpe
    omega
  have hk2 : d2.getElement k = some { e' with key := some k } := by rw [hget, if_pos rfl]
  have hp2 : d2.getElement p = some pe := by rw [hget, if_neg hpk, hpe]
  have hrun := attach_run hp2 hk2
  rw [h3] at hrun
  simp only [Prod.mk.injEq, true_and] at hrun
  have hk3 : ∃ y, d3.getElement k = some y ∧ y.elementtype = e'.elementtype ∧ y.attribs = e'.attribs := by
    have hs : ∃ y, Store.get (Store.update (Store.update d2.elements k fun e => { e with parent := some p }) p fun e => e.push (.element k)) k = some y ∧
        y.elementtype = e'.elementtype ∧ y.attribs = e'.attribs := by
      rw [Store.get_update, Store.get_update, if_neg (Ne.symm hpk), if_pos rfl, show d2.elements.get k = _ from hk2]
      exact ⟨_, rfl, rfl, rfl⟩
    obtain ⟨y, hy, hb⟩ := hs
    have hu : ∀ y : ElementData, (unlink k y).elementtype = y.elementtype ∧ (unlink k y).attribs = y.attribs := by
      intro y
      unfold unlink
      split <;> exact ⟨rfl, rfl⟩
    rw [hrun]
    cases hpar : e'.parent with
    | none => exact ⟨y, hy, hb⟩
    | some old =>
      by_cases hko : k = old
      · refine ⟨unlink k y, ?_, (hu y).1.trans hb.1, (hu y).2.trans hb.2⟩
        show Store.get (Store.update _ old _) k = _
        rw [Store.get_update, if_pos hko, hy]; rfl
      · refine ⟨y, ?_, hb⟩
        show Store.get (Store.update _ old _) k = _
        rw [Store.get_update, if_neg hko, hy]
  obtain ⟨y, hy, hyt, hya⟩ := hk3
  have hu := postAdd_upds F k none d3
  rw [h4] at hu
  rcases hu.elems k with ⟨h6, _⟩ | ⟨z, z', h6, h7, h8⟩
  · rw [hy] at h6; cases h6
  · rw [hy] at h6; cases h6
    refine ⟨e', _, z', henc, h7, h8.type.trans (hyt.trans hr.1), ?_, by rw [hu.decls, hrun]⟩
    rcases h8.attribs with h9 | ⟨_, hl, hn, _⟩
    · exact Or.inl (h9.trans hya)
    · refine Or.inr ⟨by rw [← hr.1, ← hyt]; exact hl, ?_⟩
      cases hen : e.encodable with
      | false => rfl
      | true =>
        exfalso
        obtain ⟨a, hta⟩ := layer_typed' e.elementtype (by rw [← hr.1, ← hyt]; exact hl)
        unfold encode at henc
        rw [if_pos hen] at henc
        obtain ⟨enc, d5, h5, henc⟩ := bind_ok henc
        obtain ⟨_, d6, h6, henc⟩ := bind_ok henc
        cases h6
        obtain ⟨_, d7, h7', henc⟩ := bind_ok henc
        cases henc
        unfold encodeCore at h5
        rw [hta] at h5
        simp only at h5
        unfold encodeTyped at h5
        obtain ⟨s, d8, h8', h5⟩ := bind_ok h5
        obtain ⟨dk, d9, h9, h5⟩ := bind_ok h5
        obtain ⟨ck', d10, h10, h5⟩ := bind_ok h5
        obtain ⟨pr, d11, h11, h5⟩ := bind_ok h5
        cases h5
        have : y.hasAttrib .SET = true := by
          unfold ElementData.hasAttrib
          rw [List.find?_isSome]
          refine ⟨.declarationRef dk, ?_, rfl⟩
          rw [hya, encodedAttribs_eq, List.mem_append]
          right
          simp only [encRefs, (encodeExplicit_fields _ e _).1]
          simp
        rw [this] at hn; cases hn

/-- The declaration that a typed element is resolved to. -/
theorem encode_declared {e e' : ElementData} {ctx : Option Nat} {d d1 : Document} {t : AnnotationType} (ht : e.elementtype.annotationtype = some t)
    (hen : e.encodable = true) (hc : CleanAttribs e.attribs) (h : encode e ctx d = (.ok e', d1)) :
    ∃ s dk, e.set = .ok s ∧ (declare t s none none d).1 = .ok dk ∧ ∀ x : ElementData, x.attribs = e'.attribs → x.declarationKeyU = .ok (some dk) := by
  unfold encode at h
  rw [if_pos hen] at h
  obtain ⟨enc, d5, h5, h⟩ := bind_ok h
  obtain ⟨_, d6, h6, h⟩ := bind_ok h
  cases h6
  obtain ⟨_, d7, h7', h⟩ := bind_ok h
  cases h
  unfold encodeCore at h5
  rw [ht] at h5
  simp only at h5
  unfold encodeTyped at h5
  obtain ⟨s, h8', h5⟩ := ofRes_bind h5
  obtain ⟨dk, d9, h9, h5⟩ := bind_ok h5
  obtain ⟨ck', d10, h10, h5⟩ := bind_ok h5
  obtain ⟨pr, d11, h11, h5⟩ := bind_ok h5
  cases h5
  refine ⟨s, dk, unwrapRes_ok h8', by rw [h9], fun x hx => ?_⟩
  rw [encodedAttribs_eq] at hx
  have hpl : PlainAttribs (e.attribs.filter (!·.encodable)) := by
    intro a h
    rw [List.mem_filter] at h
    exact ⟨by simpa using h.2, hc a h.1⟩
  rw [(keysU_of_refs hx hpl).1, (encodeExplicit_fields _ e _).1]

end Folia
