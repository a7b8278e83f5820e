import Verif.Lemmas.Mat

/-! Identified elements are found by their identifier. -/
namespace Folia
open Document

/-- Every element with an identifier is found by it. -/
def IdsFound (d : Document) : Prop := ∀ k e i, d.getElement k = some e → e.id = some i → d.elements.index.find i = some k

theorem ElemChange.id_back {d : Document} {e e' : ElementData} (h : ElemChange d e e') {i : String} (hi : e'.id = some i) : e.id = some i := by
  rcases h.attribs with h | ⟨_, _, dk, h, _⟩
  · unfold ElementData.id at hi ⊢; rw [h] at hi; exact hi
  · unfold ElementData.id at hi; rw [h] at hi; cases hi

theorem Prim.idsFound {C : Prop} {d d' : Document} (h : Prim C d d') (hi : IdsFound d) : IdsFound d' := by
  have same : d'.elements.index = d.elements.index → (∀ k e', d'.getElement k = some e' → d.Live k) → IdsFound d' := by
    intro hix hlive k e' i he' hid
    rcases h.element_back he' with ⟨e, he, hc⟩ | ⟨hnew, _⟩
    · rw [hix]; exact hi k e i he (hc.id_back hid)
    · obtain ⟨e, he⟩ := hlive k e' he'
      rw [hnew] at he; cases he
  have upd : ∀ k f, d'.elements = d.elements.update k f → ∀ j e', d'.getElement j = some e' → d.Live j := by
    intro k f he j e' hj
    unfold getElement at hj
    rw [he, Store.get_update] at hj
    unfold Document.Live getElement
    cases hd : d.elements.get j with
    | some a => exact ⟨a, rfl⟩
    | none => rw [hd] at hj; split at hj <;> cases hj
  have keep : d'.elements = d.elements → IdsFound d' := fun he => same (by rw [he]) fun k e' h => ⟨e', by unfold getElement at h ⊢; rw [← he]; exact h⟩
  cases h with
  | admin he _ hp _ _ => exact keep he
  | addDeclaration dec _ => exact keep rfl
  | declare t s a f => exact keep (declare_elements ..).1
  | addClass k c => exact keep (OnlyDecls.addClass k c d).1
  | annotator k p _ => exact keep rfl
  | addElem e ctx _ =>
    obtain ⟨hs, h⟩ := addElem_elements e ctx d
    rcases h with ⟨f, _, he⟩ | ⟨e1, _, _, _, _, he, _⟩
    · exact keep he
    · rcases Store.add_spec cap32 d.elements e1 with ⟨id, k, _, _, heq⟩ | ⟨heq, _⟩ | ⟨hnone, _, s', heq, _, hget, hix⟩
      · rw [heq] at he; exact keep he
      · rw [heq] at he; exact keep he
      · rw [heq] at he
        simp only at he
        intro k e' i he' hid
        unfold getElement at he'
        rw [he] at he' ⊢
        rw [hget] at he'
        rw [hix]
        split at he'
        · rename_i hk
          cases he'
          have : Storable.maybeId e1 = some i := by rw [maybeId_eq]; exact hid
          rw [if_pos this, hk]
        · have hf := hi k e' i he' hid
          rw [if_neg, hf]
          intro hc
          rw [hnone i hc] at hf; cases hf
  | setParent | orphan | pushElem | pushText | pushSpan | unlink | layer => exact same (Store.update_index ..) (upd _ _ rfl)
  | addProc p _ => exact keep rfl
  | chain | activate => exact keep rfl
  | procParent | procPush => exact keep rfl

theorem Steps.idsFound {C : Prop} {d d' : Document} (h : Steps C d d') (hi : IdsFound d) : IdsFound d' := Steps.inv Prim.idsFound h hi

theorem Reachable.idsFound {X : Ext} {F : Nat} {d : Document} (h : Reachable X F d) : IdsFound d :=
  h.steps.inv Prim.idsFound fun _ _ _ h => (by simp [getElement, Store.get] at h)

/-- Every identifier of the index belongs to an element with that identifier, or to a layer that lost its attributes (see C52). -/
def IdsNamed (d : Document) : Prop := ∀ i k, d.elements.index.find i = some k → ∃ e, d.getElement k = some e ∧
  (e.id = some i ∨ (ElementGroup.layer.contains e.elementtype = true ∧ ∃ dk, e.attribs = [.declarationRef dk]))

theorem Prim.idsNamed {C : Prop} {d d' : Document} (h : Prim C d d') (hi : IdsNamed d) : IdsNamed d' := by
  have forth : ∀ i k, d.elements.index.find i = some k → ∃ e, d'.getElement k = some e ∧
      (e.id = some i ∨ (ElementGroup.layer.contains e.elementtype = true ∧ ∃ dk, e.attribs = [.declarationRef dk])) := by
    intro i k hk
    obtain ⟨e, he, hq⟩ := hi i k hk
    obtain ⟨e', he', hc⟩ := h.element_forward he
    refine ⟨e', he', ?_⟩
    rcases hc.attribs with ha | ⟨hl, _, dk, ha, _⟩
    · unfold ElementData.id at hq ⊢
      rw [ha, hc.type]; exact hq
    · exact .inr ⟨by rw [hc.type]; exact hl, dk, ha⟩
  have same : d'.elements.index = d.elements.index → IdsNamed d' := fun hix i k hk => forth i k (by rw [← hix]; exact hk)
  have keep : d'.elements = d.elements → IdsNamed d' := fun he => same (by rw [he])
  cases h with
  | admin he _ hp _ _ => exact keep he
  | addDeclaration dec _ => exact keep rfl
  | declare t s a f => exact keep (declare_elements ..).1
  | addClass k c => exact keep (OnlyDecls.addClass k c d).1
  | annotator k p _ => exact keep rfl
  | addElem e ctx _ =>
    obtain ⟨hs, h⟩ := addElem_elements e ctx d
    rcases h with ⟨f, _, he⟩ | ⟨e1, _, _, _, _, he, _⟩
    · exact keep he
    · rcases Store.add_spec cap32 d.elements e1 with ⟨id, k, _, _, heq⟩ | ⟨heq, _⟩ | ⟨hnone, _, s', heq, _, hget, hix⟩
      · rw [heq] at he; exact keep he
      · rw [heq] at he; exact keep he
      · rw [heq] at he
        simp only at he
        intro i k hk
        rw [he, hix] at hk
        split at hk
        · rename_i hid
          cases hk
          refine ⟨_, by unfold getElement; rw [he, hget, if_pos rfl], .inl ?_⟩
          rw [maybeId_eq] at hid
          exact hid
        · exact forth i k hk
  | setParent | orphan | pushElem | pushText | pushSpan | unlink | layer => exact same (Store.update_index ..)
  | addProc p _ => exact keep rfl
  | chain | activate => exact keep rfl
  | procParent | procPush => exact keep rfl

theorem Reachable.idsNamed {X : Ext} {F : Nat} {d : Document} (h : Reachable X F d) : IdsNamed d :=
  h.steps.inv Prim.idsNamed fun _ _ h => (by simp [Index.find] at h)

end Folia
