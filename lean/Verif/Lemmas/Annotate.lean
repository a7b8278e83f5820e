import Verif.Lemmas.Build
/-! What a successful `annotate` does, in terms of `add_element_to`. -/
namespace Folia
open Document

/-- The layer that `annotate` makes. -/
def layerBuilder (lt : ElementType) (set : Option String) : ElementData := match set with
  | some s => (ElementData.new lt).setAttrib (.set s)
  | none => ElementData.new lt

theorem layerBuilder_eq (lt : ElementType) (set : Option String) : layerBuilder lt set =
    { elementtype := lt, attribs := (set.map Attribute.set).toList } := by
  cases set <;> rfl

theorem checkElementAddable_ok {d : Document} {p : Nat} {t : ElementType} (h : d.checkElementAddable p t = .ok ()) :
    ∃ pe, d.getElement p = some pe ∧ (props pe.elementtype).acceptedData.any (·.covers t) = true := by
  unfold checkElementAddable at h
  cases hp : d.getElement p with
  | none => rw [hp] at h; cases h
  | some pe =>
    rw [hp] at h
    simp only at h
    split at h
    · exact ⟨pe, rfl, ‹_›⟩
    · cases h

theorem ofRes_ok {α : Type} {f : Document → Res α} {d d' : Document} {a : α} (h : M.ofRes f d = (.ok a, d')) : f d = .ok a ∧ d' = d := by
  rw [M.run_ofRes] at h
  simp only [Prod.mk.injEq] at h
  exact ⟨h.1, h.2.symm⟩

theorem pure_ok {σ α : Type} {s s' : σ} {a b : α} (h : (pure a : M σ α) s = (.ok b, s')) : b = a ∧ s' = s := by cases h; exact ⟨rfl, rfl⟩

theorem get_ok {d d' x : Document} (h : M.get d = (.ok x, d')) : x = d ∧ d' = d := by cases h; exact ⟨rfl, rfl⟩

theorem ofRes_bind {α β : Type} {f : Document → Res α} {g : α → M Document β} {d d' : Document} {b : β}
    (h : (M.ofRes f >>= g) d = (.ok b, d')) : ∃ a, f d = .ok a ∧ g a d = (.ok b, d') := by
  obtain ⟨a, d1, h1, h2⟩ := bind_ok h
  obtain ⟨h1, rfl⟩ := ofRes_ok h1
  exact ⟨a, h1, h2⟩

/-- Adding `e` directly below `p`, which accepts it. -/
structure AddsTo (F : Nat) (d d' : Document) (p : Nat) (e : ElementData) (k : Nat) : Prop where
  accepted : d.checkElementAddable p e.elementtype = .ok ()
  run : addElementTo F p e d = (.ok k, d')

/-- A successful addition to a layer: the layer exists already or is made first. -/
theorem addToLayer_ok {F lookup holder : Nat} {t : AnnotationType} {lt : ElementType} {set : Option String} {e : ElementData}
    {d d' : Document} {k : Nat} (h : addToLayer F lookup holder t lt set e d = (.ok k, d')) :
    ∃ d1 layer, ((d1 = d ∧ d.getLayerKey F lookup t set = .ok (some layer)) ∨
        (d.getLayerKey F lookup t set = .ok none ∧ AddsTo F d d1 holder (layerBuilder lt set) layer)) ∧
      AddsTo F d1 d' layer e k := by
  unfold addToLayer at h
  obtain ⟨found, d0, h1, h'⟩ := bind_ok h
  obtain ⟨h1, rfl⟩ := ofRes_ok h1
  clear h
  cases found with
  | some layer =>
    have h2 : ((M.ofRes fun d => d.checkElementAddable layer e.elementtype) >>= fun _ => addElementTo F layer e) d0 = (.ok k, d') := h'
    obtain ⟨_, d1, h3, h4⟩ := bind_ok h2
    obtain ⟨h3, rfl⟩ := ofRes_ok h3
    exact ⟨d1, layer, Or.inl ⟨rfl, h1⟩, h3, h4⟩
  | none =>
    have h2 : ((M.ofRes fun d => d.checkElementAddable holder lt) >>= fun _ => addElementTo F holder (layerBuilder lt set) >>= fun layer =>
      (M.ofRes fun d => d.checkElementAddable layer e.elementtype) >>= fun _ => addElementTo F layer e) d0 = (.ok k, d') := h'
    obtain ⟨_, d2, h3, h4⟩ := bind_ok h2
    obtain ⟨h3, rfl⟩ := ofRes_ok h3
    obtain ⟨layer, d1, h5, h6⟩ := bind_ok h4
    obtain ⟨_, d3, h7, h8⟩ := bind_ok h6
    obtain ⟨h7, rfl⟩ := ofRes_ok h7
    refine ⟨d3, layer, Or.inr ⟨h1, ?_, h5⟩, h7, h8⟩
    rw [layerBuilder_eq]; exact h3

/-- The three ways in which `annotate` succeeds. -/
theorem annotate_ok {F parent : Nat} {e : ElementData} {d d' : Document} {k : Nat} (h : annotate F parent e d = (.ok k, d')) :
    ∃ pe, d.getElement parent = some pe ∧
      ((ElementGroup.span.contains e.elementtype = false ∧ AddsTo F d d' parent e k) ∨
       (ElementGroup.span.contains e.elementtype = true ∧ (props pe.elementtype).wrefable = false ∧
          ElementGroup.structural.contains pe.elementtype = false ∧ AddsTo F d d' parent e k) ∨
       (ElementGroup.span.contains e.elementtype = true ∧ ∃ t lt set, e.elementtype.annotationtype = some t ∧ t.layertype = some lt ∧
          d.spanSet e t = .ok set ∧
          (((props pe.elementtype).wrefable = false ∧ ElementGroup.structural.contains pe.elementtype = true ∧
              addToLayer F parent parent t lt (some set) e d = (.ok k, d')) ∨
           ((props pe.elementtype).wrefable = true ∧ ∃ sel common a, unwrapRes (Selector.fromQuery d { elementgroup := .is .structural }) = .ok sel ∧
              commonAncestors d F sel [] (d.getSpanKeys e) = .ok common ∧ d.suitableAncestor lt common = some a ∧
              addToLayer F parent a t lt (some set) e d = (.ok k, d'))))) := by
  unfold annotate at h
  obtain ⟨pe, h1, h⟩ := ofRes_bind h
  have hpe : d.getElement parent = some pe := by
    cases hg : d.getElement parent with
    | none => rw [hg] at h1; cases h1
    | some x => rw [hg] at h1; cases h1; rfl
  refine ⟨pe, hpe, ?_⟩
  have direct : ∀ {d : Document}, ((M.ofRes fun d => d.checkElementAddable parent e.elementtype) >>= fun _ => addElementTo F parent e) d = (.ok k, d') →
      AddsTo F d d' parent e k := by
    intro d h
    obtain ⟨_, h2, h⟩ := ofRes_bind h
    exact ⟨h2, h⟩
  cases hs : ElementGroup.span.contains e.elementtype with
  | false =>
    simp only [hs] at h
    exact Or.inl ⟨rfl, direct h⟩
  | true =>
    simp only [hs, if_true] at h
    obtain ⟨t, h2, h⟩ := ofRes_bind h
    have ht : e.elementtype.annotationtype = some t := by
      cases hg : e.elementtype.annotationtype with
      | none => rw [hg] at h2; cases h2
      | some x => rw [hg] at h2; cases h2; rfl
    obtain ⟨lt, h3, h⟩ := ofRes_bind h
    have hlt : t.layertype = some lt := by
      cases hg : t.layertype with
      | none => rw [hg] at h3; cases h3
      | some x => rw [hg] at h3; cases h3; rfl
    cases hw : (props pe.elementtype).wrefable with
    | true =>
      simp only [hw, if_true] at h
      obtain ⟨set, h4, h⟩ := ofRes_bind h
      rw [M.run_bind, M.run_get] at h
      simp only at h
      split at h
      · cases h
      · obtain ⟨sel, h5, h⟩ := ofRes_bind h
        obtain ⟨common, h6, h⟩ := ofRes_bind h
        rw [M.run_bind, M.run_get] at h
        simp only at h
        cases ha : d.suitableAncestor lt common with
        | some a =>
          rw [ha] at h
          exact Or.inr (Or.inr ⟨rfl, t, lt, set, ht, hlt, h4, Or.inr ⟨rfl, sel, common, a, h5, h6, ha, h⟩⟩)
        | none => rw [ha] at h; cases h
    | false =>
      simp only [hw] at h
      cases hst : ElementGroup.structural.contains pe.elementtype with
      | true =>
        simp only [hst, if_true] at h
        obtain ⟨set, h4, h⟩ := ofRes_bind h
        exact Or.inr (Or.inr ⟨rfl, t, lt, set, ht, hlt, h4, Or.inl ⟨rfl, rfl, h⟩⟩)
      | false =>
        simp only [hst] at h
        exact Or.inr (Or.inl ⟨rfl, rfl, rfl, direct h⟩)

/-- A successful `annotate` is one or two successful additions to live elements. -/
theorem annotate_adds {F parent : Nat} {e : ElementData} {d d' : Document} {k : Nat} (h : annotate F parent e d = (.ok k, d')) :
    ∃ d1 layer, (d1 = d ∨ ∃ holder lt set lk, AddsTo F d d1 holder (layerBuilder lt set) lk) ∧ AddsTo F d1 d' layer e k := by
  obtain ⟨pe, _, h | h | ⟨_, t, lt, set, _, _, _, h | h⟩⟩ := annotate_ok h
  · exact ⟨d, parent, Or.inl rfl, h.2⟩
  · exact ⟨d, parent, Or.inl rfl, h.2.2.2⟩
  · obtain ⟨d1, layer, h1, h2⟩ := addToLayer_ok h.2.2
    exact ⟨d1, layer, h1.imp (·.1) fun h => ⟨_, _, _, _, h.2⟩, h2⟩
  · obtain ⟨_, _, _, a, _, _, _, h⟩ := h
    obtain ⟨d1, layer, h1, h2⟩ := addToLayer_ok h
    exact ⟨d1, layer, h1.imp (·.1) fun h => ⟨_, _, _, _, h.2⟩, h2⟩

theorem AddsTo.planted {F : Nat} {d d' : Document} {p : Nat} {e : ElementData} {k : Nat} (h : AddsTo F d d' p e k) (hi : CInv d)
    (hc : CleanBuilder e) (hf : d.FreshIds (builderIds e)) : Planted d d' p k e :=
  have ⟨pe, hp, _⟩ := checkElementAddable_ok h.accepted
  Folia.planted hi ⟨pe, hp⟩ hc hf h.run

theorem layerBuilder_clean (lt : ElementType) (set : Option String) : CleanBuilder (layerBuilder lt set) ∧ builderIds (layerBuilder lt set) = [] := by
  rw [layerBuilder_eq]
  cases set <;> simp [CleanBuilder, CleanData, Attribute.decodable, builderIds, ElementData.id, builderIdsList]

/-- What a successful `annotate` with a clean builder with fresh identifiers achieves. -/
theorem annotate_planted {F parent : Nat} {e : ElementData} {d d' : Document} {k : Nat} (hi : CInv d) (hc : CleanBuilder e)
    (hf : d.FreshIds (builderIds e)) (h : annotate F parent e d = (.ok k, d')) :
    ∃ d1 layer, (d1 = d ∨ ∃ holder lt set lk, Planted d d1 holder lk (layerBuilder lt set)) ∧ Planted d1 d' layer k e := by
  obtain ⟨d1, layer, h1, h2⟩ := annotate_adds h
  rcases h1 with rfl | ⟨holder, lt, set, lk, h1⟩
  · exact ⟨d1, layer, Or.inl rfl, h2.planted hi hc hf⟩
  · obtain ⟨hlc, hli⟩ := layerBuilder_clean lt set
    have hp1 := h1.planted hi hlc (by rw [hli]; exact ⟨List.nodup_nil, by simp⟩)
    refine ⟨d1, layer, Or.inr ⟨holder, lt, set, lk, hp1⟩, h2.planted (hp1.steps.clean hi).1 hc ⟨hf.1, fun id hid => ?_⟩⟩
    cases hk : d1.elementKeyById id with
    | none => rfl
    | some k =>
      rcases hp1.index id k hk with h3 | h3
      · have := hf.2 id hid
        unfold Document.elementKeyById Store.idToKey at this
        rw [h3] at this; cases this
      · rw [hli] at h3; cases h3

theorem annotateSpan_ok {F : Nat} {e : ElementData} {d d' : Document} {k : Nat} (h : annotateSpan F e d = (.ok k, d')) :
    ElementGroup.span.contains e.elementtype = true ∧ ∃ w ws, d.getSpanKeys e = w :: ws ∧ annotate F w e d = (.ok k, d') := by
  unfold annotateSpan at h
  split at h
  · rename_i hs
    rw [M.run_bind, M.run_get] at h
    simp only at h
    cases hw : d.getSpanKeys e with
    | nil => rw [hw] at h; cases h
    | cons w ws => rw [hw] at h; exact ⟨hs, w, ws, rfl, h⟩
  · cases h

end Folia
