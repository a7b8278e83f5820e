import Verif.Lemmas.RoundStable
import Verif.Props.Serialise
import Verif.Props.Tree
/-! What is written for elements that an edit leaves alone (C80). -/
namespace Folia
open Document

/-- With consistent links, children of elements below `k` are below `k`. -/
theorem below_child {d : Document} (hl : d.LinksAgree) {k j c : Nat} (h : j = k ∨ d.Above k j) (hc : d.Lists j c) : c = k ∨ d.Above k c := by
  have hp := (hl.agree j c).mp hc
  rcases h with rfl | h
  · exact .inr (.parent hp)
  · exact .inr (.up hp h)

section
variable {d d' : Document} {A A' : ElementData → List (String × String)} {S : Nat → Prop}

mutual
/-- Two views of an item in two documents that agree on its elements are written in the same way. -/
theorem item_same (hc : ∀ j c, S j → d.Lists j c → S c)
    (hS : ∀ j x x', S j → d.getElement j = some x → d'.getElement j = some x' → x'.elementtype = x.elementtype ∧ A' x' = A x ∧ x'.data = x.data) :
    ∀ {i i' : Item} (last : Bool), Shows d i → Shows d' i' → i'.data = i.data → (∀ j, i.data = .element j → S j) → itemXml A' last i' = itemXml A last i
  | .text _, i', _, _, _, h, _ => by cases i' <;> simp_all [Item.data, itemXml]
  | .comment _, i', _, _, _, h, _ => by cases i' <;> simp_all [Item.data, itemXml]
  | .ref _, i', _, _, _, h, _ => by cases i' <;> simp_all [Item.data, itemXml]
  | .node k e items, i', last, h1, h2, h, hk => by
    cases i' with
    | node k' e' items' =>
      simp only [Item.data, DataType.element.injEq] at h
      subst h
      obtain ⟨g1, g2, g3⟩ := h1
      obtain ⟨g1', g2', g3'⟩ := h2
      have hSk := hk k' rfl
      obtain ⟨t1, t2, t3⟩ := hS k' e e' hSk g1 g1'
      have hd : items'.map Item.data = items.map Item.data := by rw [← g2, ← g2', t3]
      have hem : items'.isEmpty = items.isEmpty := by
        have := congrArg List.length hd
        simp only [List.length_map] at this
        cases items <;> cases items' <;> simp_all
      rw [itemXml, itemXml, t1, t2, hem, items_same_xml hc hS last g3 g3' hd fun j hj => hc k' j hSk ⟨e, g1, by rw [g2]; exact hj⟩]
    | _ => simp [Item.data] at h
theorem items_same_xml (hc : ∀ j c, S j → d.Lists j c → S c)
    (hS : ∀ j x x', S j → d.getElement j = some x → d'.getElement j = some x' → x'.elementtype = x.elementtype ∧ A' x' = A x ∧ x'.data = x.data) :
    ∀ {is is' : List Item} (last : Bool), ShowsAll d is → ShowsAll d' is' → is'.map Item.data = is.map Item.data → (∀ j, .element j ∈ is.map Item.data → S j) →
    itemsXml A' last is' = itemsXml A last is
  | [], is', _, _, _, h, _ => by cases is' <;> simp_all [itemsXml]
  | i :: is, is', last, h1, h2, h, hk => by
    cases is' with
    | nil => simp at h
    | cons i' is' =>
      simp only [List.map_cons, List.cons.injEq] at h
      have hem : is'.isEmpty = is.isEmpty := by
        have := congrArg List.length h.2
        simp only [List.length_map] at this
        cases is <;> cases is' <;> simp_all
      rw [itemsXml, itemsXml, hem, item_same hc hS _ h1.1 h2.1 h.1 fun j hj => hk j (by simp [hj]),
        items_same_xml hc hS last h1.2 h2.2 h.2 fun j hj => hk j (by simp only [List.map_cons, List.mem_cons]; exact .inr hj)]
end

theorem flat_refs : ∀ {refs : List Nat} {is : List Item}, is.map Item.data = refs.map .spanReference → flatItems A' is = []
  | [], is, h => by cases is <;> simp_all [flatItems]
  | r :: refs, is, h => by
    cases is with
    | nil => simp at h
    | cons i is =>
      simp only [List.map_cons, List.cons.injEq] at h
      rw [flatItems, flat_refs h.2]
      cases i <;> simp_all [Item.data, flatItem]

mutual
/-- The same up to references to spans, which are not written. -/
theorem item_flat (hc : ∀ j c, S j → d.Lists j c → S c)
    (hS : ∀ j x x', S j → d.getElement j = some x → d'.getElement j = some x' → x'.elementtype = x.elementtype ∧ A' x' = A x ∧
      ∃ refs : List Nat, x'.data = x.data ++ refs.map .spanReference) :
    ∀ {i i' : Item}, Shows d i → Shows d' i' → i'.data = i.data → (∀ j, i.data = .element j → S j) → flatItem A' i' = flatItem A i
  | .text _, i', _, _, h, _ => by cases i' <;> simp_all [Item.data, flatItem]
  | .comment _, i', _, _, h, _ => by cases i' <;> simp_all [Item.data, flatItem]
  | .ref _, i', _, _, h, _ => by cases i' <;> simp_all [Item.data, flatItem]
  | .node k e items, i', h1, h2, h, hk => by
    cases i' with
    | node k' e' items' =>
      simp only [Item.data, DataType.element.injEq] at h
      subst h
      obtain ⟨g1, g2, g3⟩ := h1
      obtain ⟨g1', g2', g3'⟩ := h2
      have hSk := hk k' rfl
      obtain ⟨t1, t2, refs, t3⟩ := hS k' e e' hSk g1 g1'
      have hd : items'.map Item.data = items.map Item.data ++ refs.map .spanReference := by rw [← g2, ← g2', t3]
      rw [flatItem, flatItem, t1, t2, items_flat hc hS g3 g3' hd fun j hj => hc k' j hSk ⟨e, g1, by rw [g2]; exact hj⟩]
    | _ => simp [Item.data] at h
theorem items_flat (hc : ∀ j c, S j → d.Lists j c → S c)
    (hS : ∀ j x x', S j → d.getElement j = some x → d'.getElement j = some x' → x'.elementtype = x.elementtype ∧ A' x' = A x ∧
      ∃ refs : List Nat, x'.data = x.data ++ refs.map .spanReference) :
    ∀ {is is' : List Item} {refs : List Nat}, ShowsAll d is → ShowsAll d' is' → is'.map Item.data = is.map Item.data ++ refs.map .spanReference →
    (∀ j, .element j ∈ is.map Item.data → S j) → flatItems A' is' = flatItems A is
  | [], is', _, _, _, h, _ => by rw [flat_refs (by simpa using h), flatItems]
  | i :: is, is', refs, h1, h2, h, hk => by
    cases is' with
    | nil => simp at h
    | cons i' is' =>
      simp only [List.map_cons, List.cons_append, List.cons.injEq] at h
      rw [flatItems, flatItems, item_flat hc hS h1.1 h2.1 h.1 fun j hj => hk j (by simp [hj]),
        items_flat hc hS h1.2 h2.2 h.2 fun j hj => hk j (by simp only [List.map_cons, List.mem_cons]; exact .inr hj)]
end
end

/-- The attributes that are written for an element do not depend on other elements. -/
theorem attrsAre_elements {X : Ext} {d d' : Document} (hd : d'.declarations = d.declarations) (hp : d'.processors = d.processors) {e e' : ElementData}
    (ht : e'.elementtype = e.elementtype) (ha : e'.attribs = e.attribs) {l : List (String × String)} (h : AttrsAre X d e l) : AttrsAre X d' e' l := by
  have hk : e'.declarationKeyU = e.declarationKeyU := by simp only [ElementData.declarationKeyU, ElementData.declarationKey, ha]
  have hkp : e'.processorKeyU = e.processorKeyU := by simp only [ElementData.processorKeyU, ElementData.processorKey, ha]
  have hks : e'.subsetKeyU = e.subsetKeyU := by simp only [ElementData.subsetKeyU, ElementData.subsetKey, ha]
  have hkc : e'.classKeyU = e.classKeyU := by simp only [ElementData.classKeyU, ElementData.classKey, ha]
  have hg : d'.getDeclaration = d.getDeclaration := by funext k; unfold Document.getDeclaration; rw [hd]
  have hgp : d'.getProcessor = d.getProcessor := by funext k; unfold Document.getProcessor; rw [hp]
  have e1 : e'.getDeclaration d' = e.getDeclaration d := by unfold ElementData.getDeclaration; rw [hk, hg]
  have e2 : e'.getSet d' = e.getSet d := by unfold ElementData.getSet; rw [e1]
  have e3 : e'.getSubset d' = e.getSubset d := by unfold ElementData.getSubset; rw [e1, hks]
  have e4 : e'.getClass d' = e.getClass d := by unfold ElementData.getClass; rw [e1, hks, hkc]
  have e5 : e'.getProcessorId d' = e.getProcessorId d := by unfold ElementData.getProcessorId ElementData.getProcessor; rw [hkp, hgp]
  unfold AttrsAre at h ⊢
  rw [ha, ht, hk, hkp, hg, e2, e3, e4, e5]
  exact h

/-- The declarations are the same, apart from the classes and subsets that occur. -/
def DeclsKept (d d' : Document) : Prop := ∀ k dec', d'.getDeclaration k = some dec' →
  ∃ dec, d.getDeclaration k = some dec ∧ dec'.annotationtype = dec.annotationtype ∧ dec'.processors = dec.processors

/-- What elements report, if their attributes stay as they are. -/
theorem values_kept {d d' : Document} (hi : CInv d) (hs : Steps True d d') {k : Nat} {e e' : ElementData} (he : d.getElement k = some e)
    (ha : e'.attribs = e.attribs) (hfeature : e.elementtype = .feature → e.subsetKeyU ≠ .ok none) :
    e'.getSet d' = e.getSet d ∧ e'.getClass d' = e.getClass d ∧ e'.getSubset d' = e.getSubset d ∧ e'.getProcessorId d' = e.getProcessorId d := by
  obtain ⟨hi', hmono⟩ := hs.clean hi
  have hpm := hs.procMono
  obtain ⟨plain, enc, h1, h2, h3⟩ := (hi.elem k e he).refs
  obtain ⟨v1, v2, v3, v4, v5, v6⟩ := values_of_refs (d := d) h1 h2
  obtain ⟨w1, w2, w3, w4, w5, w6⟩ := values_of_refs (d := d') (ha.trans h1) h2
  have hsub := (keysU_of_refs h1 h2).2.2.2
  rw [v3, v4, v5, v6, w3, w4, w5, w6]
  simp only [Except.ok.injEq]
  refine ⟨?_, ?_, ?_, ?_⟩
  · cases hdec : enc.dec with
    | none => rfl
    | some dk =>
      obtain ⟨dec, hget⟩ := h3.dec dk hdec
      obtain ⟨dec', hget', hg⟩ := hmono dk dec hget
      simp only [Option.bind_some, hget, hget']
      exact hg.set
  · cases hcls : enc.cls with
    | none => rfl
    | some c =>
      obtain ⟨dk, dec, hdec, hget, s, hs⟩ := h3.cls c hcls
      obtain ⟨dec', hget', hg⟩ := hmono dk dec hget
      simp only [hdec, Option.bind_some, hget, hget']
      by_cases ht : e.elementtype = .feature
      · rw [if_pos ht] at hs
        cases hsb : enc.subset with
        | none => exact absurd (by rw [hsub, hsb]) (hfeature ht)
        | some sb => simp only [Option.isSome_some, if_true]; rw [hs]; exact hg.subclasses.get _ _ hs
      · rw [if_neg ht] at hs
        cases hsb : enc.subset with
        | some sb => exact absurd (h3.subset sb hsb).1 ht
        | none => simp only [Option.isSome_none]; exact (hg.classes.get _ _ hs).trans hs.symm
  · cases hsb : enc.subset with
    | none => simp
    | some c =>
      obtain ⟨_, dk, dec, hdec, hget, s, hs⟩ := h3.subset c hsb
      obtain ⟨dec', hget', hg⟩ := hmono dk dec hget
      simp only [hdec, Option.bind_some, hget, hget']
      exact (hg.subsets.get _ _ hs).trans hs.symm
  · cases hp : enc.proc with
    | none => rfl
    | some p =>
      obtain ⟨q, hq⟩ := h3.proc p hp
      obtain ⟨q', h6, h7⟩ := hpm p q hq
      simp only [Option.bind_some, hq, h6, Option.map_some, Option.some.injEq]
      rw [h7]

theorem attrsAre_kept {X : Ext} {d d' : Document} (hi : CInv d) (hs : Steps True d d') (hk : DeclsKept d d') {k : Nat} {e e' : ElementData}
    (he : d.getElement k = some e) (ht : e'.elementtype = e.elementtype) (ha : e'.attribs = e.attribs)
    (hfeature : e.elementtype = .feature → e.subsetKeyU ≠ .ok none) {l : List (String × String)} (h : AttrsAre X d e l) : AttrsAre X d' e' l := by
  obtain ⟨e1, e2, e3, e4⟩ := values_kept hi hs he ha hfeature
  have hk1 : e'.declarationKeyU = e.declarationKeyU := by simp only [ElementData.declarationKeyU, ElementData.declarationKey, ha]
  have hkp : e'.processorKeyU = e.processorKeyU := by simp only [ElementData.processorKeyU, ElementData.processorKey, ha]
  obtain ⟨_, hmono⟩ := hs.clean hi
  obtain ⟨refs, rfl, h⟩ := h
  refine ⟨refs, by rw [ha], ?_⟩
  rcases h with ⟨h1, h2⟩ | ⟨dk, dec, set, subset, cls, proc, h1, h2, h3, h4, h5, h6, h7⟩
  · exact .inl ⟨hk1.trans h1, h2⟩
  · obtain ⟨dec', hget', _⟩ := hmono dk dec h2
    obtain ⟨dec2, g1, g2, g3⟩ := hk dk dec' hget'
    rw [h2] at g1; cases g1
    refine .inr ⟨dk, dec', set, subset, cls, proc, hk1.trans h1, hget', e3.trans h3, e2.trans h4, h5, ?_, ?_⟩
    · rw [ht, g2, e1]
      rcases h6 with ⟨h6, h8⟩ | ⟨⟨h6, j, dec1, b1, b2, b3⟩, h8⟩
      · refine .inl ⟨h6.imp id fun hall j dec1' hj hty => ?_, h8⟩
        obtain ⟨dec1, b1, b2, _⟩ := hk j dec1' hj
        exact hall j dec1 b1 (b2.symm.trans hty)
      · refine .inr ⟨⟨h6, ?_⟩, h8⟩
        obtain ⟨dec1', b4, _⟩ := hmono j dec1 b1
        obtain ⟨dec3, b5, b6, _⟩ := hk j dec1' b4
        rw [b1] at b5; cases b5
        exact ⟨j, dec1', b4, b6.trans b2, b3⟩
    · rw [hkp, g3, e4]
      exact h7

end Folia
