import Verif.Lemmas.TextRound
import Verif.Props.RoundBody
/-! C77: texts survive writing and reading. -/
namespace Folia
open Document

/-- Reading back what was written gives every element of the body that has an identifier the same text as before, and the same failure if
it has no text: for all sets, classes and other parameters, and the same at every depth.

Missing for the full claim: what `C45_tree_partial` says, and word references must refer to elements of the body by their identifiers. -/
theorem C77_text_partial {X : Ext} {F F' : Nat} {ps : DocumentProperties} {d d' : Document} (hr : Consistent X F d) (hps : ps.processor = none)
    (h : Rereads X F' ps d d') {e : ElementData} {items : List Item} (hb : Below d 0 e items) (hl : LegibleIn (.node 0 e items))
    (hw : ∀ e', InTree e' (.node 0 e items) → Rewritable X d e') (hroom : RoomLeft d')
    (hrefs : ∀ e', InTree e' (.node 0 e items) → e'.elementtype = .wordReference → RefersWithin (.node 0 e items) e')
    {a : ElementData} (ha : InTree a (.node 0 e items)) {i : String} (hi : a.id = some i) :
    ∃ x, d'.getElementById i = .ok (some x) ∧ x.elementtype = a.elementtype ∧
      ∀ set cls set' cls' retain strict G, textByKey d' set' cls' retain strict G x none = textByKey d set cls retain strict G a none := by
  have hd' : Reachable X F' d' := by
    obtain ⟨G, evs, _, h⟩ := h
    exact .parse h
  obtain ⟨hm, _⟩ := C45_tree_partial hr hps h hb hl hw hroom
  have hsim := counterpart_sim (cleanReachable_reachable hr.clean) hd' hb hm hrefs
  obtain ⟨k, x, h1, h2, h3⟩ := counterpart_of hm ha
  exact ⟨x, (C62_found hd' h1 (h3.id.trans hi)).2, h3.type, fun set cls set' cls' retain strict G => hsim.text set cls set' cls' retain G strict none h2⟩

/-- The text of the whole body is the same as before.

Missing for the full claim: the same as in `C77_text_partial`. -/
theorem C77_body_partial {X : Ext} {F F' : Nat} {ps : DocumentProperties} {d d' : Document} (hr : Consistent X F d) (hps : ps.processor = none)
    (h : Rereads X F' ps d d') {e : ElementData} {items : List Item} (hb : Below d 0 e items) (hl : LegibleIn (.node 0 e items))
    (hw : ∀ e', InTree e' (.node 0 e items) → Rewritable X d e') (hroom : RoomLeft d')
    (hrefs : ∀ e', InTree e' (.node 0 e items) → e'.elementtype = .wordReference → RefersWithin (.node 0 e items) e') :
    ∀ G set cls set' cls' strict retain, d'.textByKey G 0 set' cls' strict retain = d.textByKey G 0 set cls strict retain := by
  have hd' : Reachable X F' d' := by
    obtain ⟨G, evs, _, h⟩ := h
    exact .parse h
  obtain ⟨hm, _⟩ := C45_tree_partial hr hps h hb hl hw hroom
  have hsim := counterpart_sim (cleanReachable_reachable hr.clean) hd' hb hm hrefs
  obtain ⟨x, h1, h2⟩ := id hm
  intro G set cls set' cls' strict retain
  simp only [Document.textByKey, h1, hb.1]
  exact hsim.text set cls set' cls' retain G strict none ⟨0, items, none, 0, .refl, hm, h1⟩

/-- If the text of an element with an identifier can be asked before and after, by set and class, it is the same.

Missing for the full claim: the same as in `C77_text_partial`; and the set may not be declared any more. -/
theorem C77_params_partial {X : Ext} {F F' : Nat} {ps : DocumentProperties} {d d' : Document} (hr : Consistent X F d) (hps : ps.processor = none)
    (h : Rereads X F' ps d d') {e : ElementData} {items : List Item} (hb : Below d 0 e items) (hl : LegibleIn (.node 0 e items))
    (hw : ∀ e', InTree e' (.node 0 e items) → Rewritable X d e') (hroom : RoomLeft d')
    (hrefs : ∀ e', InTree e' (.node 0 e items) → e'.elementtype = .wordReference → RefersWithin (.node 0 e items) e')
    {k k' : Nat} {a : ElementData} (hk : d.getElement k = some a) (ha : InTree a (.node 0 e items)) {i : String} (hi : a.id = some i) (hk' : d'.elementKeyById i = some k')
    {G : Nat} {p : TextParameters} {s t : String} (hs : d.text G k p = .ok s) (ht : d'.text G k' p = .ok t) : t = s := by
  obtain ⟨x, h1, _, h3⟩ := C77_text_partial hr hps h hb hl hw hroom hrefs ha hi
  have hd' : Reachable X F' d' := by
    obtain ⟨G, evs, _, h⟩ := h
    exact .parse h
  have hx : d'.getElement k' = some x := by
    rw [(C02_index_sound hd' i).1, hk'] at h1
    exact Except.ok.inj h1
  have elem : ∀ {d : Document} {e : ElementData} {s : String}, elementText d G e p = .ok s →
      ∃ dk ck, Folia.textByKey d dk ck p.retaintokenisation p.strict G e none = .ok s := by
    intro d e s h
    unfold elementText at h
    split at h
    · split at h
      · cases h
      · split at h
        · exact ⟨_, _, h⟩
        · cases h
    · split at h <;> cases h
  simp only [Document.text, hk] at hs
  simp only [Document.text, hx] at ht
  obtain ⟨dk, ck, hs⟩ := elem hs
  obtain ⟨dk', ck', ht⟩ := elem ht
  rw [h3 dk ck, hs] at ht
  exact (Except.ok.inj ht).symm

/-- A sufficient check for `RefersWithin`. -/
def Sample.refersWithin (d : Document) (n : Nat) : Bool := match treeAt d n 0 with
  | some root => (elementsOf root).all fun e => e.elementtype != .wordReference || match e.idref with
    | some i => (elementsOf root).any fun t => t.id == some i
    | none => false
  | none => false

mutual
theorem mem_elementsIn {e : ElementData} : ∀ (is : List Item), e ∈ elementsIn is → ∃ i ∈ is, InTree e i
  | [], h => by simp [elementsIn] at h
  | i :: is, h => by
    rw [elementsIn, List.mem_append] at h
    rcases h with h | h
    · exact ⟨i, List.mem_cons_self .., mem_elementsOf i h⟩
    · obtain ⟨j, hj, h⟩ := mem_elementsIn is h
      exact ⟨j, List.mem_cons_of_mem _ hj, h⟩
theorem mem_elementsOf {e : ElementData} : ∀ (i : Item), e ∈ elementsOf i → InTree e i
  | .text _, h => by simp [elementsOf] at h
  | .comment _, h => by simp [elementsOf] at h
  | .ref _, h => by simp [elementsOf] at h
  | .node k e0 items, h => by
    rw [elementsOf] at h
    rcases List.mem_cons.mp h with rfl | h
    · exact .here
    · obtain ⟨j, hj, h⟩ := mem_elementsIn items h
      exact .inner hj h
end

theorem Sample.refersWithin_sound {d : Document} {n : Nat} (h : Sample.refersWithin d n = true) {e : ElementData} {items : List Item} (hb : Below d 0 e items) :
    ∀ e', InTree e' (.node 0 e items) → e'.elementtype = .wordReference → RefersWithin (.node 0 e items) e' := by
  unfold Sample.refersWithin at h
  split at h
  · rename_i root hroot
    obtain ⟨h1, h2⟩ := treeAt_shows n 0 hroot
    have := shows_unique h1 hb h2
    subst this
    intro e' he' ht
    have h := List.all_eq_true.mp h e' (elementsOf_mem he')
    simp only [ht, bne_self_eq_false, Bool.false_or] at h
    split at h
    · rename_i i hi
      obtain ⟨t, ht, hti⟩ := List.any_eq_true.mp h
      exact ⟨i, t, hi, mem_elementsOf _ ht, by simpa using hti⟩
    · cases h
  · cases h

/-- The hypotheses are met by a document with a span over two words; the texts are those of the words. -/
example : Consistent Sample.X Sample.F Sample.doc ∧ NoDates Sample.doc ∧ (∃ d', Rereads Sample.X Sample.F {} Sample.doc d' ∧ RoomLeft d' ∧
      d'.text Sample.F 0 {} = .ok "Hello world") ∧
    (∃ e items, Below Sample.doc 0 e items ∧ LegibleIn (.node 0 e items) ∧ (∀ e', InTree e' (.node 0 e items) → Rewritable Sample.X Sample.doc e') ∧
      ∀ e', InTree e' (.node 0 e items) → e'.elementtype = .wordReference → RefersWithin (.node 0 e items) e') ∧
    Sample.doc.text Sample.F 0 {} = .ok "Hello world" := by
  refine ⟨Sample.doc_consistent, Sample.doc_nodates, ⟨Sample.value (Sample.reread Sample.doc), Sample.reread_spec (Sample.value_eq (by decide +kernel)),
    roomLeft_sound (by decide +kernel), by decide +kernel⟩, ?_, by decide +kernel⟩
  obtain ⟨e, items, h1, h2, h3⟩ := bodyOk_sound (X := Sample.X) (d := Sample.doc) (n := 20) (by decide +kernel)
  exact ⟨e, items, h1, h2, h3, Sample.refersWithin_sound (n := 20) (by decide +kernel) h1⟩

/-- A paragraph with text content that has a space between two styled words. -/
def Sample.styledWords : List Op := [.addElementTo 0 (((ElementData.new .paragraph).setAttrib (.id "p")).addElement
  ((((ElementData.new .textContent).addElement ((ElementData.new .textMarkupStyle).push (.text "Hello"))).push (.text " ")).addElement
    ((ElementData.new .textMarkupStyle).push (.text "world"))))]

/-- Text can change: a space between two elements inside of a text content is lost, and with it the separation of words. -/
theorem C77_blank_counterexample : ∃ d d', Consistent Sample.X Sample.F d ∧ NoDates d ∧ Rereads Sample.X Sample.F {} d d' ∧
    d.text Sample.F 0 {} = .ok "Hello world" ∧ d'.text Sample.F 0 {} = .ok "Helloworld" := by
  let d := runOps Sample.F Sample.styledWords Sample.fresh
  exact ⟨d, Sample.value (Sample.reread d), Sample.consistent (by decide +kernel), noDates_of_check (by decide +kernel), Sample.reread_spec (Sample.value_eq (by decide +kernel)),
    by decide +kernel, by decide +kernel⟩

end Folia
