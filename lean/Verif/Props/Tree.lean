import Verif.Lemmas.Tame
import Verif.Decide
/-! C14 to C19 and C22: the element tree. -/
namespace Folia
open Document

/-! ### C14 Parent and child links agree -/

/-- Histories in which no call goes wrong half way keep parent and child links consistent.

Missing for the full claim: histories with calls that fail half way, with identifiers that are already known, or with `add_element` on
builders with children. For these the claim is false, see the counterexamples. Parsed documents are treated apart. -/
theorem C14_links_agree_partial {F : Nat} {d : Document} (h : TameReachable F d) : d.LinksAgree := h.links

example : TameReachable Sample.F Sample.doc ∧ Sample.doc.Lists 5 2 ∧ Sample.doc.HasParent 2 5 ∧ Sample.doc.Lists 2 6 :=
  ⟨Sample.doc_tame, by decide +kernel, by decide +kernel, by decide +kernel⟩

/-- A word reference to an unknown identifier makes `add_element_to` fail half way: the span lists its second word reference, which does
not name it as its parent. -/
theorem C14_failed_call_counterexample : ∃ d, CleanReachable Sample.X Sample.F d ∧ ¬ d.LinksAgree := by
  refine ⟨runOps Sample.F [.addElementTo 0 ((ElementData.new .chunk).withSpan ["x", "y"])] Sample.fresh,
    .ops _ Sample.fresh_clean (by decide +kernel), fun h => ?_⟩
  have h1 : ¬ (runOps Sample.F [.addElementTo 0 ((ElementData.new .chunk).withSpan ["x", "y"])] Sample.fresh).HasParent 2 3 := by decide +kernel
  exact h1 ((h.agree 3 2).mp (by decide +kernel))

/-- `add_element` does not tell the children of the new element who their parent is. -/
theorem C14_add_element_counterexample : ∃ d, CleanReachable Sample.X Sample.F d ∧ ¬ d.LinksAgree := by
  refine ⟨runOps Sample.F [.addElement Sample.sentence] Sample.fresh, .ops _ Sample.fresh_clean (by decide +kernel), fun h => ?_⟩
  have h1 : ¬ (runOps Sample.F [.addElement Sample.sentence] Sample.fresh).HasParent 2 5 := by decide +kernel
  exact h1 ((h.agree 5 2).mp (by decide +kernel))

/-- Adding a builder with a known identifier discards it but adopts its children: they name an element that does not list them. Every
call succeeds. -/
theorem C14_known_id_counterexample : ∃ d, CleanReachable Sample.X Sample.F d ∧ ¬ d.LinksAgree := by
  refine ⟨runOps Sample.F [.addElementTo 0 Sample.sentence, .addElementTo 0 ((((ElementData.new .sentence).setAttrib (.id "s1")).addElement
    (Sample.word "w3" "again")))] Sample.fresh, .ops _ Sample.fresh_clean (by decide +kernel), fun h => ?_⟩
  have h1 : ¬ (runOps Sample.F [.addElementTo 0 Sample.sentence, .addElementTo 0 ((((ElementData.new .sentence).setAttrib (.id "s1")).addElement
    (Sample.word "w3" "again")))] Sample.fresh).Lists 5 7 := by decide +kernel
  exact h1 ((h.agree 5 7).mpr (by decide +kernel))

/-! ### C15 attach_element moves an element -/

/-- `d'` is `d` with `c` made the last child of `p`. -/
structure Moved (d d' : Document) (p c : Nat) : Prop where
  rest : d' = { d with elements := d'.elements }
  count : d'.elements.len = d.elements.len
  index : d'.elements.index = d.elements.index
  child : ∀ q, d'.HasParent c q ↔ q = p
  listed : ∀ q, d'.Lists q c ↔ q = p
  elements : ∀ j e, d.getElement j = some e → ∃ e', d'.getElement j = some e' ∧ e'.elementtype = e.elementtype ∧ e'.attribs = e.attribs ∧
    e'.key = e.key ∧ (j ≠ c → e'.parent = e.parent) ∧ (j ≠ p → e'.data = otherItems c e.data) ∧
    (j = p → e'.data = otherItems c e.data ++ [.element c])

theorem otherItems_eq (c : Nat) (data : List Data) : otherItems c data = data.filter (!·.isElem c) := by
  unfold otherItems
  congr 1
  funext x
  cases x <;> simp [DataType.isElem, bne]

/-- The other items keep their order, and none is lost. -/
theorem otherItems_spec (c : Nat) (data : List Data) : (otherItems c data).Sublist data ∧ (∀ x ∈ data, x ≠ .element c → x ∈ otherItems c data) ∧
    .element c ∉ otherItems c data := by
  refine ⟨List.filter_sublist, fun x hx hne => ?_, fun h => ?_⟩
  · rw [otherItems_eq, List.mem_filter]
    refine ⟨hx, ?_⟩
    cases hb : x.isElem c with
    | false => rfl
    | true => exact absurd (isElem_iff.mp hb) hne
  · rw [otherItems_eq, List.mem_filter] at h
    rw [isElem_iff.mpr rfl] at h
    cases h.2

/-- With consistent links, attaching an existing element to an existing element moves it, and does nothing else. -/
theorem C15_attach_moves {d : Document} (hl : d.LinksAgree) {p c : Nat} {pe ce : ElementData} (hp : d.getElement p = some pe)
    (hc : d.getElement c = some ce) : ∃ d', attachElement p c d = (.ok (), d') ∧ Moved d d' p c ∧ d'.LinksAgree := by
  obtain ⟨s, h1, h2, h3, h4⟩ := attach_effect hl hp hc
  have h5 : ∀ j, Document.getElement { d with elements := s } j = _ := h4
  refine ⟨_, h1, ⟨rfl, h2, h3, fun q => ?_, fun q => ?_, fun j e he => ?_⟩, attach_links hl ⟨pe, hp⟩ ⟨ce, hc⟩ h5⟩
  · rw [attach_hasParent h5 ⟨ce, hc⟩]
    simp
  · rw [attach_lists h5 ⟨pe, hp⟩]
    simp
  · have h6 := h5 j
    rw [he, Option.map_some] at h6
    refine ⟨_, h6, rfl, rfl, rfl, fun hj => if_neg hj, fun hj => ?_, fun hj => ?_⟩
    · simp only [if_neg hj, List.append_nil, otherItems_eq]
    · simp only [if_pos hj, otherItems_eq]

/-- Otherwise it is an error that changes nothing. -/
theorem C15_attach_unknown {d : Document} {p c : Nat} (h : d.getElement p = none ∨ d.getElement c = none) :
    attachElement p c d = (.error (.err .internal), d) := attach_unknown h

example : Sample.doc.LinksAgree ∧ (Sample.doc.getElement 0).isSome ∧ (Sample.doc.getElement 2).isSome ∧ ¬ Sample.doc.Lists 0 2 ∧
    (attachElement 0 2 Sample.doc).2.Lists 0 2 ∧ Sample.doc.getElement 40 = none :=
  ⟨Sample.doc_tame.links, by decide +kernel, by decide +kernel, by decide +kernel, by decide +kernel, by decide +kernel⟩

/-! ### C16 detach_element orphans an element and nothing else -/

/-- `d'` is `d` with `c` made an orphan. -/
structure Orphaned (d d' : Document) (c : Nat) : Prop where
  rest : d' = { d with elements := d'.elements }
  count : d'.elements.len = d.elements.len
  index : d'.elements.index = d.elements.index
  child : ∀ q, ¬ d'.HasParent c q
  listed : ∀ q, ¬ d'.Lists q c
  elements : ∀ j e, d.getElement j = some e → ∃ e', d'.getElement j = some e' ∧ e'.elementtype = e.elementtype ∧ e'.attribs = e.attribs ∧
    e'.key = e.key ∧ (j ≠ c → e'.parent = e.parent) ∧ e'.data = otherItems c e.data

/-- With consistent links, detaching an existing element takes it out of its parent, and does nothing else. Attaching it afterwards has
the same effect as attaching it without detaching it first. -/
theorem C16_detach_orphans {d : Document} (hl : d.LinksAgree) {c : Nat} {ce : ElementData} (hc : d.getElement c = some ce) :
    ∃ d', detachElement c d = (.ok (), d') ∧ Orphaned d d' c ∧ d'.LinksAgree ∧
      ∀ p j, (attachElement p c d').2.getElement j = if (d.getElement p).isSome then (attachElement p c d).2.getElement j else d'.getElement j := by
  obtain ⟨s, h1, h2, h3, h4⟩ := detach_effect hl hc
  have h5 : ∀ j, Document.getElement { d with elements := s } j = _ := h4
  have hl' := detach_links h5 hl
  refine ⟨_, h1, ⟨rfl, h2, h3, fun q hq => ?_, fun q hq => ?_, fun j e he => ?_⟩, hl', fun p j => ?_⟩
  · exact ((detach_hasParent h5).mp hq).1 rfl
  · exact ((detach_lists h5).mp hq).1 rfl
  · have h6 := h5 j
    rw [he, Option.map_some] at h6
    refine ⟨_, h6, rfl, rfl, rfl, fun hj => if_neg hj, ?_⟩
    simp only [otherItems_eq]
  · cases hp : d.getElement p with
    | none =>
      rw [attach_unknown (Or.inl (by rw [h5, hp]; rfl))]
      simp
    | some pe =>
      obtain ⟨s1, a1, _, _, a4⟩ := attach_effect hl hp hc
      obtain ⟨s2, b1, _, _, b4⟩ := attach_effect hl' (p := p) (c := c) (by rw [h5, hp]; rfl) (by rw [h5, hc]; rfl)
      rw [a1, b1]
      simp only [Option.isSome_some, if_true]
      show s2.get j = s1.get j
      rw [a4, b4, h5]
      cases d.getElement j with
      | none => rfl
      | some e =>
        simp only [Option.map_some, Option.some.injEq]
        congr 1
        · simp
        · by_cases hj : j = c <;> simp [hj]

/-- Detaching an unknown element is an error that changes nothing. -/
theorem C16_detach_unknown {d : Document} {c : Nat} (h : d.getElement c = none) : detachElement c d = (.error (.err .internal), d) := by
  unfold detachElement
  rw [M.run_bind, M.run_get]
  simp only [h]
  rfl

example : Sample.doc.LinksAgree ∧ (Sample.doc.getElement 2).isSome ∧ Sample.doc.Lists 5 2 ∧ ¬ (detachElement 2 Sample.doc).2.Lists 5 2 :=
  ⟨Sample.doc_tame.links, by decide +kernel, by decide +kernel, by decide +kernel⟩

/-! ### C17 The element graph stays a forest -/

/-- In histories in which no call goes wrong half way and nothing is attached below itself, no element is its own ancestor and the
parents of every element end at an element without a parent.

Missing for the full claim: `attach_element` does not check for cycles, see the counterexamples. -/
theorem C17_forest_partial {F : Nat} {d : Document} (h : ForestReachable F d) :
    d.Acyclic ∧ ∀ k e, d.getElement k = some e → d.Rooted k :=
  ⟨h.ranked.acyclic h.tame.links, fun _ e he => h.ranked.rooted h.tame.links ⟨e, he⟩⟩

/-- Nothing stops a user from attaching a sentence to its own word, with links that agree. -/
theorem C17_attach_counterexample : ∃ d, TameReachable Sample.F d ∧ ¬ d.Acyclic := by
  refine ⟨runOps Sample.F [.addElementTo 0 Sample.sentence, .attachElement 2 5] Sample.fresh, .ops _ Sample.fresh_tame (by decide +kernel), fun h => ?_⟩
  exact h 2 (.up (p := 5) (by decide +kernel) (.parent (by decide +kernel)))

/-- Adding a sentence with the identifier of an ancestor of the given parent moves that ancestor below its descendant. -/
theorem C17_known_id_counterexample : ∃ d, CleanReachable Sample.X Sample.F d ∧ ¬ d.Acyclic := by
  refine ⟨runOps Sample.F [.addElementTo 0 Sample.sentence, .addElementTo 2 ((ElementData.new .sentence).setAttrib (.id "s1"))] Sample.fresh,
    .ops _ Sample.fresh_clean (by decide +kernel), fun h => ?_⟩
  exact h 2 (.up (p := 5) (by decide +kernel) (.parent (by decide +kernel)))

theorem ForestReachable.ops {F : Nat} : ∀ (os : List Op) {d : Document}, (∀ o ∈ os, ∀ d, o.NoLoop d) → ForestReachable F d → OpsTame F os d →
    ForestReachable F (runOps F os d)
  | [], _, _, h, _ => h
  | o :: os, _, hn, h, ht => ForestReachable.ops os (fun o ho => hn o (by simp [ho])) (.op o h ht.1.tame (hn o (by simp) _)) ht.2

example : ForestReachable Sample.F Sample.doc ∧ Sample.doc.HasParent 2 5 ∧ Sample.doc.HasParent 5 0 :=
  ⟨.ops Sample.ops (by intro o ho d; simp only [Sample.ops, List.mem_cons, List.not_mem_nil, or_false] at ho
                       rcases ho with rfl | rfl | rfl | rfl | rfl <;> exact trivial)
    (.new (by intro p h; cases h) Sample.fresh_eq) (by decide +kernel), by decide +kernel, by decide +kernel⟩

/-! ### C18 add_element_to materialises the builder tree -/

/-- A successful `add_element_to` with an existing parent and new identifiers adds exactly the builder's tree as last child. -/
theorem C18_builder_tree {X : Ext} {F : Nat} {d d' : Document} (hr : CleanReachable X F d) {p k : Nat} {e : ElementData}
    (hp : (d.getElement p).isSome) (hn : d.NewBuilder e) (h : addElementTo F p e d = (.ok k, d')) : AddedTo d d' p k e := by
  obtain ⟨pe, hpe⟩ := Option.isSome_iff_exists.mp hp
  exact (planted hr.cinv ⟨pe, hpe⟩ hn.1 hn.2 h).spec

/-- So does `annotate`, possibly after adding a layer to hold a span annotation. -/
theorem C18_annotate_tree {X : Ext} {F : Nat} {d d' : Document} (hr : CleanReachable X F d) {p k : Nat} {e : ElementData}
    (hn : d.NewBuilder e) (h : annotate F p e d = (.ok k, d')) :
    (∃ q, AddedTo d d' q k e) ∨
    ∃ d1 holder lt, ∃ set : Option String, ∃ lk q, AddedTo d d1 holder lk { elementtype := lt, attribs := (set.map Attribute.set).toList } ∧ AddedTo d1 d' q k e := by
  obtain ⟨d1, layer, h1, h2⟩ := annotate_planted hr.cinv hn.1 hn.2 h
  rcases h1 with rfl | ⟨holder, lt, set, lk, h1⟩
  · exact Or.inl ⟨layer, h2.spec⟩
  · refine Or.inr ⟨d1, holder, lt, set, lk, layer, ?_, h2.spec⟩
    have := h1.spec
    rw [layerBuilder_eq] at this
    exact this

example : CleanReachable Sample.X Sample.F Sample.fresh ∧ Sample.fresh.NewBuilder Sample.sentence ∧
    (addElementTo Sample.F 0 Sample.sentence Sample.fresh).1 = .ok 5 :=
  ⟨Sample.fresh_clean, by decide +kernel, by decide +kernel⟩

/-! ### C19 annotate validates before it changes anything -/

/-- The specification of `t` accepts an element of type `t'`. -/
def Accepts (t t' : ElementType) : Prop :=
  ∃ a ∈ (props t).acceptedData, a = .type t' ∨ ∃ g : ElementGroup, a = .group g ∧ g.contains t' = true

theorem accepts_iff (t t' : ElementType) : (props t).acceptedData.any (·.covers t') = true ↔ Accepts t t' := by
  unfold Accepts
  rw [List.any_eq_true]
  constructor
  · rintro ⟨a, h1, h2⟩
    refine ⟨a, h1, ?_⟩
    cases a with
    | type x => left; simp [AcceptedData.covers] at h2; rw [h2]
    | group g => right; exact ⟨g, rfl, h2⟩
  · rintro ⟨a, h1, rfl | ⟨g, rfl, h2⟩⟩
    · exact ⟨_, h1, by simp [AcceptedData.covers]⟩
    · exact ⟨_, h1, h2⟩

/-- An unknown parent is an error that changes nothing. -/
theorem C19_unknown_parent (F : Nat) {d : Document} {p : Nat} (e : ElementData) (hp : d.getElement p = none) :
    annotate F p e d = (.error (.err .internal), d) := by
  unfold annotate
  rw [M.run_bind, M.run_ofRes, hp]
  rfl

/-- An element that the parent's specification does not accept is a validation error that changes nothing. -/
theorem C19_rejected (F : Nat) {d : Document} {p : Nat} {pe e : ElementData} (hp : d.getElement p = some pe)
    (hs : ElementGroup.span.contains e.elementtype = false) (ha : ¬ Accepts pe.elementtype e.elementtype) :
    annotate F p e d = (.error (.err .validation), d) := by
  unfold annotate
  have hc : d.checkElementAddable p e.elementtype = .error (.err .validation) := by
    unfold checkElementAddable
    rw [hp]
    simp only
    rw [if_neg (fun h => ha ((accepts_iff _ _).mp h))]
  rw [M.run_bind, M.run_ofRes, hp]
  simp only [okOr, hs, Bool.false_eq_true, if_false]
  rw [M.run_bind, M.run_ofRes, hc]

/-- When `annotate` succeeds, the specification of the element that the annotation ends up under accepts it; for annotations that are
not spans this is the given parent. -/
theorem C19_accepted {X : Ext} {F : Nat} {d d' : Document} (hr : CleanReachable X F d) {p k : Nat} {e : ElementData}
    (hn : d.NewBuilder e) (h : annotate F p e d = (.ok k, d')) :
    ∃ q qe, d'.HasParent k q ∧ d'.getElement q = some qe ∧ Accepts qe.elementtype e.elementtype ∧
      (ElementGroup.span.contains e.elementtype = false → q = p) := by
  have key : ∀ {d1 q}, CInv d1 → d1.FreshIds (builderIds e) → AddsTo F d1 d' q e k →
      ∃ qe, d'.HasParent k q ∧ d'.getElement q = some qe ∧ Accepts qe.elementtype e.elementtype := by
    intro d1 q hi hf ha
    obtain ⟨pe, hpe, hacc⟩ := checkElementAddable_ok ha.accepted
    have hs := (ha.planted hi hn.1 hf).spec
    obtain ⟨pe1, pe', _, _, h1, h2, h3, _⟩ := hs.parent
    rw [hpe] at h1; cases h1
    have ht := hs.tree
    rw [materialised_eq] at ht
    obtain ⟨x, _, _, _, hx, hpar, _⟩ := ht
    exact ⟨pe', ⟨x, hx, hpar⟩, h2, by rw [h3]; exact (accepts_iff _ _).mp hacc⟩
  obtain ⟨pe, hpe, h1 | h1 | ⟨hs, _⟩⟩ := annotate_ok h
  · obtain ⟨qe, a, b, c⟩ := key hr.cinv hn.2 h1.2
    exact ⟨p, qe, a, b, c, fun _ => rfl⟩
  · obtain ⟨qe, a, b, c⟩ := key hr.cinv hn.2 h1.2.2.2
    exact ⟨p, qe, a, b, c, fun _ => rfl⟩
  · obtain ⟨d1, layer, h1, h2⟩ := annotate_adds h
    have : ∃ qe, d'.HasParent k layer ∧ d'.getElement layer = some qe ∧ Accepts qe.elementtype e.elementtype := by
      rcases h1 with rfl | ⟨holder, lt, set, lk, h1⟩
      · exact key hr.cinv hn.2 h2
      · obtain ⟨hlc, hli⟩ := layerBuilder_clean lt set
        have hp1 := h1.planted hr.cinv hlc (by rw [hli]; exact ⟨List.nodup_nil, by simp⟩)
        refine key (hp1.steps.clean hr.cinv).1 ⟨hn.2.1, fun id hid => ?_⟩ h2
        cases hk : d1.elementKeyById id with
        | none => rfl
        | some k =>
          rcases hp1.index id k hk with h3 | h3
          · exact absurd ((show d.elementKeyById id = some k from h3).symm.trans (hn.2.2 id hid)) (by simp)
          · rw [hli] at h3; cases h3
    obtain ⟨qe, a, b, c⟩ := this
    exact ⟨layer, qe, a, b, c, fun h => by rw [hs] at h; cases h⟩

example : Sample.doc.getElement 40 = none := by decide +kernel
example : ∃ pe, Sample.doc.getElement 2 = some pe ∧ ElementGroup.span.contains (ElementData.new .sentence).elementtype = false ∧
    ¬ Accepts pe.elementtype (ElementData.new .sentence).elementtype := by
  have h : (Sample.doc.getElement 2).map (·.elementtype) = some .word := by decide +kernel
  obtain ⟨pe, h1, h2⟩ := Option.map_eq_some_iff.mp h
  refine ⟨pe, h1, by decide +kernel, ?_⟩
  rw [← accepts_iff, h2]; decide +kernel
example : CleanReachable Sample.X Sample.F Sample.doc ∧ Sample.doc.NewBuilder Sample.pos ∧ (annotate Sample.F 4 Sample.pos Sample.doc).1 = .ok 12 ∧
    Sample.doc.NewBuilder Sample.chunk ∧ (annotate Sample.F 5 Sample.chunk Sample.doc).1.isOk = true :=
  ⟨Sample.doc_clean, by decide +kernel, by decide +kernel, by decide +kernel, by decide +kernel⟩

end Folia
