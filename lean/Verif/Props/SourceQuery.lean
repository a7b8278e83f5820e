import Verif.Props.Tools
import Verif.Props.Lookup
/-! C94: the annotations of a file are found by the set and the class they have in the file. -/
namespace Folia
open Document

/-- The builder has this set and, if a class is asked for, this class. -/
def HasSetAndClass (s : String) (c : Option String) (b : ElementData) : Bool :=
  decide (b.set = .ok (some s)) && match c with
    | some c => decide (b.cls = .ok (some c))
    | none => true

/-- The query for a type, a set and perhaps a class. -/
def setAndClass (t : ElementType) (s : String) (c : Option String) : Query := { elementtype := .is t, set := .is s, cls := askSet c }

theorem Answers.filter {d0 d : Document} {P : Nat → Bool} {Q : ElementData → Bool} : ∀ {ks : List Nat} {bs : List ElementData}, Answers d0 d ks bs →
    (∀ k x b, b ∈ bs → d.getElement k = some x → ReadsBack d0 d x b → P k = Q b) → Answers d0 d (ks.filter P) (bs.filter Q)
  | [], [], _, _ => trivial
  | k :: ks, b :: bs, ⟨⟨x, h1, h2⟩, h3⟩, h => by
    have ih := h3.filter fun k x b hb => h k x b (List.mem_cons_of_mem _ hb)
    rw [List.filter_cons, List.filter_cons, h k x b (List.mem_cons_self ..) h1 h2]
    cases Q b with
    | true => exact ⟨⟨x, h1, h2⟩, ih⟩
    | false => exact ih
  | [], _ :: _, h, _ => h.elim
  | _ :: _, [], h, _ => h.elim

theorem compiled_ref {d : Document} {s : Selector} (hs : Compiled s) (k : Nat) : s.matches d (.spanReference k) = s.matches d (.element k) := by
  unfold Selector.matches
  rw [hs.next]
  rfl

/-- A compiled selector that only accepts elements of a type selects among those that the selector for the type selects. -/
theorem chosen_typed {d : Document} {s : Selector} (hs : Compiled s) {t : ElementType}
    (ht : ∀ k, s.matches d (.element k) = .ok true → ∃ e, d.getElement k = some e ∧ e.elementtype = t) : ∀ is : List SelectItem,
    (chosen d s is).filterMap itemKey = (typed d t is).filter fun k => decide (s.matches d (.element k) = .ok true)
  | [] => rfl
  | i :: is => by
    have ih := chosen_typed hs ht is
    have happ : chosen d s (i :: is) = chosen d s [i] ++ chosen d s is := by simp [chosen, ← List.filter_append]
    rw [happ, List.filterMap_append, ih, typed_cons, List.filter_append]
    congr 1
    have hplain : ∀ x : Data, (∀ k, x ≠ .element k) → (∀ k, x ≠ .spanReference k) → s.matches d x = .ok false ∧
        (Selector.elements.element (.is t)).matches d x = .ok false := by
      intro x h1 h2
      refine ⟨?_, ?_⟩
      · unfold Selector.matches
        rw [hs.next]
        unfold matchesChain SelCore.matches
        rw [hs.datatypes]
        cases x with
        | element k => exact absurd rfl (h1 k)
        | spanReference k => exact absurd rfl (h2 k)
        | _ => rfl
      · cases x with
        | element k => exact absurd rfl (h1 k)
        | spanReference k => exact absurd rfl (h2 k)
        | _ => rfl
    have hkey : ∀ k, itemKey i = some k → s.matches d i.data = s.matches d (.element k) →
        (∀ e, d.getElement k = some e → (Selector.elements.element (.is t)).matches d i.data = .ok (e.elementtype == t)) →
        (chosen d s [i]).filterMap itemKey = (typed d t [i]).filter fun k => decide (s.matches d (.element k) = .ok true) := by
      intro k h1 h2 h3
      by_cases hm : s.matches d (.element k) = .ok true
      · obtain ⟨e, he, rfl⟩ := ht k hm
        have h4 := h3 e he
        rw [beq_self_eq_true] at h4
        unfold typed
        rw [chosen_cons_true (h2.trans hm), chosen_cons_true h4]
        simp [chosen, h1, hm]
      · have hno : chosen d s [i] = [] := by
          rw [List.eq_nil_iff_forall_not_mem]
          intro y hy
          obtain ⟨q1, q2⟩ := mem_chosen.mp hy
          rw [List.mem_singleton.mp q1, h2] at q2
          exact hm q2
        rw [hno]
        refine (List.filter_eq_nil_iff.mpr fun x hx => ?_).symm
        unfold typed at hx
        obtain ⟨y, q1, q2⟩ := List.mem_filterMap.mp hx
        rw [List.mem_singleton.mp (mem_chosen.mp q1).1, h1] at q2
        cases q2
        simpa using hm
    cases hd : i.data with
    | element k => exact hkey k (by rw [itemKey, hd]) (by rw [hd]) fun e he => by rw [hd]; exact (type_matches t he).1
    | spanReference k => exact hkey k (by rw [itemKey, hd]) (by rw [hd]; exact compiled_ref hs k) fun e he => by rw [hd]; exact (type_matches t he).2
    | text x =>
      obtain ⟨h1, h2⟩ := hplain (.text x) nofun nofun
      rw [chosen_cons_false (by rw [hd]; exact h1), typed_none (by rw [hd]; exact h2)]; rfl
    | comment x =>
      obtain ⟨h1, h2⟩ := hplain (.comment x) nofun nofun
      rw [chosen_cons_false (by rw [hd]; exact h1), typed_none (by rw [hd]; exact h2)]; rfl
    | addElement x =>
      obtain ⟨h1, h2⟩ := hplain (.addElement x) nofun nofun
      rw [chosen_cons_false (by rw [hd]; exact h1), typed_none (by rw [hd]; exact h2)]; rfl

/-- Selecting with a compiled selector that only accepts elements of a type that is not a span annotation. -/
theorem select_typed {X : Ext} {F : Nat} {d : Document} (hr : CleanReachable X F d) {k : Nat} {x : ElementData} {items : List Item}
    (hb : Below d k x items) {s : Selector} (hs : Compiled s) {t : ElementType} (hspan : ElementGroup.span.contains t = false)
    (ht : ∀ k, s.matches d (.element k) = .ok true → ∃ e, d.getElement k = some e ∧ e.elementtype = t)
    (hnever : s.matchable = false → ∀ k, s.matches d (.element k) ≠ .ok true) {G : Nat} (hG : rounds items + 1 ≤ G) :
    select d G k s .always =
      .ok ((typed d t (preorder (fun _ => true) k x.elementtype 0 1 items)).filter fun k => decide (s.matches d (.element k) = .ok true)) := by
  cases hm : s.matchable with
  | false =>
    rw [List.filter_eq_nil_iff.mpr fun k _ => by simpa using hnever hm k]
    obtain ⟨G, rfl⟩ : ∃ G', G = G' + 1 := ⟨G - 1, by omega⟩
    unfold select selectByKey
    unfold selCollect
    rw [step_unmatchable rfl hm]
    rfl
  | true =>
    rw [← chosen_typed hs ht]
    unfold select selectByKey
    rw [collect_below (cleanReachable_reachable hr) hb hm .always true hG]
    have hmem : ∀ i ∈ chosen d s (preorder (fun _ => true) k x.elementtype 0 1 items),
        ∃ k e, i.data = .element k ∧ d.getElement k = some e ∧ ElementGroup.span.contains e.elementtype = false := by
      intro i hi
      obtain ⟨h1, h2⟩ := mem_chosen.mp hi
      have hl := occurs_live hr ((mem_preorder hb _).mp h1)
      have hne : ∀ y : Data, (∀ k, y ≠ .element k) → (∀ k, y ≠ .spanReference k) → s.matches d y ≠ .ok true := by
        intro y h1 h2 h3
        unfold Selector.matches at h3
        rw [hs.next] at h3
        unfold matchesChain SelCore.matches at h3
        rw [hs.datatypes] at h3
        cases y with
        | element k => exact h1 k rfl
        | spanReference k => exact h2 k rfl
        | _ => cases h3
      cases hd : i.data with
      | text => rw [hd] at h2; exact absurd h2 (hne _ nofun nofun)
      | comment => rw [hd] at h2; exact absurd h2 (hne _ nofun nofun)
      | addElement => rw [hd] at h2; exact absurd h2 (hne _ nofun nofun)
      | element c =>
        rw [hd] at h2
        obtain ⟨e, he, rfl⟩ := ht c h2
        exact ⟨c, e, rfl, he, hspan⟩
      | spanReference c =>
        rw [hd, compiled_ref hs] at h2
        rw [hd] at hl
        obtain ⟨e, he, rfl⟩ := ht c h2
        obtain ⟨e', he', hs'⟩ := hl
        rw [he] at he'; cases he'
        rw [hspan] at hs'; cases hs'
    have hres : results { doc := d, selector := s, recursion := .always, inclusive := false, spanreferences := true } []
        (preorder Recursion.always.eval k x.elementtype 0 1 items) = chosen d s (preorder (fun _ => true) k x.elementtype 0 1 items) := by
      unfold results
      rw [if_pos rfl]
      refine firstOccurrences_plain _ _ fun i hi => ?_
      obtain ⟨c, e, h1, h2, h3⟩ := hmem i hi
      rw [h1, spanOf, h2]
      simp only
      rw [h3]; rfl
    rw [hres]
    refine elementKeys_eq fun i hi c hc => ?_
    obtain ⟨c', e, h1, h2, _⟩ := hmem i hi
    have : c = c' := by rw [itemKey, h1] at hc; exact (Option.some.inj hc).symm
    exact ⟨e, this ▸ h2⟩

/-- The query for a type, a set and perhaps a class compiles, and accepts an element that came from a builder if the builder has that type, that set and
that class. -/
theorem setAndClass_accepts {X : Ext} {F : Nat} {d : Document} (hr : CleanReachable X F d) {t : ElementType} {a : AnnotationType}
    (ha : t.annotationtype = some a) (s : String) (c : Option String) :
    ∃ sel, Selector.fromQuery d (setAndClass t s c) = .ok sel ∧ Compiled sel ∧
      (∀ k, sel.matches d (.element k) = .ok true → ∃ e, d.getElement k = some e ∧ e.elementtype = t) ∧
      (sel.matchable = false → ∀ k, sel.matches d (.element k) ≠ .ok true) ∧
      (∀ k e, d.getElement k = some e → (sel.matches d (.element k) = .ok true ↔
        e.elementtype = t ∧ e.getSet d = .ok (some s) ∧ ∀ c', c = some c' → e.getClass d = .ok (some c'))) ∧
      ∀ d0 k e b s', d.getElement k = some e → ReadsBack d0 d e b → b.elementtype = t → b.set = .ok (some s') →
        (∀ k dec st, d.getDeclaration k = some dec → dec.classes = some st → st.len < cap32) →
        decide (sel.matches d (.element k) = .ok true) = HasSetAndClass s c b := by
  obtain ⟨sel, hsel, hc, _⟩ := fromQuery_plain d (setAndClass t s c) rfl
  obtain ⟨sel', hsel', hmean⟩ := C27_query_partial hr (setAndClass t s c) rfl nofun nofun (fun s' hs' => ⟨t, a, rfl, ha⟩) (fun c' _ => ⟨s, rfl⟩)
  rw [hsel] at hsel'; cases hsel'
  have hfeat : t ≠ .feature := by rintro rfl; cases ha
  have hmatch : ∀ k e, d.getElement k = some e → (sel.matches d (.element k) = .ok true ↔
      e.elementtype = t ∧ e.getSet d = .ok (some s) ∧ ∀ c', c = some c' → e.getClass d = .ok (some c')) := by
    intro k e he
    obtain ⟨dec, cls, subset, proc, hrep⟩ := C27_reports hr he
    by_cases hty : e.elementtype = t
    · rw [hmean k e dec cls subset proc he hrep (fun hf => absurd (hty.symm.trans hf) hfeat), hrep.getSet, hrep.getCls]
      constructor
      · rintro ⟨_, _, g1, g2, _⟩
        refine ⟨hty, congrArg _ g1, ?_⟩
        rintro c' rfl
        exact congrArg _ g2
      · rintro ⟨_, g1, g2⟩
        refine ⟨trivial, congrArg some hty, Except.ok.inj g1, ?_, trivial⟩
        cases c with
        | none => trivial
        | some c' => exact Except.ok.inj (g2 c' rfl)
    · refine iff_of_false (fun hm => hty ?_) fun hm => hty hm.1
      obtain ⟨plain, enc, q1, q2, _⟩ := (hr.cinv.elem k e he).refs
      obtain ⟨sel2, w1, w2, w3, _⟩ := fromQuery_plain d (setAndClass t s c) rfl
      rw [hsel] at w1; cases w1
      have := ((compiled_matches hc he q1 q2).mp hm).2.1
      rw [w3] at this
      exact Option.some.inj this
  have hdead : ∀ k, d.getElement k = none → sel.matches d (.element k) ≠ .ok true := by
    intro k he hm
    unfold Selector.matches at hm
    rw [hc.next] at hm
    unfold matchesChain SelCore.matches at hm
    simp only [hc.datatypes, he] at hm
    split at hm <;> cases hm
  have hst : ∀ k, sel.matches d (.element k) = .ok true → ∃ e, d.getElement k = some e ∧ e.elementtype = t := by
    intro k hm
    cases he : d.getElement k with
    | none => exact absurd hm (hdead k he)
    | some e => exact ⟨e, rfl, ((hmatch k e he).mp hm).1⟩
  have hnever : sel.matchable = false → ∀ k, sel.matches d (.element k) ≠ .ok true := by
    intro hm k hk
    obtain ⟨e, he, _⟩ := hst k hk
    obtain ⟨plain, enc, q1, q2, _⟩ := (hr.cinv.elem k e he).refs
    obtain ⟨_, _, g1, _, g2, g3⟩ := (compiled_matches hc he q1 q2).mp hk
    refine absurd ((C23_matchable_iff sel).mpr ?_) (by rw [hm]; nofun)
    rintro (h | h | h)
    · rw [h] at g1; exact g1
    · rw [h] at g2; exact g2
    · rw [h] at g3; exact g3
  refine ⟨sel, hsel, hc, hst, hnever, hmatch, fun d0 k e b s' he hrb hbt hs' hroom => ?_⟩
  have hann : b.elementtype.annotationtype.isSome = true := by rw [hbt, ha]; rfl
  have hset := hrb.set s' (.inl hann) hs'
  rw [Bool.eq_iff_iff, decide_eq_true_iff, hmatch k e he, hrb.type, hset]
  unfold HasSetAndClass
  rw [Bool.and_eq_true, decide_eq_true_iff, hs']
  constructor
  · rintro ⟨_, g1, g2⟩
    refine ⟨g1, ?_⟩
    cases c with
    | none => rfl
    | some c =>
      simp only [decide_eq_true_eq]
      have g3 := g2 c rfl
      by_cases hbc : ∃ c', b.cls = .ok (some c')
      · obtain ⟨c', hc'⟩ := hbc
        rcases hrb.cls c' hann hc' with g4 | ⟨dec, g4, st, g5, g6⟩
        · rw [hc', ← g4, g3]
        · obtain ⟨dec', cls, subset, proc, hrep⟩ := C27_reports hr he
          have hd := Except.ok.inj (hrep.getDec.symm.trans g4)
          obtain ⟨_, enc, _, _, _, q1, _⟩ := hrep.refs (hr.cinv.elem k e he).refs
          obtain ⟨dk, _, q3⟩ := Option.bind_eq_some_iff.mp (q1.symm.trans hd)
          exact absurd (hroom dk dec st q3 g5) (by omega)
      · have := hrb.unclassed fun c' hc' => hbc ⟨c', hc'⟩
        unfold ElementData.getClass at g3
        rw [this] at g3
        cases g3
  · rintro ⟨g1, g2⟩
    refine ⟨hbt, g1, ?_⟩
    rintro c' rfl
    simp only [decide_eq_true_eq] at g2
    rcases hrb.cls c' hann g2 with g4 | ⟨dec, g4, st, g5, g6⟩
    · exact g4
    · obtain ⟨dec', cls, subset, proc, hrep⟩ := C27_reports hr he
      have hd := Except.ok.inj (hrep.getDec.symm.trans g4)
      obtain ⟨_, enc, _, _, _, q1, _⟩ := hrep.refs (hr.cinv.elem k e he).refs
      obtain ⟨dk, _, q3⟩ := Option.bind_eq_some_iff.mp (q1.symm.trans hd)
      exact absurd (hroom dk dec st q3 g5) (by omega)

/-- In a document that was read, the query for a type, a set and perhaps a class finds exactly the elements of the source with that type, that set
and that class, in the order of the source. The type must belong to an annotation type and not be a span annotation, every element of the type must
name its set, and no vocabulary of classes may be full.

Missing for the full claim: elements that take the default set of their type, which are found under that set although the source does not repeat it
there. -/
theorem C94_found_partial {X : Ext} {F : Nat} {ps : DocumentProperties} (hcl : ∀ p, ps.processor = some p → CleanProc p)
    {header gap : List REvent} (hh : metadataEnd ∉ header) (hg : ∀ ev ∈ gap, isStart ev = false) {tag tag' : String} {attrs : List RAttr}
    (htag : tag ≠ "FoLiA") {nodes : List XNode} (hid : (attrIds attrs ++ XNode.idsList nodes).Nodup) {rest : List REvent} {d : Document}
    (h : Document.parse X F ps (source header gap tag attrs (XNode.eventsList nodes ++ .endTag .folia tag' :: rest)) = .ok d)
    {t : ElementType} {a : AnnotationType} (ht : ElementGroup.span.contains t = false) (ha : t.annotationtype = some a)
    (hroom : ∀ k dec st, d.getDeclaration k = some dec → dec.classes = some st → st.len < cap32)
    (hsets : ∀ data, XNode.meaningList X nodes = some data → ∀ b ∈ builderElementsList data, b.elementtype = t → ∃ s, b.set = .ok (some s))
    (s : String) (c : Option String) :
    ∃ data sel keys N, XNode.meaningList X nodes = some data ∧ Selector.fromQuery d (setAndClass t s c) = .ok sel ∧
      (∀ G, N ≤ G → select d G 0 sel .always = .ok keys) ∧
      Answers d d keys ((builderElementsList data).filter fun b => (b.elementtype == t) && HasSetAndClass s c b) := by
  obtain ⟨_, _, _, data, x, _, _, h3, h4, _, _, h7, _, h9, h10⟩ := C42_tree hcl hh hg htag hid h
  have hr : CleanReachable X F d := .parse hcl h
  have hlive : ∀ k e, d.getElement k = some e → ∀ x ∈ e.data, DataLive d x := fun k e he => (hr.cinv.elem k e he).data
  obtain ⟨items, hb⟩ := below_exists hr ⟨h9, h10⟩ h4
  have hk := typed_stored (d0 := d) ht hlive items 0 x.elementtype 0 1 (some 0) data hb.2.2 (by rw [← hb.2.1]; exact hlive 0 x h4)
    (by rw [← hb.2.1]; exact h7)
  obtain ⟨sel, hsel, hc, hst, hnever, _, hacc⟩ := setAndClass_accepts hr ha s c
  refine ⟨data, sel, _, rounds items + 1, h3, hsel, fun G hG => select_typed hr hb hc ht hst hnever hG, ?_⟩
  have hsplit : ((builderElementsList data).filter fun b => (b.elementtype == t) && HasSetAndClass s c b) =
      ((builderElementsList data).filter (·.elementtype == t)).filter (HasSetAndClass s c) := by
    rw [List.filter_filter]
    exact List.filter_congr fun b _ => Bool.and_comm _ _
  rw [hsplit]
  refine hk.filter fun k e b hb' he hrb => ?_
  obtain ⟨hbm, hbt⟩ := List.mem_filter.mp hb'
  have hbt := eq_of_beq hbt
  obtain ⟨s', hs'⟩ := hsets data h3 b hbm hbt
  exact hacc d k e b s' he hrb hbt hs' hroom

/-- For span annotations, each annotation with that type, that set and that class is found exactly once. -/
theorem C94_found_spans_partial {X : Ext} {F : Nat} {ps : DocumentProperties} (hcl : ∀ p, ps.processor = some p → CleanProc p)
    {header gap : List REvent} (hh : metadataEnd ∉ header) (hg : ∀ ev ∈ gap, isStart ev = false) {tag tag' : String} {attrs : List RAttr}
    (htag : tag ≠ "FoLiA") {nodes : List XNode} (hid : (attrIds attrs ++ XNode.idsList nodes).Nodup) {rest : List REvent} {d : Document}
    (h : Document.parse X F ps (source header gap tag attrs (XNode.eventsList nodes ++ .endTag .folia tag' :: rest)) = .ok d)
    {t : ElementType} {a : AnnotationType} (ht : ElementGroup.span.contains t = true) (ha : t.annotationtype = some a)
    (hroom : ∀ k dec st, d.getDeclaration k = some dec → dec.classes = some st → st.len < cap32)
    (hsets : ∀ data, XNode.meaningList X nodes = some data → ∀ b ∈ builderElementsList data, b.elementtype = t → ∃ s, b.set = .ok (some s))
    (s : String) (c : Option String) :
    ∃ data sel keys keys' N, XNode.meaningList X nodes = some data ∧ Selector.fromQuery d (setAndClass t s c) = .ok sel ∧
      (∀ G, N ≤ G → select d G 0 sel .always = .ok keys) ∧ keys.Perm keys' ∧ keys.Nodup ∧
      Answers d d keys' ((builderElementsList data).filter fun b => (b.elementtype == t) && HasSetAndClass s c b) := by
  obtain ⟨tb, _, _, data, x, h1, _, h3, h4, _, ⟨_, _, h5⟩, h7, h8, h9, h10⟩ := C42_tree hcl hh hg htag hid h
  have hr : CleanReachable X F d := .parse hcl h
  have hf : d.Forest := ⟨h9, h10⟩
  obtain ⟨items, hb⟩ := below_exists hr hf h4
  obtain ⟨sel, hsel, hc, hst, hnever, _, hacc⟩ := setAndClass_accepts hr ha s c
  have hstored : StoredItems 1 d d (some 0) (ownItems (items.map Item.data)) data := by rw [← hb.2.1]; exact h7
  have hans : Answers d d (((nodeKeys items).filter (kindIs d (· == t))).filter fun k => decide (sel.matches d (.element k) = .ok true))
      ((builderElementsList data).filter fun b => (b.elementtype == t) && HasSetAndClass s c b) := by
    have hsplit : ((builderElementsList data).filter fun b => (b.elementtype == t) && HasSetAndClass s c b) =
        ((builderElementsList data).filter (·.elementtype == t)).filter (HasSetAndClass s c) := by
      rw [List.filter_filter]
      exact List.filter_congr fun b _ => Bool.and_comm _ _
    rw [hsplit]
    refine (nodes_stored (· == t) items (some 0) data hb.2.2 hstored).filter fun k e b hb' he hrb => ?_
    obtain ⟨hbm, hbt⟩ := List.mem_filter.mp hb'
    obtain ⟨s', hs'⟩ := hsets data h3 b hbm (eq_of_beq hbt)
    exact hacc d k e b s' he hrb (eq_of_beq hbt) hs' hroom
  cases hm : sel.matchable with
  | false =>
    rw [List.filter_eq_nil_iff.mpr fun k _ => by simpa using hnever hm k] at hans
    refine ⟨data, sel, [], [], 1, h3, hsel, fun G hG => ?_, List.Perm.nil, List.nodup_nil, hans⟩
    obtain ⟨G, rfl⟩ : ∃ G', G = G' + 1 := ⟨G - 1, by omega⟩
    unfold select selectByKey
    unfold selCollect
    rw [step_unmatchable rfl hm]
    rfl
  | true =>
    obtain ⟨keys, ⟨N, hN⟩, hmem, hnd⟩ := C25_spans_once hr hf h4 sel hm .always
    have htype : ∀ k ∈ keys, sel.matches d (.element k) = .ok true := by
      intro k hk
      obtain ⟨y, p, i, n, hy, ho, hy'⟩ := (hmem k).mp hk
      rcases hy with rfl | rfl
      · exact hy'
      · rw [compiled_ref hc] at hy'; exact hy'
    have hkeys : keys.Nodup := by
      rw [List.filter_eq_self.mpr ?_] at hnd
      · exact hnd
      intro k hk
      obtain ⟨e, he, ht'⟩ := hst k (htype k hk)
      rw [he]; simp only [ht', ht]
    have hroot := nodeKeysIn_nodup h9 h10 (show Shows d (.node 0 x items) from hb)
    rw [nodeKeysIn, List.nodup_cons] at hroot
    refine ⟨data, sel, keys, _, N, h3, hsel, hN, ?_, hkeys, hans⟩
    rw [List.perm_ext_iff_of_nodup hkeys ((hroot.2.sublist List.filter_sublist).sublist List.filter_sublist)]
    intro k
    rw [List.mem_filter, List.mem_filter, decide_eq_true_iff]
    constructor
    · intro hk
      obtain ⟨e, he, ht'⟩ := hst k (htype k hk)
      refine ⟨⟨?_, by rw [kindIs, he]; simp only [ht', beq_self_eq_true]⟩, htype k hk⟩
      rcases nodeKeys_all hf hb hstored h8 he with rfl | h
      · rw [h4] at he; cases he
        rw [show x.elementtype = tb from h5.type] at ht'
        subst ht'
        unfold bodyTypeOf at h1
        split at h1
        · cases h1; cases ht
        · split at h1
          · cases h1; cases ht
          · cases h1
      · exact h
    · rintro ⟨⟨hk, _⟩, hk'⟩
      obtain ⟨y, hy, hyd⟩ := nodeKeys_preorder items 0 x.elementtype 0 1 hk
      refine (hmem k).mpr ⟨.element k, y.parentKey, y.cursor, y.depth, .inl rfl, ?_, hk'⟩
      have := (mem_preorder (go := fun _ => true) hb y).mp hy
      rw [hyd] at this
      exact (occurs_congr fun t => by simp [Descends]).mp this

/-- Two words with tags from two sets. -/
def Sample.tagged : List XNode := [
  .elem "w" [] [.elem "pos" [.ok "set" "brown", .ok "class" "N"] [], .elem "pos" [.ok "set" "cgn", .ok "class" "N"] []],
  .elem "w" [] [.empty "pos" [.ok "set" "brown", .ok "class" "V"]],
  .elem "w" [] [.empty "pos" [.ok "set" "brown", .ok "class" "N"]]]

/-- What they are read as. -/
def Sample.taggedDoc : Document := Sample.value (Document.parse Sample.X Sample.F {} (Sample.around (XNode.eventsList Sample.tagged)))

theorem Sample.room {d : Document} (h : (d.declarations.items.all fun o => match o with
    | some dec => dec.classes.all fun st => decide (st.len < cap32)
    | none => true) = true) : ∀ k dec st, d.getDeclaration k = some dec → dec.classes = some st → st.len < cap32 := by
  intro k dec st h1 h2
  unfold Document.getDeclaration Store.get at h1
  split at h1
  · rename_i a ha
    cases h1
    have := List.all_eq_true.mp h _ (List.mem_of_getElem? ha)
    simp only [h2, Option.all_some, decide_eq_true_eq] at this
    exact this
  · cases h1

theorem Sample.sets {t : ElementType} {nodes : List XNode} (h : (XNode.meaningList Sample.X nodes).map (fun data => (builderElementsList data).all fun b =>
      b.elementtype != t || match b.set with
        | .ok (some _) => true
        | _ => false) = some true) {data : List Data} (hdata : XNode.meaningList Sample.X nodes = some data) {b : ElementData}
    (hb : b ∈ builderElementsList data) (hbt : b.elementtype = t) : ∃ s, b.set = .ok (some s) := by
  rw [hdata] at h
  have := List.all_eq_true.mp (Option.some.inj h) b hb
  rw [hbt, bne_self_eq_false, Bool.false_or] at this
  cases hs : b.set with
  | error => rw [hs] at this; cases this
  | ok o =>
    cases o with
    | none => rw [hs] at this; cases this
    | some s => exact ⟨s, rfl⟩

/-- The hypotheses are met: there are two nouns in one set, three tags in it, one in the other, and no verb in the other. -/
example : Document.parse Sample.X Sample.F {} (Sample.around (XNode.eventsList Sample.tagged)) = .ok Sample.taggedDoc ∧
    ∀ s c n, (s, c, n) ∈ [("brown", some "N", 2), ("brown", none, 3), ("cgn", some "N", 1), ("cgn", some "V", 0), ("other", none, 0)] →
      ∃ sel keys N, Selector.fromQuery Sample.taggedDoc (setAndClass .posAnnotation s c) = .ok sel ∧
        (∀ G, N ≤ G → select Sample.taggedDoc G 0 sel .always = .ok keys) ∧ keys.length = n := by
  have hd : Document.parse Sample.X Sample.F {} (Sample.around (XNode.eventsList Sample.tagged)) = .ok Sample.taggedDoc :=
    Sample.value_eq (by decide +kernel)
  refine ⟨hd, fun s c n hn => ?_⟩
  obtain ⟨data, sel, keys, N, h1, h2, h3, h4⟩ := C94_found_partial (ps := {}) (fun _ hp => nomatch hp) (nodes := Sample.tagged)
    (attrs := [.ok "xml:id" "t"]) (header := Sample.header) (gap := []) (tag := "text") (tag' := "text") (rest := [.endTag .folia "FoLiA"])
    (by decide) (by decide) (by decide) (by decide) hd (t := .posAnnotation) rfl rfl
    (Sample.room (by decide +kernel)) (fun _ h _ => Sample.sets (by decide +kernel) h) s c
  refine ⟨sel, keys, N, h2, h3, ?_⟩
  rw [h4.length]
  have hall : ([("brown", some "N", 2), ("brown", none, 3), ("cgn", some "N", 1), ("cgn", some "V", 0), ("other", none, 0)] :
      List (String × Option String × Nat)).all (fun (s, c, n) => (XNode.meaningList Sample.X Sample.tagged).map (fun data =>
        ((builderElementsList data).filter fun b => (b.elementtype == .posAnnotation) && HasSetAndClass s c b).length) == some n) = true := by decide +kernel
  have := List.all_eq_true.mp hall _ hn
  simp only [h1, Option.map_some] at this
  exact Option.some.inj (eq_of_beq this)

/-- A sentence with two entities. -/
def Sample.people : List XNode := [.elem "s" [.ok "xml:id" "s1"] [.empty "w" [.ok "xml:id" "w1"], .empty "w" [.ok "xml:id" "w2"],
  .elem "entities" [.ok "set" "names"] [
    .elem "entity" [.ok "set" "names", .ok "class" "person"] [.empty "wref" [.ok "id" "w1"], .empty "wref" [.ok "id" "w2"]],
    .elem "entity" [.ok "set" "names", .ok "class" "place"] [.empty "wref" [.ok "id" "w2"]]]]]

/-- What it is read as. -/
def Sample.peopleDoc : Document := Sample.value (Document.parse Sample.X Sample.F {} (Sample.around (XNode.eventsList Sample.people)))

/-- The hypotheses are met: there is one person, although both words refer to it. -/
example : Document.parse Sample.X Sample.F {} (Sample.around (XNode.eventsList Sample.people)) = .ok Sample.peopleDoc ∧
    ∃ sel keys N, Selector.fromQuery Sample.peopleDoc (setAndClass .entity "names" (some "person")) = .ok sel ∧
      (∀ G, N ≤ G → select Sample.peopleDoc G 0 sel .always = .ok keys) ∧ keys.length = 1 := by
  have hd : Document.parse Sample.X Sample.F {} (Sample.around (XNode.eventsList Sample.people)) = .ok Sample.peopleDoc :=
    Sample.value_eq (by decide +kernel)
  refine ⟨hd, ?_⟩
  obtain ⟨data, sel, keys, keys', N, h1, h2, h3, h4, _, h5⟩ := C94_found_spans_partial (ps := {}) (fun _ hp => nomatch hp) (nodes := Sample.people)
    (attrs := [.ok "xml:id" "t"]) (header := Sample.header) (gap := []) (tag := "text") (tag' := "text") (rest := [.endTag .folia "FoLiA"])
    (by decide) (by decide) (by decide) (by decide) hd (t := .entity) rfl rfl
    (Sample.room (by decide +kernel)) (fun _ h _ => Sample.sets (by decide +kernel) h) "names" (some "person")
  refine ⟨sel, keys, N, h2, h3, ?_⟩
  rw [h4.length_eq, h5.length]
  have : (XNode.meaningList Sample.X Sample.people).map (fun data =>
      ((builderElementsList data).filter fun b => (b.elementtype == .entity) && HasSetAndClass "names" (some "person") b).length) = some 1 := by decide +kernel
  rw [h1] at this
  exact Option.some.inj this

end Folia
