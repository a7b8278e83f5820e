import Verif.Props.TextFrame
/-! C79: edits change only the texts that are made from the edited elements. -/
namespace Folia
open Document

/-- The text of the element `k` may depend on the element `j`: it is `k` itself, a child of such an element, or what such an element refers to if
it is a word reference. -/
inductive Uses (d : Document) (k : Nat) : Nat → Prop
  | refl : Uses d k k
  | child {j c} : Uses d k j → d.Lists j c → Uses d k c
  | ref {j e i t} : Uses d k j → d.getElement j = some e → e.elementtype = .wordReference → e.idref = some i → d.elementKeyById i = some t → Uses d k t

/-- The element `k` of `d` has the same text in `d'`, or fails to have text in the same way, for all parameters. -/
def SameText (d d' : Document) (k : Nat) : Prop :=
  ∀ G set cls set' cls' strict retain, d'.textByKey G k set' cls' strict retain = d.textByKey G k set cls strict retain

/-- The elements that the text of `k` may depend on are unchanged, up to references to spans. -/
theorem frame_text {d d' : Document} (hix : IxOk d) (hix' : IxOk d') {k : Nat} {ke : ElementData} (hk : d.getElement k = some ke)
    (hlive : ∀ j c, d.Lists j c → ∃ ce, d.getElement c = some ce)
    (hsame : ∀ j x, Uses d k j → d.getElement j = some x → ∃ x' refs, d'.getElement j = some x' ∧ x'.elementtype = x.elementtype ∧ x'.attribs = x.attribs ∧
      x'.data = x.data ++ List.map .spanReference refs)
    (hrefs : ∀ j x i, Uses d k j → d.getElement j = some x → x.elementtype = .wordReference → x.idref = some i → d'.elementKeyById i = d.elementKeyById i) :
    SameText d d' k := by
  let R : ElementData → ElementData → Prop := fun e e' => ∃ j, Uses d k j ∧ d.getElement j = some e ∧ d'.getElement j = some e'
  have hget : ∀ {j x x'}, Uses d k j → d.getElement j = some x → d'.getElement j = some x' → x'.elementtype = x.elementtype ∧ x'.attribs = x.attribs ∧
      ∃ refs, x'.data = x.data ++ List.map .spanReference refs := by
    intro j x x' hu h1 h2
    obtain ⟨x2, refs, h3, h4, h5, h6⟩ := hsame j x hu h1
    rw [h2] at h3; cases h3
    exact ⟨h4, h5, refs, h6⟩
  have hitems : ∀ {e e'}, R e e' → TextItems R d d' false e.data e'.data := by
    rintro e e' ⟨j, hu, h1, h2⟩
    obtain ⟨_, _, refs, h3⟩ := hget hu h1 h2
    rw [h3]
    refine items_same (items_refs refs) fun c hc => ?_
    have hl : d.Lists j c := ⟨e, h1, hc⟩
    obtain ⟨ce, hce⟩ := hlive j c hl
    obtain ⟨ce', _, hce', _⟩ := hsame c ce (.child hu hl) hce
    exact ⟨ce, ce', hce, hce', c, .child hu hl, hce, hce'⟩
  have hdel : DelimSim R d d' := by
    refine ⟨?_, ?_, fun h _ => (hitems h).lastChild⟩
    · rintro e e' ⟨j, hu, h1, h2⟩
      exact (hget hu h1 h2).1
    · rintro e e' ⟨j, hu, h1, h2⟩
      simp only [ElementData.attrib, (hget hu h1 h2).2.1]
  have hsim : TextSim R d d' := by
    refine ⟨hdel.type, fun h _ retain n => hdel.delimiter retain n h, fun h _ => ⟨false, hitems h, by intro h; cases h⟩, ?_⟩
    rintro e e' ⟨j, hu, h1, h2⟩ hw
    have hid : e'.idref = e.idref := by simp only [ElementData.idref, (hget hu h1 h2).2.1]
    simp only [ElementData.resolve, hid]
    cases hi : e.idref with
    | none => exact ⟨none, none, rfl, rfl, .none⟩
    | some i =>
      simp only [getById_ix hix, getById_ix hix', hrefs j e i hu h1 hw hi]
      cases ht : d.elementKeyById i with
      | none => exact ⟨none, none, rfl, rfl, .none⟩
      | some t =>
        obtain ⟨y, hy⟩ := hix.elems i t ht
        have hut : Uses d k t := .ref hu h1 hw hi ht
        obtain ⟨y', _, hy', _⟩ := hsame t y hut hy
        exact ⟨some y, some y', by simp [hy], by simp [hy'], .some ⟨t, hut, hy, hy'⟩⟩
  intro G set cls set' cls' strict retain
  obtain ⟨ke', _, hk', _⟩ := hsame k ke .refl hk
  simp only [Document.textByKey, hk, hk']
  exact hsim.text set cls set' cls' retain G strict none ⟨k, .refl, hk, hk'⟩

/-- Adding an element, of any kind and with everything below it, changes only the texts that are made from its parent.

Missing for the full claim: no word reference may already refer to an identifier of the new elements; see `C79_awaited_counterexample`. -/
theorem C79_add_partial {X : Ext} {F : Nat} {d d' : Document} (hr : CleanReachable X F d) {p n : Nat} {e : ElementData} (hp : (d.getElement p).isSome)
    (hn : d.NewBuilder e) (h : addElementTo F p e d = (.ok n, d')) (hw : NotAwaited d (builderIds e)) {k : Nat} {ke : ElementData} (hk : d.getElement k = some ke)
    (hu : ¬ Uses d k p) : SameText d d' k := by
  obtain ⟨pe, hpe⟩ := Option.isSome_iff_exists.mp hp
  have hi := hr.cinv
  have hpl := planted hi ⟨pe, hpe⟩ hn.1 hn.2 h
  refine frame_text hi.ix (hpl.steps.clean hi).1.ix hk ?_ ?_ ?_
  · rintro j c ⟨x, h1, h2⟩
    exact (hi.elem j x h1).data _ h2
  · intro j x hj hx
    obtain ⟨x', h1, h2⟩ := hpl.spec.others j x hx (by rintro rfl; exact hu hj)
    obtain ⟨refs, h3⟩ := h2.data
    exact ⟨x', refs, h1, h2.type, h2.attribs, h3⟩
  · intro j x i hj hx ht hi'
    cases hkey : d.elementKeyById i with
    | some t => exact hpl.steps.found hkey
    | none =>
      cases hkey' : d'.elementKeyById i with
      | none => rfl
      | some t =>
        rcases hpl.index i t hkey' with h | h
        · have hkey : d.elements.index.find i = none := hkey
          rw [hkey] at h; cases h
        · exact absurd h (hw j x i hx ht hi')

theorem otherItems_self {c : Nat} {data : List Data} (h : .element c ∉ data) : otherItems c data = data := by
  rw [otherItems_eq, List.filter_eq_self]
  intro x hx
  cases hb : x.isElem c with
  | false => rfl
  | true => exact absurd (isElem_iff.mp hb ▸ hx) h

theorem moved_ix {d d' : Document} (hix : IxOk d) (hrest : d' = { d with elements := d'.elements }) (hindex : d'.elements.index = d.elements.index)
    (hf : ∀ j e, d.getElement j = some e → ∃ e', d'.getElement j = some e') : IxOk d' := by
  have hp : d'.processors = d.processors := by rw [hrest]
  refine ⟨fun i k h => ?_, fun i k h => ?_⟩
  · rw [hindex] at h
    obtain ⟨e, he⟩ := hix.elems i k h
    exact hf k e he
  · rw [hp] at h
    obtain ⟨q, hq⟩ := hix.procs i k h
    exact ⟨q, by unfold Document.getProcessor at hq ⊢; rw [hp]; exact hq⟩

/-- Moving an element changes only the texts that are made from its new parent or from its old one. -/
theorem C79_attach {X : Ext} {F : Nat} {d d' : Document} (hr : Reachable X F d) (hl : d.LinksAgree) {p c : Nat} (h : attachElement p c d = (.ok (), d'))
    {k : Nat} {ke : ElementData} (hk : d.getElement k = some ke) (hu : ¬ Uses d k p) (hu' : ∀ q, d.HasParent c q → ¬ Uses d k q) : SameText d d' k := by
  cases hp : d.getElement p with
  | none => rw [C15_attach_unknown (.inl hp)] at h; cases h
  | some pe =>
    cases hc : d.getElement c with
    | none => rw [C15_attach_unknown (.inr hc)] at h; cases h
    | some ce =>
      obtain ⟨d2, h1, h2, _⟩ := C15_attach_moves hl hp hc
      rw [h] at h1; cases h1
      refine frame_text hr.ixOk (moved_ix hr.ixOk h2.rest h2.index fun j e he => ?_) hk ?_ ?_ ?_
      · obtain ⟨e', he', _⟩ := h2.elements j e he
        exact ⟨e', he'⟩
      · intro j c hjc
        obtain ⟨e, he, _⟩ := (hl.agree j c).mp hjc
        exact ⟨e, he⟩
      · intro j x hj hx
        obtain ⟨x', a1, a2, a3, _, _, a4, _⟩ := h2.elements j x hx
        refine ⟨x', [], a1, a2, a3, ?_⟩
        rw [a4 (by rintro rfl; exact hu hj), otherItems_self, List.map_nil, List.append_nil]
        intro hm
        exact hu' j ((hl.agree j c).mp ⟨x, hx, hm⟩) hj
      · intro j x i _ _ _ _
        unfold elementKeyById Store.idToKey
        rw [h2.index]

/-- Taking an element out of its parent changes only the texts that are made from the parent. -/
theorem C79_detach {X : Ext} {F : Nat} {d d' : Document} (hr : Reachable X F d) (hl : d.LinksAgree) {c : Nat} {ce : ElementData} (hc : d.getElement c = some ce)
    (h : detachElement c d = (.ok (), d')) {k : Nat} {ke : ElementData} (hk : d.getElement k = some ke) (hu : ∀ q, d.HasParent c q → ¬ Uses d k q) :
    SameText d d' k := by
  obtain ⟨d2, h1, h2, _⟩ := C16_detach_orphans hl hc
  rw [h] at h1; cases h1
  refine frame_text hr.ixOk (moved_ix hr.ixOk h2.rest h2.index fun j e he => ?_) hk ?_ ?_ ?_
  · obtain ⟨e', he', _⟩ := h2.elements j e he
    exact ⟨e', he'⟩
  · intro j c hjc
    obtain ⟨e, he, _⟩ := (hl.agree j c).mp hjc
    exact ⟨e, he⟩
  · intro j x hj hx
    obtain ⟨x', a1, a2, a3, _, _, a4⟩ := h2.elements j x hx
    refine ⟨x', [], a1, a2, a3, ?_⟩
    rw [a4, otherItems_self, List.map_nil, List.append_nil]
    intro hm
    exact hu j ((hl.agree j c).mp ⟨x, hx, hm⟩) hj
  · intro j x i _ _ _ _
    unfold elementKeyById Store.idToKey
    rw [h2.index]

/-- The elements that the text of a set of elements may depend on, as a closed set: a sufficient check for `Uses`. -/
def Sample.closed (d : Document) (s : List Nat) : Bool := s.all fun j => match d.getElement j with
  | some e => e.data.all (fun
      | .element c => s.contains c
      | _ => true) && (e.elementtype != .wordReference || match e.idref with
      | some i => match d.elementKeyById i with
        | some t => s.contains t
        | none => true
      | none => true)
  | none => true

theorem Sample.closed_sound {d : Document} {s : List Nat} (h : Sample.closed d s = true) {k : Nat} (hk : k ∈ s) {j : Nat} (hu : Uses d k j) : j ∈ s := by
  induction hu with
  | refl => exact hk
  | @child j c _ hl ih =>
    obtain ⟨e, he, hc⟩ := hl
    have h1 := List.all_eq_true.mp h j ih
    simp only [he, Bool.and_eq_true] at h1
    have h2 := List.all_eq_true.mp h1.1 _ hc
    simpa using h2
  | @ref j e i t _ he ht hi hkey ih =>
    have h1 := List.all_eq_true.mp h j ih
    simp only [he, Bool.and_eq_true] at h1
    have h2 := h1.2
    simp [ht, hi, hkey] at h2
    exact h2

/-- The hypotheses are met when a new word is added to the sentence, for the text of the first word; and when the second word is moved to the
body or taken out. -/
example : CleanReachable Sample.X Sample.F Sample.doc ∧ Sample.doc.LinksAgree ∧ Sample.doc.NewBuilder (Sample.word "w3" "again") ∧
    (addElementTo Sample.F 5 (Sample.word "w3" "again") Sample.doc).1 = .ok 13 ∧ NotAwaited Sample.doc (builderIds (Sample.word "w3" "again")) ∧
    (∀ q, Sample.doc.HasParent 4 q → q = 5) ∧ ¬ Uses Sample.doc 2 5 ∧ ¬ Uses Sample.doc 2 0 ∧ Sample.doc.text Sample.F 2 {} = .ok "Hello" ∧
    (attachElement 0 4 Sample.doc).1 = .ok () ∧ (detachElement 4 Sample.doc).1 = .ok () ∧
    (addElementTo Sample.F 5 (Sample.word "w3" "again") Sample.doc).2.text Sample.F 5 {} = .ok "Hello world again" := by
  have hu : ∀ j, Uses Sample.doc 2 j → j ∈ [1, 2, 6, 7] := fun j => Sample.closed_sound (by decide +kernel) (by decide +kernel)
  refine ⟨Sample.doc_clean, Sample.doc_tame.links, by decide +kernel, by decide +kernel, Sample.notAwaited_sound (by decide +kernel), ?_,
    fun h => absurd (hu 5 h) (by decide +kernel), fun h => absurd (hu 0 h) (by decide +kernel), by decide +kernel, by decide +kernel, by decide +kernel, by decide +kernel⟩
  intro q hq
  have h5 : Sample.doc.HasParent 4 5 := by decide +kernel
  obtain ⟨e, h1, h2⟩ := hq
  obtain ⟨e', h3, h4⟩ := h5
  rw [h1] at h3; cases h3
  rw [h2] at h4
  exact Option.some.inj h4

/-- That no word reference may already refer to the new identifier cannot be left out: the text of the chunk does not use the body, but a new
word in the body changes it. -/
theorem C79_awaited_counterexample : CleanReachable Sample.X Sample.F Sample.awaiting ∧ Sample.awaiting.NewBuilder (Sample.word "w9" "later") ∧
    ¬ Uses Sample.awaiting 1 0 ∧ (addElementTo Sample.F 0 (Sample.word "w9" "later") Sample.awaiting).1 = .ok 5 ∧
    Sample.awaiting.text Sample.F 1 {} = .error (.err .noText) ∧
    (addElementTo Sample.F 0 (Sample.word "w9" "later") Sample.awaiting).2.text Sample.F 1 {} = .ok "later" := by
  have hu : ∀ j, Uses Sample.awaiting 1 j → j ∈ [1, 2] := fun j => Sample.closed_sound (by decide +kernel) (by decide +kernel)
  exact ⟨C78_awaited_counterexample.1, by decide +kernel, fun h => absurd (hu 0 h) (by decide +kernel), by decide +kernel, by decide +kernel, by decide +kernel⟩

end Folia
