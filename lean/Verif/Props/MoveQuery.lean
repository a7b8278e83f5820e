import Verif.Props.XmlFrame
import Verif.Props.Select
/-! C96: what is selected after moving and detaching elements. -/
namespace Folia
open Document

/-- `x` is the element `c` or below it. -/
def Within (d : Document) (c x : Nat) : Prop := x = c ∨ d.Above c x

theorem within_parent {d : Document} {c x p : Nat} (h : d.HasParent x p) (hx : x ≠ c) : Within d c x ↔ Within d c p := by
  constructor
  · rintro (rfl | ha)
    · exact absurd rfl hx
    · cases ha with
      | parent h' => exact .inl (hasParent_unique h h')
      | up h' ha => rw [hasParent_unique h h']; exact .inr ha
  · rintro (rfl | ha)
    · exact .inr (.parent h)
    · exact .inr (.up h ha)

theorem detach_above {d d' : Document} {c : Nat} (hH : ∀ x p, d'.HasParent x p ↔ x ≠ c ∧ d.HasParent x p) {q x : Nat} (hout : ¬ Within d c q) :
    d'.Above q x ↔ d.Above q x ∧ ¬ Within d c x := by
  constructor
  · intro h
    induction h with
    | parent h =>
      obtain ⟨g1, g2⟩ := (hH _ _).mp h
      exact ⟨.parent g2, fun hw => hout ((within_parent g2 g1).mp hw)⟩
    | up h _ ih =>
      obtain ⟨g1, g2⟩ := (hH _ _).mp h
      exact ⟨.up g2 ih.1, fun hw => ih.2 ((within_parent g2 g1).mp hw)⟩
  · rintro ⟨h, hw⟩
    induction h with
    | parent h => exact .parent ((hH _ _).mpr ⟨fun hx => hw (.inl hx), h⟩)
    | up h _ ih =>
      have hx : _ ≠ c := fun hx => hw (.inl hx)
      exact .up ((hH _ _).mpr ⟨hx, h⟩) (ih fun hw' => hw ((within_parent h hx).mpr hw'))

theorem attach_above {d d' : Document} {c p : Nat} (hac : d.Acyclic) (hH : ∀ x r, d'.HasParent x r ↔ if x = c then r = p else d.HasParent x r)
    (hp : ¬ Within d c p) {q x : Nat} (hout : ¬ Within d c q) :
    d'.Above q x ↔ (d.Above q x ∧ ¬ Within d c x) ∨ (Within d c x ∧ Within d q p) := by
  have hold : ∀ {x r}, x ≠ c → (d'.HasParent x r ↔ d.HasParent x r) := fun hx => by rw [hH, if_neg hx]
  have hleft : ∀ {x}, d.Above q x → ¬ Within d c x → d'.Above q x := by
    intro x h hw
    induction h with
    | parent h => exact .parent ((hold fun hx => hw (.inl hx)).mpr h)
    | up h _ ih =>
      have hx : _ ≠ c := fun hx => hw (.inl hx)
      exact .up ((hold hx).mpr h) (ih fun hw' => hw ((within_parent h hx).mpr hw'))
  constructor
  · intro h
    induction h with
    | @parent k h =>
      by_cases hx : k = c
      · rw [hH, if_pos hx] at h
        exact .inr ⟨.inl hx, .inl h.symm⟩
      · rw [hold hx] at h
        exact .inl ⟨.parent h, fun hw => hout ((within_parent h hx).mp hw)⟩
    | @up r k h _ ih =>
      by_cases hx : k = c
      · rw [hH, if_pos hx] at h
        subst h
        rcases ih with ⟨g, _⟩ | ⟨g, _⟩
        · exact .inr ⟨.inl hx, .inr g⟩
        · exact absurd g hp
      · rw [hold hx] at h
        rcases ih with ⟨g1, g2⟩ | ⟨g1, g2⟩
        · exact .inl ⟨.up h g1, fun hw => g2 ((within_parent h hx).mp hw)⟩
        · exact .inr ⟨(within_parent h hx).mpr g1, g2⟩
  · rintro (⟨h, hw⟩ | ⟨hw, hq⟩)
    · exact hleft h hw
    · have hc : d'.HasParent c p := by rw [hH, if_pos rfl]
      have hqc : d'.Above q c := by
        rcases hq with rfl | hq
        · exact .parent hc
        · exact .up hc (hleft hq hp)
      rcases hw with rfl | hw
      · exact hqc
      · have hgo : ∀ {x}, d.Above c x → d'.Above q x := by
          intro x h
          have hne : x ≠ c := by rintro rfl; exact hac _ h
          induction h with
          | parent h => exact .up ((hold hne).mpr h) hqc
          | up h h' ih => exact .up ((hold hne).mpr h) (ih fun he => by subst he; exact hac _ h')
        exact hgo hw

/-- With consistent links, the children found below an element are the elements that it is above of. -/
theorem occurs_iff_above {d : Document} (hl : d.LinksAgree) {q x : Nat} : (∃ a i n, Occurs d (fun _ => True) q (.element x) a i n) ↔ d.Above q x := by
  constructor
  · rintro ⟨a, i, n, ho⟩
    have : ∀ {y : Data} {a i n : Nat}, Occurs d (fun _ => True) q y a i n → ∀ x, y = .element x → d.Above q x := by
      intro y a i n ho
      induction ho with
      | direct he hy =>
        rintro x rfl
        exact .parent ((hl.agree q x).mp ⟨_, he, List.mem_of_getElem? hy⟩)
      | deeper _ _ _ hc hy ih =>
        rintro x rfl
        exact .up ((hl.agree _ x).mp ⟨_, hc, List.mem_of_getElem? hy⟩) (ih _ rfl)
    exact this ho x rfl
  · intro h
    induction h with
    | parent h =>
      obtain ⟨e, he, hm⟩ := (hl.agree _ _).mpr h
      obtain ⟨i, hi⟩ := List.getElem?_of_mem hm
      exact ⟨_, _, _, .direct he hi⟩
    | up h _ ih =>
      obtain ⟨a, i, n, ho⟩ := ih
      obtain ⟨e, he, hm⟩ := (hl.agree _ _).mpr h
      obtain ⟨j, hj⟩ := List.getElem?_of_mem hm
      obtain ⟨ae, hae⟩ : ∃ ae, d.getElement a = some ae := by
        cases ho with
        | direct h _ => exact ⟨_, h⟩
        | deeper _ _ _ h _ => exact ⟨_, h⟩
      exact ⟨_, _, _, .deeper ho hae trivial he hj⟩

/-- What is selected, apart from span annotations, which can also be met through references. -/
theorem selected_above {X : Ext} {F : Nat} {d : Document} (hr : CleanReachable X F d) (hf : d.Forest) {q : Nat} {e : ElementData}
    (he : d.getElement q = some e) (s : Selector) (hs : s.matchable = true) :
    ∃ keys N, (∀ G, N ≤ G → select d G q s .always = .ok keys) ∧
      ∀ x xe, d.getElement x = some xe → ElementGroup.span.contains xe.elementtype = false →
        (x ∈ keys ↔ d.Above q x ∧ s.matches d (.element x) = .ok true) := by
  obtain ⟨keys, ⟨N, hN⟩, hmem, _⟩ := C25_spans_once hr hf he s hs .always
  have hdesc : ∀ {y : Data} {a i n : Nat}, Occurs d (Descends .always) q y a i n ↔ Occurs d (fun _ => True) q y a i n :=
    occurs_congr fun t => by simp [Descends]
  refine ⟨keys, N, hN, fun x xe hx hsp => ?_⟩
  rw [hmem]
  constructor
  · rintro ⟨y, a, i, n, rfl | rfl, ho, hm⟩
    · exact ⟨(occurs_iff_above hf.links).mp ⟨a, i, n, hdesc.mp ho⟩, hm⟩
    · obtain ⟨e', q1, q2⟩ := occurs_live hr ho
      rw [hx] at q1; cases q1
      rw [hsp] at q2; cases q2
  · rintro ⟨ha, hm⟩
    obtain ⟨a, i, n, ho⟩ := (occurs_iff_above hf.links).mpr ha
    exact ⟨_, a, i, n, .inl rfl, hdesc.mpr ho, hm⟩

/-- Changing the data and the parents of elements does not change what a selector accepts. -/
theorem matches_moved {d : Document} {E : Store ElementData} {x : Nat} {e e' : ElementData} (he : d.getElement x = some e)
    (he' : ({ d with elements := E } : Document).getElement x = some e') (ht : e'.elementtype = e.elementtype) (ha : e'.attribs = e.attribs) (s : Selector) :
    s.matches { d with elements := E } (.element x) = s.matches d (.element x) := by
  have hcore : ∀ c : SelCore, c.matches { d with elements := E } (.element x) = c.matches d (.element x) := by
    intro c
    obtain ⟨t, as, data, k, p⟩ := e
    obtain ⟨t', as', data', k', p'⟩ := e'
    cases ht; cases ha
    unfold SelCore.matches
    simp only [he, he']
    rfl
  have hchain : ∀ (l : List SelCore) (c : SelCore), matchesChain { d with elements := E } (.element x) c l = matchesChain d (.element x) c l := by
    intro l
    induction l with
    | nil => exact hcore
    | cons c' l ih =>
      intro c
      unfold matchesChain
      rw [hcore, ih]
  exact hchain s.next s.core

/-- After taking the element `c` out of its parent, a selection from outside of it finds what it found before, without `c` and what is below
it.

Missing for the full claim: span annotations. They are also met through the references of their words, and found although they were taken out, see
the counterexample. A selector that cannot match anything selects nothing at all (C23). -/
theorem C96_detach_partial {X : Ext} {F : Nat} {d d' : Document} (hr : CleanReachable X F d) (hf : d.Forest) {c : Nat}
    (h : detachElement c d = (.ok (), d')) {q : Nat} {qe : ElementData} (hq : d.getElement q = some qe) (hout : ¬ Within d c q) (s : Selector)
    (hs : s.matchable = true) :
    ∃ keys keys' N, (∀ G, N ≤ G → select d G q s .always = .ok keys ∧ select d' G q s .always = .ok keys') ∧
      ∀ x xe, d.getElement x = some xe → ElementGroup.span.contains xe.elementtype = false → (x ∈ keys' ↔ x ∈ keys ∧ ¬ Within d c x) := by
  have hl := hf.links
  cases hc : d.getElement c with
  | none => rw [C16_detach_unknown hc] at h; cases h
  | some ce =>
    obtain ⟨E, h1, _, _, h4⟩ := detach_effect hl hc
    obtain ⟨d2, h2, h3, hl', _⟩ := C16_detach_orphans hl hc
    rw [h] at h2; cases h2
    rw [h] at h1
    have hd' : d' = { d with elements := E } := congrArg Prod.snd h1
    have he : ∀ j, d'.getElement j = _ := fun j => (congrArg (·.getElement j) hd').trans (h4 j)
    have hr' : CleanReachable X F d' := by
      have := CleanReachable.op (F := F) (.detachElement c) hr trivial
      have hrun : (Op.run F (.detachElement c) d).2 = (detachElement c d).2 := rfl
      rw [hrun, h] at this
      exact this
    have hf' : d'.Forest := ⟨hl', (detach_ranked he (acyclic_ranked hl hf.acyclic)).acyclic hl'⟩
    obtain ⟨qe', hq', _⟩ := h3.elements q qe hq
    obtain ⟨keys, N, k1, k2⟩ := selected_above hr hf hq s hs
    obtain ⟨keys', N', k1', k2'⟩ := selected_above hr' hf' hq' s hs
    refine ⟨keys, keys', max N N', fun G hG => ⟨k1 G (by omega), k1' G (by omega)⟩, fun x xe hx hsp => ?_⟩
    obtain ⟨xe', hx', ht, ha, _⟩ := h3.elements x xe hx
    rw [k2 x xe hx hsp, k2' x xe' hx' (by rw [ht]; exact hsp)]
    have hm : s.matches d' (.element x) = s.matches d (.element x) := by
      subst hd'
      exact matches_moved hx hx' ht ha s
    rw [hm, detach_above (fun x q => detach_hasParent he) hout, and_right_comm]

/-- After moving the element `c` below `p`, a selection from outside of `c` finds what it found before outside of `c`, and finds what it accepts of `c`
and below exactly if it starts at `p` or above it. Span annotations are missing, as above. -/
theorem C96_attach_partial {X : Ext} {F : Nat} {d d' : Document} (hr : CleanReachable X F d) (hf : d.Forest) {p c : Nat}
    (h : attachElement p c d = (.ok (), d')) (hn : ¬ Within d c p) {q : Nat} {qe : ElementData} (hq : d.getElement q = some qe) (hout : ¬ Within d c q)
    (s : Selector) (hs : s.matchable = true) :
    ∃ keys keys' N, (∀ G, N ≤ G → select d G q s .always = .ok keys ∧ select d' G q s .always = .ok keys') ∧
      ∀ x xe, d.getElement x = some xe → ElementGroup.span.contains xe.elementtype = false →
        (¬ Within d c x → (x ∈ keys' ↔ x ∈ keys)) ∧
        (Within d c x → (x ∈ keys' ↔ Within d q p ∧ s.matches d (.element x) = .ok true)) := by
  have hl := hf.links
  cases hp : d.getElement p with
  | none => rw [C15_attach_unknown (.inl hp)] at h; cases h
  | some pe =>
    cases hc : d.getElement c with
    | none => rw [C15_attach_unknown (.inr hc)] at h; cases h
    | some ce =>
      obtain ⟨E, h1, _, _, h4⟩ := attach_effect hl hp hc
      obtain ⟨d2, h2, h3, hl'⟩ := C15_attach_moves hl hp hc
      rw [h] at h2; cases h2
      rw [h] at h1
      have hd' : d' = { d with elements := E } := congrArg Prod.snd h1
      have he : ∀ j, d'.getElement j = _ := fun j => (congrArg (·.getElement j) hd').trans (h4 j)
      have hr' : CleanReachable X F d' := by
        have := CleanReachable.op (F := F) (.attachElement p c) hr trivial
        have hrun : (Op.run F (.attachElement p c) d).2 = (attachElement p c d).2 := rfl
        rw [hrun, h] at this
        exact this
      have hf' : d'.Forest :=
        ⟨hl', (attach_ranked hl (acyclic_ranked hl hf.acyclic) ⟨pe, hp⟩ (fun h => hn (.inl h)) (fun h => hn (.inr h)) he).acyclic hl'⟩
      obtain ⟨qe', hq', _⟩ := h3.elements q qe hq
      obtain ⟨keys, N, k1, k2⟩ := selected_above hr hf hq s hs
      obtain ⟨keys', N', k1', k2'⟩ := selected_above hr' hf' hq' s hs
      refine ⟨keys, keys', max N N', fun G hG => ⟨k1 G (by omega), k1' G (by omega)⟩, fun x xe hx hsp => ?_⟩
      obtain ⟨xe', hx', ht, ha, _⟩ := h3.elements x xe hx
      have hm : s.matches d' (.element x) = s.matches d (.element x) := by
        subst hd'
        exact matches_moved hx hx' ht ha s
      rw [k2 x xe hx hsp, k2' x xe' hx' (by rw [ht]; exact hsp), hm, attach_above hf.acyclic (fun x r => ?_) hn hout]
      · exact ⟨fun hw => by simp [hw], fun hw => by simp [hw]⟩
      · rw [attach_hasParent he ⟨ce, hc⟩]
        by_cases hxc : x = c <;> simp [hxc]

/-- The hypotheses are met: the sentence is outside of its word. It has a tag below the word before the word is taken out, and not afterwards. -/
example : CleanReachable Sample.X Sample.F Sample.doc ∧ Sample.doc.Forest ∧ (detachElement 2 Sample.doc).1 = .ok () ∧ ¬ Within Sample.doc 2 5 ∧
    (select Sample.doc 60 5 (Selector.elements.element (.is .posAnnotation)) .always).toOption = some [6] ∧
    (select (detachElement 2 Sample.doc).2 60 5 (Selector.elements.element (.is .posAnnotation)) .always).toOption = some [] := by
  refine ⟨Sample.doc_clean, Sample.doc_forest, by decide +kernel, ?_, by decide +kernel, by decide +kernel⟩
  rintro (h | h)
  · cases h
  · exact absurd (Sample.aboves_sound h (n := 20) (l := [0]) (by decide +kernel)) (by decide)

/-- Likewise for moving the tag from the first word to the second. -/
example : (attachElement 4 6 Sample.doc).1 = .ok () ∧ ¬ Within Sample.doc 6 4 ∧ ¬ Within Sample.doc 6 2 ∧
    (select Sample.doc 60 4 (Selector.elements.element (.is .posAnnotation)) .always).toOption = some [] ∧
    (select (attachElement 4 6 Sample.doc).2 60 4 (Selector.elements.element (.is .posAnnotation)) .always).toOption = some [6] ∧
    (select (attachElement 4 6 Sample.doc).2 60 2 (Selector.elements.element (.is .posAnnotation)) .always).toOption = some [] := by
  refine ⟨by decide +kernel, ?_, ?_, by decide +kernel, by decide +kernel, by decide +kernel⟩ <;>
  · rintro (h | h)
    · cases h
    · exact absurd (Sample.aboves_sound h (n := 20) (l := [5, 0]) (by decide +kernel)) (by decide)

/-- A chunk that was taken out of its layer, and has no parent any more, is still selected from the sentence, through the references of its words. -/
theorem C96_span_counterexample : CleanReachable Sample.X Sample.F Sample.doc ∧ Sample.doc.Forest ∧ (detachElement 11 Sample.doc).1 = .ok () ∧
    ¬ Within Sample.doc 11 5 ∧ (∀ p, ¬ (detachElement 11 Sample.doc).2.HasParent 11 p) ∧
    (select (detachElement 11 Sample.doc).2 60 5 (Selector.elements.element (.is .chunk)) .always).toOption = some [11] := by
  have hok : (detachElement 11 Sample.doc).1 = .ok () := by decide +kernel
  refine ⟨Sample.doc_clean, Sample.doc_forest, hok, ?_, ?_, by decide +kernel⟩
  · rintro (h | h)
    · cases h
    · exact absurd (Sample.aboves_sound h (n := 20) (l := [0]) (by decide +kernel)) (by decide)
  · obtain ⟨ce, hc⟩ := Option.isSome_iff_exists.mp (show (Sample.doc.getElement 11).isSome = true by decide +kernel)
    obtain ⟨d', h1, h2, _⟩ := C16_detach_orphans Sample.doc_forest.links hc
    rw [h1]
    exact h2.child

end Folia
