import Verif.Lemmas.XmlFrame
import Verif.Lemmas.SampleChecks
/-! C80: edits change only what is written for the edited elements. -/
namespace Folia
open Document

/-- The element `k` and everything below it is written in the same way in both documents. -/
def WrittenAlike (X : Ext) (d d' : Document) (k : Nat) : Prop :=
  ∃ evs N, ∀ G, N ≤ G → xmlElements X d G k = .ok evs ∧ xmlElements X d' G k = .ok evs

/-- The same, apart from line feeds between tags and from the two ways to write an element without content. -/
def WrittenAlmostAlike (X : Ext) (d d' : Document) (k : Nat) : Prop :=
  ∃ evs evs' N, (∀ G, N ≤ G → xmlElements X d G k = .ok evs ∧ xmlElements X d' G k = .ok evs') ∧ squeeze evs' = squeeze evs

/-- Neither `p` nor an element above it: the element `p` is not in the part of the document that `k` stands for. -/
def Outside (d : Document) (k p : Nat) : Prop := p ≠ k ∧ ¬ d.Above k p

theorem alike_of {X : Ext} {F : Nat} {d d' : Document} (hr : CleanReachable X F d) (hf : d.Forest) (hr' : CleanReachable X F d') (hf' : d'.Forest)
    (hd : d'.declarations = d.declarations) (hp : d'.processors = d.processors) {k : Nat} {ke ke' : ElementData} (hk : d.getElement k = some ke)
    (hk' : d'.getElement k = some ke') (hpar : ke.parent ≠ none ∨ k = 0) (hpar' : ke'.parent ≠ none ∨ k = 0)
    (hsame : ∀ j x x', (j = k ∨ d.Above k j) → d.getElement j = some x → d'.getElement j = some x' → x'.elementtype = x.elementtype ∧ x'.attribs = x.attribs ∧
      x'.data = x.data) : WrittenAlike X d d' k := by
  obtain ⟨A, hA, items, hb, N, hN⟩ := C36_exact (X := X) hr hf hk hpar
  obtain ⟨A', hA', items', hb', N', hN'⟩ := C36_exact (X := X) hr' hf' hk' hpar'
  refine ⟨_, max N N', fun G hG => ⟨hN G (by omega), ?_⟩⟩
  rw [hN' G (by omega)]
  congr 1
  refine item_same (S := fun j => j = k ∨ d.Above k j) (fun j c => below_child hf.links) ?_ true hb hb' rfl ?_
  · intro j x x' hj hx hx'
    obtain ⟨h1, h2, h3⟩ := hsame j x x' hj hx hx'
    exact ⟨h1, attrsAre_unique (hA' j x' hx') (attrsAre_elements hd hp h1 h2 (hA j x hx)), h3⟩
  · intro j hj
    cases hj
    exact .inl rfl

/-- Moving an element changes only what is written for its new parent, its old parent and the elements above these. -/
theorem C80_attach {X : Ext} {F : Nat} {d d' : Document} (hr : CleanReachable X F d) (hf : d.Forest) {p c : Nat} (h : attachElement p c d = (.ok (), d'))
    (hn : Outside d c p) {k : Nat} {ke : ElementData} (hk : d.getElement k = some ke) (hpar : ke.parent ≠ none ∨ k = 0) (hu : Outside d k p)
    (hu' : ∀ q, d.HasParent c q → Outside d k q) : WrittenAlike X d d' k := by
  have hl := hf.links
  cases hp : d.getElement p with
  | none => rw [C15_attach_unknown (.inl hp)] at h; cases h
  | some pe =>
    cases hc : d.getElement c with
    | none => rw [C15_attach_unknown (.inr hc)] at h; cases h
    | some ce =>
      obtain ⟨s, h1, _, _, h4⟩ := attach_effect hl hp hc
      obtain ⟨d2, h2, h3, hl'⟩ := C15_attach_moves hl hp hc
      rw [h] at h2; cases h2
      rw [h] at h1
      have hd' : d' = { d with elements := s } := congrArg Prod.snd h1
      have he : ∀ j, d'.getElement j = _ := fun j => (congrArg (·.getElement j) hd').trans (h4 j)
      have hr' : CleanReachable X F d' := by
        have := CleanReachable.op (F := F) (.attachElement p c) hr trivial
        have hrun : (Op.run F (.attachElement p c) d).2 = (attachElement p c d).2 := rfl
        rw [hrun, h] at this
        exact this
      have hf' : d'.Forest := ⟨hl', (attach_ranked hl (acyclic_ranked hl hf.acyclic) ⟨pe, hp⟩ hn.1 hn.2 he).acyclic hl'⟩
      obtain ⟨ke', hk', _, _, _, k4, _⟩ := h3.elements k ke hk
      refine alike_of hr hf hr' hf' (by rw [hd']) (by rw [hd']) hk hk' hpar ?_ ?_
      · by_cases hkc : k = c
        · subst hkc
          obtain ⟨y, hy1, hy2⟩ := (h3.child p).mpr rfl
          rw [hk'] at hy1; cases hy1
          exact .inl (by rw [hy2]; simp)
        · rw [k4 hkc]; exact hpar
      · intro j x x' hj hx hx'
        obtain ⟨x2, a1, a2, a3, _, _, a4, _⟩ := h3.elements j x hx
        rw [hx'] at a1; cases a1
        refine ⟨a2, a3, ?_⟩
        rw [a4 (by rintro rfl; exact hj.elim hu.1 hu.2), otherItems_eq, List.filter_eq_self]
        intro y hy
        cases hb : y.isElem c with
        | false => rfl
        | true =>
          have hq := hu' j ((hl.agree j c).mp ⟨x, hx, isElem_iff.mp hb ▸ hy⟩)
          exact absurd hj (fun h => h.elim hq.1 hq.2)

/-- Taking an element out of its parent changes only what is written for the parent and the elements above it. -/
theorem C80_detach {X : Ext} {F : Nat} {d d' : Document} (hr : CleanReachable X F d) (hf : d.Forest) {c : Nat} (h : detachElement c d = (.ok (), d'))
    {k : Nat} {ke : ElementData} (hk : d.getElement k = some ke) (hpar : ke.parent ≠ none ∨ k = 0) (hkc : k ≠ c) (hu : ∀ q, d.HasParent c q → Outside d k q) :
    WrittenAlike X d d' k := by
  have hl := hf.links
  cases hc : d.getElement c with
  | none => rw [C16_detach_unknown hc] at h; cases h
  | some ce =>
    obtain ⟨s, h1, _, _, h4⟩ := detach_effect hl hc
    obtain ⟨d2, h2, h3, hl', _⟩ := C16_detach_orphans hl hc
    rw [h] at h2; cases h2
    rw [h] at h1
    have hd' : d' = { d with elements := s } := congrArg Prod.snd h1
    have he : ∀ j, d'.getElement j = _ := fun j => (congrArg (·.getElement j) hd').trans (h4 j)
    have hr' : CleanReachable X F d' := by
      have := CleanReachable.op (F := F) (.detachElement c) hr trivial
      have hrun : (Op.run F (.detachElement c) d).2 = (detachElement c d).2 := rfl
      rw [hrun, h] at this
      exact this
    have hf' : d'.Forest := ⟨hl', (detach_ranked he (acyclic_ranked hl hf.acyclic)).acyclic hl'⟩
    obtain ⟨ke', hk', _, _, _, k4, _⟩ := h3.elements k ke hk
    refine alike_of hr hf hr' hf' (by rw [hd']) (by rw [hd']) hk hk' hpar (by rw [k4 hkc]; exact hpar) ?_
    intro j x x' hj hx hx'
    obtain ⟨x2, a1, a2, a3, _, _, a4⟩ := h3.elements j x hx
    rw [hx'] at a1; cases a1
    refine ⟨a2, a3, ?_⟩
    rw [a4, otherItems_eq, List.filter_eq_self]
    intro y hy
    cases hb : y.isElem c with
    | false => rfl
    | true =>
      have hq := hu j ((hl.agree j c).mp ⟨x, hx, isElem_iff.mp hb ▸ hy⟩)
      exact absurd hj (fun h => h.elim hq.1 hq.2)

/-- Adding an element, with everything below it, changes only what is written for its parent and the elements above it.

Missing for the full claim: the declarations and their processors must stay as they are, since a set is written only if there are several of its
type; see the counterexample. Features must have a subset (C10). -/
theorem C80_add_partial {X : Ext} {F : Nat} {d d' : Document} (hr : CleanReachable X F d) (hf : d.Forest) {p n : Nat} {e : ElementData}
    (hp : (d.getElement p).isSome) (hn : d.NewBuilder e) (h : addElementTo F p e d = (.ok n, d')) (hdecl : DeclsKept d d') {k : Nat} {ke : ElementData}
    (hk : d.getElement k = some ke) (hpar : ke.parent ≠ none ∨ k = 0) (hu : Outside d k p)
    (hfeat : ∀ j x, d.getElement j = some x → x.elementtype = .feature → x.subsetKeyU ≠ .ok none) : WrittenAlmostAlike X d d' k := by
  obtain ⟨pe, hpe⟩ := Option.isSome_iff_exists.mp hp
  have hi := hr.cinv
  have hl := hf.links
  have hpl := planted hi ⟨pe, hpe⟩ hn.1 hn.2 h
  have hr' : CleanReachable X F d' := by
    have := CleanReachable.op (F := F) (.addElementTo p e) hr hn.1
    have hrun : (Op.run F (.addElementTo p e) d).2 = (addElementTo F p e d).2 := by
      show (M.void _ d).2 = _
      rw [h]
      unfold M.void
      rw [M.run_bind, h]
      rfl
    rw [hrun, h] at this
    exact this
  have hl' := hpl.links hl
  have hf' : d'.Forest := ⟨hl', (hpl.ranked hl (acyclic_ranked hl hf.acyclic)).acyclic hl'⟩
  obtain ⟨ke', hk', hg⟩ := hpl.spec.others k ke hk hu.1.symm
  obtain ⟨A, hA, items, hb, N, hN⟩ := C36_exact (X := X) hr hf hk hpar
  obtain ⟨A', hA', items', hb', N', hN'⟩ := C36_exact (X := X) hr' hf' hk' (by rw [hg.parent]; exact hpar)
  refine ⟨_, _, max N N', fun G hG => ⟨hN G (by omega), hN' G (by omega)⟩, ?_⟩
  rw [squeeze_item, squeeze_item]
  refine item_flat (S := fun j => j = k ∨ d.Above k j) (fun j c => below_child hl) ?_ hb hb' rfl ?_
  · intro j x x' hj hx hx'
    obtain ⟨x2, h1, h2⟩ := hpl.spec.others j x hx (by rintro rfl; exact hj.elim hu.1 hu.2)
    rw [hx'] at h1; cases h1
    exact ⟨h2.type, attrsAre_unique (hA' j x' hx') (attrsAre_kept hi hpl.steps hdecl hx h2.type h2.attribs (hfeat j x hx) (hA j x hx)), h2.data⟩
  · intro j hj
    cases hj
    exact .inl rfl

/-- The elements above an element, nearest first. -/
def Sample.aboves (d : Document) : Nat → Nat → Option (List Nat)
  | 0, _ => none
  | n + 1, k => match (d.getElement k).bind (·.parent) with
    | none => some []
    | some p => (Sample.aboves d n p).map (p :: ·)

theorem Sample.aboves_sound {d : Document} {a k : Nat} (h : d.Above a k) : ∀ {n : Nat} {l : List Nat}, Sample.aboves d n k = some l → a ∈ l := by
  induction h with
  | parent hp =>
    intro n l hl
    obtain ⟨e, h1, h2⟩ := hp
    cases n with
    | zero => cases hl
    | succ n =>
      simp only [Sample.aboves, h1, Option.bind_some, h2, Option.map_eq_some_iff] at hl
      obtain ⟨l', _, rfl⟩ := hl
      simp
  | up hp _ ih =>
    intro n l hl
    obtain ⟨e, h1, h2⟩ := hp
    cases n with
    | zero => cases hl
    | succ n =>
      simp only [Sample.aboves, h1, Option.bind_some, h2, Option.map_eq_some_iff] at hl
      obtain ⟨l', h3, rfl⟩ := hl
      exact List.mem_cons_of_mem _ (ih h3)

/-- A sufficient check for `Outside`. -/
def Sample.outside (d : Document) (k p : Nat) : Bool := p != k && match Sample.aboves d 9 p with
  | some l => !l.contains k
  | none => false

theorem Sample.outside_sound {d : Document} {k p : Nat} (h : Sample.outside d k p = true) : Outside d k p := by
  unfold Sample.outside at h
  simp only [Bool.and_eq_true, bne_iff_ne] at h
  refine ⟨h.1, fun ha => ?_⟩
  cases hl : Sample.aboves d 9 p with
  | none => simp [hl] at h
  | some l =>
    have := Sample.aboves_sound ha hl
    simp [hl, this] at h

/-- A sufficient check for `DeclsKept`. -/
def Sample.declsKept (d d' : Document) : Bool := d'.declarations.items.length == d.declarations.items.length &&
  (List.range d.declarations.items.length).all fun k => match d.getDeclaration k, d'.getDeclaration k with
    | some dec, some dec' => decide (dec'.annotationtype = dec.annotationtype ∧ dec'.processors = dec.processors)
    | _, _ => false

theorem Sample.declsKept_sound {d d' : Document} (h : Sample.declsKept d d' = true) : DeclsKept d d' := by
  intro k dec' hk
  simp only [Sample.declsKept, Bool.and_eq_true, beq_iff_eq] at h
  have hlt : k < d.declarations.items.length := by
    rw [← h.1]
    unfold Document.getDeclaration Store.get at hk
    cases hx : d'.declarations.items[k]? with
    | none => rw [hx] at hk; cases hk
    | some _ => exact (List.getElem?_eq_some_iff.mp hx).1
  have h2 := List.all_eq_true.mp h.2 k (List.mem_range.mpr hlt)
  cases hd : d.getDeclaration k with
  | none => simp [hd] at h2
  | some dec =>
    simp only [hd, hk, decide_eq_true_eq] at h2
    exact ⟨dec, rfl, h2⟩

theorem Sample.features_sound {d : Document} (h : d.elements.items.all (fun
    | some x => x.elementtype != .feature || decide (x.subsetKeyU ≠ .ok none)
    | none => true) = true) (j : Nat) (x : ElementData) (hj : d.getElement j = some x) (ht : x.elementtype = .feature) : x.subsetKeyU ≠ .ok none := by
  have hm : some x ∈ d.elements.items := by
    unfold Document.getElement Store.get at hj
    split at hj
    · rename_i hx; rw [← hj]; exact List.mem_of_getElem? hx
    · cases hj
  have h1 := List.all_eq_true.mp h _ hm
  simpa [ht] using h1

/-- The hypotheses are met when a new word is added to the sentence, when the second word is moved to the body, and when it is taken out: the first
word is written in the same way. -/
example : CleanReachable Sample.X Sample.F Sample.doc ∧ Sample.doc.Forest ∧ Sample.doc.NewBuilder (Sample.word "w3" "again") ∧
    (addElementTo Sample.F 5 (Sample.word "w3" "again") Sample.doc).1 = .ok 13 ∧
    DeclsKept Sample.doc (addElementTo Sample.F 5 (Sample.word "w3" "again") Sample.doc).2 ∧
    (attachElement 0 4 Sample.doc).1 = .ok () ∧ (detachElement 4 Sample.doc).1 = .ok () ∧ Sample.doc.HasParent 4 5 ∧ Sample.doc.HasParent 2 5 ∧
    Outside Sample.doc 2 5 ∧ Outside Sample.doc 2 0 ∧ Outside Sample.doc 4 0 ∧
    (∀ j x, Sample.doc.getElement j = some x → x.elementtype = .feature → x.subsetKeyU ≠ .ok none) ∧
    (xmlElements Sample.X Sample.doc 100 2).toOption.map List.length = some 13 :=
  ⟨Sample.doc_consistent.clean, Sample.doc_consistent.forest, by decide +kernel, by decide +kernel, Sample.declsKept_sound (by decide +kernel), by decide +kernel,
    by decide +kernel, by decide +kernel, by decide +kernel, Sample.outside_sound (by decide +kernel), Sample.outside_sound (by decide +kernel),
    Sample.outside_sound (by decide +kernel), Sample.features_sound (by decide +kernel), by decide +kernel⟩

/-- Annotating the second word in another set changes what is written for the first word: its set was left out before. -/
theorem C80_set_counterexample :
    Outside Sample.doc 2 4 ∧
    (addElementTo Sample.F 4 (((ElementData.new .posAnnotation).setAttrib (.set "other")).setAttrib (.cls "N")) Sample.doc).1 = .ok 12 ∧
    (xmlElements Sample.X Sample.doc 100 6).toOption.map squeeze ≠ (xmlElements Sample.X
      (addElementTo Sample.F 4 (((ElementData.new .posAnnotation).setAttrib (.set "other")).setAttrib (.cls "N")) Sample.doc).2 100 6).toOption.map squeeze :=
  ⟨Sample.outside_sound (by decide +kernel), by decide +kernel, by decide +kernel⟩

end Folia
