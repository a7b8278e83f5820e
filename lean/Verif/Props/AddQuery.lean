import Verif.Props.SourceQuery
import Verif.Props.XmlFrame
/-! C95: what was added is found by its set and class. -/
namespace Folia
open Document

/-- Every old element has what it had, in front of what it has now. -/
theorem added_grown {d d' : Document} {p k : Nat} {e : ElementData} (h : AddedTo d d' p k e) {j : Nat} {x : ElementData} (hx : d.getElement j = some x) :
    ∃ x' more, d'.getElement j = some x' ∧ x'.elementtype = x.elementtype ∧ x'.parent = x.parent ∧ x'.data = x.data ++ more := by
  by_cases hj : j = p
  · subst hj
    obtain ⟨pe, pe', refs, refs', h1, h2, h3, _, h5, _, h7⟩ := h.parent
    rw [hx] at h1; cases h1
    exact ⟨pe', _, h2, h3, h5, by rw [h7, List.append_assoc, List.append_assoc]⟩
  · obtain ⟨x', h1, h2⟩ := h.others j x hx hj
    obtain ⟨refs, h3⟩ := h2.data
    exact ⟨x', _, h1, h2.type, h2.parent, h3⟩

theorem added_occurs {d d' : Document} {p k : Nat} {e : ElementData} (h : AddedTo d d' p k e) {go : ElementType → Prop} {q : Nat} {y : Data}
    {a i n : Nat} (ho : Occurs d go q y a i n) : Occurs d' go q y a i n := by
  have hget : ∀ {l more : List Data} {i : Nat} {y : Data}, l[i]? = some y → (l ++ more)[i]? = some y := by
    intro l more i y hy
    rw [List.getElem?_append_left (List.getElem?_eq_some_iff.mp hy).1, hy]
  induction ho with
  | direct he hy =>
    obtain ⟨x', more, h1, _, _, h4⟩ := added_grown h he
    exact .direct h1 (by rw [h4]; exact hget hy)
  | deeper _ hp hgo hc hy ih =>
    obtain ⟨pe', _, h1, h2, _, _⟩ := added_grown h hp
    obtain ⟨x', more, g1, _, _, g4⟩ := added_grown h hc
    exact .deeper ih h1 (by rw [h2]; exact hgo) g1 (by rw [g4]; exact hget hy)

/-- An old element that is found as a child now was found as a child before. -/
theorem added_old {d d' : Document} (hl : d.LinksAgree) (hl' : d'.LinksAgree) {p k : Nat} {e : ElementData} (h : AddedTo d d' p k e) {q : Nat} {y : Data}
    {a i n : Nat} (ho : Occurs d' (fun _ => True) q y a i n) : ∀ x, y = .element x → d.getElement x ≠ none →
      ∃ a' i' n', Occurs d (fun _ => True) q (.element x) a' i' n' := by
  have hlist : ∀ {j x : Nat} {je : ElementData} {i : Nat}, d'.getElement j = some je → je.data[i]? = some (.element x) → d.getElement x ≠ none →
      ∃ (je : ElementData) (i : Nat), d.getElement j = some je ∧ je.data[i]? = some (.element x) := by
    intro j x je i hj hi hx
    obtain ⟨xe, hxe⟩ := Option.ne_none_iff_exists'.mp hx
    obtain ⟨x', _, h1, _, h3, _⟩ := added_grown h hxe
    obtain ⟨x2, g1, g2⟩ := (hl'.agree j x).mp ⟨je, hj, List.mem_of_getElem? hi⟩
    rw [h1] at g1; cases g1
    obtain ⟨je', g3, g4⟩ := (hl.agree j x).mpr ⟨xe, hxe, by rw [← h3]; exact g2⟩
    obtain ⟨i', hi'⟩ := List.getElem?_of_mem g4
    exact ⟨je', i', g3, hi'⟩
  induction ho with
  | direct he hy =>
    rintro x rfl hx
    obtain ⟨je, i', g1, g2⟩ := hlist he hy hx
    exact ⟨_, _, _, .direct g1 g2⟩
  | @deeper p' pe j n c ce y i ho hp _ hc hy ih =>
    rintro x rfl hx
    obtain ⟨je, i', g1, g2⟩ := hlist hc hy hx
    obtain ⟨a', i2, n', g3⟩ := ih c rfl (by rw [g1]; nofun)
    obtain ⟨ae, hae⟩ : ∃ ae, d.getElement a' = some ae := by
      cases g3 with
      | direct h _ => exact ⟨_, h⟩
      | deeper _ _ _ h _ => exact ⟨_, h⟩
    exact ⟨_, _, _, .deeper g3 hae trivial g1 g2⟩

/-- After adding an element, with everything below it, to `p`, the query for a type, a set and perhaps a class, from `p` or above, finds everything that
it found before. It finds the new element if that has this type, set and class. If the type is neither that of a span annotation nor that of a
layer, whatever else it finds was not there before.

Missing for the full claim: documents in which the vocabulary of classes is full, and that no old span annotation or layer is found additionally. -/
theorem C95_added_partial {X : Ext} {F : Nat} {d d' : Document} (hr : CleanReachable X F d) (hf : d.Forest) {p k : Nat} {b : ElementData}
    (hp : (d.getElement p).isSome) (hn : d.NewBuilder b) (h : addElementTo F p b d = (.ok k, d'))
    (hroom : ∀ k dec st, d'.getDeclaration k = some dec → dec.classes = some st → st.len < cap32)
    {q : Nat} (hq : q = p ∨ ∃ a i n, Occurs d (fun _ => True) q (.element p) a i n)
    {t : ElementType} {a : AnnotationType} (ha : t.annotationtype = some a) (s : String) (c : Option String) :
    ∃ sel keys sel' keys' N, Selector.fromQuery d (setAndClass t s c) = .ok sel ∧ Selector.fromQuery d' (setAndClass t s c) = .ok sel' ∧
      (∀ G, N ≤ G → select d G q sel .always = .ok keys ∧ select d' G q sel' .always = .ok keys') ∧
      (∀ x ∈ keys, x ∈ keys') ∧ (b.elementtype = t → HasSetAndClass s c b = true → k ∈ keys') ∧ d.getElement k = none ∧
      (ElementGroup.span.contains t = false → ElementGroup.layer.contains t = false → ∀ x ∈ keys', x ∈ keys ∨ d.getElement x = none) := by
  obtain ⟨pe, hpe⟩ := Option.isSome_iff_exists.mp hp
  have hi := hr.cinv
  have hl := hf.links
  have hpl := planted hi ⟨pe, hpe⟩ hn.1 hn.2 h
  have hadd := hpl.spec
  have hrun : (Op.run F (.addElementTo p b) d).2 = d' := by
    show (M.void _ d).2 = _
    unfold M.void
    rw [M.run_bind, h]
    rfl
  have hops : runOps F [.addElementTo p b] d = d' := hrun
  have hoc : OpsClean F [.addElementTo p b] d := ⟨hn.1, trivial⟩
  have hr' : CleanReachable X F d' := by
    have := CleanReachable.op (F := F) (.addElementTo p b) hr hn.1
    rw [hrun] at this
    exact this
  have hl' := hpl.links hl
  have hf' : d'.Forest := ⟨hl', (hpl.ranked hl (acyclic_ranked hl hf.acyclic)).acyclic hl'⟩
  obtain ⟨qe, hqe⟩ : ∃ qe, d.getElement q = some qe := by
    rcases hq with rfl | ⟨a, i, n, hq⟩
    · exact ⟨pe, hpe⟩
    · have : ∀ {y : Data} {a i n : Nat}, Occurs d (fun _ => True) q y a i n → ∃ qe, d.getElement q = some qe := by
        intro y a i n ho
        induction ho with
        | direct h _ => exact ⟨_, h⟩
        | deeper _ _ _ _ _ ih => exact ih
      exact this hq
  obtain ⟨qe', _, hqe', _⟩ := added_grown hadd hqe
  obtain ⟨sel, hsel, hc, hst, hnever, hmatch, _⟩ := setAndClass_accepts hr ha s c
  obtain ⟨sel', hsel', hc', hst', hnever', hmatch', hacc'⟩ := setAndClass_accepts hr' ha s c
  obtain ⟨keys, N, h1, h2, _⟩ := lookup_select hr hf hqe hnever .always
  obtain ⟨keys', N', h1', h2', _⟩ := lookup_select hr' hf' hqe' hnever' .always
  have hfeat : t ≠ .feature := by rintro rfl; cases ha
  have hdesc : ∀ {d : Document} {k : Nat} {y : Data} {a i n : Nat},
      Occurs d (Descends .always) k y a i n ↔ Occurs d (fun _ => True) k y a i n := occurs_congr fun t => by simp [Descends]
  refine ⟨sel, keys, sel', keys', max N N', hsel, hsel', fun G hG => ⟨(h1 G (by omega)).1, (h1' G (by omega)).1⟩, fun x hx => ?_, fun hbt hb => ?_, ?_,
    fun hspan hlayer x hx => ?_⟩
  · obtain ⟨⟨y, a, i, n, hy, ho⟩, hm⟩ := (h2 x).mp hx
    obtain ⟨e, he, _⟩ := hst x hm
    obtain ⟨e', _, he', hty, _⟩ := added_grown hadd he
    obtain ⟨g1, g2, g3⟩ := (hmatch x e he).mp hm
    refine (h2' x).mpr ⟨⟨y, a, i, n, hy, added_occurs hadd ho⟩, (hmatch' x e' he').mpr ⟨hty.trans g1, ?_, fun c' hc' => ?_⟩⟩
    · have := (C10_known_values_stable hr _ hoc he (by rw [hops]; exact he') s).1 g2
      rw [hops] at this
      exact this
    · have := (C10_known_values_stable hr _ hoc he (by rw [hops]; exact he') c').2.1 (g3 c' hc')
      rw [hops] at this
      exact this
  · obtain ⟨pe1, pe', refs, refs', g1, g2, g3, _, _, _, g7⟩ := hadd.parent
    rw [hpe] at g1; cases g1
    have hmem : .element k ∈ pe'.data := by rw [g7]; simp
    obtain ⟨i, hi'⟩ := List.getElem?_of_mem hmem
    have hmk := hadd.tree
    obtain ⟨bt, bas, bdata, bk, bp⟩ := b
    obtain ⟨x, ys, refs2, _, g8, _, g9, _⟩ := hmk
    have hs : ElementData.set ⟨bt, bas, bdata, bk, bp⟩ = .ok (some s) := by
      unfold HasSetAndClass at hb
      exact of_decide_eq_true (Bool.and_eq_true_iff.mp hb).1
    have hm := hacc' d k x _ s g8 g9 hbt hs hroom
    rw [hb] at hm
    refine (h2' k).mpr ⟨?_, of_decide_eq_true hm⟩
    rcases hq with rfl | ⟨a, i', n, hq⟩
    · exact ⟨_, _, _, _, .inl rfl, .direct g2 hi'⟩
    · have ho := added_occurs hadd hq
      obtain ⟨ae, hae⟩ : ∃ ae, d'.getElement a = some ae := by
        cases ho with
        | direct h _ => exact ⟨_, h⟩
        | deeper _ _ _ h _ => exact ⟨_, h⟩
      exact ⟨_, _, _, _, .inl rfl, hdesc.mpr (.deeper ho hae trivial g2 hi')⟩
  · have hmk := hadd.tree
    obtain ⟨bt, bas, bdata, bk, bp⟩ := b
    obtain ⟨x, ys, refs2, g, _⟩ := hmk
    exact g
  · obtain ⟨⟨y, a, i, n, hy, ho⟩, hm⟩ := (h2' x).mp hx
    cases hex : d.getElement x with
    | none => exact .inr rfl
    | some e =>
      left
      obtain ⟨e', _, he', hty, _⟩ := added_grown hadd hex
      obtain ⟨g1, g2, g3⟩ := (hmatch' x e' he').mp hm
      have hye : y = .element x := by
        rcases hy with rfl | rfl
        · rfl
        · obtain ⟨e2, q1, q2⟩ := occurs_live hr' ho
          rw [he'] at q1; cases q1
          rw [g1, hspan] at q2; cases q2
      obtain ⟨a', i', n', ho'⟩ := added_old hl hl' hadd (hdesc.mp ho) x hye (by rw [hex]; nofun)
      obtain ⟨v1, v2, _⟩ := C10_values_unchanged_partial hr _ hoc hex (by rw [hops]; exact he')
        (fun hlay => by rw [← hty, g1, hlayer] at hlay; cases hlay) (fun hf => absurd (g1.symm.trans (hty.trans hf)) hfeat)
      rw [hops] at v1 v2
      exact (h2 x).mpr ⟨⟨_, _, _, _, .inl rfl, hdesc.mpr ho'⟩,
        (hmatch x e hex).mpr ⟨hty.symm.trans g1, v1.symm.trans g2, fun c' hc' => v2.symm.trans (g3 c' hc')⟩⟩

theorem annotate_plain {F : Nat} {d d' : Document} {p k : Nat} {b : ElementData} (hs : ElementGroup.span.contains b.elementtype = false)
    (h : annotate F p b d = (.ok k, d')) : (d.getElement p).isSome ∧ addElementTo F p b d = (.ok k, d') := by
  unfold annotate at h
  rw [M.run_bind, M.run_ofRes] at h
  cases hp : d.getElement p with
  | none => rw [hp] at h; cases h
  | some pe =>
    rw [hp] at h
    simp only [okOr, hs, Bool.false_eq_true, if_false] at h
    rw [M.run_bind, M.run_ofRes] at h
    cases hc : d.checkElementAddable p b.elementtype with
    | error f => rw [hc] at h; cases h
    | ok u => rw [hc] at h; exact ⟨rfl, h⟩

/-- The same for `annotate` with an annotation that is not a span annotation. -/
theorem C95_annotated_partial {X : Ext} {F : Nat} {d d' : Document} (hr : CleanReachable X F d) (hf : d.Forest) {p k : Nat} {b : ElementData}
    (hs : ElementGroup.span.contains b.elementtype = false) (hn : d.NewBuilder b) (h : annotate F p b d = (.ok k, d'))
    (hroom : ∀ k dec st, d'.getDeclaration k = some dec → dec.classes = some st → st.len < cap32)
    {q : Nat} (hq : q = p ∨ ∃ a i n, Occurs d (fun _ => True) q (.element p) a i n)
    {t : ElementType} {a : AnnotationType} (ha : t.annotationtype = some a) (s : String) (c : Option String) :
    ∃ sel keys sel' keys' N, Selector.fromQuery d (setAndClass t s c) = .ok sel ∧ Selector.fromQuery d' (setAndClass t s c) = .ok sel' ∧
      (∀ G, N ≤ G → select d G q sel .always = .ok keys ∧ select d' G q sel' .always = .ok keys') ∧
      (∀ x ∈ keys, x ∈ keys') ∧ (b.elementtype = t → HasSetAndClass s c b = true → k ∈ keys') ∧ d.getElement k = none ∧
      (ElementGroup.span.contains t = false → ElementGroup.layer.contains t = false → ∀ x ∈ keys', x ∈ keys ∨ d.getElement x = none) :=
  C95_added_partial hr hf (annotate_plain hs h).1 hn (annotate_plain hs h).2 hroom hq ha s c

example : (annotate Sample.F 4 Sample.pos Sample.doc).1 = .ok 12 ∧ ElementGroup.span.contains Sample.pos.elementtype = false ∧
    Sample.doc.NewBuilder Sample.pos := ⟨by decide +kernel, by decide, by decide +kernel⟩

/-- The hypotheses are met by a noun for the second word of the sample. From the sentence, it is found after the first one. -/
example : ∃ d' sel keys sel' keys' N, addElementTo Sample.F 4 Sample.pos Sample.doc = (.ok 12, d') ∧ 12 ∈ keys' ∧ (∀ x ∈ keys, x ∈ keys') ∧
    Selector.fromQuery Sample.doc (setAndClass .posAnnotation "brown" (some "NN")) = .ok sel ∧
    Selector.fromQuery d' (setAndClass .posAnnotation "brown" (some "NN")) = .ok sel' ∧
    ∀ G, N ≤ G → select Sample.doc G 5 sel .always = .ok keys ∧ select d' G 5 sel' .always = .ok keys' := by
  have hok : (addElementTo Sample.F 4 Sample.pos Sample.doc).1 = .ok 12 := by decide +kernel
  have h : addElementTo Sample.F 4 Sample.pos Sample.doc = (.ok 12, (addElementTo Sample.F 4 Sample.pos Sample.doc).2) := by rw [← hok]
  obtain ⟨e, h5, hmem⟩ : Sample.doc.Lists 5 4 := by decide +kernel
  obtain ⟨i, hi⟩ := List.getElem?_of_mem hmem
  obtain ⟨sel, keys, sel', keys', N, h1, h2, h3, h4, hnew, _, _⟩ := C95_added_partial Sample.doc_clean Sample.doc_forest (by decide +kernel)
    (by decide +kernel) h (Sample.room (by decide +kernel)) (q := 5) (.inr ⟨_, _, _, .direct h5 hi⟩) (t := .posAnnotation) rfl "brown" (some "NN")
  exact ⟨_, sel, keys, sel', keys', N, h, hnew rfl (by decide +kernel), h4, h1, h2, h3⟩

/-- The selections of the sample. -/
example : ((Selector.fromQuery Sample.doc (setAndClass .posAnnotation "brown" (some "NN"))).bind fun s => select Sample.doc 60 5 s .always) = .ok [6] ∧
    ((Selector.fromQuery (addElementTo Sample.F 4 Sample.pos Sample.doc).2 (setAndClass .posAnnotation "brown" (some "NN"))).bind fun s =>
      select (addElementTo Sample.F 4 Sample.pos Sample.doc).2 60 5 s .always) = .ok [6, 12] := by decide +kernel

end Folia
