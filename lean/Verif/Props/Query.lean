import Verif.Lemmas.Query
import Verif.Props.Select
/-! C27 (what a compiled query means), C29 (annotator and confidence criteria). -/
namespace Folia
open Document

/-! ### C27 -/

/-- What the accessors report about a stored element: declaration, set, class, subset and processor. -/
structure Reports (d : Document) (e : ElementData) (dec : Option Declaration) (cls subset proc : Option String) : Prop where
  getDec : e.getDeclaration d = .ok dec
  getSet : e.getSet d = .ok (dec.bind (·.set))
  getCls : e.getClass d = .ok cls
  getSub : e.getSubset d = .ok subset
  getProc : e.getProcessorId d = .ok proc

/-- Every stored element has such a report. -/
theorem C27_reports {X : Ext} {F : Nat} {d : Document} (hr : CleanReachable X F d) {k : Nat} {e : ElementData} (he : d.getElement k = some e) :
    ∃ dec cls subset proc, Reports d e dec cls subset proc := by
  obtain ⟨plain, enc, h1, h2, _⟩ := (hr.cinv.elem k e he).refs
  obtain ⟨v1, _, v3, v4, v5, v6⟩ := values_of_refs (d := d) h1 h2
  exact ⟨_, _, _, _, v1, v3, v5, v4, v6⟩

theorem Reports.refs {d : Document} {e : ElementData} {dec : Option Declaration} {cls subset proc : Option String}
    (hrep : Reports d e dec cls subset proc) (href : RefsOk d e) : ∃ plain enc, e.attribs = plain ++ encRefs enc ∧ PlainAttribs plain ∧
      RefLive d e.elementtype enc ∧ dec = enc.dec.bind d.getDeclaration ∧ proc = (enc.proc.bind d.getProcessor).map (·.id) ∧
      subset = (enc.dec.bind d.getDeclaration).bind (fun x => enc.subset.bind x.getSubset) ∧
      cls = (enc.cls.bind fun c => (enc.dec.bind d.getDeclaration).bind fun dec => if enc.subset.isSome then dec.getSubclass c else dec.getClass c) ∧
      (enc.subset.isSome = true → e.elementtype = .feature) ∧ (e.elementtype = .feature → subset ≠ none → enc.subset.isSome = true) ∧
      ((e.elementtype = .feature → enc.subset.isSome = true) → (enc.cls = none ↔ cls = none)) := by
  obtain ⟨plain, enc, h1, h2, h3⟩ := href
  obtain ⟨v1, _, v3, v4, v5, v6⟩ := values_of_refs (d := d) h1 h2
  have e1 : dec = enc.dec.bind d.getDeclaration := Except.ok.inj (hrep.getDec.symm.trans v1)
  have e2 : proc = (enc.proc.bind d.getProcessor).map (·.id) := Except.ok.inj (hrep.getProc.symm.trans v6)
  have e3 : subset = _ := Except.ok.inj (hrep.getSub.symm.trans v4)
  have e4 : cls = _ := Except.ok.inj (hrep.getCls.symm.trans v5)
  have hfeat : enc.subset.isSome = true → e.elementtype = .feature := by
    intro h
    obtain ⟨c, hc⟩ := Option.isSome_iff_exists.mp h
    exact (h3.subset c hc).1
  refine ⟨plain, enc, h1, h2, h3, e1, e2, e3, e4, hfeat, ?_, fun hfs => ?_⟩
  · intro _ h
    rw [e3] at h
    cases hs : enc.subset with
    | some _ => rfl
    | none =>
      rw [hs] at h
      exact absurd (by cases enc.dec.bind d.getDeclaration <;> rfl) h
  rw [e4]
  cases hc : enc.cls with
  | none => simp
  | some c =>
    obtain ⟨k, x, h4, h5, s, h6⟩ := h3.cls c hc
    simp only [h4, Option.bind_some, h5]
    by_cases hf : e.elementtype = .feature
    · rw [if_pos hf] at h6; rw [if_pos (hfs hf), h6]; simp
    · rw [if_neg hf] at h6; rw [if_neg (fun h => hf (hfeat h)), h6]; simp

/-- What a query without a subset selects, for all queries: compilation succeeds, and an element is accepted exactly if its type, group, declaration,
class and processor meet the comparisons. `MeetsSet` and `MeetsClass` say what the library makes of comparisons with sets and classes. Features without a subset are left out, their
class is looked up in the wrong table (see C12). -/
theorem C27_meaning {X : Ext} {F : Nat} {d : Document} (hr : CleanReachable X F d) (q : Query) (hsub : q.subset = .any) :
    ∃ s, Selector.fromQuery d q = .ok s ∧ ∀ k e dec cls subset proc, d.getElement k = some e → Reports d e dec cls subset proc →
      (e.elementtype = .feature → subset ≠ none) →
      (s.matches d (.element k) = .ok true ↔ MeetsGroup q.elementgroup e.elementtype ∧ Meets q.elementtype (some e.elementtype) ∧
        MeetsSet q.elementtype q.set dec ∧ MeetsClass q.set q.cls cls ∧ Meets q.processor proc) := by
  obtain ⟨s, h0, hc, h1, h2, h3, h4, h5, h6⟩ := fromQuery_plain d q hsub
  refine ⟨s, h0, fun k e dec cls subset proc he hrep hfs => ?_⟩
  have hinv := hr.cinv
  obtain ⟨plain, enc, ha, hp, href, rfl, rfl, rfl, hcls, hfeat, hfs', hnone⟩ := hrep.refs (hinv.elem k e he).refs
  have hnone := hnone fun h => hfs' h (hfs h)
  have hset := compileSet_meets hinv.decls.exact q.elementtype q.set href.dec
  rw [compiled_matches hc he ha hp, h1, h2, h3, h4, h5, h6, hset, compileProc_meets hinv.procs q.processor href.proc]
  refine and_congr_right fun _ => and_congr_right fun htype => and_congr_right fun hms => ?_
  rw [show Meets Cmp.any enc.subset ↔ True from Iff.rfl, true_and]
  refine and_congr_left fun _ => ?_
  cases hq : q.cls with
  | any => exact Iff.rfl
  | unmatchable => exact Iff.rfl
  | some => exact not_congr hnone
  | none => exact hnone
  | «is» c =>
    have main : ∀ sv : Option String, compileSet d q.elementtype q.set = encodeSet d q.elementtype sv →
        (∃ t a x, q.elementtype = .is t ∧ t.annotationtype = some a ∧ enc.dec.bind d.getDeclaration = some x ∧ x.annotationtype = a ∧ x.set = sv) →
        (Meets (compileClass d (compileSet d q.elementtype q.set) false (.is c)) enc.cls ↔ cls = some c) := by
      rintro sv hcs ⟨t, a, x, g1, g2, g3, g4⟩
      obtain ⟨dk, g5, g6⟩ := Option.bind_eq_some_iff.mp g3
      have hnf : enc.subset.isSome = false := by
        cases hs : enc.subset.isSome with
        | false => rfl
        | true =>
          rw [g1] at htype
          have : e.elementtype = t := Option.some.inj htype
          rw [hfeat hs] at this
          subst this
          cases g2
      rw [hcs, (encodeSet_iff hinv.decls.exact _ _ dk).mpr ⟨t, a, x, g1, g2, g6, g4⟩]
      unfold compileClass
      simp only [g6, Declaration.classKey]
      rw [name_meets (hinv.decls.ok dk x g6).classes, hcls, g3, hnf]
      exact Iff.rfl
    cases hqs : q.set with
    | any => simp [MeetsClass, compileClass, compileSet, Meets]
    | some => simp [MeetsClass, compileClass, compileSet, Meets]
    | unmatchable => simp [MeetsClass, compileClass, compileSet, Meets]
    | none =>
      rw [hqs] at hms main
      rw [main none rfl hms]
      simp [MeetsClass, Meets]
    | «is» sv =>
      rw [hqs] at hms main
      rw [main (some sv) rfl hms]
      simp [MeetsClass, Meets]

/-- In terms of accessors only. A query for a type, group, set, class and processor accepts exactly the elements whose reported type, set, class and
processor meet the comparisons, if the set, when given, comes with an element type that has an annotation type, and
a class comes with a set. Missing for the full claim: the comparisons `Some` and `None` with the set, and a class without a set, see the
counterexamples. -/
theorem C27_query_partial {X : Ext} {F : Nat} {d : Document} (hr : CleanReachable X F d) (q : Query) (hsub : q.subset = .any)
    (hsome : q.set ≠ .some) (hnone : q.set ≠ .none)
    (hset : ∀ s, q.set = .is s → ∃ t a, q.elementtype = .is t ∧ t.annotationtype = some a)
    (hcls : ∀ c, q.cls = .is c → ∃ s, q.set = .is s) :
    ∃ s, Selector.fromQuery d q = .ok s ∧ ∀ k e dec cls subset proc, d.getElement k = some e → Reports d e dec cls subset proc →
      (e.elementtype = .feature → subset ≠ none) →
      (s.matches d (.element k) = .ok true ↔ MeetsGroup q.elementgroup e.elementtype ∧ Meets q.elementtype (some e.elementtype) ∧
        Meets q.set (dec.bind (·.set)) ∧ Meets q.cls cls ∧ Meets q.processor proc) := by
  obtain ⟨s, h1, h2⟩ := C27_meaning hr q hsub
  refine ⟨s, h1, fun k e dec cls subset proc he hrep hfs => ?_⟩
  rw [h2 k e dec cls subset proc he hrep hfs]
  refine and_congr_right fun _ => and_congr_right fun htype => and_congr ?_ (and_congr_left fun _ => ?_)
  · cases hqs : q.set with
    | any => exact Iff.rfl
    | some => exact absurd hqs hsome
    | none => exact absurd hqs hnone
    | unmatchable => exact Iff.rfl
    | «is» sv =>
      obtain ⟨t, a, g1, g2⟩ := hset sv hqs
      obtain ⟨plain, enc, _, _, href, rfl, _⟩ := hrep.refs (hr.cinv.elem k e he).refs
      constructor
      · rintro ⟨_, _, x, _, _, g4, _, g5⟩
        show (enc.dec.bind d.getDeclaration).bind (·.set) = some sv
        rw [g4]; exact g5
      · intro h
        obtain ⟨x, g4, g5⟩ := Option.bind_eq_some_iff.mp h
        obtain ⟨dk, g6, g7⟩ := Option.bind_eq_some_iff.mp g4
        rw [g1] at htype
        have ht : e.elementtype = t := Option.some.inj htype
        exact ⟨t, a, x, g1, g2, g4, href.kind dk x a g6 g7 (ht ▸ g2), g5⟩
  · cases hqc : q.cls with
    | «is» c => exact and_iff_left (.inr (hcls c hqc))
    | _ => exact Iff.rfl

/-- A query for a subset (as `get_features` makes): if the set, or the absence of a set, is declared for the annotation type of the context, an
element is accepted exactly if it has this declaration and subset and meets the other comparisons. A query for nothing else is never given up
beforehand. -/
theorem C27_subset_query {X : Ext} {F : Nat} {d : Document} (hr : CleanReachable X F d) (q : Query) {sub : String} (hsub : q.subset = .is sub)
    {t : ElementType} {a : AnnotationType} (ht : q.contexttype = .is t) (ha : t.annotationtype = some a) {sv : Option String}
    (hset : (q.set = .none ∧ sv = none) ∨ ∃ s, q.set = .is s ∧ sv = some s)
    (hdecl : ∃ k x, d.getDeclaration k = some x ∧ x.annotationtype = a ∧ x.set = sv) :
    ∃ s, Selector.fromQuery d q = .ok s ∧ (q.cls = .any → q.processor = .any → s.matchable = true) ∧
      ∀ k e dec cls subset proc, d.getElement k = some e → Reports d e dec cls subset proc →
      (s.matches d (.element k) = .ok true ↔ MeetsGroup q.elementgroup e.elementtype ∧ Meets q.elementtype (some e.elementtype) ∧
        (∃ x, dec = some x ∧ x.annotationtype = a ∧ x.set = sv) ∧ subset = some sub ∧ Meets q.cls cls ∧ Meets q.processor proc) := by
  have hinv := hr.cinv
  obtain ⟨dk, x, g1, g2, g3⟩ := hdecl
  have hcs : compileSet d q.contexttype q.set = .is dk := by
    have := (encodeSet_iff hinv.decls.exact q.contexttype sv dk).mpr ⟨t, a, x, ht, ha, g1, g2, g3⟩
    rcases hset with ⟨h, rfl⟩ | ⟨s, h, rfl⟩ <;> rw [h] <;> exact this
  obtain ⟨s, h0, hc, h1, h2, h3, h4, h5, h6, h7⟩ := fromQuery_subset d q hsub hcs g1
  refine ⟨s, h0, fun ha hp => by simp [Selector.matchable, h4, h6, h7 ha, hp, compileProc], fun k e dec cls subset proc he hrep => ?_⟩
  obtain ⟨plain, enc, hat, hp, href, rfl, rfl, rfl, hcls, hfeat, _, hnone⟩ := hrep.refs (hinv.elem k e he).refs
  have hdec : Meets (.is dk) enc.dec ↔ ∃ y, enc.dec.bind d.getDeclaration = some y ∧ y.annotationtype = a ∧ y.set = sv := by
    constructor
    · intro h
      have h : enc.dec = some dk := h
      exact ⟨x, by rw [h]; exact g1, g2, g3⟩
    · rintro ⟨y, h1, h2, h3⟩
      obtain ⟨j, h4, h5⟩ := Option.bind_eq_some_iff.mp h1
      have := declarations_unique hinv.decls.exact g1 h5 (g2.trans h2.symm) (g3.trans h3.symm)
      rw [this]; exact h4
  rw [compiled_matches hc he hat hp, h1, h2, h4, h6, hdec, compileProc_meets hinv.procs q.processor href.proc, h3]
  refine and_congr_right fun _ => and_congr_right fun _ => and_congr_right fun hx => ?_
  obtain ⟨y, hy, hy2, hy3⟩ := hx
  have hed : enc.dec = some dk := hdec.mpr ⟨y, hy, hy2, hy3⟩
  have hyx : y = x := by rw [hed] at hy; exact Option.some.inj (hy.symm.trans g1)
  subst hyx
  rw [show y.subsetKey sub = optKey y.subsets sub from rfl, name_meets (hinv.decls.ok dk y g1).subsets, hy]
  refine and_congr_right fun hs => and_congr_left fun _ => ?_
  obtain ⟨sk, hsk, hsk'⟩ := Option.bind_eq_some_iff.mp hs
  have hsome : enc.subset.isSome = true := by rw [hsk]; rfl
  have hnone := hnone fun _ => hsome
  rw [h5 (by
    show optKey y.subsets sub ≠ none
    rw [(strOk_key (hinv.decls.ok dk y g1).subsets sub sk).mpr hsk']; exact nofun)]
  cases hq : q.cls with
  | any => exact Iff.rfl
  | unmatchable => exact Iff.rfl
  | some => exact not_congr hnone
  | none => exact hnone
  | «is» c =>
    unfold compileClass
    simp only [g1, Declaration.subclassKey]
    rw [name_meets (hinv.decls.ok dk y g1).subclasses, hcls, hy, hsome]
    exact Iff.rfl

/-- A class without a set is never found: the first word of the sample has the class `WORD`, but a query for this class does not accept it. -/
theorem C27_class_counterexample : ∃ e, Sample.doc.getElement 2 = some e ∧ e.getClass Sample.doc = .ok (some "WORD") ∧
    ∃ s, Selector.fromQuery Sample.doc { elementtype := .is .word, cls := .is "WORD" } = .ok s ∧ s.matches Sample.doc (.element 2) = .ok false := by
  have h : (Sample.doc.getElement 2).map (fun e => decide (e.getClass Sample.doc = .ok (some "WORD"))) = some true := by decide +kernel
  obtain ⟨e, he, hc⟩ := Option.map_eq_some_iff.mp h
  exact ⟨e, he, of_decide_eq_true hc, _, rfl, by decide +kernel⟩

/-- A query for elements with any set accepts elements without a set: the first word has none, but is accepted. -/
theorem C27_some_set_counterexample : ∃ e, Sample.doc.getElement 2 = some e ∧ e.getSet Sample.doc = .ok none ∧
    ∃ s, Selector.fromQuery Sample.doc { elementtype := .is .word, set := .some } = .ok s ∧ s.matches Sample.doc (.element 2) = .ok true := by
  have h : (Sample.doc.getElement 2).map (fun e => decide (e.getSet Sample.doc = .ok none)) = some true := by decide +kernel
  obtain ⟨e, he, hc⟩ := Option.map_eq_some_iff.mp h
  exact ⟨e, he, of_decide_eq_true hc, _, rfl, by decide +kernel⟩

/-- A query for elements without a set does not accept all of them: the sentence has no set, but is not accepted. -/
theorem C27_no_set_counterexample : ∃ e, Sample.doc.getElement 5 = some e ∧ e.getSet Sample.doc = .ok none ∧
    ∃ s, Selector.fromQuery Sample.doc { elementtype := .is .sentence, set := .none } = .ok s ∧ s.matches Sample.doc (.element 5) = .ok false := by
  have h : (Sample.doc.getElement 5).map (fun e => decide (e.getSet Sample.doc = .ok none)) = some true := by decide +kernel
  obtain ⟨e, he, hc⟩ := Option.map_eq_some_iff.mp h
  exact ⟨e, he, of_decide_eq_true hc, _, rfl, by decide +kernel⟩

/-- What a compiled query says about a key of the sample. -/
def Sample.accepts (q : Query) (k : Nat) : Option Bool := ((Selector.fromQuery Sample.doc q).bind fun s => s.matches Sample.doc (.element k)).toOption

example : Sample.accepts { elementtype := .is .posAnnotation, set := .is "brown", cls := .is "NN", processor := .is "p1" } 6 = some true ∧
    Sample.accepts { elementtype := .is .posAnnotation, set := .is "brown", cls := .is "JJ" } 6 = some false ∧
    Sample.accepts { elementtype := .is .posAnnotation, processor := .is "p2" } 6 = some false ∧
    Sample.accepts { contexttype := .is .posAnnotation, set := .is "brown", subset := .is "number", cls := .is "singular" } 7 = some true := by decide +kernel

/-! ### C29 -/

/-- A query's annotator, annotator type and confidence play no role at all: the compiled selector is the same without them. -/
theorem C29_ignored (d : Document) (q : Query) :
    Selector.fromQuery d q = Selector.fromQuery d { q with annotator := .any, annotatortype := .any, confidence := .any } := rfl

/-- So the claim is false: a query for annotations by `nobody` accepts an annotation whose annotator is `annotator`. -/
theorem C29_annotator_counterexample : ∃ e, Sample.doc.getElement 6 = some e ∧ e.getAnnotator Sample.doc = .ok (some "annotator") ∧
    ∃ s, Selector.fromQuery Sample.doc { elementtype := .is .posAnnotation, annotator := .is "nobody" } = .ok s ∧
      s.matches Sample.doc (.element 6) = .ok true := by
  have h : (Sample.doc.getElement 6).map (fun e => decide (e.getAnnotator Sample.doc = .ok (some "annotator"))) = some true := by decide +kernel
  obtain ⟨e, he, hc⟩ := Option.map_eq_some_iff.mp h
  exact ⟨e, he, of_decide_eq_true hc, _, rfl, by decide +kernel⟩

theorem andAlso_true {a b : Res Bool} (h : andAlso a b = .ok true) : a = .ok true ∧ b = .ok true := by
  unfold andAlso at h
  split at h
  · exact ⟨rfl, h⟩
  · rename_i hn; exact absurd h hn

theorem cmpField_meets {α : Type} [DecidableEq α] {c : Cmp α} {v : Res (Option α)} {o : Option α} (hv : v = .ok o) (h : cmpField c v = .ok true) :
    Meets c o := by
  rw [hv, cmpField_eq] at h
  exact (matches_iff c o).mp (Except.ok.inj h)

/-- What does hold: a selector whose annotator or annotator type is set directly, not through a query, accepts only elements that meet it. Missing:
queries, and the confidence. -/
theorem C29_selector_partial {d : Document} (s : Selector) (hn : s.next = []) {k : Nat} {e : ElementData} (he : d.getElement k = some e)
    {an : Option String} {ty : Option ProcessorType} (ha : e.getAnnotator d = .ok an) (ht : e.getAnnotatortype d = .ok ty)
    (h : s.matches d (.element k) = .ok true) : Meets s.core.annotator an ∧ Meets s.core.annotatortype ty := by
  unfold Selector.matches at h
  rw [hn] at h
  unfold matchesChain SelCore.matches at h
  simp only [he] at h
  split at h
  · cases h
  · unfold SelCore.matchesElement at h
    have h := (andAlso_true (andAlso_true (andAlso_true (andAlso_true (andAlso_true (andAlso_true h).2).2).2).2).2).2
    exact ⟨cmpField_meets ha (andAlso_true h).1, cmpField_meets ht (andAlso_true h).2⟩

example : (Selector.matches { core := { annotator := .is "annotator" } } Sample.doc (.element 6)).toOption = some true ∧
    (Selector.matches { core := { annotator := .is "nobody" } } Sample.doc (.element 6)).toOption = some false := by decide +kernel

/-- The confidence of a selector is never looked at. -/
theorem C29_confidence_ignored (d : Document) (s : SelCore) (c : Cmp F64) (x : Data) : ({ s with confidence := c } : SelCore).matches d x = s.matches d x := by
  cases x <;> rfl

end Folia
