import Verif.Props.Safe
import Verif.Props.Lookup
/-! C89: lookups do not panic. -/
namespace Folia
open Document

/-- The lookups on an element by type or group and set do not panic, for any comparison with the set. -/
theorem C89_lookups {X : Ext} {F : Nat} {d : Document} (hr : CleanReachable X F d) {key : Nat} {e : ElementData} (he : d.getElement key = some e)
    (t : ElementType) (at_ : AnnotationType) (g : ElementGroup) (set : Cmp String) (r : Recursion) (G : Nat) :
    getElements d G key t set r ≠ .error .panic ∧ getFirstElement d G key t set r ≠ .error .panic ∧
    getAnnotations d G key at_ set r ≠ .error .panic ∧ getAnnotation d G key at_ set r ≠ .error .panic ∧
    getAncestors d G key t set ≠ .error .panic ∧ getAncestor d G key t set ≠ .error .panic ∧
    getAncestorsByGroup d G key g set ≠ .error .panic ∧ getAncestorByGroup d G key g set ≠ .error .panic := by
  have hi := hr.cinv
  have h1 : ∀ t, ∃ s, Selector.fromQuery d { elementtype := .is t, set } = .ok s := fun t =>
    let ⟨s, h, _⟩ := fromQuery_plain d { elementtype := .is t, set } rfl
    ⟨s, h⟩
  obtain ⟨s2, h2⟩ : ∃ s, Selector.fromQuery d { elementgroup := .is g, set } = .ok s :=
    let ⟨s, h, _⟩ := fromQuery_plain d { elementgroup := .is g, set } rfl
    ⟨s, h⟩
  have e1 : ∀ t, NoPanic (getElements d G key t set r) := by
    intro t
    obtain ⟨s, h⟩ := h1 t
    unfold getElements; rw [h]
    exact selectByKey_safe hi G ⟨e, he⟩ s r true
  have e2 : ∀ t, NoPanic (getFirstElement d G key t set r) := by
    intro t
    obtain ⟨s, h⟩ := h1 t
    unfold getFirstElement; rw [h]
    exact selectFirst_safe hi G ⟨e, he⟩ s r
  obtain ⟨s, h⟩ := h1 t
  refine ⟨e1 t, e2 t, e1 _, e2 _, ?_, ?_, ?_, ?_⟩
  · unfold getAncestors; rw [h]; exact ancCollect_safe hi s .always G key
  · unfold getAncestor; rw [h]; exact ancNext_safe hi s .always G key
  · unfold getAncestorsByGroup; rw [h2]; exact ancCollect_safe hi s2 .always G key
  · unfold getAncestorByGroup; rw [h2]; exact ancNext_safe hi s2 .always G key

/-- There is a declaration for the type of the element and the set that it reports. -/
def SetDeclared (d : Document) (e : ElementData) : Prop :=
  ∃ k a x, d.getDeclaration k = some x ∧ e.elementtype.annotationtype = some a ∧ x.annotationtype = a ∧ e.getSet d = .ok x.set

/-- Compiling a query for the features of a subset fails exactly if the set is not declared for the context type. -/
theorem fromQuery_features (d : Document) (t : ElementType) (o : Option String) (s : String) :
    ((∃ k, encodeSet d (.is t) o = .is k) → ∃ r, Selector.fromQuery d { elementtype := .is .feature, contexttype := .is t, set := (match o with | some s => .is s | none => .none), subset := .is s } = .ok r) ∧
    ((¬ ∃ k, encodeSet d (.is t) o = .is k) → ∃ r, Selector.fromQuery d { elementtype := .is .feature, contexttype := .is t, set := (match o with | some s => .is s | none => .none), subset := .is s } = .error (.err r)) := by
  constructor
  · rintro ⟨k, h⟩
    cases o <;>
    · unfold Selector.fromQuery
      simp only [h]
      cases d.getDeclaration k with
      | none => exact ⟨_, rfl⟩
      | some x => cases hs : x.subsetKey s <;> (simp only [hs]; exact ⟨_, rfl⟩)
  · intro hn
    cases o <;>
    · unfold Selector.fromQuery
      cases h : encodeSet d (.is t) _ with
      | is k => exact absurd ⟨k, h⟩ hn
      | any | some | none | unmatchable => simp only [h]; exact ⟨_, rfl⟩

/-- Looking up features panics exactly if a subset is named and there is no declaration for the type and set of the element. -/
theorem C89_features_partial {X : Ext} {F : Nat} {d : Document} (hr : CleanReachable X F d) {key : Nat} {e : ElementData} (he : d.getElement key = some e)
    (subset : Cmp String) (G : Nat) :
    (getFeatures d G key e subset = .error .panic ↔ (∃ s, subset = .is s) ∧ ¬ SetDeclared d e) ∧
    (getFeature d G key e subset = .error .panic ↔ (∃ s, subset = .is s) ∧ ¬ SetDeclared d e) := by
  have hi := hr.cinv
  have hx := (cleanReachable_reachable hr).declsExact
  obtain ⟨dec, cls, sb, proc, hrep⟩ := C27_reports hr he
  let v : Cmp String := match dec.bind (·.set) with
    | some s => .is s
    | none => .none
  have hq : featureQuery d e subset = .ok { elementtype := .is .feature, contexttype := .is e.elementtype, set := v, subset } := by
    unfold featureQuery
    rw [hrep.getSet]; rfl
  have good : (∃ s, Selector.fromQuery d { elementtype := .is .feature, contexttype := .is e.elementtype, set := v, subset } = .ok s) →
      getFeatures d G key e subset ≠ .error .panic ∧ getFeature d G key e subset ≠ .error .panic := by
    rintro ⟨s, hs⟩
    constructor
    · unfold getFeatures; rw [hq]
      show NoPanic (unwrapRes (Selector.fromQuery d _) >>= fun s => select d G key s .no)
      rw [hs]; exact selectByKey_safe hi G ⟨e, he⟩ s .no true
    · unfold getFeature; rw [hq]
      show NoPanic (unwrapRes (Selector.fromQuery d _) >>= fun s => selectFirst d G key s .no)
      rw [hs]; exact selectFirst_safe hi G ⟨e, he⟩ s .no
  have bad : (∃ k, Selector.fromQuery d { elementtype := .is .feature, contexttype := .is e.elementtype, set := v, subset } = .error (.err k)) →
      getFeatures d G key e subset = .error .panic ∧ getFeature d G key e subset = .error .panic := by
    rintro ⟨k, hs⟩
    constructor
    · unfold getFeatures; rw [hq]
      show (unwrapRes (Selector.fromQuery d _) >>= fun s => select d G key s .no) = _
      rw [hs]; rfl
    · unfold getFeature; rw [hq]
      show (unwrapRes (Selector.fromQuery d _) >>= fun s => selectFirst d G key s .no) = _
      rw [hs]; rfl
  cases subset with
  | is s =>
    by_cases hd : SetDeclared d e
    · obtain ⟨k, a, x, g1, g2, g3, g4⟩ := hd
      rw [hrep.getSet] at g4
      have henc : encodeSet d (.is e.elementtype) (dec.bind (·.set)) = .is k :=
        (encodeSet_iff hx _ _ k).mpr ⟨_, a, x, rfl, g2, g1, g3, (Except.ok.inj g4).symm⟩
      have hg := good ((fromQuery_features d e.elementtype _ s).1 ⟨k, henc⟩)
      exact ⟨⟨fun h => absurd h hg.1, fun h => absurd ⟨k, a, x, g1, g2, g3, hrep.getSet.trans (by rw [Except.ok.inj g4])⟩ h.2⟩,
        ⟨fun h => absurd h hg.2, fun h => absurd ⟨k, a, x, g1, g2, g3, hrep.getSet.trans (by rw [Except.ok.inj g4])⟩ h.2⟩⟩
    · have hb := bad ((fromQuery_features d e.elementtype _ s).2 (by
        rintro ⟨k, henc⟩
        obtain ⟨t, a, x, h1, h2, h3, h4, h5⟩ := (encodeSet_iff hx _ _ k).mp henc
        cases h1
        exact hd ⟨k, a, x, h3, h2, h4, by rw [h5]; exact hrep.getSet⟩))
      exact ⟨⟨fun _ => ⟨⟨s, rfl⟩, hd⟩, fun _ => hb.1⟩, ⟨fun _ => ⟨⟨s, rfl⟩, hd⟩, fun _ => hb.2⟩⟩
  | any | some | none | unmatchable =>
    have hg := good (by unfold Selector.fromQuery; exact ⟨_, rfl⟩)
    exact ⟨⟨fun h => absurd h hg.1, fun ⟨⟨_, h⟩, _⟩ => nomatch h⟩, ⟨fun h => absurd h hg.2, fun ⟨⟨_, h⟩, _⟩ => nomatch h⟩⟩

/-- An annotation that reports a declaration has one for its type and set, so that its features can be looked up. -/
theorem C89_declared {X : Ext} {F : Nat} {d : Document} (hr : CleanReachable X F d) {key : Nat} {e : ElementData} (he : d.getElement key = some e)
    (ha : e.elementtype.annotationtype.isSome = true) {dec : Declaration} (hd : e.getDeclaration d = .ok (some dec)) (subset : Cmp String) (G : Nat) :
    getFeatures d G key e subset ≠ .error .panic ∧ getFeature d G key e subset ≠ .error .panic := by
  obtain ⟨dec', cls, sb, proc, hrep⟩ := C27_reports hr he
  obtain ⟨plain, enc, _, _, h3, h4, _⟩ := hrep.refs (hr.cinv.elem key e he).refs
  have hdd := hrep.getDec
  rw [hd] at hdd
  cases hdd
  obtain ⟨a, ha⟩ := Option.isSome_iff_exists.mp ha
  have hs : SetDeclared d e := by
    cases hk : enc.dec with
    | none => rw [hk] at h4; cases h4
    | some k =>
      rw [hk] at h4
      exact ⟨k, a, dec, h4.symm, ha, h3.kind k dec a hk h4.symm ha, hrep.getSet⟩
  have h := C89_features_partial hr he subset G
  exact ⟨fun h' => (h.1.mp h').2 hs, fun h' => (h.2.mp h').2 hs⟩

/-- The part-of-speech annotation of the sample has an annotation type and reports a declaration. -/
example : CleanReachable Sample.X Sample.F Sample.doc ∧
    (Sample.doc.getElement 6).map (fun e => (e.elementtype.annotationtype.isSome, (e.getDeclaration Sample.doc).toOption.map (·.isSome), (getFeature Sample.doc Sample.F 6 e (.is "number")).toOption.map (·.isSome))) =
      some (true, some true, some true) := ⟨Sample.doc_clean, by decide +kernel⟩

/-- Asking the body of a document or an undeclared sentence for the features of some subset panics. -/
theorem C89_counterexample : CleanReachable Sample.X Sample.F Sample.doc ∧
    ∀ k ∈ [0, 5], ∃ e, Sample.doc.getElement k = some e ∧ ∀ G, getFeature Sample.doc G k e (.is "gender") = .error .panic ∧
      getFeatures Sample.doc G k e (.is "gender") = .error .panic := by
  refine ⟨Sample.doc_clean, fun k hk => ?_⟩
  have h : ∀ k ∈ [0, 5], (Sample.doc.getElement k).map (fun e => match getFeature Sample.doc Sample.F k e (.is "gender") with
      | .error .panic => true
      | _ => false) = some true := by decide +kernel
  have h := h k hk
  cases he : Sample.doc.getElement k with
  | none => rw [he] at h; cases h
  | some e =>
    rw [he] at h
    have hp : getFeature Sample.doc Sample.F k e (.is "gender") = .error .panic := by
      have h := Option.some.inj h
      simp only at h
      revert h
      split
      · intro _; assumption
      · intro h; cases h
    have hn := ((C89_features_partial Sample.doc_clean he (.is "gender") Sample.F).2.mp hp)
    exact ⟨e, rfl, fun G => ⟨(C89_features_partial Sample.doc_clean he (.is "gender") G).2.mpr hn, (C89_features_partial Sample.doc_clean he (.is "gender") G).1.mpr hn⟩⟩

end Folia
