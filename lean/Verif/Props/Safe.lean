import Verif.Lemmas.SafeOps
import Verif.Lemmas.SafeReads
import Verif.Props.Lookup
import Verif.Props.Calls
import Verif.Props.Parser
/-! C85: calls that do not panic. -/
namespace Folia
open Document

/-- Whoever adds a feature adds it to an existing element that has an annotation type. -/
def Op.FeatureHeld (d : Document) : Op → Prop
  | .addElementTo p e => e.elementtype = .feature → ∃ q, d.getElement p = some q ∧ q.elementtype.annotationtype.isSome
  | .annotate p e => e.elementtype = .feature → ∀ q, d.getElement p = some q → q.elementtype.annotationtype.isSome
  | _ => True

theorem NoPanic.void {α : Type} {m : M Document α} {d : Document} (h : NoPanic (m d).1) : NoPanic (m.void d).1 := by
  unfold M.void
  rw [M.run_bind]
  rcases hm : m d with ⟨e | a, d'⟩
  · rw [hm] at h; exact h.of_error
  · exact .ok _

/-- No call of a mutating method panics, in any document that the library can produce and whatever the arguments (existing keys or not, any elements and
processors in the form a user writes them). Missing for the full claim: features added below an element without annotation type, see
`C85_feature_counterexample`, and attributes that hold raw keys, see `C85_raw_counterexample`. -/
theorem C85_calls_partial {X : Ext} {F : Nat} {d : Document} (hr : CleanReachable X F d) (o : Op) (hc : o.Clean d) (hf : o.FeatureHeld d) (G : Nat) :
    (o.run G d).1 ≠ .error .panic := by
  have hi := hr.cinv
  cases o with
  | declare t s a f => exact NoPanic.void (never_declare t s a f d)
  | addDeclaration dec => exact NoPanic.void (never_addDeclaration dec d)
  | addClass k c => exact NoPanic.void (never_addClass k c d)
  | addElement e => exact NoPanic.void (addElement_safe G e hc d hi trivial)
  | addElementTo p e => exact NoPanic.void (addElementTo_safe G p e hc d hi hf)
  | attachElement p c => exact never_attachElement p c d
  | detachElement c => exact never_detachElement c d
  | annotate p e =>
    refine NoPanic.void (annotate_safe G p e hc d hi ?_)
    intro hs ht
    obtain ⟨q, hq⟩ := Option.isSome_iff_exists.mp hs
    exact ⟨q, hq, hf ht q hq⟩
  | annotateSpan e => exact NoPanic.void (annotateSpan_safe G e hc d hi trivial)
  | addProvenance p => exact NoPanic.void (never_addProvenance p d)
  | addProcessor p => exact NoPanic.void (never_addProcessor p d)
  | addSubprocessor p c => exact NoPanic.void (never_addSubprocessor p c d)
  | attachProcessor p c => exact never_attachProcessor p c d
  | activateProcessor k => exact nofun
  | applyProperties ps => exact never_applyProperties ps d
  | assign => exact nofun

/-- Making a document does not panic. -/
theorem C85_new (id : String) (ps : DocumentProperties) : Document.new id ps ≠ .error .panic := by
  have henc : ∀ d, encode (bodyElement ps.bodytype) none d = (.ok (bodyElement ps.bodytype), d) := by
    intro d
    cases ps.bodytype <;> rfl
  have hbody : CleanAttribs (bodyElement ps.bodytype).attribs := by
    intro a ha
    cases h : ps.bodytype <;> rw [h] at ha <;> cases ha
  have h : ∀ d, NoPanic ((do
      let body ← encode (bodyElement ps.bodytype) none
      let _ ← addElem body none
      applyProperties ps : M Document Unit) d).1 := by
    intro d
    rw [M.run_bind, henc]
    simp only
    rw [M.run_bind]
    have := addElem_safe hbody none d (heldFeature_none _ _)
    rcases hm : addElem (bodyElement ps.bodytype) none d with ⟨f | k, d'⟩
    · rw [hm] at this; exact this.of_error
    · exact never_applyProperties ps d'
  unfold Document.new
  have := h { id, autodeclare := ps.autodeclare }
  simp only
  split
  · nofun
  · rename_i hm; rw [hm] at this; exact this.of_error

/-- Asking for the text of an element, with parameters made by the builder, does not panic in any document that the library can produce. -/
theorem C85_text {X : Ext} {F : Nat} {d : Document} (hr : Reachable X F d) (e : ElementData) (calls : List TextCall) (G : Nat) :
    elementText d G e (TextParameters.build calls) ≠ .error .panic := by
  obtain ⟨h1, h2, _, h4⟩ := C81_text calls
  have hres : ∀ e : ElementData, ∃ o, e.resolve d = .ok o := fun e => (C69_resolve_partial hr e).1
  unfold elementText
  rw [h1, h2]
  simp only
  split
  · rename_i dk _
    split
    · exact textByKey_safe d hres _ _ _ _ _ _ _
    · rename_i f hf
      exact (hf ▸ classKey_safe d dk _ : NoPanic (.error f : Res Nat)).of_error
  · nofun

/-- Neither does running a selection to its end, taking its first result, or going through the ancestors. -/
theorem C85_select {X : Ext} {F : Nat} {d : Document} (hr : CleanReachable X F d) {key : Nat} {e : ElementData} (he : d.getElement key = some e)
    (s : Selector) (r : Recursion) (refs : Bool) (G : Nat) :
    selectByKey d G key s r false refs ≠ .error .panic ∧ selectFirst d G key s r ≠ .error .panic ∧ ancestors d G key s ≠ .error .panic :=
  ⟨selectByKey_safe hr.cinv G ⟨e, he⟩ s r refs, selectFirst_safe hr.cinv G ⟨e, he⟩ s r, ancCollect_safe hr.cinv s .always G key⟩

/-- Neither does writing the document, if the body has not been attached to another element. -/
theorem C85_xml {X : Ext} {F : Nat} {d : Document} (hr : CleanReachable X F d) {root : Nat} {e : ElementData} (he : d.getElement root = some e)
    (hp : ∀ p, e.parent = some p → p ≠ root → ∃ pe, d.getElement p = some pe ∧ .element root ∈ pe.data) (G : Nat) : d.xml X G root ≠ .error .panic := by
  unfold Document.xml
  exact NoPanic.bind (xmlMetadata_safe hr G) fun _ _ => NoPanic.bind (xmlElements_safe hr G ⟨e, he, hp⟩) fun _ _ => .ok _


/-- The result of a call is a panic. -/
def Sample.panics {α : Type} : Res α → Bool
  | .error .panic => true
  | _ => false

theorem Sample.panics_eq {α : Type} {r : Res α} (h : Sample.panics r = true) : r = .error .panic := by
  cases r with
  | ok a => cases h
  | error f => cases f <;> first | rfl | cases h

/-- A feature. -/
def Sample.gender : ElementData := ((ElementData.new .feature).setAttrib (.subset "gender")).setAttrib (.cls "f")

theorem Sample.gender_clean : CleanBuilder Sample.gender := by
  simp [Sample.gender, ElementData.setAttrib, ElementData.delAttrib, ElementData.new, CleanBuilder, CleanData, List.findIdx?, List.findIdx?.go,
    Attribute.attribtype, Attribute.decodable]

/-- The body of a document accepts features, but adding one panics. -/
theorem C85_feature_counterexample : CleanReachable Sample.X Sample.F Sample.fresh ∧ (Op.annotate 0 Sample.gender).Clean Sample.fresh ∧
    Sample.fresh.checkElementAddable 0 .feature = .ok () ∧ ((Op.annotate 0 Sample.gender).run Sample.F Sample.fresh).1 = .error .panic ∧
    ((Op.addElementTo 0 Sample.gender).run Sample.F Sample.fresh).1 = .error .panic := by
  refine ⟨Sample.fresh_clean, Sample.gender_clean, ?_, Sample.panics_eq (by decide +kernel), Sample.panics_eq (by decide +kernel)⟩
  decide +kernel

/-- An element with an attribute that holds a raw key next to a set panics. -/
theorem C85_raw_counterexample : CleanReachable Sample.X Sample.F Sample.fresh ∧
    ((Op.addElementTo 0 { ElementData.new .sentence with attribs := [.classRef 0, .set "x"] }).run Sample.F Sample.fresh).1 = .error .panic :=
  ⟨Sample.fresh_clean, Sample.panics_eq (by decide +kernel)⟩

/-- The hypotheses of `C85_calls_partial` are met, also by calls that fail: a feature below a part of speech, below a missing element, and a part of speech
with a feature. -/
example : CleanReachable Sample.X Sample.F Sample.doc ∧
    (∀ k ∈ [6, 1000], (Op.annotate k Sample.gender).Clean Sample.doc ∧ (Op.annotate k Sample.gender).FeatureHeld Sample.doc) ∧
    (Op.addElementTo 4 ((ElementData.new .posAnnotation).addElement Sample.gender)).Clean Sample.doc ∧
    (Op.addElementTo 4 ((ElementData.new .posAnnotation).addElement Sample.gender)).FeatureHeld Sample.doc := by
  refine ⟨Sample.doc_clean, ?_, ?_, nofun⟩
  · intro k hk
    refine ⟨Sample.gender_clean, ?_⟩
    rcases List.mem_cons.mp hk with rfl | hk
    · intro _ q hq
      have : (Sample.doc.getElement 6).map (·.elementtype) = some .posAnnotation := by decide +kernel
      rw [hq] at this
      rw [show q.elementtype = .posAnnotation by simpa using this]
      decide
    · obtain rfl := List.mem_singleton.mp hk
      intro _ q hq
      have : Sample.doc.getElement 1000 = none := by decide +kernel
      rw [hq] at this
      cases this
  · show CleanBuilder ⟨.posAnnotation, [], [.addElement Sample.gender], none, none⟩
    simp only [CleanBuilder, CleanData]
    exact ⟨(fun _ h => nomatch h), ⟨Sample.gender_clean, trivial⟩, trivial⟩

/-- The hypotheses of `C85_select` and `C85_xml` are met. -/
example : CleanReachable Sample.X Sample.F Sample.doc ∧ ∃ e, Sample.doc.getElement 0 = some e ∧ e.parent = none := by
  refine ⟨Sample.doc_clean, ?_⟩
  have h : (Sample.doc.getElement 0).map (·.parent) = some none := by decide +kernel
  cases he : Sample.doc.getElement 0 with
  | none => rw [he] at h; cases h
  | some e => rw [he] at h; exact ⟨e, rfl, by simpa using h⟩

end Folia
