import Verif.Lemmas.Query
import Verif.Props.Provenance
/-! C75: declarations and processors are found by what identifies them. -/
namespace Folia
open Document

theorem Prim.procsExact {C : Prop} {d d' : Document} (h : Prim C d d') (hd : ProcsExact d) : ProcsExact d' := by
  have psame : d'.processors = d.processors → ProcsExact d' := by
    intro h1; unfold ProcsExact; rw [h1]; exact hd
  cases h with
  | admin _ _ h _ _ => exact psame h
  | declare t s a f => exact psame (declare_elements t s a f d).2.1
  | addClass k c => exact psame (OnlyDecls.addClass k c d).2
  | addElem e ctx _ => exact psame (addElem_elements e ctx d).1.processors
  | addProc p _ => exact Store.Exact.add hd cap16 p (fun _ _ => rfl) (fun _ _ => rfl)
  | procParent c p _ => exact Store.Exact.update hd c _ (fun _ _ => rfl) fun _ _ => rfl
  | procPush p c _ => exact Store.Exact.update hd p _ (fun _ _ => rfl) fun _ _ => rfl
  | addDeclaration | annotator | setParent | orphan | pushElem | pushText | pushSpan | unlink | layer | chain | activate => exact psame rfl

theorem Reachable.procsExact {X : Ext} {F : Nat} {d : Document} (hr : Reachable X F d) : ProcsExact d :=
  Steps.inv Prim.procsExact hr.steps Store.Exact.empty

theorem Store.Exact.getById {α : Type} [Storable α] {keyOf : α → Option Nat} {s : Store α} (h : s.Exact keyOf) (id : String) :
    s.getById id = .ok ((s.idToKey id).bind s.get) := by
  unfold Store.getById
  cases hk : s.idToKey id with
  | none => rfl
  | some k =>
    obtain ⟨a, ha, _⟩ := (h.index id k).mp hk
    simp [ha]

/-- Looking a declaration up by its type and set never panics; it finds the declaration with that type and set, and nothing else. -/
theorem C75_declaration {X : Ext} {F : Nat} {d : Document} (hr : Reachable X F d) (t : AnnotationType) (s : Option String) :
    ∃ o, d.getDeclarationById (Declaration.indexId t s) = .ok o ∧
      ∀ dec, o = some dec ↔ ∃ k, d.getDeclaration k = some dec ∧ dec.annotationtype = t ∧ dec.set = s := by
  refine ⟨_, hr.declsExact.getById _, fun dec => ?_⟩
  rw [Option.bind_eq_some_iff]
  constructor
  · rintro ⟨k, hk, hg⟩
    obtain ⟨x, hx, h1, h2⟩ := (declarationKeyById_iff hr.declsExact t s k).mp hk
    cases hg.symm.trans hx
    exact ⟨k, hx, h1, h2⟩
  · rintro ⟨k, hk, h1, h2⟩
    exact ⟨k, (declarationKeyById_iff hr.declsExact t s k).mpr ⟨dec, hk, h1, h2⟩, hk⟩

/-- Looking a processor up by its identifier never panics; it finds the processor with that identifier, and nothing else. -/
theorem C75_processor {X : Ext} {F : Nat} {d : Document} (hr : Reachable X F d) (i : String) :
    ∃ o, d.getProcessorById i = .ok o ∧ ∀ p, o = some p ↔ ∃ k, d.getProcessor k = some p ∧ p.id = i := by
  refine ⟨_, hr.procsExact.getById _, fun p => ?_⟩
  rw [Option.bind_eq_some_iff]
  constructor
  · rintro ⟨k, hk, hg⟩
    obtain ⟨x, hx, h1⟩ := (processorKeyById_iff hr.procsExact i k).mp hk
    cases hg.symm.trans hx
    exact ⟨k, hx, h1⟩
  · rintro ⟨k, hk, h1⟩
    exact ⟨k, (processorKeyById_iff hr.procsExact i k).mpr ⟨p, hk, h1⟩, hk⟩

/-- Items know the key under which they are stored, and no two have the same identification. -/
theorem C75_keys {X : Ext} {F : Nat} {d : Document} (hr : Reachable X F d) :
    (∀ k dec, d.getDeclaration k = some dec → dec.key = some k) ∧ (∀ k p, d.getProcessor k = some p → p.key = some k) ∧
    (∀ j k a b, d.getDeclaration j = some a → d.getDeclaration k = some b → a.annotationtype = b.annotationtype → a.set = b.set → j = k) ∧
    ∀ j k a b, d.getProcessor j = some a → d.getProcessor k = some b → a.id = b.id → j = k := by
  refine ⟨hr.declsExact.keyed, hr.procsExact.keyed, fun j k a b ha hb ht hs => declarations_unique hr.declsExact ha hb ht hs, fun j k a b ha hb hi => ?_⟩
  have h1 := (processorKeyById_iff hr.procsExact a.id j).mpr ⟨a, ha, rfl⟩
  rw [(processorKeyById_iff hr.procsExact a.id k).mpr ⟨b, hb, hi.symm⟩] at h1
  exact (Option.some.inj h1).symm

example : Reachable Sample.X Sample.F Sample.procDoc ∧ (Sample.procDoc.getProcessor 0).map (·.id) = some "a" :=
  ⟨.op (.addProcessor Sample.procTree) (.new Sample.fresh_eq), by decide +kernel⟩

example : Reachable Sample.X Sample.F Sample.doc ∧ (Sample.doc.getDeclaration 0).isSome = true := ⟨Sample.doc_reachable, by decide +kernel⟩

/-- Writing to the identifier of a processor through `Document::get_mut_processor` (src/document.rs:655-657) is not an operation above: it leaves the
index as it was. The processor is then found by its old identifier and not by its new one. -/
theorem C75_renamed_counterexample :
    let d := { Sample.procDoc with processors := Sample.procDoc.processors.update 0 fun p => { p with id := "z" } }
    (d.getProcessor 0).map (·.id) = some "z" ∧ d.processorKeyById "z" = none ∧ d.processorKeyById "a" = some 0 := by
  decide +kernel

end Folia
