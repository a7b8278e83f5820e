import Verif.Lemmas.New
import Verif.Props.Provenance
/-! C72: new documents. -/
namespace Folia
open Document

/-- `Document::new` succeeds and makes a document with an empty body of the given type, with the given processors as provenance, the outermost
of which is active, and with exactly the declarations asked for, each with just that processor. (A declaration without a set may be served by
one with a set.) -/
theorem C72_new (id : String) {ps : DocumentProperties} (hp : ∀ t, ps.processor = some t → CleanProc t ∧ (procIds t).Nodup ∧ procSize t ≤ 65536)
    (hc : ps.declare.length ≤ 65536) : ∃ d, Document.new id ps = .ok d ∧ d.id = id ∧ d.metadata = {} ∧ d.submetadata = [] ∧
      d.elements.len = 1 ∧ (∃ e, d.getElement 0 = some e ∧ e.elementtype = (match ps.bodytype with | .text => .text | .speech => .speech) ∧
        e.data = [] ∧ e.attribs = [] ∧ e.parent = none) ∧
      (∀ k dec, d.getDeclaration k = some dec → (dec.annotationtype, dec.set) ∈ ps.declare ∧ dec.processors = d.activeProcessor.toList) ∧
      (∀ t s, (t, s) ∈ ps.declare → ∃ k dec, d.getDeclaration k = some dec ∧ dec.annotationtype = t ∧ (s.isSome → dec.set = s)) ∧
      (ps.processor = none → d.activeProcessor = none ∧ d.chain = [] ∧ d.processors.len = 0) ∧
      (∀ t, ps.processor = some t → ∃ k, d.activeProcessor = some k ∧ d.chain = [k] ∧ ProcStored 0 d none k t ∧ d.processors.len = procSize t) ∧
      d.ProvForest := by
  rw [new_eq]
  -- the processors
  have h1 : ∃ d1, applyProperties ps (bodyOnly id ps) = M.forEach applyDeclare ps.declare d1 ∧ CInv d1 ∧
      d1 = { bodyOnly id ps with processors := d1.processors, chain := d1.chain, activeProcessor := d1.activeProcessor } ∧
      (ps.processor = none → d1.activeProcessor = none ∧ d1.chain = [] ∧ d1.processors.len = 0) ∧
      (∀ t, ps.processor = some t → ∃ k, d1.activeProcessor = some k ∧ d1.chain = [k] ∧ ProcStored 0 d1 none k t ∧ d1.processors.len = procSize t) ∧ d1.ProvForest := by
    unfold applyProperties
    cases hpp : ps.processor with
    | none => exact ⟨bodyOnly id ps, rfl, bodyOnly_cinv id ps, rfl, fun _ => ⟨rfl, rfl, rfl⟩, by rintro t ⟨⟩, C49_none rfl rfl⟩
    | some t =>
      obtain ⟨c1, c2, c3⟩ := hp t hpp
      obtain ⟨d', e1, e2⟩ := addProcessor_added (d := bodyOnly id ps) c1 ⟨c2, fun _ _ => rfl⟩ (by rw [show (bodyOnly id ps).processors.len = 0 from rfl, Nat.zero_add]; exact c3)
      obtain ⟨k, d'', g1, _, _, _, _, _, _, g2⟩ := C49_add_processor (d := bodyOnly id ps) c1 ⟨c2, fun _ _ => rfl⟩ (by rw [show (bodyOnly id ps).processors.len = 0 from rfl, Nat.zero_add]; exact c3)
      rw [e1] at g1
      simp only [Prod.mk.injEq, Except.ok.injEq] at g1
      obtain ⟨rfl, rfl⟩ := g1
      have hst := (does_addProcessor (C := True) t (fun _ => c1) _ (bodyOnly_cinv id ps).ix trivial)
      rw [e1] at hst
      have hi := (hst.1.clean (bodyOnly_cinv id ps)).1
      have hlive := hst.2 _ rfl
      refine ⟨{ d' with activeProcessor := some (bodyOnly id ps).processors.len }, ?_, Prim.cinv (.activate _ _ fun _ => hlive) hi, ?_, ?_, ?_, ?_⟩
      · simp only [M.run_bind, e1]
        rfl
      · rw [e2.same]
      · rintro ⟨⟩
      · rintro t' ⟨⟩
        refine ⟨_, rfl, ?_, procStored_mono (Nat.le_refl _) (d := d') (d' := { d' with activeProcessor := some (bodyOnly id ps).processors.len }) (fun j x _ h => h) t _ none e2.stored, ?_⟩
        · show d'.chain = _; rw [e2.same]; rfl
        · show d'.processors.len = _; rw [e2.len]; exact Nat.zero_add _
      · exact ProvForest.of_eq (g2 (C49_none rfl rfl)) rfl rfl
  obtain ⟨d1, h2, hi, hs, hn, ht, hf⟩ := h1
  have hdec : ∀ k, d1.getDeclaration k = none := by intro k; rw [hs]; rfl
  obtain ⟨d, h3, h4⟩ := applyDeclares_ok hc ps.declare (n := 0) hi (fun k dec h => by rw [hdec] at h; cases h) (fun k dec st h => by rw [hdec] at h; cases h)
    (by have : cap16 ≤ cap32 := by decide
        have : ps.declare.length ≤ cap16 := hc
        omega) (fun ts h => h)
  obtain ⟨o1, _, o2⟩ := applyDeclares_own ps.declare hi (fun k dec h => by rw [hdec] at h; cases h) h3
  have hsh := KeepsHead.forEach KeepsHead.applyDeclare ps.declare d1
  have hse := KeepsElements.forEach KeepsElements.applyDeclare ps.declare d1
  rw [h3] at hsh hse
  simp only at hse
  have hsh : d = { d1 with elements := d.elements, declarations := d.declarations } := hsh
  have hpr : d.processors = d1.processors := by rw [hsh]
  have hch : d.chain = d1.chain := by rw [hsh]
  have hac : d.activeProcessor = d1.activeProcessor := by rw [hsh]
  have hel : d.elements = (bodyOnly id ps).elements := by rw [hse, hs]
  refine ⟨d, by rw [h2, h3], by rw [hsh, hs]; rfl, by rw [hsh, hs]; rfl, by rw [hsh, hs]; rfl, by rw [hel]; rfl, ⟨{ bodyElement ps.bodytype with key := some 0 }, by unfold getElement; rw [hel]; rfl, ?_⟩,
    fun k dec hk => ⟨h4 k dec hk, o1 k dec hk⟩, o2, fun h => ?_, fun t h => ?_, ProvForest.of_eq hf hpr hch⟩
  · cases ps.bodytype <;> exact ⟨rfl, rfl, rfl, rfl⟩
  · rw [hac, hch, hpr]; exact hn h
  · obtain ⟨k, k1, k2, k3, k4⟩ := ht t h
    refine ⟨k, hac.trans k1, hch.trans k2, procStored_mono (Nat.le_refl _) (fun j x _ hx => ?_) t _ none k3, by rw [hpr]; exact k4⟩
    unfold getProcessor at hx ⊢
    rw [hpr]; exact hx

/-- Properties with a tree of processors, asking for a declaration without a set as well. -/
def Sample.newProps : DocumentProperties :=
  { bodytype := .speech, processor := some Sample.procTree, declare := [(.TEXT, some DEFAULT_TEXT_SET), (.POS, some "pos"), (.POS, none), (.LEMMA, none)] }

def Sample.newDoc : Document := match Document.new "x" Sample.newProps with | .ok d => d | .error _ => {}

example : (∀ t, Sample.newProps.processor = some t → CleanProc t ∧ (procIds t).Nodup ∧ procSize t ≤ 65536) ∧ Sample.newProps.declare.length ≤ 65536 ∧
    Sample.newDoc.declarations.len = 3 ∧ Sample.newDoc.processors.len = 4 := by
  refine ⟨?_, by decide, by decide +kernel, by decide +kernel⟩
  rintro t ⟨⟩
  exact ⟨Sample.procTree_clean, by decide +kernel, by decide +kernel⟩

end Folia
