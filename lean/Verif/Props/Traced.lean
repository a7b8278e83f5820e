import Verif.Lemmas.Traced
import Verif.Props.Source
import Verif.Lemmas.AcceptChecks
/-! C73: the processors of a document form a forest. -/
namespace Folia
open Document

/-- Histories with distinct identifiers for processors are histories without raw keys. -/
theorem Traced.clean {X : Ext} {F : Nat} {d : Document} (h : Traced X F d) : CleanReachable X F d := by
  induction h with
  | new hp h => exact .new (fun p hp' => (hp p hp').1) h
  | parse _ hp h => exact .parse (fun p hp' => (hp p hp').1) h
  | op o _ hc _ ih => exact .op o ih hc

/-- The chain consists of different processors without parents, subprocessors and parents agree, and there are no cycles. Missing: documents
in which identifiers of processors are repeated or a processor is attached that has a place already, see the counterexamples. -/
theorem C73_forest_partial {X : Ext} {F : Nat} {d : Document} (h : Traced X F d) : d.ProvForest := by
  induction h with
  | @new id ps d hp h =>
    rw [new_eq] at h
    have hf := applyProperties_forest (d := bodyOnly id ps) (ps := ps) (C49_none rfl rfl) fun t ht => by
      obtain ⟨c1, c2, c3⟩ := hp t ht
      exact ⟨c1, ⟨c2, fun _ _ => rfl⟩, by rw [show (bodyOnly id ps).processors.len = 0 from rfl, Nat.zero_add]; exact c3⟩
    rcases ha : applyProperties ps (bodyOnly id ps) with ⟨f | u, d'⟩
    · rw [ha] at h; cases h
    · rw [ha] at h hf; cases h; exact hf
  | parse hn hp h => exact parse_forest hn hp h
  | op o _ hc ht ih => exact op_forest F o ih hc ht

/-- Hence the metadata of such a document can be written: that ends, and does not panic. Missing: as above. -/
theorem C73_written_partial {X : Ext} {F : Nat} {d : Document} (h : Traced X F d) : ∃ N m, ∀ G, N ≤ G → xmlMetadata d G = .ok m :=
  metadata_total h.clean (C73_forest_partial h)

/-- A source with processors in processors, then a processor added below one of these. -/
def Sample.tracedSource : List REvent := source [.start .folia "FoLiA" [.ok "xml:id" "doc"], .start .folia "metadata" [], .start .folia "provenance" [],
    .start .folia "processor" [.ok "xml:id" "p1", .ok "name" "a"], .empty .folia "processor" [.ok "xml:id" "p2", .ok "name" "b"], .endTag .folia "processor",
    .empty .folia "processor" [.ok "xml:id" "p3", .ok "name" "c"], .endTag .folia "provenance"] [] "text" [] [.endTag .folia "text"]

def Sample.tracedDoc : Document := Sample.value (Document.parse Sample.X Sample.F {} Sample.tracedSource)

theorem Sample.traced : Traced Sample.X Sample.F (runOps Sample.F [.addSubprocessor 1 (.node { id := "p4" } [])] Sample.tracedDoc) := by
  refine .op (.addSubprocessor 1 (.node { id := "p4" } [])) (.parse (ps := {}) (evs := Sample.tracedSource) (by decide +kernel) (by nofun)
    (Sample.value_eq (by decide +kernel))) (by simp [Op.Clean, CleanProc, CleanProcs]) ⟨?_, ⟨by decide +kernel, ?_⟩, by decide +kernel⟩
  · have : (Sample.tracedDoc.getProcessor 1).isSome = true := by decide +kernel
    intro h; rw [show Document.getProcessor _ 1 = none from h] at this; cases this
  · intro i hi
    have : i = "p4" := by simpa [procIds, procIdsList] using hi
    subst this
    have : Sample.tracedDoc.processorKeyById "p4" = none := by decide +kernel
    exact this

/-- A source in which a processor contains a processor with the same identifier. -/
def Sample.selfSource : List REvent := source [.start .folia "FoLiA" [.ok "xml:id" "doc"], .start .folia "metadata" [], .start .folia "provenance" [],
    .start .folia "processor" [.ok "xml:id" "p"], .empty .folia "processor" [.ok "xml:id" "p"], .endTag .folia "processor", .endTag .folia "provenance"] []
    "text" [] [.endTag .folia "text"]

def Sample.selfDoc : Document := Sample.value (Document.parse Sample.X Sample.F {} Sample.selfSource)

/-- Such a source is accepted; the processor becomes its own parent, and writing the document never ends. -/
theorem C73_self_counterexample : Document.parse Sample.X Sample.F {} Sample.selfSource = .ok Sample.selfDoc ∧
    (Sample.selfDoc.getProcessor 0).map (fun p => (p.parent, p.processors)) = some (some 0, [0]) ∧ ∀ G, xmlProvenance Sample.selfDoc G = .error .fuel := by
  refine ⟨Sample.value_eq (by decide +kernel), by decide +kernel, fun G => ?_⟩
  have h1 : (Sample.selfDoc.getProcessor 0).map (·.processors) = some [0] := by decide +kernel
  obtain ⟨x, hx, hx'⟩ := Option.map_eq_some_iff.mp h1
  have h2 : Sample.selfDoc.chain = [0] := by decide +kernel
  unfold xmlProvenance
  rw [h2]
  simp only [concatRes, loop_diverges hx hx' G]
  rfl

/-- Adding a processor with a known identifier adds the known one to the chain again. -/
theorem C73_repeated_counterexample : ∃ d t, CleanReachable Sample.X Sample.F d ∧ CleanProc t ∧ ¬ d.FreshProcs (procIds t) ∧
    (addProcessor t d).1 = .ok 0 ∧ (addProcessor t d).2.chain = [0, 0] := by
  refine ⟨Sample.procDoc, .node { id := "a" } [], .op (.addProcessor Sample.procTree) (.new (by intro p h; cases h) Sample.fresh_eq) Sample.procTree_clean,
    by simp [CleanProc, CleanProcs], ?_, by decide +kernel, by decide +kernel⟩
  intro h
  have h1 := h.2 "a" (by simp [procIds])
  have h2 : Sample.procDoc.processorKeyById "a" = some 0 := by decide +kernel
  rw [h2] at h1; cases h1

/-- Adding a subprocessor below a key that does not exist yet makes it its own parent. -/
theorem C73_future_counterexample : Sample.fresh.getProcessor 0 = none ∧ (addSubprocessor 0 (.node { id := "p" } []) Sample.fresh).1 = .ok 0 ∧
    ((addSubprocessor 0 (.node { id := "p" } []) Sample.fresh).2.getProcessor 0).map (fun p => (p.parent, p.processors)) = some (some 0, [0]) := by
  refine ⟨?_, by decide +kernel, by decide +kernel⟩
  have : (Sample.fresh.getProcessor 0).isSome = false := by decide +kernel
  simpa using this

/-- A processor that takes an existing processor as subprocessor. -/
def Sample.existingDoc : Document := (addProcessor ((ProcTree.node { id := "q" } []).withExistingSubprocessor 0) Sample.procDoc).2

/-- Making an existing processor a subprocessor of a new one leaves it without parent and in the chain; it is written twice. -/
theorem C73_existing_counterexample : (addProcessor ((ProcTree.node { id := "q" } []).withExistingSubprocessor 0) Sample.procDoc).1 = .ok 4 ∧
    Sample.existingDoc.chain = [0, 4] ∧ (Sample.existingDoc.getProcessor 4).map (·.processors) = some [0] ∧
    (Sample.existingDoc.getProcessor 0).map (fun p => (p.id, p.parent)) = some ("a", none) ∧
    ((xmlProvenance Sample.existingDoc Sample.F).toOption.map fun evs => evs.countP fun e => match e with
      | .start "processor" as => as.contains ("xml:id", "a")
      | _ => false) = some 2 := by
  refine ⟨by decide +kernel, by decide +kernel, by decide +kernel, by decide +kernel, by decide +kernel⟩

end Folia
