import Verif.Lemmas.RoundNames
import Verif.Lemmas.SampleChecks
/-! C46 to C48: what a document has in front of its body survives writing and reading. -/
namespace Folia
open Document

/-! ### Samples -/

/-- The result is a parse error. -/
def Sample.parseError {α : Type} : Res α → Bool
  | .error (.err .parse) => true
  | _ => false

theorem Sample.parseError_eq {α : Type} {r : Res α} (h : Sample.parseError r = true) : r = .error (.err .parse) := by
  unfold Sample.parseError at h
  split at h
  · rfl
  · cases h

/-- `Sample.doc` with metadata. -/
def Sample.annotated : Document := runOps Sample.F (Sample.ops ++ [.assign "sample" FOLIAVERSION none { data := [("title", "Sample & Co"), ("year", "2020")], metadatatype := some "native" } [] true])
  Sample.fresh

theorem Sample.annotated_consistent : Consistent Sample.X Sample.F Sample.annotated := Sample.consistent (by decide +kernel)

/-- It is read again. -/
theorem Sample.annotated_reread : Rereads Sample.X Sample.F {} Sample.annotated (Sample.value (Sample.reread Sample.annotated)) :=
  Sample.reread_spec (Sample.value_eq (by decide +kernel))

/-! ### C46 Declarations -/

/-- The declarations with processors, in order, come back as the first declarations: with the same type, set, alias and format, and with
the same processors, possibly followed by ones that elements name.

Missing for the full claim: a declaration without processors is lost, see the counterexample. The processors are reachable from the chain
and the result was accepted; without that see `C47`. -/
theorem C46_credited_partial {X : Ext} {F F' : Nat} {ps : DocumentProperties} {d d' : Document} (hr : Consistent X F d) (hps : ps.processor = none)
    (hc : ∀ dec ∈ allDeclarations d, ∀ p ∈ dec.processors, ∃ c ∈ d.chain, d.ProcOver c p) (h : Rereads X F' ps d d') {j : Nat} {dec : Declaration}
    (hj : ((allDeclarations d).filter fun dec => dec.processors ≠ [])[j]? = some dec) :
    ∃ dec', d'.getDeclaration j = some dec' ∧ dec'.annotationtype = dec.annotationtype ∧ dec'.set = dec.set ∧ dec'.alias = dec.alias ∧
      dec'.format = dec.format ∧ procIdents d dec.processors <+: procIdents d' dec'.processors := by
  obtain ⟨G, evs, hxml, h⟩ := h
  obtain ⟨ts, d2, hts, hm, hs, hmono, hx⟩ := round_head hr.clean hr.forest hr.body hr.prov hxml hps h
  unfold allDeclarations at hj
  rw [← kept_filter] at hj
  have h1 := hm.decls j
  rw [hj] at h1
  obtain ⟨dec', h2, h3⟩ := hmono j _ h1
  refine ⟨dec', h2, h3.type, h3.set, h3.alias, h3.format, ?_⟩
  have hproc : ∀ l, procIdents d' l = procIdents d2 l := fun l => by
    unfold procIdents Document.getProcessor
    rw [hs]
  rw [hproc]
  have hsub : dec ∈ allDeclarations d := by
    have := List.mem_of_getElem? hj
    rw [kept_filter] at this
    exact (List.mem_filter.mp this).1
  have := names_back (d := d) (d2 := d2) hx dec.processors fun p hp' x hxp => by
    obtain ⟨c, hc1, hc2⟩ := hc dec hsub p hp'
    exact trees_ids_live ts _ _ hm.stored _ (over_in_trees ts _ _ hts hc1 hc2 hxp)
  rw [← this]
  exact h3.processors.filterMap _

example : Consistent Sample.X Sample.F Sample.annotated ∧ NoDates Sample.annotated ∧
    (∀ dec ∈ allDeclarations Sample.annotated, ∀ p ∈ dec.processors, ∃ c ∈ Sample.annotated.chain, Sample.annotated.ProcOver c p) ∧
    (∃ d', Rereads Sample.X Sample.F {} Sample.annotated d') ∧
    (((allDeclarations Sample.annotated).filter fun dec => dec.processors ≠ [])[0]?).map (fun dec => (dec.annotationtype, dec.set, dec.processors)) =
      some (.POS, some "brown", [0]) :=
  ⟨Sample.annotated_consistent, noDates_of_check (by decide +kernel), fun dec hd p hp => ⟨p, by
    have : ∀ dec ∈ allDeclarations Sample.annotated, ∀ p ∈ dec.processors, p ∈ Sample.annotated.chain := by decide +kernel
    exact this dec hd p hp, .here _⟩, ⟨_, Sample.annotated_reread⟩, by decide +kernel⟩

/-- A declaration without processors is lost. Since the set is then not written on the annotations either, these come back with another set. -/
theorem C46_counterexample : ∃ d d', Consistent Sample.X Sample.F d ∧ NoDates d ∧ Rereads Sample.X Sample.F {} d d' ∧
    (∃ k, d.declarationKeyById (Declaration.indexId .CHUNKING (some "chunks")) = some k) ∧
    d'.declarationKeyById (Declaration.indexId .CHUNKING (some "chunks")) = none ∧
    (d.getElement 11).map (fun e => (e.elementtype, e.getSet d)) = some (.chunk, .ok (some "chunks")) ∧
    ∃ k, (d'.getElement k).map (fun e => (e.elementtype, e.getSet d')) = some (.chunk, .ok none) := by
  refine ⟨Sample.doc, Sample.value (Sample.reread Sample.doc), Sample.doc_consistent, Sample.doc_nodates, Sample.reread_spec (Sample.value_eq (by decide +kernel)),
    ⟨3, by decide +kernel⟩, by decide +kernel, by decide +kernel, 9, by decide +kernel⟩

/-! ### C47 Provenance -/

/-- The provenance comes back: the same trees of processors with the same fields, in the same order.

Missing for the full claim: a processor with a date makes the document unreadable, see `C47_dated`. Processors that are not in the
chain are not written. -/
theorem C47_provenance_partial {X : Ext} {F F' : Nat} {ps : DocumentProperties} {d d' : Document} (hr : Consistent X F d) (hps : ps.processor = none) (h : Rereads X F' ps d d') :
    ∃ ts, ProcsStored 0 d none d.chain ts ∧ ProcsStored 0 d' none d'.chain ts := by
  obtain ⟨G, evs, hxml, h⟩ := h
  obtain ⟨ts, d2, hts, hm, hs, hmono, hx⟩ := round_head hr.clean hr.forest hr.body hr.prov hxml hps h
  refine ⟨ts, hts, ?_⟩
  have hch : d'.chain = d2.chain := by rw [hs]
  rw [hch]
  exact stored_of_same (by rw [hs]) hm.stored

/-- The provenance of this document: two processors, one with a subprocessor. -/
def Sample.credited : Document := runOps Sample.F (Sample.ops ++ [.addProcessor Sample.procTree]) Sample.fresh

example : Consistent Sample.X Sample.F Sample.credited ∧ NoDates Sample.credited ∧ Sample.credited.chain = [0, 1] ∧
    (∃ d', Rereads Sample.X Sample.F {} Sample.credited d') :=
  ⟨Sample.consistent (by decide +kernel), noDates_of_check (by decide +kernel), by decide +kernel, _, Sample.reread_spec (Sample.value_eq (by decide +kernel))⟩

/-- A document that can be read back has no dates in its provenance: a document whose provenance has a date can be written (`C70_written`), but what
was written is rejected, whatever the processor, the date, the fuel and the options. -/
theorem C47_dated {X : Ext} {F F' : Nat} {ps : DocumentProperties} {d d' : Document} (hr : Consistent X F d) (h : Rereads X F' ps d d') {c p : Nat} (hc : c ∈ d.chain)
    (hp : d.ProcOver c p) {x : Processor} (hx : d.getProcessor p = some x) : x.begindatetime = none ∧ x.enddatetime = none := by
  obtain ⟨G, evs, hxml, h⟩ := h
  obtain ⟨ts, hts, hund⟩ := round_undated hr.clean hr.forest hr.body hr.prov hxml h
  exact storedList_undated ts _ _ hund hts c hc p x hp hx

/-- A document whose processor says when it began is written, and the result is rejected. -/
theorem C47_counterexample : ∃ d evs, Consistent Sample.X Sample.F d ∧ d.xml Sample.X 100 0 = .ok evs ∧
    Document.parse Sample.X Sample.F {} (checkEnds [] (readBack evs)) = .error (.err .parse) := by
  let d := runOps Sample.F (Sample.ops ++ [.addProcessor (.node { id := "q", name := "q", begindatetime := some ⟨2020, 1, 2, 3, 4, 5, 0⟩ } [])]) Sample.fresh
  refine ⟨d, Sample.value (d.xml Sample.X 100 0), Sample.consistent (by decide +kernel), Sample.value_eq (by decide +kernel), ?_⟩
  exact Sample.parseError_eq (by decide +kernel)

/-! ### C48 Metadata -/

/-- The metadata comes back: the type, the source and all keys with their values. The identifier of the document comes back as well.

Missing for the full claim: keys with empty values are lost, and submetadata is not kept apart from the metadata, see the counterexamples.
The keys of the map are distinct as they are in any `HashMap`. -/
theorem C48_simple_partial {X : Ext} {F F' : Nat} {ps : DocumentProperties} {d d' : Document} (hr : Consistent X F d) (hps : ps.processor = none) (h : Rereads X F' ps d d')
    (hn : (d.metadata.data.map (·.1)).Nodup) (hv : ∀ kv ∈ d.metadata.data, kv.2 ≠ "") (hs : d.submetadata = []) :
    d'.metadata = d.metadata ∧ d'.submetadata = d.submetadata ∧ d'.id = d.id := by
  obtain ⟨G, evs, hxml, h⟩ := h
  obtain ⟨ts, d2, hts, hm, hsh, hmono, hx⟩ := round_head hr.clean hr.forest hr.body hr.prov hxml hps h
  have h1 : d'.metadata = d2.metadata := by rw [hsh]
  have h2 : d'.submetadata = d2.submetadata := by rw [hsh]
  have h3 : d'.id = d2.id := by rw [hsh]
  rw [h1, h2, h3]
  refine ⟨?_, by rw [hm.same, hs], by rw [hm.same]⟩
  have h4 := hm.data
  rw [hs, List.flatMap_nil, List.append_nil, insertValues_all _ _ hv (by simpa using hn)] at h4
  have h5 := hm.metadatatype
  have h6 := hm.src
  cases hd2 : d2.metadata
  cases hd : d.metadata
  simp only [hd2, hd, List.nil_append] at h4 h5 h6
  subst h4 h5 h6
  rfl

example : Consistent Sample.X Sample.F Sample.annotated ∧ NoDates Sample.annotated ∧ (∃ d', Rereads Sample.X Sample.F {} Sample.annotated d') ∧
    (Sample.annotated.metadata.data.map (·.1)).Nodup ∧ (∀ kv ∈ Sample.annotated.metadata.data, kv.2 ≠ "") ∧ Sample.annotated.submetadata = [] ∧
    Sample.annotated.metadata.data.length = 2 :=
  ⟨Sample.annotated_consistent, noDates_of_check (by decide +kernel), ⟨_, Sample.annotated_reread⟩, by decide +kernel, by decide +kernel, by decide +kernel, by decide +kernel⟩

/-- A key with an empty value is lost. -/
theorem C48_empty_counterexample : ∃ d d', Consistent Sample.X Sample.F d ∧ NoDates d ∧ Rereads Sample.X Sample.F {} d d' ∧ d.submetadata = [] ∧
    d.metadata.data = [("title", "x"), ("note", "")] ∧ d'.metadata.data = [("title", "x")] := by
  let d := runOps Sample.F (Sample.ops ++ [.assign "sample" FOLIAVERSION none { data := [("title", "x"), ("note", "")] } [] true]) Sample.fresh
  exact ⟨d, Sample.value (Sample.reread d), Sample.consistent (by decide +kernel), noDates_of_check (by decide +kernel), Sample.reread_spec (Sample.value_eq (by decide +kernel)),
    by decide +kernel, by decide +kernel, by decide +kernel⟩

/-- Submetadata does not come back as such: its values end up in the metadata of the document, where they replace others. -/
theorem C48_submetadata_counterexample : ∃ d d', Consistent Sample.X Sample.F d ∧ NoDates d ∧ Rereads Sample.X Sample.F {} d d' ∧
    d.metadata.data = [("title", "x")] ∧ d.submetadata = [("part", { data := [("title", "y"), ("author", "z")] })] ∧
    d'.metadata.data = [("title", "y"), ("author", "z")] ∧ d'.submetadata = [] := by
  let d := runOps Sample.F (Sample.ops ++ [.assign "sample" FOLIAVERSION none { data := [("title", "x")] } [("part", { data := [("title", "y"), ("author", "z")] })] true]) Sample.fresh
  exact ⟨d, Sample.value (Sample.reread d), Sample.consistent (by decide +kernel), noDates_of_check (by decide +kernel), Sample.reread_spec (Sample.value_eq (by decide +kernel)),
    by decide +kernel, by decide +kernel, by decide +kernel, by decide +kernel⟩

end Folia
