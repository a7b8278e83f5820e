import Verif.Lemmas.Provenance
import Verif.Lemmas.Credit
import Verif.Props.Builders
import Verif.Props.Serialise
/-! C49, C50, C51 and C57: processors, the provenance chain, and the declarations made on the way. -/
namespace Folia
open Document

/-! ### C49 Adding processors builds the provenance tree -/

/-- A document without processors has a proper provenance. -/
theorem C49_none {d : Document} (hp : d.processors = {}) (hc : d.chain = []) : d.ProvForest := by
  have hg : ∀ k, d.getProcessor k = none := by intro k; unfold getProcessor; rw [hp]; rfl
  refine ⟨⟨fun p c => ?_, fun p x hx => ?_, ⟨fun _ => 0, ?_⟩⟩, by rw [hc]; exact List.nodup_nil, by rw [hc]; nofun⟩
  · unfold ListsProc ProcBelow; simp [hg]
  · rw [hg] at hx; cases hx
  · rintro p c ⟨x, hx, _⟩; rw [hg] at hx; cases hx

/-- `add_processor` with new identifiers appends one processor to the chain, stores the tree below it, in order and with agreeing parent
links, under new keys, and changes nothing else. -/
theorem C49_add_processor {d : Document} {t : ProcTree} (hcl : CleanProc t) (hf : d.FreshProcs (procIds t)) (hcap : d.processors.len + procSize t ≤ 65536) :
    ∃ k d', addProcessor t d = (.ok k, d') ∧ d'.chain = d.chain ++ [k] ∧ ProcStored d.processors.len d' none k t ∧
      (∀ j x, d.getProcessor j = some x → d'.getProcessor j = some x) ∧ d'.processors.len = d.processors.len + procSize t ∧
      d'.elements = d.elements ∧ d'.declarations = d.declarations ∧ (d.ProvForest → d'.ProvForest) := by
  obtain ⟨d', h1, h2⟩ := addProcessor_added hcl hf hcap
  have hch : d'.chain = d.chain ++ [d.processors.len] := by rw [h2.same]
  have hold : ∀ j x, d.getProcessor j = some x → d'.getProcessor j = some x := fun j x hx => by rw [h2.old j (getProcessor_lt hx)]; exact hx
  refine ⟨_, d', h1, hch, h2.stored, hold, h2.len, by rw [h2.same], by rw [h2.same], fun hp => ⟨h2.links hp.toProcLinks, ?_, ?_⟩⟩
  · rw [hch, List.nodup_append]
    refine ⟨hp.chainOnce, by simp, fun a ha b hb => ?_⟩
    rw [List.mem_singleton] at hb
    subst hb
    obtain ⟨x, hx, _⟩ := hp.chainTop a ha
    have := getProcessor_lt hx
    omega
  · intro k hk
    rw [hch, List.mem_append, List.mem_singleton] at hk
    rcases hk with hk | rfl
    · obtain ⟨x, hx, hx'⟩ := hp.chainTop k hk
      exact ⟨x, hold k x hx, hx'⟩
    · have := h2.stored
      cases t
      simp only [ProcStored] at this
      obtain ⟨subs, _, h3, _⟩ := this
      exact ⟨_, h3, rfl⟩

/-- `add_subprocessor` with new identifiers appends one subprocessor to the parent, stores the tree below it, and changes nothing else. -/
theorem C49_add_subprocessor {d : Document} {t : ProcTree} {parent : Nat} {pe : Processor} (hcl : CleanProc t) (hp : d.getProcessor parent = some pe)
    (hf : d.FreshProcs (procIds t)) (hcap : d.processors.len + procSize t ≤ 65536) :
    ∃ k d', addSubprocessor parent t d = (.ok k, d') ∧ d'.chain = d.chain ∧ ProcStored d.processors.len d' (some parent) k t ∧
      d'.getProcessor parent = some { pe with processors := pe.processors ++ [k] } ∧
      (∀ j x, j ≠ parent → d.getProcessor j = some x → d'.getProcessor j = some x) ∧ d'.processors.len = d.processors.len + procSize t ∧
      d'.elements = d.elements ∧ d'.declarations = d.declarations ∧ (d.ProvForest → d'.ProvForest) := by
  obtain ⟨d', h1, h2⟩ := addSubprocessor_added t parent d pe hcl hp hf hcap
  have hch : d'.chain = d.chain := by rw [h2.same]
  have hold : ∀ j x, d.getProcessor j = some x → d'.getProcessor j = some { x with processors := if j = parent then x.processors ++ [d.processors.len] else x.processors } :=
    fun j x hx => by rw [h2.old j (getProcessor_lt hx), hx]; rfl
  refine ⟨_, d', h1, hch, ?_, ?_, ?_, ?_, by rw [h2.same], by rw [h2.same], fun hf => ⟨h2.links hf.toProcLinks, by rw [hch]; exact hf.chainOnce, ?_⟩⟩
  · have := h2.stored
    simp only [ProcsStored] at this
    obtain ⟨c, cs, hc, h3, _⟩ := this
    cases hc
    exact h3
  · rw [hold parent pe hp, if_pos rfl]
  · intro j x hj hx
    rw [hold j x hx, if_neg hj]
  · rw [h2.len]; simp [procSizeList]
  · intro k hk
    rw [hch] at hk
    obtain ⟨x, hx, hx'⟩ := hf.chainTop k hk
    exact ⟨_, hold k x hx, hx'⟩

/-- A processor with two subprocessors, one of which has a subprocessor. -/
def Sample.procTree : ProcTree :=
  .node { id := "a", name := "a" } [.node { id := "a1", name := "a1" } [.node { id := "a11", name := "a11" } []], .node { id := "a2", name := "a2" } []]

/-- The document after adding it. -/
def Sample.procDoc : Document := (addProcessor Sample.procTree Sample.fresh).2

theorem Sample.procTree_clean : CleanProc Sample.procTree := by simp [Sample.procTree, CleanProc, CleanProcs]

theorem Sample.procTree_fresh : Sample.fresh.FreshProcs (procIds Sample.procTree) := by
  refine ⟨by decide +kernel, fun id _ => ?_⟩
  have : Sample.fresh.processors.index = [] := by decide +kernel
  unfold processorKeyById Store.idToKey
  rw [this]; rfl

theorem Sample.fresh_prov : Sample.fresh.ProvForest := by
  refine C49_none ?_ (by decide +kernel)
  have h1 : Sample.fresh.processors.index = [] := by decide +kernel
  have h2 : Sample.fresh.processors.items.length = 0 := by decide +kernel
  have h2 := List.length_eq_zero_iff.mp h2
  cases h : Sample.fresh.processors
  rw [h] at h1 h2
  simp_all

example : CleanProc Sample.procTree ∧ Sample.fresh.FreshProcs (procIds Sample.procTree) ∧ Sample.fresh.processors.len + procSize Sample.procTree ≤ 65536 ∧
    Sample.fresh.ProvForest ∧ Sample.procDoc.processors.len = 4 ∧ Sample.procDoc.chain = [0] :=
  ⟨Sample.procTree_clean, Sample.procTree_fresh, by decide +kernel, Sample.fresh_prov, by decide +kernel, by decide +kernel⟩

theorem Sample.procDoc_prov : Sample.procDoc.ProvForest := by
  obtain ⟨k, d', h, _, _, _, _, _, _, hp⟩ := C49_add_processor Sample.procTree_clean Sample.procTree_fresh (by decide +kernel)
  have : Sample.procDoc = d' := by unfold Sample.procDoc; rw [h]
  rw [this]; exact hp Sample.fresh_prov

/-! ### C50 attach_processor moves a processor -/

/-- Attaching a processor that has no parent, is not in the chain, and does not have the new parent at or below itself: it becomes the last
subprocessor of the new parent, nothing else changes, and the provenance stays a forest.

Missing for the full claim: a processor that already has a parent stays in the list of the old one, and nothing prevents cycles; see the
counterexamples. -/
theorem C50_attach_partial {d : Document} {p c : Nat} {pe ce : Processor} (hf : d.ProvForest) (hp : d.getProcessor p = some pe) (hc : d.getProcessor c = some ce)
    (hcp : ce.parent = none) (hch : c ∉ d.chain) (hover : ¬ d.ProcOver c p) :
    ∃ d', attachProcessor p c d = (.ok (), d') ∧ d'.ProvForest ∧ d'.chain = d.chain ∧ d'.elements = d.elements ∧ d'.declarations = d.declarations ∧
      d'.getProcessor p = some { pe with processors := pe.processors ++ [c] } ∧ d'.getProcessor c = some { ce with parent := some p } ∧
      ∀ j, j ≠ p → j ≠ c → d'.getProcessor j = d.getProcessor j := by
  obtain ⟨d', h1, h2, _, _, h3⟩ := attachProcessor_run hp hc
  have hpc : p ≠ c := by rintro rfl; exact hover (.here _)
  have hchain : d'.chain = d.chain := by rw [h2]
  refine ⟨d', h1, ⟨attachProc_links hf.toProcLinks hp hc hcp hover h3, by rw [hchain]; exact hf.chainOnce, ?_⟩, hchain, by rw [h2], by rw [h2], ?_, ?_, ?_⟩
  · intro k hk
    rw [hchain] at hk
    obtain ⟨x, hx, hx'⟩ := hf.chainTop k hk
    refine ⟨_, by rw [h3, hx]; rfl, ?_⟩
    simp only
    rw [if_neg (by rintro rfl; exact hch hk)]
    exact hx'
  · rw [h3, hp]; simp [hpc]
  · rw [h3, hc]; simp [Ne.symm hpc]
  · intro j hjp hjc
    rw [h3]
    cases d.getProcessor j with
    | none => rfl
    | some x => simp [hjp, hjc]

/-- Keys that do not exist give an error and change nothing. -/
theorem C50_attach_unknown {d : Document} {p c : Nat} (h : d.getProcessor p = none ∨ d.getProcessor c = none) :
    attachProcessor p c d = (.error (.err .internal), d) := by
  unfold attachProcessor
  simp only [M.run_bind, M.run_get]
  cases hp : d.getProcessor p with
  | none => rfl
  | some pe =>
    rcases h with h | h
    · rw [hp] at h; cases h
    · simp only [M.run_bind, M.run_get, h]; rfl

/-- An orphan: added with `add_provenance`, not yet in the chain. -/
def Sample.orphanDoc : Document := (addProvenance { id := "o", name := "o" } Sample.procDoc).2

example : (attachProcessor 1 4 Sample.orphanDoc).1 = .ok () ∧ (Sample.orphanDoc.getProcessor 4).map (·.parent) = some none ∧ 4 ∉ Sample.orphanDoc.chain ∧
    ¬ Sample.orphanDoc.ProcOver 4 1 := by
  refine ⟨by decide +kernel, by decide +kernel, by decide +kernel, ?_⟩
  intro h
  cases h with
  | step h1 _ =>
    obtain ⟨x, hx, hm⟩ := h1
    have : (Sample.orphanDoc.getProcessor 4).map (·.processors) = some [] := by decide +kernel
    rw [hx] at this
    simp only [Option.map_some, Option.some.injEq] at this
    rw [this] at hm; cases hm

/-- Attaching a subprocessor of one processor to another: the old parent still lists it. -/
theorem C50_old_parent_counterexample : ∃ d, CleanReachable Sample.X Sample.F d ∧ d.ProvForest ∧ (attachProcessor 3 2 d).1 = .ok () ∧
    ((attachProcessor 3 2 d).2.getProcessor 2).map (·.parent) = some (some 3) ∧ ((attachProcessor 3 2 d).2.getProcessor 3).map (·.processors) = some [2] ∧
    ((attachProcessor 3 2 d).2.getProcessor 1).map (·.processors) = some [2] := by
  refine ⟨Sample.procDoc, ?_, Sample.procDoc_prov, by decide +kernel, by decide +kernel, by decide +kernel, by decide +kernel⟩
  exact .op (.addProcessor Sample.procTree) (.new (by intro p h; cases h) Sample.fresh_eq) Sample.procTree_clean

theorem loop_diverges {d : Document} {k : Nat} {x : Processor} {rest : List Nat} (h : d.getProcessor k = some x) (hs : x.processors = k :: rest) :
    ∀ F, xmlProcessor d F k = .error .fuel
  | 0 => rfl
  | F + 1 => by
    simp only [xmlProcessor, h, hs, concatRes, loop_diverges h hs F]
    rfl

/-- A processor can be attached to itself; writing the document then never ends. -/
theorem C50_cycle_counterexample : ∃ d, CleanReachable Sample.X Sample.F d ∧ ∃ k, d.getProcessor k ≠ none ∧ (attachProcessor k k d).1 = .ok () ∧
    ∀ G, xmlProvenance (attachProcessor k k d).2 G = .error .fuel := by
  let ops : List Op := [.addProcessor (.node { id := "p", name := "p" } [])]
  have hcl : ∀ o ∈ ops, ∀ d, o.Clean d := by
    intro o ho d
    simp only [ops, List.mem_singleton] at ho
    subst ho
    simp [Op.Clean, CleanProc, CleanProcs]
  refine ⟨runOps Sample.F ops Sample.fresh, Sample.clean_ops ops hcl (.new (by intro p h; cases h) Sample.fresh_eq), 0, ?_, by decide +kernel, fun G => ?_⟩
  · intro h
    have : ((runOps Sample.F ops Sample.fresh).getProcessor 0).isSome = true := by decide +kernel
    rw [h] at this; cases this
  · have h1 : ((attachProcessor 0 0 (runOps Sample.F ops Sample.fresh)).2.getProcessor 0).map (·.processors) = some [0] := by decide +kernel
    obtain ⟨x, hx, hx'⟩ := Option.map_eq_some_iff.mp h1
    have h2 : (attachProcessor 0 0 (runOps Sample.F ops Sample.fresh)).2.chain = [0] := by decide +kernel
    unfold xmlProvenance
    rw [h2]
    simp only [concatRes, loop_diverges hx hx' G]
    rfl

/-- If the provenance is a forest, writing it ends and gives the chain: every processor with what is below it, in order. -/
theorem C50_written {X : Ext} {F : Nat} {d : Document} (hr : CleanReachable X F d) (hf : d.ProvForest) :
    ∃ ts, ProcsStored 0 d none d.chain ts ∧ ∃ N, ∀ G, N ≤ G →
      xmlProvenance d G = .ok ([.start "provenance" [], .text "\n"] ++ procsXml ts ++ [.endTag "provenance", .text "\n"]) := by
  have hkeys : ∀ j y, d.getProcessor j = some y → y.key = some j := fun j y hy => hr.cinv.procs.keyed j y hy
  obtain ⟨h, hh⟩ := hf.height
  have hts : ∀ ks : List Nat, (∀ k ∈ ks, k ∈ d.chain) → ∃ ts, ProcsStored 0 d none ks ts := by
    intro ks
    induction ks with
    | nil => intro _; exact ⟨[], by simp only [ProcsStored]⟩
    | cons k ks ih =>
      intro hks
      obtain ⟨ts, hts⟩ := ih fun j hj => hks j (List.mem_cons_of_mem _ hj)
      obtain ⟨x, hx, hxp⟩ := hf.chainTop k (hks k (List.mem_cons_self ..))
      obtain ⟨t, ht⟩ := exists_procTree hf.toProcLinks (h k + 1) h hh k x (Nat.lt_succ_self _) hx (hkeys k x hx) hkeys
      rw [hxp] at ht
      exact ⟨t :: ts, by simp only [ProcsStored]; exact ⟨k, ks, rfl, ht, hts⟩⟩
  obtain ⟨ts, hts⟩ := hts d.chain fun _ h => h
  obtain ⟨N, hN⟩ := xmlProcessors_tree ts d.chain none 0 hts
  refine ⟨ts, hts, N, fun G hG => ?_⟩
  unfold xmlProvenance
  rw [hN G hG]
  rfl

example : CleanReachable Sample.X Sample.F Sample.procDoc ∧ Sample.procDoc.ProvForest :=
  ⟨.op (.addProcessor Sample.procTree) (.new (by intro p h; cases h) Sample.fresh_eq) Sample.procTree_clean, Sample.procDoc_prov⟩

/-- Consequently `xml` returns for every such document with a body. -/
theorem C36_returns {X : Ext} {F : Nat} {d : Document} (hr : CleanReachable X F d) (hf : d.Forest) (hb : d.Live 0) (hp : d.ProvForest) :
    ∃ N, ∀ G, N ≤ G → ∃ evs, d.xml X G 0 = .ok evs := by
  obtain ⟨_, _, _, _, _, N1, h1⟩ := C36_document (X := X) hr hf hb
  obtain ⟨ts, _, N2, h2⟩ := C50_written hr hp
  obtain ⟨decs, h3⟩ := (C12_serialisable (X := X) hr).2
  refine ⟨max N1 N2, fun G hG => ?_⟩
  have h4 := h2 G (by omega)
  exact ⟨_, h1 G (by omega) _ (by unfold xmlMetadata; rw [h3, h4]; rfl)⟩

/-! ### C51 The active processor is credited -/

/-- An annotation added without an explicit processor while a processor is active: it is credited to a processor that its declaration
lists; this is the active one, unless its type and set were already declared with exactly one, different, processor.

Missing for the full claim: in the excepted case the active processor is not credited, and an annotation without set, class, subset and
processor is credited to nobody; see the counterexamples. The builder has no pending children here. -/
theorem C51_credited_partial {X : Ext} {F : Nat} {d d' : Document} (hr : CleanReachable X F d) {p k a : Nat} {e : ElementData} {t : AnnotationType}
    (hp : (d.getElement p).isSome) (hn : d.NewBuilder e) (hz : builderSizeList e.data = 0) (ht : e.elementtype.annotationtype = some t)
    (hen : ∃ a ∈ e.attribs, a.encodable = true) (hno : e.processor = .ok none) (ha : d.activeProcessor = some a) (h : addElementTo F p e d = (.ok k, d')) :
    ∃ x q dec, d'.getElement k = some x ∧ x.processorKeyU = .ok (some q) ∧ x.getDeclaration d' = .ok (some dec) ∧ q ∈ dec.processors ∧
      (q = a ∨ ∃ s dk dec0, e.set = .ok s ∧ d.declarationKeyById (Declaration.indexId t s) = some dk ∧ d.getDeclaration dk = some dec0 ∧ dec0.processors = [q]) := by
  obtain ⟨pe, hpe⟩ := Option.isSome_iff_exists.mp hp
  obtain ⟨e', d1, x, h1, h2, h3, h4, h5⟩ := single_ok ⟨pe, hpe⟩ hn.2 hz h
  have hen' : e.encodable = true := by
    obtain ⟨a, h5, h6⟩ := hen
    unfold ElementData.encodable
    exact List.any_eq_true.mpr ⟨a, h5, h6⟩
  have hca : CleanAttribs e.attribs := by have := hn.1; cases e; simp only [CleanBuilder] at this; exact this.1
  obtain ⟨dk, dec, q, g1, g2, g3, g4⟩ := encode_credit hr.cinv.decls ht hen' hca hno ha h1
  rcases h4 with h4 | ⟨_, h4⟩
  · obtain ⟨g5, g6⟩ := g3 x h4
    refine ⟨x, q, dec, h2, g6, ?_, g2, ?_⟩
    · unfold ElementData.getDeclaration
      rw [g5]
      show Except.ok (d'.getDeclaration dk) = _
      unfold getDeclaration at g1 ⊢
      rw [h5, g1]
    · rcases g4 with g4 | ⟨s, dec0, g4⟩
      · exact Or.inl g4
      · exact Or.inr ⟨s, dk, dec0, g4⟩
  · rw [hen'] at h4; cases h4

/-- Two processors, the second one active. -/
def Sample.activeOps : List Op := [.addProcessor (.node { id := "p0", name := "p0" } []), .addProcessor (.node { id := "p1", name := "p1" } []),
  .addElementTo 0 (Sample.word "w1" "Hello"), .activateProcessor 1]

/-- The document after them. -/
def Sample.activeDoc : Document := runOps Sample.F Sample.activeOps Sample.fresh

theorem Sample.activeDoc_clean : CleanReachable Sample.X Sample.F Sample.activeDoc :=
  CleanReachable.ops _ (.new (by intro p h; cases h) Sample.fresh_eq) (by decide +kernel)

example : Sample.activeDoc.NewBuilder Sample.pos ∧ (addElementTo Sample.F 2 Sample.pos Sample.activeDoc).1 = .ok 3 ∧
    Sample.activeDoc.activeProcessor = some 1 ∧ Sample.pos.processor = .ok none := by
  refine ⟨by decide +kernel, by decide +kernel, by decide +kernel, by decide +kernel⟩

/-- The part-of-speech annotations were declared for the first processor; with the second one active a new annotation is credited to the
first, and the declaration does not get to list the second. -/
theorem C51_other_counterexample : ∃ d e, CleanReachable Sample.X Sample.F d ∧ d.activeProcessor = some 1 ∧ e.processor = .ok none ∧
    (annotate Sample.F 2 e d).1 = .ok 4 ∧ ((annotate Sample.F 2 e d).2.getElement 4).map (·.processorKeyU) = some (.ok (some 0)) ∧
    ((annotate Sample.F 2 e d).2.getElement 4).map (fun x => (x.getDeclaration (annotate Sample.F 2 e d).2).map (·.map (·.processors))) = some (.ok (some [0])) := by
  refine ⟨runOps Sample.F [.activateProcessor 0, .annotate 2 Sample.pos, .activateProcessor 1] Sample.activeDoc, Sample.pos,
    CleanReachable.ops _ Sample.activeDoc_clean (by decide +kernel), ?_⟩
  refine ⟨by decide +kernel, by decide +kernel, by decide +kernel, by decide +kernel, by decide +kernel⟩

/-- An annotation that has neither a set nor a class nor a processor is credited to nobody. -/
theorem C51_bare_counterexample : (Sample.activeDoc.activeProcessor = some 1) ∧
    (addElementTo Sample.F 0 (ElementData.new .sentence) Sample.activeDoc).1 = .ok 3 ∧
    ((addElementTo Sample.F 0 (ElementData.new .sentence) Sample.activeDoc).2.getElement 3).map (·.processorKeyU) = some (.ok none) := by
  refine ⟨by decide +kernel, by decide +kernel, by decide +kernel⟩

/-! ### C57 Automatic declaration follows the autodeclare flag -/

/-- Every annotation with a set, class or processor that is added, at any depth of the builder, ends up with its type and set declared.

Missing for the full claim: this does not depend on the flag, so with `autodeclare` off there is no error; and annotations without set,
class and processor are not declared. See the counterexamples. -/
theorem C57_declared_partial {X : Ext} {F : Nat} {d d' : Document} (hr : CleanReachable X F d) {p k : Nat} {e b : ElementData} {t : AnnotationType}
    (hp : (d.getElement p).isSome) (hn : d.NewBuilder e) (hb : PartOf b e) (ht : b.elementtype.annotationtype = some t)
    (hen : ∃ a ∈ b.attribs, a.encodable = true) (h : addElementTo F p e d = (.ok k, d')) :
    ∃ j dec, d'.getDeclaration j = some dec ∧ dec.annotationtype = t ∧ ∀ s, b.set = .ok (some s) → dec.set = some s := by
  obtain ⟨_, hparts⟩ := C09_reads_back hr hp hn h
  obtain ⟨i, x, _, _, hx⟩ := hparts b hb
  have hen' : b.encodable = true := by
    obtain ⟨a, h5, h6⟩ := hen
    unfold ElementData.encodable
    exact List.any_eq_true.mpr ⟨a, h5, h6⟩
  obtain ⟨dec, h1, h2⟩ := hx.declared t ht hen'
  have h3 : ∃ j, d'.getDeclaration j = some dec := by
    unfold ElementData.getDeclaration at h1
    cases hk : x.declarationKeyU with
    | error f => rw [hk] at h1; cases h1
    | ok o =>
      rw [hk] at h1
      cases o with
      | none => cases h1
      | some j => exact ⟨j, by injection h1⟩
  obtain ⟨j, h3⟩ := h3
  refine ⟨j, dec, h3, h2, fun s hs => ?_⟩
  have := hx.set s (Or.inl (by rw [ht]; rfl)) hs
  unfold ElementData.getSet at this
  rw [h1] at this
  injection this

example : CleanReachable Sample.X Sample.F Sample.doc ∧ Sample.doc.NewBuilder Sample.pos ∧ (Sample.doc.getElement 4).isSome ∧
    Sample.pos.elementtype.annotationtype = some .POS ∧ (addElementTo Sample.F 4 Sample.pos Sample.doc).1 = .ok 12 :=
  ⟨Sample.doc_clean, by decide +kernel, by decide +kernel, by decide +kernel, by decide +kernel⟩

/-- With `autodeclare` off an annotation of an undeclared type is added without an error, and its type is declared. -/
theorem C57_off_counterexample : ∃ d, Document.new "off" { autodeclare := false } = .ok d ∧ d.autodeclare = false ∧
    d.declarations.items.all (fun o => o.all (·.annotationtype ≠ .SENTENCE)) = true ∧
    (addElementTo Sample.F 0 ((ElementData.new .sentence).setAttrib (.cls "x")) d).1 = .ok 1 ∧
    (addElementTo Sample.F 0 ((ElementData.new .sentence).setAttrib (.cls "x")) d).2.declarations.items.any (fun o => o.any (·.annotationtype = .SENTENCE)) = true :=
  ⟨Sample.value (Document.new "off" { autodeclare := false }), Sample.value_eq (by decide +kernel), by decide +kernel, by decide +kernel, by decide +kernel,
    by decide +kernel⟩

/-- With `autodeclare` on an annotation without set and class is added without its type being declared. -/
theorem C57_on_counterexample : Sample.fresh.autodeclare = true ∧ (addElementTo Sample.F 0 (ElementData.new .sentence) Sample.fresh).1 = .ok 1 ∧
    (addElementTo Sample.F 0 (ElementData.new .sentence) Sample.fresh).2.declarations.items.all (fun o => o.all (·.annotationtype ≠ .SENTENCE)) = true :=
  ⟨by decide +kernel, by decide +kernel, by decide +kernel⟩

end Folia
