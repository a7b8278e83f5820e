import Verif.RoundTrip
import Verif.Props.Provenance
import Verif.Props.Select
/-! Checks that decide, for concrete documents, hypotheses that range over all keys. -/
namespace Folia
open Document

/-- A sufficient check for a forest of processors: subprocessors come later than their parents. -/
def provOk (d : Document) : Bool :=
  ((List.range d.processors.items.length).all fun p => match d.getProcessor p with
    | none => true
    | some x => decide x.processors.Nodup && (x.processors.all fun c => decide (p < c) && decide (c < d.processors.items.length) &&
        decide ((d.getProcessor c).bind (·.parent) = some p)) && (match x.parent with
          | none => true
          | some q => decide (∃ y ∈ d.getProcessor q, p ∈ y.processors))) &&
  decide d.chain.Nodup && d.chain.all fun k => decide ((d.getProcessor k).map (·.parent) = some none)

theorem provForest_of_check {d : Document} (h : provOk d = true) : d.ProvForest := by
  unfold provOk at h
  simp only [Bool.and_eq_true, List.all_eq_true, decide_eq_true_eq] at h
  obtain ⟨⟨h1, h2⟩, h3⟩ := h
  have hp : ∀ p x, d.getProcessor p = some x → x.processors.Nodup ∧ (∀ c ∈ x.processors, (p < c ∧ c < d.processors.items.length) ∧ (d.getProcessor c).bind (·.parent) = some p) ∧
      ∀ q, x.parent = some q → ∃ y ∈ d.getProcessor q, p ∈ y.processors := by
    intro p x hx
    have hlt : p < d.processors.items.length := getProcessor_lt hx
    have := h1 p (List.mem_range.mpr hlt)
    rw [hx] at this
    simp only [Bool.and_eq_true, List.all_eq_true, decide_eq_true_eq] at this
    refine ⟨this.1.1, this.1.2, fun q hq => ?_⟩
    have h4 := this.2
    rw [hq] at h4
    exact of_decide_eq_true h4
  refine ⟨⟨fun p c => ⟨?_, ?_⟩, fun p x hx => (hp p x hx).1, fun k => d.processors.items.length - k, ?_⟩, h2, fun k hk => ?_⟩
  · rintro ⟨x, hx, hc⟩
    exact Option.bind_eq_some_iff.mp ((hp p x hx).2.1 c hc).2
  · rintro ⟨x, hx, hc⟩
    obtain ⟨y, hy, hm⟩ := (hp c x hx).2.2 p hc
    exact ⟨y, hy, hm⟩
  · rintro p c ⟨x, hx, hc⟩
    have := ((hp p x hx).2.1 c hc).1
    show d.processors.items.length - c < d.processors.items.length - p
    omega
  · exact Option.map_eq_some_iff.mp (h3 k hk)

theorem noDates_of_check {d : Document} (h : (d.processors.items.all fun o => o.all fun x => x.begindatetime.isNone && x.enddatetime.isNone) = true) : NoDates d := by
  intro _ _ k x _ hx
  have hm : some x ∈ d.processors.items := List.mem_of_getElem? (Store.get_eq_some.mp hx)
  have := List.all_eq_true.mp h _ hm
  simp only [Option.all_some, Bool.and_eq_true, Option.isNone_iff_eq_none] at this
  exact this

/-- The history attaches no elements. -/
def noAttach (os : List Op) : Bool := os.all fun
  | .attachElement _ _ => false
  | _ => true

theorem Sample.consistent {os : List Op} (h : (noAttach os && decide (OpsTame Sample.F os Sample.fresh) && ((runOps Sample.F os Sample.fresh).getElement 0).isSome &&
    provOk (runOps Sample.F os Sample.fresh)) = true) : Consistent Sample.X Sample.F (runOps Sample.F os Sample.fresh) := by
  simp only [Bool.and_eq_true, decide_eq_true_eq] at h
  obtain ⟨⟨⟨h1, h2⟩, h3⟩, h4⟩ := h
  have hn : ∀ o ∈ os, ∀ d : Document, o.NoLoop d := by
    intro o ho d
    have := List.all_eq_true.mp h1 o ho
    cases o <;> first | exact trivial | cases this
  have hf : ForestReachable Sample.F (runOps Sample.F os Sample.fresh) := .ops os hn (.new (by intro p h; cases h) Sample.fresh_eq) h2
  exact ⟨hf.tame.clean _, hf.forest, Option.isSome_iff_exists.mp h3, provForest_of_check h4⟩

theorem Sample.doc_consistent : Consistent Sample.X Sample.F Sample.doc := Sample.consistent (os := Sample.ops) (by decide +kernel)

/-- Writing and reading a concrete document. -/
def Sample.reread (d : Document) : Res Document := match d.xml Sample.X 100 0 with
  | .ok evs => Document.parse Sample.X Sample.F {} (checkEnds [] (readBack evs))
  | .error e => .error e

theorem Sample.reread_spec {d d' : Document} (h : Sample.reread d = .ok d') : Rereads Sample.X Sample.F {} d d' := by
  unfold Sample.reread at h
  split at h
  · exact ⟨100, _, by assumption, h⟩
  · cases h

theorem Sample.doc_prov : Sample.doc.ProvForest := provForest_of_check (by decide +kernel)

theorem Sample.doc_nodates : NoDates Sample.doc := noDates_of_check (by decide +kernel)

end Folia
