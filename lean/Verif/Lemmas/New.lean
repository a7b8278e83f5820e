import Verif.Lemmas.AcceptRest
import Verif.Lemmas.Credit
import Verif.Lemmas.Head
/-! New documents. -/
namespace Folia
open Document

/-- Every declaration has exactly the active processor, if any. -/
def OwnProcs (d : Document) : Prop := ∀ k dec, d.getDeclaration k = some dec → dec.processors = d.activeProcessor.toList

/-- Declarations keep their types and sets. -/
def NamesKept (d d' : Document) : Prop := ∀ k dec, d.getDeclaration k = some dec → ∃ dec', d'.getDeclaration k = some dec' ∧
  dec'.annotationtype = dec.annotationtype ∧ dec'.set = dec.set

theorem NamesKept.refl (d : Document) : NamesKept d d := fun _ dec h => ⟨dec, h, rfl, rfl⟩
theorem NamesKept.trans {a b c : Document} (h : NamesKept a b) (h' : NamesKept b c) : NamesKept a c := by
  intro k dec hk
  obtain ⟨dec1, h1, h2, h3⟩ := h k dec hk
  obtain ⟨dec2, h4, h5, h6⟩ := h' k dec1 h1
  exact ⟨dec2, h4, h5.trans h2, h6.trans h3⟩

theorem linkActive_own {d : Document} {k : Nat} (h : ∀ j dec, d.getDeclaration j = some dec → dec.processors = d.activeProcessor.toList ∨ j = k ∧ dec.processors = []) :
    OwnProcs (linkActive k d) := by
  intro j dec hj
  rw [linkActive_active]
  unfold linkActive at hj
  cases ha : d.activeProcessor with
  | none =>
    rw [ha] at hj
    rcases h j dec hj with h | h
    · rw [ha] at h; exact h
    · exact h.2
  | some p =>
    rw [ha] at hj
    simp only [getDeclaration, Store.get_update] at hj
    split at hj
    · rename_i hjk; subst hjk
      cases hb : d.declarations.get j with
      | none => simp [hb] at hj
      | some b =>
        simp only [hb, Option.map_some, Option.some.injEq] at hj
        subst hj
        rcases h j b hb with h | h
        · rw [ha] at h
          unfold linkProcessor
          rw [h]
          simp [h]
        · unfold linkProcessor
          rw [h.2]
          simp
    · rename_i hjk
      rcases h j dec hj with h | h
      · rw [ha] at h; exact h
      · exact absurd h.1 hjk

theorem declare_own {d d' : Document} {t : AnnotationType} {s : Option String} {k : Nat} (hd : DInv d) (ho : OwnProcs d)
    (h : declare t s none none d = (.ok k, d')) : OwnProcs d' ∧ NamesKept d d' ∧ ∃ dec, d'.getDeclaration k = some dec ∧ dec.annotationtype = t ∧ (s.isSome → dec.set = s) := by
  have hdd := ddoes_declare t s none none d hd trivial
  rw [h] at hdd
  obtain ⟨dec, h1, h2, h3⟩ := hdd.2.2 k rfl
  have hlast : ∃ dec, d'.getDeclaration k = some dec ∧ dec.annotationtype = t ∧ (s.isSome → dec.set = s) :=
    ⟨dec, h1, h2, fun hs => h3 (by rintro rfl; cases hs)⟩
  rcases declare_cases d t s none none with ⟨k', hk, heq⟩ | ⟨hno, ⟨k', hk, heq⟩ | ⟨_, hm⟩⟩
  · rw [h] at heq; cases heq; exact ⟨ho, .refl _, hlast⟩
  · rw [h] at heq
    cases heq
    exact ⟨linkActive_own fun j dec hj => Or.inl (ho j dec hj), fun j dec hj => linkActive_get k d j dec hj, hlast⟩
  · rcases Store.add_spec cap16 d.declarations (Declaration.new t s none none) with ⟨id, k', h1, h2, hadd⟩ | ⟨hadd, _⟩ | ⟨hf, hc, st, hadd, hi, hg, hx⟩
    · cases h1
      have := h2.symm.trans hno; cases this
    · rw [hadd] at hm
      simp only at hm
      rw [h] at hm; cases hm
    · rw [hadd] at hm
      simp only at hm
      rw [h] at hm
      cases hm
      refine ⟨linkActive_own fun j dec hj => ?_, ?_, hlast⟩
      · have hj : st.get j = some dec := hj
        rw [hg] at hj
        split at hj
        · rename_i hjk; cases hj; exact Or.inr ⟨hjk, rfl⟩
        · exact Or.inl (ho j dec hj)
      · intro j dec hj
        have : ({ d with declarations := st } : Document).getDeclaration j = some dec := by
          show st.get j = _
          rw [hg, if_neg]
          · exact hj
          · have := (List.getElem?_eq_some_iff.mp (Store.get_eq_some.mp hj)).1
            omega
        exact linkActive_get _ _ j dec this

theorem addClass_own {d d' : Document} {k r : Nat} {c : String} (ho : OwnProcs d) (h : addClass k c d = (.ok r, d')) : OwnProcs d' ∧ NamesKept d d' := by
  unfold addClass at h
  obtain ⟨o, d1, h1, h2⟩ := bind_ok h
  unfold callDeclaration at h1
  cases hk : d.getDeclaration k with
  | none =>
    rw [hk] at h1
    cases h1
    cases h2
  | some dec =>
    rw [hk] at h1
    simp only [Prod.mk.injEq, Except.ok.injEq] at h1
    obtain ⟨rfl, rfl⟩ := h1
    simp only [M.ofRes, Prod.mk.injEq] at h2
    obtain ⟨_, rfl⟩ := h2
    have hsame : (dec.addClass c).2.annotationtype = dec.annotationtype ∧ (dec.addClass c).2.set = dec.set ∧ (dec.addClass c).2.processors = dec.processors := by
      unfold Declaration.addClass; exact ⟨rfl, rfl, rfl⟩
    have hget : ∀ j, ({ d with declarations := d.declarations.update k fun _ => (dec.addClass c).2 } : Document).getDeclaration j =
        if j = k then some (dec.addClass c).2 else d.getDeclaration j := by
      intro j
      simp only [getDeclaration, Store.get_update]
      split
      · rename_i hj; subst hj; rw [show d.declarations.get j = some dec from hk]; rfl
      · rfl
    refine ⟨fun j dec' hj => ?_, fun j dec' hj => ?_⟩
    · rw [hget] at hj
      split at hj
      · cases hj; rw [hsame.2.2]; exact ho k dec hk
      · exact ho j dec' hj
    · rw [hget]
      split
      · rename_i hjk; subst hjk; rw [hk] at hj; cases hj; exact ⟨_, rfl, hsame.1, hsame.2.1⟩
      · exact ⟨dec', hj, rfl, rfl⟩

theorem applyDeclares_own : ∀ (l : List (AnnotationType × Option String)) {d d' : Document}, CInv d → OwnProcs d → M.forEach applyDeclare l d = (.ok (), d') →
    OwnProcs d' ∧ NamesKept d d' ∧ ∀ t s, (t, s) ∈ l → ∃ k dec, d'.getDeclaration k = some dec ∧ dec.annotationtype = t ∧ (s.isSome → dec.set = s)
  | [], d, d', _, ho, h => by cases h; exact ⟨ho, .refl _, by simp⟩
  | ts :: l, d, d', hd, ho, h => by
    simp only [M.forEach] at h
    obtain ⟨_, d1, h1, h2⟩ := bind_ok h
    have hstep : OwnProcs d1 ∧ NamesKept d d1 ∧ ∃ k dec, d1.getDeclaration k = some dec ∧ dec.annotationtype = ts.1 ∧ (ts.2.isSome → dec.set = ts.2) := by
      unfold applyDeclare at h1
      obtain ⟨k, d2, h3, h4⟩ := bind_ok h1
      obtain ⟨a1, a2, dec, a3, a4, a5⟩ := declare_own hd.decls ho h3
      split at h4
      · obtain ⟨r, d3, h5, h6⟩ := bind_ok h4
        cases h6
        obtain ⟨b1, b2⟩ := addClass_own a1 h5
        obtain ⟨dec', c1, c2, c3⟩ := b2 k dec a3
        exact ⟨b1, a2.trans b2, k, dec', c1, c2.trans a4, fun h => c3.trans (a5 h)⟩
      · cases h4
        exact ⟨a1, a2, k, dec, a3, a4, a5⟩
    obtain ⟨a1, a2, k, dec, a3, a4, a5⟩ := hstep
    have hdoes : Does True (fun _ => True) (applyDeclare ts) fun _ _ => True := by
      unfold applyDeclare
      refine Does.bind (does_declare _ _ _ _) fun k => ?_
      split
      · exact Does.bind (does_addClass _ _) fun _ => Does.pure fun _ _ => trivial
      · exact Does.pure fun _ _ => trivial
    have hst := (hdoes d hd.ix trivial).1
    rw [h1] at hst
    have a0 := (hst.clean hd).1
    obtain ⟨b1, b2, b3⟩ := applyDeclares_own l a0 a1 h2
    refine ⟨b1, a2.trans b2, fun t s hm => ?_⟩
    rcases List.mem_cons.mp hm with rfl | hm
    · obtain ⟨dec', c1, c2, c3⟩ := b2 k dec a3
      exact ⟨k, dec', c1, c2.trans a4, fun h => c3.trans (a5 h)⟩
    · exact b3 t s hm

theorem ProcLinks.of_eq {d d' : Document} (h : d.ProcLinks) (hp : d'.processors = d.processors) : d'.ProcLinks := by
  have hg : ∀ k, d'.getProcessor k = d.getProcessor k := by intro k; unfold getProcessor; rw [hp]
  have hl : ∀ p c, d'.ListsProc p c ↔ d.ListsProc p c := by intro p c; unfold ListsProc; rw [hg]
  obtain ⟨r, hr⟩ := h.height
  exact ⟨fun p c => by rw [hl, h.agree]; unfold ProcBelow; rw [hg], fun p x hx => h.once p x (by rw [← hg]; exact hx), r, fun p c hpc => hr p c ((hl p c).mp hpc)⟩

theorem ProvForest.of_eq {d d' : Document} (h : d.ProvForest) (hp : d'.processors = d.processors) (hc : d'.chain = d.chain) : d'.ProvForest :=
  ⟨ProcLinks.of_eq h.toProcLinks hp, by rw [hc]; exact h.chainOnce, fun k hk => by
    unfold getProcessor; rw [hp]; exact h.chainTop k (by rw [← hc]; exact hk)⟩

/-- The document in which the properties are applied. -/
def bodyOnly (id : String) (ps : DocumentProperties) : Document :=
  { id, autodeclare := ps.autodeclare, elements := { items := [some { bodyElement ps.bodytype with key := some 0 }], index := {} } }

theorem new_eq (id : String) (ps : DocumentProperties) : Document.new id ps = (match applyProperties ps (bodyOnly id ps) with
    | (.ok (), d') => .ok d'
    | (.error e, _) => .error e) := by
  have hb : encode (bodyElement ps.bodytype) none = pure (bodyElement ps.bodytype) := by cases ps.bodytype <;> rfl
  have ha : addElem (bodyElement ps.bodytype) none { id, autodeclare := ps.autodeclare } = (.ok 0, bodyOnly id ps) := by
    unfold bodyOnly
    cases ps.bodytype <;> rfl
  unfold Document.new
  simp only [M.run_bind, hb, M.run_pure, ha]
  rfl

theorem bodyOnly_cinv (id : String) (ps : DocumentProperties) : CInv (bodyOnly id ps) := by
  have ha : addElem (bodyElement ps.bodytype) none { id, autodeclare := ps.autodeclare } = (.ok 0, bodyOnly id ps) := by
    unfold bodyOnly
    cases ps.bodytype <;> rfl
  have h0 : CInv { id, autodeclare := ps.autodeclare } := Prim.cinv (d := {}) (.admin rfl rfl rfl rfl rfl) cinv_empty
  have := (does_addElemClean (C := True) (e := bodyElement ps.bodytype) none (by cases ps.bodytype <;> simp [bodyElement, ElementData.new, CleanAttribs])
    (by cases ps.bodytype <;> simp [bodyElement, ElementData.new]) (by cases ps.bodytype <;> rfl) _ h0.ix trivial).1
  rw [ha] at this
  exact (this.clean h0).1

end Folia
