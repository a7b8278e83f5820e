import Verif.Lemmas.Matches
/-! What a compiled query accepts, in terms of the references of an element and then of what its accessors report. -/
namespace Folia
open Document

/-- A comparison holds of a reported value. -/
def Meets {α : Type} (c : Cmp α) (v : Option α) : Prop :=
  match c with
  | .any => True
  | .is a => v = some a
  | .some => v ≠ none
  | .none => v = none
  | .unmatchable => False

/-- A comparison with a group holds of an element type. Asking for `None` or `Unmatchable` is never met. -/
def MeetsGroup (c : Cmp ElementGroup) (t : ElementType) : Prop :=
  match c with
  | .any | .some => True
  | .is g => g.contains t = true
  | .none | .unmatchable => False

theorem matches_iff {α : Type} [DecidableEq α] (c : Cmp α) (v : Option α) : c.matches v = true ↔ Meets c v := by
  cases c <;> cases v <;> simp [Cmp.matches, Meets]
  exact eq_comm

theorem cmpField_eq {α : Type} [DecidableEq α] (c : Cmp α) (v : Option α) : cmpField c (.ok v) = .ok (c.matches v) := by
  cases c <;> rfl

theorem andAlso_eq (a b : Bool) : andAlso (.ok a) (.ok b) = .ok (a && b) := by cases a <;> rfl

theorem strOk_key {st : Option StringStore} (h : StrOk st) (s : String) (k : Nat) : optKey st s = some k ↔ optGet st k = some s := by
  cases st with
  | none => simp [optKey, optGet]
  | some x =>
    obtain ⟨l, hl⟩ := h x rfl
    have hk : x.getKey s = if s ∈ l then some (l.idxOf s) else none := hl.2.2 s
    simp only [optKey, optGet, hk, hl.get]
    constructor
    · intro h
      split at h
      · rename_i hs
        cases h
        exact List.getElem?_eq_some_iff.mpr ⟨List.idxOf_lt_length_iff.mpr hs, List.getElem_idxOf _⟩
      · cases h
    · intro h
      obtain ⟨hlt, rfl⟩ := List.getElem?_eq_some_iff.mp h
      rw [if_pos (List.getElem_mem hlt), hl.1.idxOf_getElem]

theorem processorKeyById_iff {d : Document} (h : ProcsExact d) (id : String) (k : Nat) :
    d.processorKeyById id = some k ↔ ∃ p, d.getProcessor k = some p ∧ p.id = id := by
  unfold processorKeyById Store.idToKey
  rw [h.index]
  exact exists_congr fun p => and_congr_right fun _ => ⟨fun h => Option.some.inj h, fun h => congrArg some h⟩

/-- A selector as made by `Selector::from_query`. -/
structure Compiled (s : Selector) : Prop where
  next : s.next = []
  datatypes : s.core.datatypes = [.elements]
  annotator : s.core.annotator = .any
  annotatortype : s.core.annotatortype = .any

/-- What a compiled selector accepts, in terms of the references of the element. -/
theorem compiled_matches {d : Document} {s : Selector} (hs : Compiled s) {k : Nat} {e : ElementData} (he : d.getElement k = some e)
    {plain : List Attribute} {enc : Enc} (h : e.attribs = plain ++ encRefs enc) (hp : PlainAttribs plain) :
    s.matches d (.element k) = .ok true ↔ MeetsGroup s.core.elementgroup e.elementtype ∧ Meets s.core.elementtype (some e.elementtype) ∧
      Meets s.core.set enc.dec ∧ Meets s.core.subset enc.subset ∧ Meets s.core.cls enc.cls ∧ Meets s.core.processor enc.proc := by
  obtain ⟨h1, h2, h3, h4⟩ := keysU_of_refs h hp
  unfold Selector.matches
  rw [hs.next]
  unfold matchesChain SelCore.matches
  simp only [hs.datatypes, List.isEmpty_cons, List.contains_cons, List.contains_nil, Bool.or_false, he]
  rw [if_neg (by decide)]
  unfold SelCore.matchesElement
  rw [hs.annotator, hs.annotatortype, h1, h2, h3, h4]
  simp only [cmpField_eq]
  simp only [cmpField, andAlso_eq, Bool.and_true, Except.ok.injEq, Bool.and_eq_true, matches_iff]
  refine and_congr_left fun _ => ?_
  unfold MeetsGroup
  cases s.core.elementgroup <;> simp

/-! ### The fields of a compiled query -/

/-- The set encoding of `from_query` (src/select.rs:52-91). -/
def compileSet (d : Document) (source : Cmp ElementType) : Cmp String → Cmp Nat
  | .is s => encodeSet d source (some s)
  | .any => .any
  | .some => .some
  | .none => encodeSet d source none
  | .unmatchable => .unmatchable

/-- The class encoding of `from_query` (src/select.rs:110-132), without or with subset. -/
def compileClass (d : Document) (set : Cmp Nat) (sub : Bool) : Cmp String → Cmp Nat
  | .is c => match set with
    | .is dk => match d.getDeclaration dk with
      | some decl => match sub with
        | true => match decl.subclassKey c with
          | some k => .is k
          | none => .unmatchable
        | false => match decl.classKey c with
          | some k => .is k
          | none => .unmatchable
      | none => .unmatchable
    | _ => .unmatchable
  | .any => .any
  | .some => .some
  | .none => .none
  | .unmatchable => .unmatchable

/-- The processor encoding of `from_query` (src/select.rs:133-141). -/
def compileProc (d : Document) : Cmp String → Cmp Nat
  | .is p => match d.processorKeyById p with
    | some k => .is k
    | none => .unmatchable
  | .any => .any
  | .some => .some
  | .none => .none
  | .unmatchable => .unmatchable

theorem fromQuery_plain (d : Document) (q : Query) (h : q.subset = .any) : ∃ s, Selector.fromQuery d q = .ok s ∧ Compiled s ∧
    s.core.elementtype = q.elementtype ∧ s.core.elementgroup = q.elementgroup ∧ s.core.subset = .any ∧
    s.core.set = compileSet d q.elementtype q.set ∧ s.core.cls = compileClass d (compileSet d q.elementtype q.set) false q.cls ∧
    s.core.processor = compileProc d q.processor := by
  obtain ⟨t, g, ct, set, cls, pr, sub, _, _, _⟩ := q
  simp only at h
  subst h
  refine ⟨_, rfl, ⟨rfl, rfl, rfl, rfl⟩, rfl, rfl, rfl, ?_, ?_, ?_⟩
  · cases set <;> rfl
  · cases cls <;> cases set <;> rfl
  · cases pr <;> rfl

/-- With a subset, the set must be known. -/
theorem fromQuery_subset (d : Document) (q : Query) {sub : String} (h : q.subset = .is sub) {dk : Nat} {dec : Declaration}
    (hset : compileSet d q.contexttype q.set = .is dk) (hdec : d.getDeclaration dk = some dec) : ∃ s, Selector.fromQuery d q = .ok s ∧ Compiled s ∧
    s.core.elementtype = q.elementtype ∧ s.core.elementgroup = q.elementgroup ∧
    s.core.subset = (match dec.subsetKey sub with
      | some k => .is k
      | none => .unmatchable) ∧
    s.core.set = .is dk ∧ (dec.subsetKey sub ≠ none → s.core.cls = compileClass d (.is dk) true q.cls) ∧
    s.core.processor = compileProc d q.processor ∧ (q.cls = .any → s.core.cls = .any) := by
  obtain ⟨t, g, ct, set, cls, pr, sub', _, _, _⟩ := q
  simp only at h hset
  subst h
  cases set with
  | any => cases hset
  | some => cases hset
  | unmatchable => cases hset
  | «is» st =>
    have hset : encodeSet d ct (some st) = .is dk := hset
    unfold Selector.fromQuery
    simp only [hset, hdec]
    cases dec.subsetKey sub with
    | none => exact ⟨_, rfl, ⟨rfl, rfl, rfl, rfl⟩, rfl, rfl, rfl, rfl, fun h => absurd rfl h, rfl, by rintro rfl; rfl⟩
    | some k =>
      refine ⟨_, rfl, ⟨rfl, rfl, rfl, rfl⟩, rfl, rfl, rfl, rfl, fun _ => ?_, rfl, by rintro rfl; rfl⟩
      cases cls <;> simp [compileClass, hdec]
      rename_i c
      cases dec.subclassKey c <;> rfl
  | none =>
    have hset : encodeSet d ct none = .is dk := hset
    unfold Selector.fromQuery
    simp only [hset, hdec]
    cases dec.subsetKey sub with
    | none => exact ⟨_, rfl, ⟨rfl, rfl, rfl, rfl⟩, rfl, rfl, rfl, rfl, fun h => absurd rfl h, rfl, by rintro rfl; rfl⟩
    | some k =>
      refine ⟨_, rfl, ⟨rfl, rfl, rfl, rfl⟩, rfl, rfl, rfl, rfl, fun _ => ?_, rfl, by rintro rfl; rfl⟩
      cases cls <;> simp [compileClass, hdec]
      rename_i c
      cases dec.subclassKey c <;> rfl

/-! ### Keys and values -/

/-- What a query says about the declaration of an element: a set (or no set) is only looked up in the declarations for the annotation type of the
queried element type. -/
def MeetsSet (source : Cmp ElementType) (c : Cmp String) (dec : Option Declaration) : Prop :=
  match c with
  | .any => True
  | .some => dec ≠ none
  | .is s => ∃ t a x, source = .is t ∧ t.annotationtype = some a ∧ dec = some x ∧ x.annotationtype = a ∧ x.set = some s
  | .none => ∃ t a x, source = .is t ∧ t.annotationtype = some a ∧ dec = some x ∧ x.annotationtype = a ∧ x.set = none
  | .unmatchable => False

/-- What a query says about the class: a class can only be asked for together with a set. -/
def MeetsClass (set : Cmp String) (c : Cmp String) (v : Option String) : Prop :=
  match c with
  | .is _ => Meets c v ∧ (set = .none ∨ ∃ s, set = .is s)
  | _ => Meets c v

theorem encodeSet_iff {d : Document} (hd : DeclsExact d) (source : Cmp ElementType) (set : Option String) (k : Nat) :
    encodeSet d source set = .is k ↔ ∃ t a x, source = .is t ∧ t.annotationtype = some a ∧ d.getDeclaration k = some x ∧ x.annotationtype = a ∧
      x.set = set := by
  have no : ∀ c : Cmp ElementType, (∀ t, c ≠ .is t) → (encodeSet d c set = .is k ↔ ∃ t a x, c = .is t ∧ t.annotationtype = some a ∧
      d.getDeclaration k = some x ∧ x.annotationtype = a ∧ x.set = set) := fun c h => by
    constructor
    · intro h'; cases c <;> first | exact absurd rfl (h _) | (simp [encodeSet] at h')
    · rintro ⟨t, _, _, h1, _⟩; exact absurd h1 (h t)
  cases source with
  | is t =>
    unfold encodeSet
    simp only
    cases ha : t.annotationtype with
    | none => simp [ha]
    | some a =>
      simp only
      have := declarationKeyById_iff hd a set k
      cases hk : d.declarationKeyById (Declaration.indexId a set) with
      | none =>
        rw [hk] at this
        refine ⟨nofun, ?_⟩
        rintro ⟨t', a', x, h1, h2, h3⟩
        cases h1
        rw [ha] at h2; cases h2
        exact absurd (this.mpr ⟨x, h3⟩) (by simp)
      | some k' =>
        rw [hk] at this
        simp only [Cmp.is.injEq]
        constructor
        · rintro rfl
          obtain ⟨x, h⟩ := this.mp rfl
          exact ⟨t, a, x, rfl, ha, h⟩
        · rintro ⟨t', a', x, h1, h2, h3⟩
          cases h1
          rw [ha] at h2; cases h2
          exact Option.some.inj (this.mpr ⟨x, h3⟩)
  | _ => exact no _ (by intro t h; cases h)

theorem encodeSet_meets {d : Document} (hd : DeclsExact d) (source : Cmp ElementType) (set : Option String) (o : Option Nat) :
    Meets (encodeSet d source set) o ↔ ∃ t a x, source = .is t ∧ t.annotationtype = some a ∧ o.bind d.getDeclaration = some x ∧
      x.annotationtype = a ∧ x.set = set := by
  constructor
  · intro h
    have : ∃ k, encodeSet d source set = .is k := by
      unfold encodeSet at h ⊢
      split at h
      · split at h
        · split at h
          · exact ⟨_, rfl⟩
          · cases h
        · cases h
      · cases h
    obtain ⟨k, hk⟩ := this
    rw [hk] at h
    have h : o = some k := h
    subst h
    exact (encodeSet_iff hd source set k).mp hk
  · rintro ⟨t, a, x, h1, h2, h3, h4⟩
    obtain ⟨k, rfl, h5⟩ := Option.bind_eq_some_iff.mp h3
    rw [(encodeSet_iff hd source set k).mpr ⟨t, a, x, h1, h2, h5, h4⟩]
    rfl

theorem compileSet_meets {d : Document} (hd : DeclsExact d) (source : Cmp ElementType) (c : Cmp String) {o : Option Nat}
    (hlive : ∀ k, o = some k → ∃ x, d.getDeclaration k = some x) :
    Meets (compileSet d source c) o ↔ MeetsSet source c (o.bind d.getDeclaration) := by
  cases c with
  | any => exact Iff.rfl
  | «is» s => exact encodeSet_meets hd source (some s) o
  | none => exact encodeSet_meets hd source none o
  | unmatchable => exact Iff.rfl
  | some =>
    show o ≠ none ↔ o.bind d.getDeclaration ≠ none
    cases o with
    | none => simp
    | some k => obtain ⟨x, hx⟩ := hlive k rfl; simp [hx]

theorem compileProc_meets {d : Document} (hd : ProcsExact d) (c : Cmp String) {o : Option Nat} (hlive : ∀ k, o = some k → d.ProcLive k) :
    Meets (compileProc d c) o ↔ Meets c ((o.bind d.getProcessor).map (·.id)) := by
  have hsome : o ≠ none ↔ (o.bind d.getProcessor).map (·.id) ≠ none := by
    cases o with
    | none => simp
    | some k => obtain ⟨x, hx⟩ := hlive k rfl; simp [hx]
  cases c with
  | any => exact Iff.rfl
  | unmatchable => exact Iff.rfl
  | some => exact hsome
  | none => exact ⟨fun h => by have h : o = none := h; subst h; rfl, fun h => by
      have h : (o.bind d.getProcessor).map (·.id) = none := h
      show o = none
      exact Classical.not_not.mp fun h' => hsome.mp h' h⟩
  | «is» p =>
    show Meets (match d.processorKeyById p with | some k => .is k | none => .unmatchable) o ↔ (o.bind d.getProcessor).map (·.id) = some p
    have hiff := fun k => processorKeyById_iff hd p k
    constructor
    · intro h
      cases hk : d.processorKeyById p with
      | none => rw [hk] at h; cases h
      | some k =>
        rw [hk] at h
        have h : o = some k := h
        obtain ⟨x, hx, rfl⟩ := (hiff k).mp hk
        subst h
        simp [hx]
    · intro h
      obtain ⟨x, hx, rfl⟩ := Option.map_eq_some_iff.mp h
      obtain ⟨k, rfl, hk⟩ := Option.bind_eq_some_iff.mp hx
      rw [(hiff k).mpr ⟨x, hk, rfl⟩]
      rfl

/-- One name resolved in the table of a declaration. -/
theorem name_meets {st : Option StringStore} (h : StrOk st) (s : String) (o : Option Nat) :
    Meets (match optKey st s with
      | some k => .is k
      | none => .unmatchable) o ↔ o.bind (optGet st) = some s := by
  have hiff := fun k => strOk_key h s k
  constructor
  · intro h
    cases hk : optKey st s with
    | none => rw [hk] at h; cases h
    | some k =>
      rw [hk] at h
      have h : o = some k := h
      subst h
      exact (hiff k).mp hk
  · intro h
    obtain ⟨k, rfl, hk⟩ := Option.bind_eq_some_iff.mp h
    rw [(hiff k).mpr hk]
    rfl

end Folia
