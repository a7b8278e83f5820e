import Verif.Lookup
import Verif.Props.Query
import Verif.Props.Features
import Verif.Props.Ancestors
import Verif.Props.Elements
import Verif.Lemmas.Flat
/-! C66 (lookups of elements and annotations), C67 (lookups of ancestors), C68 (position), C69 (resolving references). -/
namespace Folia
open Document

/-- The element with this key is of the given type and, if a set is asked for, reports that set. -/
def IsOf (d : Document) (t : ElementType) (set : Option String) (k : Nat) : Prop :=
  ∃ e, d.getElement k = some e ∧ e.elementtype = t ∧ ∀ s, set = some s → e.getSet d = .ok (some s)

/-- The element with this key is of a type of the given group. Sets cannot be asked for. -/
def IsIn (d : Document) (g : ElementGroup) (k : Nat) : Prop := ∃ e, d.getElement k = some e ∧ g.contains e.elementtype = true

/-- A comparison with a set that was given or not. -/
def askSet : Option String → Cmp String
  | some s => .is s
  | none => .any

/-- The query for a type and a set compiles, and selects what it says. -/
theorem typeQuery {X : Ext} {F : Nat} {d : Document} (hr : CleanReachable X F d) (t : ElementType) (set : Option String) (ht : set ≠ none → t.annotationtype ≠ none) :
    ∃ s, Selector.fromQuery d { elementtype := .is t, set := askSet set } = .ok s ∧ Compiled s ∧ (s.matchable = false → s.core.set = .unmatchable) ∧
      ∀ k, s.matches d (.element k) = .ok true ↔ IsOf d t set k := by
  obtain ⟨s, h0, hc, h1, h2, h3, h4, h5, h6⟩ := fromQuery_plain d { elementtype := .is t, set := askSet set } rfl
  refine ⟨s, h0, hc, fun hm => ?_, fun k => ?_⟩
  · unfold Selector.matchable at hm
    rw [h5, h6] at hm
    simpa [compileClass, compileProc] using hm
  · cases he : d.getElement k with
    | none =>
      constructor
      · intro h
        unfold Selector.matches at h
        rw [hc.next] at h
        unfold matchesChain SelCore.matches at h
        simp only [hc.datatypes, he] at h
        split at h <;> cases h
      · rintro ⟨e, h, _⟩; rw [he] at h; cases h
    | some e =>
      obtain ⟨dec, cls, subset, proc, hrep⟩ := C27_reports hr he
      obtain ⟨plain, enc, ha, hp, href, hdec, _⟩ := hrep.refs (hr.cinv.elem k e he).refs
      rw [compiled_matches hc he ha hp, h1, h2, h3, h4, h5, h6, compileSet_meets hr.cinv.decls.exact _ _ href.dec, ← hdec]
      constructor
      · rintro ⟨_, g1, g2, _⟩
        refine ⟨e, he, Option.some.inj g1, ?_⟩
        rintro sv rfl
        obtain ⟨_, _, x, _, _, q1, _, q2⟩ := g2
        rw [hrep.getSet, q1]
        exact congrArg _ q2
      · rintro ⟨e', g1, g2, g3⟩
        rw [he] at g1; cases g1
        refine ⟨trivial, congrArg some g2, ?_, trivial, trivial, trivial⟩
        cases set with
        | none => trivial
        | some sv =>
          have h7 := g3 sv rfl
          rw [hrep.getSet] at h7
          obtain ⟨x, q1, q2⟩ := Option.bind_eq_some_iff.mp (Except.ok.inj h7)
          obtain ⟨a, ha'⟩ := Option.ne_none_iff_exists'.mp (ht nofun)
          obtain ⟨dk, q3, q4⟩ := Option.bind_eq_some_iff.mp (hdec.symm.trans q1)
          exact ⟨t, a, x, rfl, ha', q1, href.kind dk x a q3 q4 (by rw [g2]; exact ha'), q2⟩

/-- Selecting with a compiled selector, the whole and the first result. -/
theorem lookup_select {X : Ext} {F : Nat} {d : Document} (hr : CleanReachable X F d) (hf : d.Forest) {k : Nat} {e : ElementData}
    (he : d.getElement k = some e) {s : Selector} (hnever : s.matchable = false → ∀ x, s.matches d (.element x) ≠ .ok true) (r : Recursion) :
    ∃ keys N, (∀ G, N ≤ G → select d G k s r = .ok keys ∧ selectFirst d G k s r = .ok keys.head?) ∧
      (∀ x, x ∈ keys ↔ (∃ y p i n, (y = .element x ∨ y = .spanReference x) ∧ Occurs d (Descends r) k y p i n) ∧ s.matches d (.element x) = .ok true) ∧
      ∃ items, Below d k e items ∧ FirstSuch (fun x => s.matches d (.element x) = .ok true)
        ((preorder r.eval k e.elementtype 0 1 items).filterMap fun i => dataKey i.data) keys.head? := by
  obtain ⟨items, hb⟩ := below_exists hr hf he
  cases hs : s.matchable with
  | false =>
    refine ⟨[], 1, fun G hG => ?_, fun x => ⟨nofun, fun h => absurd h.2 (hnever hs x)⟩, items, hb, .none fun x _ => hnever hs x⟩
    obtain ⟨G, rfl⟩ : ∃ G', G = G' + 1 := ⟨G - 1, by omega⟩
    constructor
    · unfold select selectByKey selCollect
      rw [step_unmatchable rfl hs]
      rfl
    · unfold selectFirst selNextElement selNext
      rw [step_unmatchable rfl hs]
      rfl
  | true =>
    obtain ⟨keys, ⟨N1, hN1⟩, hmem, _⟩ := C25_spans_once hr hf he s hs r
    let cfg : SelCfg := { doc := d, selector := s, recursion := r, inclusive := false, spanreferences := true }
    have hlive : ∀ i ∈ preorder r.eval k e.elementtype 0 1 items, ∀ x, itemKey i = some x → ∃ e, d.getElement x = some e := by
      intro y hy x hx
      have := occurs_live hr ((mem_preorder hb y).mp hy)
      rcases itemKey_eq_some.mp hx with h | h <;> rw [h] at this <;> first | exact this | exact this.imp fun _ h => h.1
    have hkeys : keys = (results cfg [] (preorder r.eval k e.elementtype 0 1 items)).filterMap itemKey := by
      have h1 := hN1 (max N1 (rounds items + 1)) (by omega)
      unfold select selectByKey at h1
      rw [collect_below (cleanReachable_reachable hr) hb hs r true (by omega)] at h1
      exact Except.ok.inj (h1.symm.trans (elementKeys_eq fun i hi => hlive i (results_mem hi)))
    refine ⟨keys, max N1 (rounds items + 1), fun G hG => ⟨hN1 G (by omega), ?_⟩, fun x => ?_, items, hb, ?_⟩
    · rw [hkeys]
      exact selNextElement_ordinary (cfg := cfg) (n := rounds items) (by omega) (by omega) (pending_init hb) (S := []) (seenRep_init k)
        (fun i _ => matches_ok (cleanReachable_reachable hr).encoded s i.data) (.inr ⟨hs, rfl⟩) hlive
    · rw [hmem x]
      constructor
      · rintro ⟨y, p, i, n, h1, h2, h3⟩
        refine ⟨⟨y, p, i, n, h1, h2⟩, ?_⟩
        rcases h1 with rfl | rfl
        · exact h3
        · rwa [matches_ref] at h3
      · rintro ⟨⟨y, p, i, n, h1, h2⟩, h3⟩
        refine ⟨y, p, i, n, h1, h2, ?_⟩
        rcases h1 with rfl | rfl
        · exact h3
        · rwa [matches_ref]
    · have := first_head (s := s) fun i (_ : i ∈ preorder r.eval k e.elementtype 0 1 items) => matches_ok (cleanReachable_reachable hr).encoded s i.data
      rw [hkeys]
      exact (funext itemKey_data : itemKey = fun i => dataKey i.data) ▸ this

/-! ### C66 -/

/-- `get_elements` returns exactly the elements of the given type, and of the given set if one is given, that are found by descending as the recursion
mode says; `get_element` returns the one that comes first in document order. Neither panics.

Missing for the full claim: asking for a set of elements of a type without sets finds nothing, and the comparisons `Some` and `None` with the set, see
`C27_some_set_counterexample` and `C27_no_set_counterexample`. -/
theorem C66_elements_partial {X : Ext} {F : Nat} {d : Document} (hr : CleanReachable X F d) (hf : d.Forest) {k : Nat} {e : ElementData}
    (he : d.getElement k = some e) (t : ElementType) (set : Option String) (ht : set ≠ none → t.annotationtype ≠ none) (r : Recursion) :
    ∃ keys N, (∀ G, N ≤ G → getElements d G k t (askSet set) r = .ok keys ∧ getFirstElement d G k t (askSet set) r = .ok keys.head?) ∧
      (∀ x, x ∈ keys ↔ (∃ y p i n, (y = .element x ∨ y = .spanReference x) ∧ Occurs d (Descends r) k y p i n) ∧ IsOf d t set x) ∧
      ∃ items, Below d k e items ∧
        FirstSuch (IsOf d t set) ((preorder r.eval k e.elementtype 0 1 items).filterMap fun i => dataKey i.data) keys.head? := by
  obtain ⟨s, h0, hc, hm, hiff⟩ := typeQuery hr t set ht
  obtain ⟨keys, N, h1, h2, items, h3, h4⟩ := lookup_select hr hf he (s := s) (by
    intro hno x hx
    obtain ⟨ex, g1, g2, g3⟩ := (hiff x).mp hx
    obtain ⟨plain, enc, ha, hp, _⟩ := (hr.cinv.elem x ex g1).refs
    rw [compiled_matches hc g1 ha hp, hm hno] at hx
    exact hx.2.2.1) r
  refine ⟨keys, N, fun G hG => ?_, fun x => by rw [h2 x, hiff x], items, h3, h4.congr fun x _ => hiff x⟩
  unfold getElements getFirstElement
  rw [h0]
  exact h1 G hG

/-- The same for annotations: the element type is the one that belongs to the annotation type. -/
theorem C66_annotations_partial {X : Ext} {F : Nat} {d : Document} (hr : CleanReachable X F d) (hf : d.Forest) {k : Nat} {e : ElementData}
    (he : d.getElement k = some e) (t : AnnotationType) (set : Option String) (ht : set ≠ none → t.elementtype.annotationtype ≠ none) (r : Recursion) :
    ∃ keys N, (∀ G, N ≤ G → getAnnotations d G k t (askSet set) r = .ok keys ∧ getAnnotation d G k t (askSet set) r = .ok keys.head?) ∧
      (∀ x, x ∈ keys ↔ (∃ y p i n, (y = .element x ∨ y = .spanReference x) ∧ Occurs d (Descends r) k y p i n) ∧ IsOf d t.elementtype set x) := by
  obtain ⟨keys, N, h1, h2, _⟩ := C66_elements_partial hr hf he t.elementtype set ht r
  exact ⟨keys, N, h1, h2⟩

example : (getElements Sample.doc 60 5 .word (askSet none) .always).toOption = some [2, 4] ∧
    (getFirstElement Sample.doc 60 5 .word (askSet none) .always).toOption = some (some 2) ∧
    (getAnnotations Sample.doc 60 5 .POS (askSet (some "brown")) .always).toOption = some [6] ∧
    AnnotationType.POS.elementtype.annotationtype ≠ none ∧ CleanReachable Sample.X Sample.F Sample.doc ∧ Sample.doc.Forest :=
  ⟨by decide +kernel, by decide +kernel, by decide +kernel, by decide, Sample.doc_clean, Sample.doc_forest⟩

/-! ### C67 -/

theorem ancNext_head (d : Document) (s : Selector) : ∀ (G k : Nat) (l : List Nat), ancCollect d s .always G k = .ok l → ancNext d s .always G k = .ok l.head?
  | 0, _, _, h => by cases h
  | G + 1, k, l, h => by
    unfold ancCollect at h
    unfold ancNext
    split at h
    · cases h; rfl
    · split at h
      · cases h; rfl
      · split at h
        · cases h
        · split at h
          · unfold Except.map at h
            split at h <;> cases h
            rfl
          · cases h
        · split at h
          · cases h
          · rw [if_pos (by rfl)] at h ⊢
            exact ancNext_head d s G _ l h

theorem ancestors_lookup {X : Ext} {F : Nat} {d : Document} (hr : CleanReachable X F d) (hf : d.Forest) {k : Nat} {e : ElementData}
    (he : d.getElement k = some e) (s : Selector) {P : Nat → Prop} (h : ∀ x, s.matches d (.element x) = .ok true ↔ P x) :
    ∃ l keys N, Chain d k l ∧ l.Nodup ∧ (∀ a, a ∈ l ↔ d.Above a k) ∧
      (∀ G, N ≤ G → ancestors d G k s = .ok keys ∧ ancNext d s .always G k = .ok keys.head?) ∧ keys.Sublist l ∧ ∀ x, x ∈ keys ↔ x ∈ l ∧ P x := by
  obtain ⟨l, h1, h2, h3, N, h4⟩ := C30_ancestors hr hf he s
  refine ⟨l, _, N, h1, h2, h3, fun G hG => ⟨h4 G hG, ancNext_head d s G k _ (h4 G hG)⟩, List.filter_sublist, fun x => ?_⟩
  rw [List.mem_filter, decide_eq_true_eq]
  exact and_congr_right fun _ => h x

/-- `get_ancestors` returns exactly the ancestors of the given type, and of the given set if one is given, nearest first; `get_ancestor` returns the nearest
of them. Neither panics.

Missing for the full claim: asking for a set of elements of a type without sets, and the comparisons `Some` and `None` with the set; see C27. -/
theorem C67_ancestors_partial {X : Ext} {F : Nat} {d : Document} (hr : CleanReachable X F d) (hf : d.Forest) {k : Nat} {e : ElementData}
    (he : d.getElement k = some e) (t : ElementType) (set : Option String) (ht : set ≠ none → t.annotationtype ≠ none) :
    ∃ l keys N, Chain d k l ∧ l.Nodup ∧ (∀ a, a ∈ l ↔ d.Above a k) ∧
      (∀ G, N ≤ G → getAncestors d G k t (askSet set) = .ok keys ∧ getAncestor d G k t (askSet set) = .ok keys.head?) ∧
      keys.Sublist l ∧ ∀ x, x ∈ keys ↔ x ∈ l ∧ IsOf d t set x := by
  obtain ⟨s, h0, _, _, hiff⟩ := typeQuery hr t set ht
  obtain ⟨l, keys, N, h1, h2, h3, h4, h5⟩ := ancestors_lookup hr hf he s hiff
  refine ⟨l, keys, N, h1, h2, h3, fun G hG => ?_, h5⟩
  unfold getAncestors getAncestor
  rw [h0]
  exact h4 G hG

/-- Without a set, `get_ancestors_by_group` returns exactly the ancestors with a type of the given group, nearest first, and `get_ancestor_by_group` the
nearest of them. Missing for the full claim: with a set nothing is found, see the counterexample. -/
theorem C67_group_partial {X : Ext} {F : Nat} {d : Document} (hr : CleanReachable X F d) (hf : d.Forest) {k : Nat} {e : ElementData}
    (he : d.getElement k = some e) (g : ElementGroup) :
    ∃ l keys N, Chain d k l ∧ l.Nodup ∧ (∀ a, a ∈ l ↔ d.Above a k) ∧
      (∀ G, N ≤ G → getAncestorsByGroup d G k g .any = .ok keys ∧ getAncestorByGroup d G k g .any = .ok keys.head?) ∧
      keys.Sublist l ∧ ∀ x, x ∈ keys ↔ x ∈ l ∧ IsIn d g x := by
  obtain ⟨s, h0, hc, e1, e2, e3, e4, e5, e6⟩ := fromQuery_plain d { elementgroup := .is g, set := .any } rfl
  obtain ⟨l, keys, N, h1, h2, h3, h4, h5⟩ := ancestors_lookup hr hf he s (P := IsIn d g) (by
    intro x
    cases hx : d.getElement x with
    | none =>
      constructor
      · intro h
        unfold Selector.matches at h
        rw [hc.next] at h
        unfold matchesChain SelCore.matches at h
        simp only [hc.datatypes, hx] at h
        split at h <;> cases h
      · rintro ⟨e, h, _⟩; rw [hx] at h; cases h
    | some ex =>
      obtain ⟨plain, enc, ha, hp, _⟩ := (hr.cinv.elem x ex hx).refs
      rw [compiled_matches hc hx ha hp, e1, e2, e3, e4, e5, e6]
      constructor
      · rintro ⟨q, _⟩; exact ⟨ex, hx, q⟩
      · rintro ⟨ex', q1, q2⟩
        rw [hx] at q1; cases q1
        exact ⟨q2, trivial, trivial, trivial, trivial, trivial⟩)
  refine ⟨l, keys, N, h1, h2, h3, fun G hG => ?_, h5⟩
  unfold getAncestorsByGroup getAncestorByGroup
  rw [h0]
  exact h4 G hG

example : (getAncestors Sample.doc 60 7 .sentence (askSet none)).toOption = some [5] ∧
    (getAncestor Sample.doc 60 7 .sentence (askSet none)).toOption = some (some 5) ∧
    (getAncestorsByGroup Sample.doc 60 7 .structural .any).toOption = some [2, 5, 0] ∧
    (getAncestorByGroup Sample.doc 60 7 .structural .any).toOption = some (some 2) := by decide +kernel

/-- With a set nothing is found, since a query compiles a set only together with an element type: the annotation with key 6 is an inline annotation of the set
"brown" and an ancestor of the element with key 7. -/
theorem C67_group_counterexample : CleanReachable Sample.X Sample.F Sample.doc ∧ Sample.doc.Forest ∧
    getAncestorsByGroup Sample.doc 60 7 .inline .any = .ok [6] ∧ getAncestorsByGroup Sample.doc 60 7 .inline (.is "brown") = .ok [] ∧
    (Sample.doc.getElement 6).map (fun e => (e.getSet Sample.doc).toOption) = some (some (some "brown")) :=
  ⟨Sample.doc_clean, Sample.doc_forest, by decide +kernel, by decide +kernel, by decide +kernel⟩

/-! ### C68 -/

theorem findIdx_at {data : List Data} {c : Nat} (hn : (kids data).Nodup) (hc : .element c ∈ data) :
    ∃ i, data.findIdx? (·.isElem c) = some i ∧ ∀ j, data[j]? = some (.element c) ↔ j = i := by
  induction data with
  | nil => cases hc
  | cons x rest ih =>
    rw [List.findIdx?_cons]
    cases hx : x.isElem c with
    | true =>
      obtain rfl : x = .element c := by cases x <;> simp_all [DataType.isElem]
      refine ⟨0, rfl, fun j => ?_⟩
      cases j with
      | zero => simp
      | succ j =>
        simp only [List.getElem?_cons_succ, Nat.succ_ne_zero, iff_false]
        intro h
        have h1 : c ∉ kids rest := (List.nodup_cons.mp hn).1
        exact h1 (List.mem_filterMap.mpr ⟨_, List.mem_of_getElem? h, rfl⟩)
    | false =>
      have hne : x ≠ .element c := by rintro rfl; simp [DataType.isElem] at hx
      have hn' : (kids rest).Nodup := by
        unfold kids at hn ⊢
        rw [List.filterMap_cons] at hn
        split at hn
        · exact hn
        · exact (List.nodup_cons.mp hn).2
      obtain ⟨i, h1, h2⟩ := ih hn' ((List.mem_cons.mp hc).resolve_left (Ne.symm hne))
      refine ⟨i + 1, by rw [h1]; rfl, fun j => ?_⟩
      cases j with
      | zero => simp [hne]
      | succ j => simpa using h2 j

/-- `get_index` of an element with a parent is the one position of the element among the data of its parent; without a parent there is none. -/
theorem C68_position {X : Ext} {F : Nat} {d : Document} (hr : Reachable X F d) (hf : d.Forest) {k : Nat} {e : ElementData} (he : d.getElement k = some e) :
    (e.parent = none → e.getIndex d = .ok none) ∧
    ∀ p, e.parent = some p → ∃ pe i, d.getElement p = some pe ∧ e.getIndex d = .ok (some i) ∧ ∀ j, pe.data[j]? = some (.element k) ↔ j = i := by
  refine ⟨fun hp => ?_, fun p hp => ?_⟩
  · unfold ElementData.getIndex ElementData.getParent
    rw [hp]
  · obtain ⟨pe, h1, h2⟩ := (hf.links.agree p k).mpr ⟨e, he, hp⟩
    obtain ⟨i, h3, h4⟩ := findIdx_at (hf.links.once p pe h1) h2
    refine ⟨pe, i, h1, ?_, h4⟩
    unfold ElementData.getIndex ElementData.getParent
    rw [hp]; simp only
    rw [h1]; simp only
    rw [hr.keysOk k e he]; simp only
    exact congrArg _ h3

example : (Sample.doc.getElement 4).map (·.parent) = some (some 5) ∧ (Sample.doc.getElement 4).map (fun e => (e.getIndex Sample.doc).toOption) = some (some (some 1)) := by
  decide +kernel

/-! ### C69 -/

/-- The identifier an element refers to: that of its first reference. -/
inductive RefersTo : List Attribute → String → Prop
  | here {i as} : RefersTo (.idref i :: as) i
  | later {a as i} : (∀ j, a ≠ .idref j) → RefersTo as i → RefersTo (a :: as) i

theorem refersTo_idref {e : ElementData} {i : String} : e.idref = some i ↔ RefersTo e.attribs i := by
  unfold ElementData.idref
  induction e.attribs with
  | nil => exact ⟨nofun, nofun⟩
  | cons a as ih =>
    by_cases ha : ∃ j, a = .idref j
    · obtain ⟨j, rfl⟩ := ha
      simp only [List.findSome?_cons]
      constructor
      · intro h; cases h; exact .here
      · intro h
        cases h with
        | here => rfl
        | later h _ => exact absurd rfl (h j)
    · have hn : ∀ j, a ≠ .idref j := fun j hj => ha ⟨j, hj⟩
      rw [List.findSome?_cons_of_isNone (by cases a <;> first | rfl | exact absurd rfl (hn _))]
      rw [ih]
      constructor
      · exact .later hn
      · intro h
        cases h with
        | here => exact absurd rfl (hn _)
        | later _ h => exact h

/-- `resolve` returns the element that has the identifier referred to, if there is one; it does not panic, and what it returns has the identifier, unless it
is a layer that lost its attributes. Missing for the full claim: those layers, see `C52_counterexample`. -/
theorem C69_resolve_partial {X : Ext} {F : Nat} {d : Document} (hr : Reachable X F d) (e : ElementData) :
    (∃ o, e.resolve d = .ok o) ∧
    (∀ i k x, RefersTo e.attribs i → d.getElement k = some x → x.id = some i → e.resolve d = .ok (some x)) ∧
    (∀ x, e.resolve d = .ok (some x) → ∃ i, RefersTo e.attribs i ∧
      (x.id = some i ∨ (ElementGroup.layer.contains x.elementtype = true ∧ ∃ dk, x.attribs = [.declarationRef dk]))) := by
  refine ⟨?_, fun i k x h1 h2 h3 => ?_, fun x h => ?_⟩
  · unfold ElementData.resolve
    cases e.idref with
    | none => exact ⟨_, rfl⟩
    | some i => exact ⟨_, (C02_index_sound hr i).1⟩
  · unfold ElementData.resolve
    rw [refersTo_idref.mpr h1]
    exact (C62_found hr h2 h3).2
  · unfold ElementData.resolve at h
    cases hi : e.idref with
    | none => rw [hi] at h; cases h
    | some i =>
      rw [hi] at h
      exact ⟨i, refersTo_idref.mp hi, C62_named hr h⟩

end Folia
