import Verif.Lemmas.Matches
import Verif.Props.Select
/-! C30 (ancestors are the parent chain), C31 (common ancestors), C28 (union of selectors). -/
namespace Folia
open Document

/-- The parents of an element, nearest first, up to an element without parent. -/
inductive Chain (d : Document) : Nat → List Nat → Prop
  | top {k e} : d.getElement k = some e → e.parent = none → Chain d k []
  | up {k p l} : d.HasParent k p → Chain d p l → Chain d k (p :: l)

/-- The selector returns true for the element with this key. -/
def Selects (d : Document) (s : Selector) (k : Nat) : Prop := s.matches d (.element k) = .ok true

instance (d : Document) (s : Selector) (k : Nat) : Decidable (Selects d s k) := inferInstanceAs (Decidable (_ = _))

theorem chain_exists {X : Ext} {F : Nat} {d : Document} (hr : CleanReachable X F d) (hf : d.Forest) :
    ∀ (n k : Nat) (e : ElementData), d.getElement k = some e → (∀ a, d.Above a k → True) →
      (List.range d.elements.len).countP (fun j => @decide (d.Above j k) (Classical.propDecidable _)) < n → ∃ l, Chain d k l := by
  classical
  intro n
  induction n with
  | zero => intro k e _ _ h; omega
  | succ n ih =>
    intro k e he _ hlt
    cases hp : e.parent with
    | none => exact ⟨[], .top he hp⟩
    | some p =>
      obtain ⟨pe, hpe⟩ := (hr.cinv.elem k e he).parent p hp
      have hkp : d.HasParent k p := ⟨e, he, hp⟩
      obtain ⟨l, hl⟩ := ih p pe hpe (fun _ _ => trivial) (by
        refine Nat.lt_of_lt_of_le (countP_lt (a := p) ?_ ?_ ?_ ?_) (Nat.le_of_lt_succ hlt)
        · intro j _ hj
          simp only [decide_eq_true_eq] at hj ⊢
          exact .up hkp hj
        · exact List.mem_range.mpr (Store.get_lt hpe)
        · simpa using hf.acyclic p
        · simpa using Above.parent hkp)
      exact ⟨p :: l, .up hkp hl⟩

/-- A chain contains exactly the ancestors, each once. -/
theorem chain_above {d : Document} {k : Nat} {l : List Nat} (h : Chain d k l) : ∀ a, a ∈ l ↔ d.Above a k := by
  induction h with
  | @top k e he hp =>
    intro a
    refine ⟨nofun, fun h => ?_⟩
    have no : ∀ p, ¬ d.HasParent k p := fun p ⟨e', h1, h2⟩ => by rw [he] at h1; cases h1; rw [hp] at h2; cases h2
    cases h with
    | parent h => exact absurd h (no _)
    | up h _ => exact absurd h (no _)
  | up hkp _ ih =>
    intro a
    rw [List.mem_cons, ih a]
    constructor
    · rintro (rfl | h)
      · exact .parent hkp
      · exact .up hkp h
    · intro h
      cases h with
      | parent h => exact .inl (hasParent_unique h hkp)
      | up h h' => rw [hasParent_unique h hkp] at h'; exact .inr h'

theorem chain_nodup {d : Document} (ha : d.Acyclic) {k : Nat} {l : List Nat} (h : Chain d k l) : l.Nodup := by
  induction h with
  | top => exact List.nodup_nil
  | up hkp hc ih => exact List.nodup_cons.mpr ⟨fun h => ha _ ((chain_above hc _).mp h), ih⟩

/-- The iterator follows the chain. -/
theorem ancCollect_chain {X : Ext} {F : Nat} {d : Document} (hr : CleanReachable X F d) (s : Selector) {k : Nat} {l : List Nat} (h : Chain d k l) :
    ∀ G, l.length < G → ancCollect d s .always G k = .ok (l.filter fun p => decide (Selects d s p)) := by
  induction h with
  | top he hp =>
    intro G hG
    obtain ⟨G, rfl⟩ : ∃ G', G = G' + 1 := ⟨G - 1, by simp at hG; omega⟩
    unfold ancCollect
    rw [he]; simp only; rw [hp]; rfl
  | @up k p l hkp hc ih =>
    intro G hG
    simp only [List.length_cons] at hG
    obtain ⟨G, rfl⟩ : ∃ G', G = G' + 1 := ⟨G - 1, by omega⟩
    obtain ⟨e, he, hp⟩ := hkp
    obtain ⟨pe, hpe⟩ := (hr.cinv.elem k e he).parent p hp
    obtain ⟨b, hb⟩ := matches_ok (cleanReachable_reachable hr).encoded s (.element p)
    unfold ancCollect
    rw [he]; simp only; rw [hp]; simp only [hb]
    have hih := ih G (by omega)
    cases b with
    | true =>
      rw [hpe]; simp only
      rw [hih, List.filter_cons, if_pos (decide_eq_true (p := Selects d s p) hb)]; rfl
    | false =>
      rw [hpe]; simp only
      rw [if_pos (by rfl), hih, List.filter_cons_of_neg (by simp [Selects, hb])]

/-! ### C30 -/

/-- The ancestors of an element that a selector accepts are exactly the accepted elements of its chain of parents, nearest first; asking for
them ends, without panic. -/
theorem C30_ancestors {X : Ext} {F : Nat} {d : Document} (hr : CleanReachable X F d) (hf : d.Forest) {k : Nat} {e : ElementData}
    (he : d.getElement k = some e) (s : Selector) :
    ∃ l, Chain d k l ∧ l.Nodup ∧ (∀ a, a ∈ l ↔ d.Above a k) ∧
      ∃ N, ∀ G, N ≤ G → ancestors d G k s = .ok (l.filter fun p => decide (Selects d s p)) := by
  obtain ⟨l, hl⟩ := chain_exists hr hf _ k e he (fun _ _ => trivial) (Nat.lt_succ_self _)
  exact ⟨l, hl, chain_nodup hf.acyclic hl, chain_above hl, l.length + 1, fun G hG => ancCollect_chain hr s hl G (by omega)⟩

example : (ancestors Sample.doc 60 7 .elements).toOption = some [6, 2, 5, 0] ∧
    (ancestors Sample.doc 60 7 (.elementgroup {} (.is .structural))).toOption = some [2, 5, 0] := by decide +kernel

/-! ### C31 -/

theorem commonAncestors_rest {X : Ext} {F : Nat} {d : Document} (hr : CleanReachable X F d) (hf : d.Forest) (s : Selector) {a : Nat} (ha : Selects d s a) :
    ∀ (ks result : List Nat), (∀ k ∈ ks, d.Live k → d.Above a k) → a ∈ result → (∀ x ∈ result, Selects d s x) →
      ∃ out, (∃ N, ∀ G, N ≤ G → commonAncestors d G s result ks = .ok out) ∧ out.Sublist result ∧
        ∀ x, x ∈ out ↔ x ∈ result ∧ ∀ k ∈ ks, d.Live k → d.Above x k
  | [], result, _, _, _ => ⟨result, ⟨0, fun _ _ => rfl⟩, .refl _, by simp⟩
  | k :: ks, result, hks, hin, hsel => by
    cases he : d.getElement k with
    | none =>
      obtain ⟨out, ⟨N, hN⟩, hsub, hmem⟩ := commonAncestors_rest hr hf s ha ks result (fun j hj => hks j (by simp [hj])) hin hsel
      refine ⟨out, ⟨N, fun G hG => ?_⟩, hsub, fun x => ?_⟩
      · unfold commonAncestors commonStep; rw [he]; exact hN G hG
      · rw [hmem x]
        refine and_congr_right fun _ => ⟨fun h j hj hl => ?_, fun h j hj => h j (by simp [hj])⟩
        rcases List.mem_cons.mp hj with rfl | hj
        · obtain ⟨e, hl⟩ := hl; rw [he] at hl; cases hl
        · exact h j hj hl
    | some e =>
      obtain ⟨l, hl, _, habove, N1, hN1⟩ := C30_ancestors hr hf he s
      have hane : result.isEmpty = false := by cases result with | nil => cases hin | cons => rfl
      let result' := result.filter ((l.filter fun p => decide (Selects d s p)).contains ·)
      have hmem' : ∀ x, x ∈ result' ↔ x ∈ result ∧ d.Above x k := by
        intro x
        simp only [result', List.mem_filter, List.contains_iff_mem, decide_eq_true_eq, habove]
        exact and_congr_right fun hx => and_iff_left (hsel x hx)
      obtain ⟨out, ⟨N, hN⟩, hsub, hmem⟩ := commonAncestors_rest hr hf s ha ks result' (fun j hj => hks j (by simp [hj]))
        ((hmem' a).mpr ⟨hin, hks k (by simp) ⟨e, he⟩⟩) (fun x hx => hsel x ((hmem' x).mp hx).1)
      refine ⟨out, ⟨max N N1, fun G hG => ?_⟩, hsub.trans List.filter_sublist, fun x => ?_⟩
      · unfold commonAncestors commonStep
        rw [he]; simp only
        rw [hN1 G (by omega)]
        simp only [hane, Bool.false_eq_true, if_false]
        exact hN G (by omega)
      · rw [hmem x, hmem' x]
        constructor
        · rintro ⟨⟨h1, h2⟩, h3⟩
          refine ⟨h1, fun j hj hlive => ?_⟩
          rcases List.mem_cons.mp hj with rfl | hj
          · exact h2
          · exact h3 j hj hlive
        · rintro ⟨h1, h2⟩
          exact ⟨⟨h1, h2 k (by simp) ⟨e, he⟩⟩, fun j hj => h2 j (by simp [hj])⟩

/-- If the given elements have an accepted ancestor in common, then `common_ancestors` returns exactly the accepted elements that are ancestors
of all of them, nearest first. Missing for the full claim: the case that there is none, see the counterexample. -/
theorem C31_common_partial {X : Ext} {F : Nat} {d : Document} (hr : CleanReachable X F d) (hf : d.Forest) {k : Nat} {e : ElementData}
    (he : d.getElement k = some e) (ks : List Nat) (s : Selector) (hc : ∃ a, Selects d s a ∧ ∀ j ∈ k :: ks, d.Live j → d.Above a j) :
    ∃ out l, (∃ N, ∀ G, N ≤ G → commonAncestors d G s [] (k :: ks) = .ok out) ∧ Chain d k l ∧ out.Sublist l ∧
      ∀ x, x ∈ out ↔ Selects d s x ∧ ∀ j ∈ k :: ks, d.Live j → d.Above x j := by
  obtain ⟨a, ha, hall⟩ := hc
  obtain ⟨l, hl, _, habove, N1, hN1⟩ := C30_ancestors hr hf he s
  obtain ⟨out, ⟨N, hN⟩, hsub, hmem⟩ := commonAncestors_rest hr hf s ha ks (l.filter fun p => decide (Selects d s p)) (fun j hj => hall j (by simp [hj]))
    (by simp only [List.mem_filter, decide_eq_true_eq, habove]; exact ⟨hall k (by simp) ⟨e, he⟩, ha⟩)
    (fun x hx => by simpa using (List.mem_filter.mp hx).2)
  refine ⟨out, l, ⟨max N N1, fun G hG => ?_⟩, hl, hsub.trans List.filter_sublist, fun x => ?_⟩
  · unfold commonAncestors commonStep
    rw [he]; simp only
    rw [hN1 G (by omega)]
    simp only [List.isEmpty_nil, if_true]
    exact hN G (by omega)
  · rw [hmem x]
    simp only [List.mem_filter, decide_eq_true_eq, habove]
    constructor
    · rintro ⟨⟨h1, h2⟩, h3⟩
      refine ⟨h2, fun j hj hlive => ?_⟩
      rcases List.mem_cons.mp hj with rfl | hj
      · exact h1
      · exact h3 j hj hlive
    · rintro ⟨h1, h2⟩
      exact ⟨⟨h2 k (by simp) ⟨e, he⟩, h1⟩, fun j hj => h2 j (by simp [hj])⟩

example : (commonAncestors Sample.doc 60 (.elementgroup {} (.is .structural)) [] [7, 3, 8]).toOption = some [5, 0] := by decide +kernel

/-- The full claim is false: the body has no ancestors, but `common_ancestors` of the body and a word returns the sentence and the body itself,
because an empty intermediate result is taken for the start of the search. -/
theorem C31_reset_counterexample : CleanReachable Sample.X Sample.F Sample.doc ∧ Sample.doc.Forest ∧
    (∀ a, ¬ Sample.doc.Above a 0) ∧ Sample.doc.Live 0 ∧ Sample.doc.Live 2 ∧
    commonAncestors Sample.doc 60 (.elementgroup {} (.is .structural)) [] [0, 2] = .ok [5, 0] := by
  have h0 : (Sample.doc.getElement 0).map (·.parent) = some none := by decide +kernel
  obtain ⟨e, he, hp⟩ := Option.map_eq_some_iff.mp h0
  have h2 : (Sample.doc.getElement 2).isSome = true := by decide +kernel
  refine ⟨Sample.doc_clean, Sample.doc_forest, fun a h => ?_, ⟨e, he⟩, Option.isSome_iff_exists.mp h2, by decide +kernel⟩
  exact absurd ((chain_above (Chain.top he hp) a).mpr h) (by simp)

/-! ### C28 -/

/-- `a.and(b)` accepts an item if and only if one of the two accepts it, provided `a` has not been combined before. -/
theorem C28_union_partial {X : Ext} {F : Nat} {d : Document} (hr : Reachable X F d) (a b : Selector) (ha : a.next = []) (x : Data) :
    (a.and b).matches d x = .ok true ↔ a.matches d x = .ok true ∨ b.matches d x = .ok true := by
  have h1 : a.matches d x = a.core.matches d x := by unfold Selector.matches; rw [ha]; rfl
  have h2 : (a.and b).matches d x = orElse (a.core.matches d x) (b.matches d x) := rfl
  obtain ⟨v, hv⟩ := matches_ok hr.encoded a x
  rw [h2, h1]
  rw [h1] at hv
  rw [hv]
  cases v <;> simp [orElse]

/-- The items selected by `a.and(b)` are those selected by `a` or by `b`, provided `a` has not been combined before and names nothing unknown. -/
theorem C28_selection_partial {X : Ext} {F : Nat} {d : Document} (hr : CleanReachable X F d) (hf : d.Forest) {k : Nat} {e : ElementData}
    (he : d.getElement k = some e) (a b : Selector) (ha : a.next = []) (hma : a.matchable = true) (hmb : b.matchable = true) (r : Recursion) :
    ∃ A B C N, (∀ G, N ≤ G →
        selCollect { doc := d, selector := a, recursion := r, inclusive := false, spanreferences := false } G (.init k) = .ok A ∧
        selCollect { doc := d, selector := b, recursion := r, inclusive := false, spanreferences := false } G (.init k) = .ok B ∧
        selCollect { doc := d, selector := a.and b, recursion := r, inclusive := false, spanreferences := false } G (.init k) = .ok C) ∧
      ∀ y, y ∈ C ↔ y ∈ A ∨ y ∈ B := by
  obtain ⟨A, ⟨NA, hA⟩, hmA, _⟩ := C24_recursion_limits hr hf he a hma r
  obtain ⟨B, ⟨NB, hB⟩, hmB, _⟩ := C24_recursion_limits hr hf he b hmb r
  obtain ⟨C, ⟨NC, hC⟩, hmC, _⟩ := C24_recursion_limits hr hf he (a.and b) hma r
  refine ⟨A, B, C, max NA (max NB NC), fun G hG => ⟨hA G (by omega), hB G (by omega), hC G (by omega)⟩, fun y => ?_⟩
  rw [hmA, hmB, hmC, C28_union_partial (cleanReachable_reachable hr) a b ha]
  exact and_or_left

example : (select Sample.doc 60 0 ((Selector.elements.element (.is .word)).and (Selector.elements.element (.is .chunk))) .always).toOption = some [2, 11, 4] := by
  decide +kernel

/-- Chaining loses an operand: a second `and` replaces what the first one added. -/
theorem C28_chain_counterexample : ∃ (a b c : Selector) (x : Data), CleanReachable Sample.X Sample.F Sample.doc ∧
    b.matches Sample.doc x = .ok true ∧ ((a.and b).and c).matches Sample.doc x = .ok false :=
  ⟨Selector.elements.element (.is .word), Selector.elements.element (.is .chunk), Selector.elements.element (.is .sentence), .element 11, Sample.doc_clean,
    by decide +kernel, by decide +kernel⟩

theorem fromQuery_set (d : Document) (t : ElementType) (s : String) :
    ∃ a, Selector.fromQuery d { elementtype := .is t, set := .is s } = .ok a ∧ a.core.set = encodeSet d (.is t) (some s) := ⟨_, rfl, rfl⟩

/-- If the first operand names an unknown set, the union selects nothing, although the second operand on its own does. -/
theorem C28_unmatchable_counterexample : ∃ a b : Selector, CleanReachable Sample.X Sample.F Sample.doc ∧
    Selector.fromQuery Sample.doc { elementtype := .is .posAnnotation, set := .is "unknown" } = .ok a ∧
    select Sample.doc 60 0 b .always = .ok [2, 4] ∧ select Sample.doc 60 0 (a.and b) .always = .ok [] := by
  have hset : encodeSet Sample.doc (.is .posAnnotation) (some "unknown") = .unmatchable := by decide +kernel
  obtain ⟨a, h1, h2⟩ := fromQuery_set Sample.doc .posAnnotation "unknown"
  refine ⟨a, Selector.elements.element (.is .word), Sample.doc_clean, h1, by decide +kernel, ?_⟩
  unfold select selectByKey
  rw [C23_unmatchable Sample.doc 0 (a.and (Selector.elements.element (.is .word))) (.inl (h2.trans hset)) .always false true 59]
  rfl

end Folia
