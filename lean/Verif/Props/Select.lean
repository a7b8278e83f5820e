import Verif.Lemmas.Matches
import Verif.Props.Tree
/-! C23 (complete pre-order traversal), C24 (recursion limits), C25 (spans once), C26 (termination). -/
namespace Folia
open Document

/-- Documents made by well-behaved calls are forests. -/
theorem ForestReachable.forest {F : Nat} {d : Document} (h : ForestReachable F d) : d.Forest :=
  ⟨h.tame.links, h.ranked.acyclic h.tame.links⟩

theorem Sample.doc_forest : Sample.doc.Forest :=
  (ForestReachable.ops Sample.ops (by intro o ho d; simp only [Sample.ops, List.mem_cons, List.not_mem_nil, or_false] at ho
                                      rcases ho with rfl | rfl | rfl | rfl | rfl <;> exact trivial)
    (.new (by intro p h; cases h) Sample.fresh_eq) (by decide +kernel) : ForestReachable Sample.F Sample.doc).forest

/-- What the items of a selection look like: element, container, position and depth. -/
def Sample.found (r : Res (List SelectItem)) : Option (List (Option Nat × Nat × Nat × Nat)) :=
  match r with
  | .ok is => some (is.map fun i => (itemKey i, i.parentKey, i.cursor, i.depth))
  | .error _ => none

/-! ### C23 -/

/-- Selecting with unlimited recursion yields, from some number of rounds on, exactly the data items below the element that match, in
document order, with their container, position and depth. -/
theorem C23_preorder {X : Ext} {F : Nat} {d : Document} (hr : CleanReachable X F d) (hf : d.Forest) {k : Nat} {e : ElementData}
    (he : d.getElement k = some e) (s : Selector) (hs : s.matchable = true) :
    ∃ items, Below d k e items ∧ ∃ N, ∀ G, N ≤ G →
      selCollect { doc := d, selector := s, recursion := .always, inclusive := false, spanreferences := false } G (.init k) =
        .ok (chosen d s (everything k e.elementtype items)) := by
  obtain ⟨items, hb⟩ := below_exists hr hf he
  refine ⟨items, hb, rounds items + 1, fun G hG => ?_⟩
  rw [collect_below (cleanReachable_reachable hr) hb hs .always false hG]
  rfl

/-- The same as a statement about single items: exactly the matching items that occur below the element are selected, none of them
twice. -/
theorem C23_complete {X : Ext} {F : Nat} {d : Document} (hr : CleanReachable X F d) (hf : d.Forest) {k : Nat} {e : ElementData}
    (he : d.getElement k = some e) (s : Selector) (hs : s.matchable = true) :
    ∃ out, (∃ N, ∀ G, N ≤ G →
        selCollect { doc := d, selector := s, recursion := .always, inclusive := false, spanreferences := false } G (.init k) = .ok out) ∧
      (∀ y, y ∈ out ↔ Occurs d (fun _ => True) k y.data y.parentKey y.cursor y.depth ∧ s.matches d y.data = .ok true) ∧
      (out.map fun y => (y.parentKey, y.cursor)).Nodup := by
  obtain ⟨items, hb, N, hN⟩ := C23_preorder hr hf he s hs
  refine ⟨_, ⟨N, hN⟩, fun y => ?_, ?_⟩
  · rw [mem_chosen]
    refine and_congr_left fun _ => ?_
    rw [everything, mem_preorder hb]
    exact occurs_congr fun t => by simp
  · exact (preorder_once hf.links hf.acyclic hb).sublist (List.Sublist.map _ List.filter_sublist)

/-- The variant that includes the start element puts it first, if it matches; it is given the depth 0. The start element must have a
parent or be the body, see `C56`. -/
theorem C23_inclusive {X : Ext} {F : Nat} {d : Document} (hr : CleanReachable X F d) (hf : d.Forest) {k : Nat} {e : ElementData}
    (he : d.getElement k = some e) (hk : e.parent ≠ none ∨ k = 0) (s : Selector) (hs : s.matchable = true) :
    ∃ items, Below d k e items ∧ ∃ p, (e.parent = some p ∨ (e.parent = none ∧ p = k)) ∧ ∃ N, ∀ G, N ≤ G →
      selCollect { doc := d, selector := s, recursion := .always, inclusive := true, spanreferences := false } G (.init k) =
        .ok (chosen d s ({ data := .element k, parentKey := p, cursor := 0, depth := 0 } :: everything k e.elementtype items)) := by
  obtain ⟨items, hb⟩ := below_exists hr hf he
  have hself : e.parent ≠ some k := fun h => hf.acyclic k (.parent ⟨e, he, h⟩)
  rcases startItem_spec hf.links he hself with ⟨p, hp, hst⟩ | ⟨hp, hst⟩
  · exact ⟨items, hb, p, .inl hp, rounds items + 2, fun G hG => collect_inclusive (cleanReachable_reachable hr) hb hst hs .always hG⟩
  · have h0 : k = 0 := hk.resolve_left fun h => h hp
    rw [show (.element 0 : Data) = .element k by rw [h0]] at hst
    exact ⟨items, hb, k, .inr ⟨hp, rfl⟩, rounds items + 2, fun G hG => collect_inclusive (cleanReachable_reachable hr) hb hst hs .always hG⟩

/-- The remaining selectors: one that asks for a set, class or processor that the document does not have selects nothing, in every document and
with all options. -/
theorem C23_unmatchable (d : Document) (k : Nat) (s : Selector)
    (hs : s.core.set = .unmatchable ∨ s.core.cls = .unmatchable ∨ s.core.processor = .unmatchable) (r : Recursion) (inclusive spanreferences : Bool)
    (G : Nat) :
    selCollect { doc := d, selector := s, recursion := r, inclusive, spanreferences } (G + 1) (.init k) = .ok [] := by
  have hm : s.matchable = false := by unfold Selector.matchable; rcases hs with h | h | h <;> simp [h]
  unfold selCollect
  rw [step_unmatchable rfl hm]

/-- `matchable` is the negation of that case. -/
theorem C23_matchable_iff (s : Selector) :
    s.matchable = true ↔ ¬ (s.core.set = .unmatchable ∨ s.core.cls = .unmatchable ∨ s.core.processor = .unmatchable) := by
  unfold Selector.matchable
  simp [and_assoc]

example : CleanReachable Sample.X Sample.F Sample.doc ∧ Sample.doc.Forest ∧
    Sample.found (selCollect { doc := Sample.doc, selector := .elements, recursion := .always, inclusive := false, spanreferences := false } 60 (.init 5)) =
      some [(some 2, 5, 0, 1), (some 1, 2, 0, 2), (some 6, 2, 1, 2), (some 7, 6, 0, 3), (some 11, 2, 2, 2), (some 4, 5, 1, 1), (some 3, 4, 0, 2),
        (some 11, 4, 1, 2), (some 8, 5, 2, 1), (some 11, 8, 0, 2), (some 9, 11, 0, 3), (some 10, 11, 1, 3)] :=
  ⟨Sample.doc_clean, Sample.doc_forest, by decide +kernel⟩

/-! ### C24 -/

/-- For every recursion mode, exactly the matching items are selected that are reached by descending only as the mode says; whether an
item is selected does not depend on whether it is descended into. -/
theorem C24_recursion_limits {X : Ext} {F : Nat} {d : Document} (hr : CleanReachable X F d) (hf : d.Forest) {k : Nat} {e : ElementData}
    (he : d.getElement k = some e) (s : Selector) (hs : s.matchable = true) (r : Recursion) :
    ∃ out, (∃ N, ∀ G, N ≤ G →
        selCollect { doc := d, selector := s, recursion := r, inclusive := false, spanreferences := false } G (.init k) = .ok out) ∧
      (∀ y, y ∈ out ↔ Occurs d (Descends r) k y.data y.parentKey y.cursor y.depth ∧ s.matches d y.data = .ok true) ∧
      (out.map fun y => (y.parentKey, y.cursor)).Nodup := by
  obtain ⟨items, hb⟩ := below_exists hr hf he
  refine ⟨chosen d s (preorder r.eval k e.elementtype 0 1 items), ⟨rounds items + 1, fun G hG => ?_⟩, fun y => ?_, ?_⟩
  · rw [collect_below (cleanReachable_reachable hr) hb hs r false hG]; rfl
  · rw [mem_chosen]
    refine and_congr_left fun _ => ?_
    rw [mem_preorder hb]
    exact occurs_congr (eval_iff r)
  · exact (preorder_once hf.links hf.acyclic hb).sublist (List.Sublist.map _ List.filter_sublist)

/-- Without recursion the result is the list of the matching data items of the element itself. -/
theorem C24_no_recursion {X : Ext} {F : Nat} {d : Document} (hr : CleanReachable X F d) (hf : d.Forest) {k : Nat} {e : ElementData}
    (he : d.getElement k = some e) (s : Selector) (hs : s.matchable = true) :
    ∃ out, (∃ N, ∀ G, N ≤ G →
        selCollect { doc := d, selector := s, recursion := .no, inclusive := false, spanreferences := false } G (.init k) = .ok out) ∧
      out.map (·.data) = e.data.filter (fun x => match s.matches d x with
        | .ok b => b
        | .error _ => false) ∧ ∀ y ∈ out, y.parentKey = k ∧ y.depth = 1 ∧ e.data[y.cursor]? = some y.data := by
  obtain ⟨items, hb⟩ := below_exists hr hf he
  obtain ⟨h1, h2, h3⟩ := below_iff.mp hb
  have hdata : ∀ (is : List Item) (i : Nat), (preorder Recursion.no.eval k e.elementtype i 1 is).map (·.data) = is.map Item.data := by
    intro is
    induction is with
    | nil => intro i; simp [preorder]
    | cons x xs ih => intro i; simp [preorder, Recursion.eval, ih]
  refine ⟨chosen d s (preorder Recursion.no.eval k e.elementtype 0 1 items), ⟨rounds items + 1, fun G hG => ?_⟩, ?_, ?_⟩
  · rw [collect_below (cleanReachable_reachable hr) hb hs .no false hG]; rfl
  · rw [h2, ← hdata items 0, List.filter_map]; rfl
  · intro y hy
    have := (mem_preorder hb y).mp (mem_chosen.mp hy).1
    generalize y.data = x at this
    generalize hp : y.parentKey = p at this
    generalize hc : y.cursor = c at this
    generalize hd : y.depth = n at this
    cases this with
    | direct he' hx => rw [he] at he'; cases he'; exact ⟨rfl, rfl, hx⟩
    | deeper _ _ hg _ _ => simp [Recursion.eval] at hg

example : Sample.found (selCollect ⟨Sample.doc, .elements, .limitedTo [.type .sentence, .group .layer], false, false⟩ 60 (.init 0)) = some [(some 5, 0, 0, 1)] ∧
    Sample.found (selCollect ⟨Sample.doc, .elements, .exceptFor [.type .word], false, false⟩ 60 (.init 5)) =
      some [(some 2, 5, 0, 1), (some 1, 2, 0, 2), (some 6, 2, 1, 2), (some 11, 2, 2, 2), (some 4, 5, 1, 1), (some 3, 4, 0, 2),
        (some 11, 4, 1, 2), (some 8, 5, 2, 1), (some 11, 8, 0, 2), (some 9, 11, 0, 3), (some 10, 11, 1, 3)] := by decide +kernel

/-! ### C25 -/

/-- Element selection finds exactly the elements that occur and match, directly or through references to spans, and no span twice. -/
theorem C25_spans_once {X : Ext} {F : Nat} {d : Document} (hr : CleanReachable X F d) (hf : d.Forest) {k : Nat} {e : ElementData}
    (he : d.getElement k = some e) (s : Selector) (hs : s.matchable = true) (r : Recursion) :
    ∃ keys, (∃ N, ∀ G, N ≤ G → select d G k s r = .ok keys) ∧
      (∀ x, x ∈ keys ↔ ∃ y p i n, (y = .element x ∨ y = .spanReference x) ∧ Occurs d (Descends r) k y p i n ∧ s.matches d y = .ok true) ∧
      (keys.filter fun x => match d.getElement x with
        | some e => ElementGroup.span.contains e.elementtype
        | none => false).Nodup := by
  obtain ⟨items, hb⟩ := below_exists hr hf he
  let cfg : SelCfg := { doc := d, selector := s, recursion := r, inclusive := false, spanreferences := true }
  let out := results cfg [] (preorder r.eval k e.elementtype 0 1 items)
  have hmem : ∀ y, y ∈ chosen d s (preorder r.eval k e.elementtype 0 1 items) ↔
      Occurs d (Descends r) k y.data y.parentKey y.cursor y.depth ∧ s.matches d y.data = .ok true := by
    intro y
    rw [mem_chosen]
    refine and_congr_left fun _ => ?_
    rw [mem_preorder hb]
    exact occurs_congr (eval_iff r)
  have hsub : ∀ y ∈ out, y ∈ chosen d s (preorder r.eval k e.elementtype 0 1 items) := fun y hy => firstOccurrences_mem hy
  have hlive : ∀ y ∈ out, ∀ x, itemKey y = some x → ∃ e, d.getElement x = some e := by
    intro y hy x hx
    have := occurs_live hr ((hmem y).mp (hsub y hy)).1
    rcases itemKey_eq_some.mp hx with h | h <;> rw [h] at this
    · exact this
    · exact this.imp fun _ h => h.1
  refine ⟨out.filterMap itemKey, ⟨rounds items + 1, fun G hG => ?_⟩, fun x => ⟨?_, ?_⟩, ?_⟩
  · unfold select selectByKey
    rw [collect_below (cleanReachable_reachable hr) hb hs r true hG]
    exact elementKeys_eq hlive
  · intro hx
    obtain ⟨y, hy, hyx⟩ := List.mem_filterMap.mp hx
    obtain ⟨h1, h2⟩ := (hmem y).mp (hsub y hy)
    exact ⟨y.data, _, _, _, itemKey_eq_some.mp hyx, h1, h2⟩
  · rintro ⟨y, p, i, n, hyx, h1, h2⟩
    rcases firstOccurrences_complete (d := d) (S := []) ((hmem ⟨y, p, i, n⟩).mpr ⟨h1, h2⟩) with h | ⟨x', h3, h4 | ⟨z, h4, h5⟩⟩
    · exact List.mem_filterMap.mpr ⟨_, h, itemKey_eq_some.mpr hyx⟩
    · cases h4
    · have hx' : x' = x := by
        have : itemKey ⟨y, p, i, n⟩ = some x' := itemKey_spanOf h3
        rw [itemKey_eq_some.mpr (show (⟨y, p, i, n⟩ : SelectItem).data = .element x ∨ (⟨y, p, i, n⟩ : SelectItem).data = .spanReference x from hyx)] at this
        exact (Option.some.inj this).symm
      exact List.mem_filterMap.mpr ⟨z, h4, hx' ▸ itemKey_spanOf h5⟩
  · have h := (firstOccurrences_nodup (d := d) (S := []) (l := chosen d s (preorder r.eval k e.elementtype 0 1 items))).1
    refine List.Nodup.sublist ?_ h
    exact spanKeys_sublist out

/-- The record of the spans returned before behaves as a set: asked about a list of keys in any order, it tells for each one whether it
occurred before. -/
theorem C25_bookkeeping (key : Nat) (ks : List Nat) :
    (ks.foldl (fun (acc : List Bool × SelState) k => (acc.1 ++ [(alreadyReturned acc.2 k).1], (alreadyReturned acc.2 k).2)) ([], .init key)).1 =
      ks.mapIdx fun i k => decide (k ∈ ks.take i) := by
  have gen : ∀ (ks pre : List Nat) (st : SelState), (∀ S : List Nat, (∀ k, k ∈ S ↔ k ∈ pre) → SeenRep st S) → ∀ acc : List Bool,
      (ks.foldl (fun (acc : List Bool × SelState) k => (acc.1 ++ [(alreadyReturned acc.2 k).1], (alreadyReturned acc.2 k).2)) (acc, st)).1 =
        acc ++ ks.mapIdx fun i k => decide (k ∈ pre ++ ks.take i) := by
    intro ks
    induction ks with
    | nil => intro pre st _ acc; simp
    | cons k ks ih =>
      intro pre st hst acc
      obtain ⟨h1, h2, _⟩ := alreadyReturned_spec (hst pre fun _ => Iff.rfl) k
      rw [List.foldl_cons, ih (pre ++ [k]) _ ?_, h1]
      · simp [List.mapIdx_cons]
      · intro S hS j
        rw [hS j, ← h2 j]
        split <;> simp_all [or_comm]
  simpa using gen ks [] (.init key) (fun S hS => by
    have : S = [] := List.eq_nil_iff_forall_not_mem.mpr fun a ha => by simpa using (hS a).mp ha
    rw [this]; exact seenRep_init key) []

example : (select Sample.doc 60 5 Selector.elements .always).toOption = some [2, 1, 6, 7, 11, 4, 3, 8, 9, 10] := by decide +kernel

/-! ### C26 -/

/-- On a consistent document every selection, with any selector, recursion mode and options, ends after finitely many rounds without
panicking. -/
theorem C26_terminates {X : Ext} {F : Nat} {d : Document} (hr : CleanReachable X F d) (hf : d.Forest) {k : Nat} {e : ElementData}
    (he : d.getElement k = some e) (s : Selector) (r : Recursion) (inclusive spanreferences : Bool) :
    ∃ N out, ∀ G, N ≤ G → selCollect { doc := d, selector := s, recursion := r, inclusive, spanreferences } G (.init k) = .ok out := by
  have hrr := cleanReachable_reachable hr
  let cfg : SelCfg := { doc := d, selector := s, recursion := r, inclusive, spanreferences }
  cases hs : s.matchable with
  | false =>
    refine ⟨1, [], fun G hG => ?_⟩
    obtain ⟨G, rfl⟩ : ∃ G', G = G' + 1 := ⟨G - 1, by omega⟩
    unfold selCollect
    rw [step_unmatchable rfl hs]
  | true =>
    obtain ⟨items, hb⟩ := below_exists hr hf he
    cases inclusive with
    | false => exact ⟨rounds items + 1, _, fun G hG => collect_below hrr hb hs r spanreferences hG⟩
    | true =>
      have hall : ∀ i ∈ preorder r.eval k e.elementtype 0 1 items, ∃ b, s.matches d i.data = .ok b := fun i _ => matches_ok hrr.encoded s i.data
      have hp : Pending d r ({ SelState.init k with iteration := 1 } : SelState).stack (preorder r.eval k e.elementtype 0 1 items) (rounds items) := pending_init hb
      have hself : e.parent ≠ some k := fun h => hf.acyclic k (.parent ⟨e, he, h⟩)
      have hst : ∃ p item, startItem d k e = .ok (p, item) := by
        rcases startItem_spec hf.links he hself with ⟨p, _, hst⟩ | ⟨_, hst⟩ <;> exact ⟨_, _, hst⟩
      obtain ⟨p, item, hst⟩ := hst
      obtain ⟨b, hm⟩ := matches_ok hrr.encoded s item
      have hstep := step_inclusive (cfg := cfg) rfl hs he hst hm
      cases b with
      | true =>
        rw [if_pos rfl] at hstep
        refine ⟨rounds items + 2, { data := item, parentKey := p, cursor := 0, depth := 0 } :: results cfg [] (preorder r.eval k e.elementtype 0 1 items),
          fun G hG => ?_⟩
        obtain ⟨G, rfl⟩ : ∃ G', G = G' + 1 := ⟨G - 1, by omega⟩
        unfold selCollect
        rw [hstep]
        simp only
        rw [selCollect_later (cfg := cfg) (n := rounds items) (by omega) hp (S := []) (by exact seenRep_init k) hall (by simp)]
        rfl
      | false =>
        rw [if_neg (by simp)] at hstep
        exact ⟨rounds items + 1, _, fun G hG => selCollect_step (cfg := cfg) hG hstep (by simp) hp (S := []) (by exact seenRep_init k) hall⟩

/-- Once an iterator over a matchable selector has ended, it stays at its end: every later call of `next` returns `None`, too. This holds
for all documents. -/
theorem C26_fused_partial {cfg : SelCfg} (hs : cfg.selector.matchable = true) {G : Nat} {st st' : SelState} (h : selNext cfg G st = (.ok none, st')) :
    ∀ n, 0 < n → ∃ st'', selNext cfg n st' = (.ok none, st'') := by
  have hstep : ∀ {st st'}, step cfg st = (.done, st') → st'.stack = [] := by
    intro st st' h
    have hss : ∀ {st st'}, stepStack cfg st = (.done, st') → st'.stack = [] := by
      intro st st' h
      cases hst : st.stack with
      | nil => rw [stepStack_done hst] at h; cases h; exact hst
      | cons f rest =>
        obtain ⟨key, c⟩ := f
        cases hp : cfg.doc.getElement key with
        | none =>
          unfold stepStack at h
          rw [hst] at h
          simp only [hp] at h
          cases h
        | some parent =>
          cases hx : parent.data[c]? with
          | none => rw [stepStack_again hst hp hx] at h; cases h
          | some item =>
            rw [stepStack_visit hst hp hx] at h
            unfold visitItem at h
            split at h
            · cases h
            · cases h
            · split at h
              · split at h
                · split at h <;> cases h
                · cases h
              · cases h
    unfold step at h
    simp only [hs, Bool.true_eq_false, and_false, if_false] at h
    split at h
    · split at h
      · split at h
        · split at h
          · cases h
          · split at h
            · cases h
            · cases h
            · exact hss h
        · exact hss h
      · exact hss h
    · exact hss h
  have hend : st'.stack = [] := by
    induction G generalizing st with
    | zero => unfold selNext at h; cases h
    | succ G ih =>
      unfold selNext at h
      cases hst : step cfg st with
      | mk out st2 =>
        rw [hst] at h
        cases out with
        | yield i => cases h
        | again => exact ih h
        | done => cases h; exact hstep hst
        | fault f => cases h
  intro n hn
  obtain ⟨n, rfl⟩ : ∃ n', n = n' + 1 := ⟨n - 1, by omega⟩
  have h1 : ∃ st'', step cfg st' = (.done, st'') := by
    unfold step
    simp only [hs, Bool.true_eq_false, and_false, hend, stepStack, ite_self]
    exact ⟨_, rfl⟩
  obtain ⟨st'', h1⟩ := h1
  refine ⟨st'', ?_⟩
  unfold selNext
  rw [h1]

/-- A union whose first operand names an unknown set ends before it begins, but goes on when it is asked again. -/
theorem C26_not_fused_counterexample :
    let cfg : SelCfg := ⟨Sample.doc, { core := { set := .unmatchable }, next := [Selector.elements.core] }, .always, false, true⟩
    (selNext cfg 9 (.init 5)).1.toOption.map (·.map itemKey) = some none ∧
    (selNext cfg 9 (selNext cfg 9 (.init 5)).2).1.toOption.map (·.map itemKey) = some (some (some 2)) := by decide +kernel

/-- A document in which a sentence was attached to itself. -/
def Sample.loop : Document := runOps Sample.F [.addElementTo 0 (.new .sentence), .attachElement 1 1] Sample.fresh

/-- In a document with a cycle selection need not end: a sentence that was attached to itself is visited for ever, whatever the number of
rounds. -/
theorem C26_cycle_counterexample : TameReachable Sample.F Sample.loop ∧
    ∀ G, selCollect ⟨Sample.loop, .elements, .always, false, false⟩ G (.init 1) = .error .fuel := by
  refine ⟨.ops _ Sample.fresh_tame (by decide +kernel), ?_⟩
  have h0 : (Sample.loop.getElement 1).map (fun e => e.data.map (·.isElem 1)) = some [true] := by decide +kernel
  have hm : Selector.elements.matches Sample.loop (.element 1) = .ok true := by decide +kernel
  obtain ⟨e, he, hd⟩ := Option.map_eq_some_iff.mp h0
  have hx : e.data[0]? = some (.element 1) := by
    cases hdd : e.data with
    | nil => rw [hdd] at hd; cases hd
    | cons x xs =>
      rw [hdd] at hd
      simp only [List.map_cons, List.cons.injEq] at hd
      cases x with
      | element c => simp only [DataType.isElem, beq_iff_eq] at hd; rw [hd.1]; rfl
      | _ => simp [DataType.isElem] at hd
  have hall : ∀ G (st : SelState) rest, st.stack = (1, 0) :: rest →
      selCollect ⟨Sample.loop, .elements, .always, false, false⟩ G st = .error .fuel := by
    intro G
    induction G with
    | zero => intro _ _ _; rfl
    | succ G ih =>
      intro st rest hst
      have hord : step ⟨Sample.loop, .elements, .always, false, false⟩ st =
          stepStack ⟨Sample.loop, .elements, .always, false, false⟩ { st with iteration := st.iteration + 1 } := by
        by_cases hi : st.iteration = 0
        · exact step_ordinary (.inr ⟨by decide +kernel, rfl⟩)
        · exact step_ordinary (.inl hi)
      unfold selCollect
      rw [hord, stepStack_visit (rest := rest) (by exact hst) he hx]
      simp only [visitItem, hm, Bool.false_eq_true, if_false, Recursion.eval, if_true, pushChild]
      rw [ih { st with iteration := st.iteration + 1, stack := (1, 0) :: (1, 1) :: rest } _ rfl]
      rfl
  exact fun G => hall G _ [] rfl

end Folia
