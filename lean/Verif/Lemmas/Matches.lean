import Verif.Props.Elements
import Verif.Lemmas.Select
import Verif.Lemmas.Preorder
/-! Selectors never fail on reachable documents; running an iterator on a consistent document. -/
namespace Folia
open Document

theorem cmpField_ok {α : Type} [DecidableEq α] (c : Cmp α) {v : Res (Option α)} (h : ∃ o, v = .ok o) : ∃ b, cmpField c v = .ok b := by
  obtain ⟨o, rfl⟩ := h
  unfold cmpField
  split
  · exact ⟨_, rfl⟩
  · exact ⟨_, rfl⟩

theorem andAlso_ok {a b : Res Bool} (ha : ∃ x, a = .ok x) (hb : ∃ x, b = .ok x) : ∃ x, andAlso a b = .ok x := by
  obtain ⟨x, rfl⟩ := ha
  cases x
  · exact ⟨_, rfl⟩
  · exact hb

theorem core_matches_ok {d : Document} (hr : Encoded d) (s : SelCore) (item : Data) : ∃ b, s.matches d item = .ok b := by
  have hel : ∀ k, ∃ b, (if (!s.datatypes.isEmpty && !s.datatypes.contains .elements) = true then (.ok false : Res Bool)
      else match d.getElement k with
        | some e => s.matchesElement d e
        | none => .ok false) = .ok b := by
    intro k
    split
    · exact ⟨_, rfl⟩
    · cases he : d.getElement k with
      | none => exact ⟨_, rfl⟩
      | some e =>
        obtain ⟨h1, h2, h3, h4, _, _, _, _, _, _, h5, h6⟩ := accessors_return hr he
        unfold SelCore.matchesElement
        exact andAlso_ok ⟨_, rfl⟩ (andAlso_ok (cmpField_ok _ ⟨_, rfl⟩) (andAlso_ok (cmpField_ok _ h1) (andAlso_ok (cmpField_ok _ h3)
          (andAlso_ok (cmpField_ok _ h2) (andAlso_ok (cmpField_ok _ h4) (andAlso_ok (cmpField_ok _ h5) (cmpField_ok _ h6)))))))
  cases item with
  | element k => exact hel k
  | spanReference k => exact hel k
  | text _ => exact ⟨_, rfl⟩
  | comment _ => exact ⟨_, rfl⟩
  | addElement _ => exact ⟨_, rfl⟩

theorem matchesChain_ok {d : Document} (hr : Encoded d) (item : Data) : ∀ (ss : List SelCore) (s : SelCore),
    ∃ b, matchesChain d item s ss = .ok b
  | [], s => core_matches_ok hr s item
  | s' :: ss, s => by
    obtain ⟨b, hb⟩ := core_matches_ok hr s item
    unfold matchesChain
    rw [hb]
    cases b
    · exact matchesChain_ok hr item ss s'
    · exact ⟨_, rfl⟩

theorem matches_ok {d : Document} (hr : Encoded d) (s : Selector) (item : Data) : ∃ b, s.matches d item = .ok b :=
  matchesChain_ok hr item s.next s.core

theorem cleanReachable_reachable {X : Ext} {F : Nat} {d : Document} (h : CleanReachable X F d) : Reachable X F d := by
  induction h with
  | new _ h => exact .new h
  | parse _ h => exact .parse h
  | op o _ _ ih => exact .op o ih

/-- The tree below an element of a consistent document. -/
theorem below_exists {X : Ext} {F : Nat} {d : Document} (hr : CleanReachable X F d) (hf : d.Forest) {k : Nat} {e : ElementData}
    (he : d.getElement k = some e) : ∃ items, Below d k e items :=
  exists_below (acyclic_ranked hf.links hf.acyclic) (fun k e he => (hr.cinv.elem k e he).data) he

theorem eval_iff (r : Recursion) (t : ElementType) : r.eval t = true ↔ Descends r t := by
  have h : ∀ l : List AcceptedData, l.any (·.covers t) = true ↔ (.type t ∈ l ∨ ∃ g, .group g ∈ l ∧ g.contains t = true) := by
    intro l
    rw [List.any_eq_true]
    constructor
    · rintro ⟨a, ha, hc⟩
      cases a with
      | type t' => simp only [AcceptedData.covers, beq_iff_eq] at hc; exact .inl (hc ▸ ha)
      | group g => exact .inr ⟨g, ha, hc⟩
    · rintro (ha | ⟨g, ha, hc⟩)
      · exact ⟨_, ha, by simp [AcceptedData.covers]⟩
      · exact ⟨_, ha, hc⟩
  cases r with
  | no => simp [Recursion.eval, Descends]
  | always => simp [Recursion.eval, Descends]
  | limitedTo l => simpa [Recursion.eval, Descends] using h l
  | exceptFor l =>
    simp only [Recursion.eval, Descends]
    rw [← h l]
    simp

/-- Running an iterator to the end, without the start element. -/
theorem collect_below {X : Ext} {F : Nat} {d : Document} (hr : Reachable X F d) {k : Nat} {e : ElementData} {items : List Item} (hb : Below d k e items)
    {s : Selector} (hs : s.matchable = true) (r : Recursion) (sp : Bool) {G : Nat} (hG : rounds items < G) :
    selCollect { doc := d, selector := s, recursion := r, inclusive := false, spanreferences := sp } G (.init k) =
      .ok (results { doc := d, selector := s, recursion := r, inclusive := false, spanreferences := sp } []
        (preorder r.eval k e.elementtype 0 1 items)) :=
  selCollect_ordinary hG (pending_init hb) (seenRep_init k) (fun i _ => matches_ok hr.encoded s i.data) (.inr ⟨hs, rfl⟩)

theorem occurs_congr {d : Document} {go go' : ElementType → Prop} (h : ∀ t, go t ↔ go' t) {k : Nat} {x : Data} {p i n : Nat} :
    Occurs d go k x p i n ↔ Occurs d go' k x p i n := by
  rw [show go = go' from funext fun t => propext (h t)]

theorem mem_chosen {d : Document} {s : Selector} {is : List SelectItem} {y : SelectItem} :
    y ∈ chosen d s is ↔ y ∈ is ∧ s.matches d y.data = .ok true := by
  unfold chosen
  rw [List.mem_filter]
  refine and_congr_right fun _ => ?_
  cases s.matches d y.data with
  | error f => simp
  | ok b => simp

/-- References and children of stored elements resolve. -/
theorem occurs_live {X : Ext} {F : Nat} {d : Document} (hr : CleanReachable X F d) {go : ElementType → Prop} {k : Nat} {x : Data} {p i n : Nat}
    (h : Occurs d go k x p i n) : DataLive d x := by
  cases h with
  | direct he hx => exact (hr.cinv.elem _ _ he).data _ (List.mem_of_getElem? hx)
  | deeper _ _ _ he hx => exact (hr.cinv.elem _ _ he).data _ (List.mem_of_getElem? hx)

/-! ### The start element -/

theorem startItem_spec {d : Document} (hl : LinksAgree d) {k : Nat} {e : ElementData} (he : d.getElement k = some e) (hk : e.parent ≠ some k) :
    (∃ p, e.parent = some p ∧ startItem d k e = .ok (p, .element k)) ∨ (e.parent = none ∧ startItem d k e = .ok (k, .element 0)) := by
  unfold startItem
  cases hp : e.parent with
  | none => right; simp
  | some p =>
    left
    refine ⟨p, rfl, ?_⟩
    have hne : p ≠ k := fun h => hk (by rw [hp, h])
    simp only [hne, if_false]
    obtain ⟨pe, hpe, hmem⟩ := (hl.agree p k).mpr ⟨e, he, hp⟩
    rw [hpe]
    simp only
    have hs : (pe.index k).isSome := by
      unfold ElementData.index
      rw [List.findIdx?_isSome, List.any_eq_true]
      exact ⟨_, hmem, by simp [DataType.isElem]⟩
    cases hi : pe.index k with
    | none => rw [hi] at hs; cases hs
    | some i =>
      unfold ElementData.index at hi
      rw [List.findIdx?_eq_some_iff_getElem] at hi
      obtain ⟨hlt, hx, _⟩ := hi
      simp only [List.getElem?_eq_getElem hlt]
      cases hd : pe.data[i] with
      | element c => rw [hd] at hx; simp [DataType.isElem] at hx; rw [hx]
      | _ => rw [hd] at hx; simp [DataType.isElem] at hx

/-- The first round of an iterator that includes the start element. -/
theorem step_inclusive {cfg : SelCfg} {k p : Nat} {e : ElementData} {item : Data} (hinc : cfg.inclusive = true) (hs : cfg.selector.matchable = true)
    (he : cfg.doc.getElement k = some e) (hst : startItem cfg.doc k e = .ok (p, item)) {b : Bool} (hm : cfg.selector.matches cfg.doc item = .ok b) :
    step cfg (.init k) = if b then (.yield { data := item, parentKey := p, cursor := 0, depth := 0 }, { SelState.init k with iteration := 1 })
      else stepStack cfg { SelState.init k with iteration := 1 } := by
  unfold step
  simp only [SelState.init, hs, hinc, he, hst, hm]
  cases b <;> simp

/-- Running an iterator to the end, with the start element. -/
theorem collect_inclusive {X : Ext} {F : Nat} {d : Document} (hr : Reachable X F d) {k p : Nat} {e : ElementData} {items : List Item}
    (hb : Below d k e items) {item : Data} (hst : startItem d k e = .ok (p, item))
    {s : Selector} (hs : s.matchable = true) (r : Recursion) {G : Nat} (hG : rounds items + 1 < G) :
    selCollect { doc := d, selector := s, recursion := r, inclusive := true, spanreferences := false } G (.init k) =
      .ok (chosen d s ({ data := item, parentKey := p, cursor := 0, depth := 0 } :: preorder r.eval k e.elementtype 0 1 items)) := by
  obtain ⟨G, rfl⟩ : ∃ G', G = G' + 1 := ⟨G - 1, by omega⟩
  obtain ⟨b, hm⟩ := matches_ok hr.encoded s item
  let cfg : SelCfg := { doc := d, selector := s, recursion := r, inclusive := true, spanreferences := false }
  have hall : ∀ i ∈ preorder r.eval k e.elementtype 0 1 items, ∃ b, s.matches d i.data = .ok b := fun i _ => matches_ok hr.encoded s i.data
  have hp : Pending d r ({ SelState.init k with iteration := 1 } : SelState).stack (preorder r.eval k e.elementtype 0 1 items) (rounds items) := pending_init hb
  have hlater : ∀ G, rounds items < G → selCollect cfg G { SelState.init k with iteration := 1 } = .ok (chosen d s (preorder r.eval k e.elementtype 0 1 items)) :=
    fun G hG => selCollect_later (cfg := cfg) hG hp (S := []) (by exact seenRep_init k) hall (by simp)
  have hstep := step_inclusive (cfg := cfg) rfl hs (below_iff.mp hb).1 hst hm
  cases b with
  | true =>
    rw [if_pos rfl] at hstep
    rw [chosen_cons_true hm]
    unfold selCollect
    rw [hstep]
    simp only
    rw [hlater G (by omega)]
    rfl
  | false =>
    rw [if_neg (by simp)] at hstep
    rw [chosen_cons_false hm]
    exact selCollect_step (cfg := cfg) (by omega) hstep (by simp) hp (S := []) (by exact seenRep_init k) hall

theorem itemKey_eq_some {i : SelectItem} {k : Nat} : itemKey i = some k ↔ i.data = .element k ∨ i.data = .spanReference k := by
  unfold itemKey
  cases i.data <;> simp

theorem itemKey_spanOf {d : Document} {i : SelectItem} {k : Nat} (h : spanOf d i.data = some k) : itemKey i = some k := by
  rw [itemKey_eq_some]
  unfold spanOf at h
  cases hd : i.data with
  | element c =>
    rw [hd] at h
    simp only at h
    split at h
    · split at h
      · exact .inl (by rw [Option.some.inj h])
      · cases h
    · cases h
  | spanReference c => rw [hd] at h; simp only [Option.some.injEq] at h; exact .inr (by rw [h])
  | _ => rw [hd] at h; cases h

/-- The keys of spans among the selected keys are the spans among the items. -/
theorem spanKeys_sublist {d : Document} : ∀ (l : List SelectItem), ((l.filterMap itemKey).filter fun x => match d.getElement x with
    | some e => ElementGroup.span.contains e.elementtype
    | none => false).Sublist (l.filterMap fun i => spanOf d i.data)
  | [] => by simp
  | i :: is => by
    have ih := spanKeys_sublist (d := d) is
    rw [List.filterMap_cons, List.filterMap_cons]
    cases hd : i.data with
    | element c =>
      have h1 : itemKey i = some c := itemKey_eq_some.mpr (.inl hd)
      cases he : d.getElement c with
      | none =>
        have h2 : spanOf d (.element c) = none := by simp [spanOf, he]
        simpa only [h1, h2, List.filter_cons, he, Bool.false_eq_true, if_false] using ih
      | some e =>
        have h2 : spanOf d (.element c) = if ElementGroup.span.contains e.elementtype then some c else none := by simp [spanOf, he]
        simp only [h1, h2, List.filter_cons, he]
        split
        · exact ih.cons_cons c
        · exact ih
    | spanReference c =>
      have h1 : itemKey i = some c := itemKey_eq_some.mpr (.inr hd)
      have h2 : spanOf d (.spanReference c) = some c := rfl
      simp only [h1, h2]
      rw [List.filter_cons]
      generalize (match d.getElement c with
        | some e => ElementGroup.span.contains e.elementtype
        | none => false) = b
      cases b
      · exact ih.cons c
      · exact ih.cons_cons c
    | _ =>
      have h1 : itemKey i = none := by unfold itemKey; rw [hd]
      have h2 : spanOf d i.data = none := by rw [hd]; rfl
      rw [hd] at h2
      simp only [h1, h2]
      exact ih

theorem firstOccurrences_mem {d : Document} {i : SelectItem} : ∀ {l : List SelectItem} {S : List Nat}, i ∈ firstOccurrences d S l → i ∈ l
  | [], _, h => h
  | x :: xs, S, h => by
    unfold firstOccurrences at h
    split at h
    · split at h
      · exact List.mem_cons_of_mem _ (firstOccurrences_mem h)
      · rcases List.mem_cons.mp h with rfl | h
        · simp
        · exact List.mem_cons_of_mem _ (firstOccurrences_mem h)
    · rcases List.mem_cons.mp h with rfl | h
      · simp
      · exact List.mem_cons_of_mem _ (firstOccurrences_mem h)

theorem firstOccurrences_nodup {d : Document} : ∀ {l : List SelectItem} {S : List Nat},
    ((firstOccurrences d S l).filterMap fun i => spanOf d i.data).Nodup ∧ ∀ k ∈ (firstOccurrences d S l).filterMap (fun i => spanOf d i.data), k ∉ S
  | [], S => by simp [firstOccurrences]
  | i :: is, S => by
    unfold firstOccurrences
    cases hk : spanOf d i.data with
    | none =>
      obtain ⟨h1, h2⟩ := firstOccurrences_nodup (l := is) (S := S)
      simpa [hk] using ⟨h1, by simpa using h2⟩
    | some k =>
      simp only
      split
      · exact firstOccurrences_nodup
      · rename_i hmem
        obtain ⟨h1, h2⟩ := firstOccurrences_nodup (l := is) (S := k :: S)
        rw [List.filterMap_cons, hk]
        simp only
        refine ⟨List.nodup_cons.mpr ⟨fun h => absurd (h2 k h) (by simp), h1⟩, ?_⟩
        intro j hj
        rcases List.mem_cons.mp hj with rfl | hj
        · exact hmem
        · exact fun hjs => h2 j hj (by simp [hjs])

theorem firstOccurrences_complete {d : Document} : ∀ {l : List SelectItem} {S : List Nat} {i : SelectItem}, i ∈ l →
    i ∈ firstOccurrences d S l ∨ ∃ k, spanOf d i.data = some k ∧ (k ∈ S ∨ ∃ j ∈ firstOccurrences d S l, spanOf d j.data = some k)
  | [], _, _, h => by cases h
  | x :: xs, S, i, h => by
    unfold firstOccurrences
    rcases List.mem_cons.mp h with rfl | h
    · cases hk : spanOf d i.data with
      | none => simp
      | some k =>
        simp only
        split
        · exact .inr ⟨k, rfl, .inl (by assumption)⟩
        · simp
    · cases hk : spanOf d x.data with
      | none =>
        simp only
        rcases firstOccurrences_complete (d := d) (S := S) h with h | ⟨k, h1, h2 | ⟨j, h2, h3⟩⟩
        · exact .inl (by simp [h])
        · exact .inr ⟨k, h1, .inl h2⟩
        · exact .inr ⟨k, h1, .inr ⟨j, by simp [h2], h3⟩⟩
      | some kx =>
        simp only
        split
        · exact firstOccurrences_complete h
        · rcases firstOccurrences_complete (d := d) (S := kx :: S) h with h | ⟨k, h1, h2 | ⟨j, h2, h3⟩⟩
          · exact .inl (by simp [h])
          · rcases List.mem_cons.mp h2 with rfl | h2
            · exact .inr ⟨_, h1, .inr ⟨x, by simp, hk⟩⟩
            · exact .inr ⟨k, h1, .inl h2⟩
          · exact .inr ⟨k, h1, .inr ⟨j, by simp [h2], h3⟩⟩

end Folia
