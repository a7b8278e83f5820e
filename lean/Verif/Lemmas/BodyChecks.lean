import Verif.Lemmas.RoundSame
import Verif.Lemmas.SampleChecks
/-! Checks that decide, for concrete documents, hypotheses about the tree of the body. -/
namespace Folia
open Document

/-- The items for data items, given the trees of the elements. -/
def itemsAt (f : Nat → Option Item) : List Data → Option (List Item)
  | [] => some []
  | .text s :: rest => (itemsAt f rest).map (.text s :: ·)
  | .comment s :: rest => (itemsAt f rest).map (.comment s :: ·)
  | .spanReference k :: rest => (itemsAt f rest).map (.ref k :: ·)
  | .element k :: rest => match f k with
    | some i => (itemsAt f rest).map (i :: ·)
    | none => none
  | .addElement _ :: _ => none

/-- The tree below an element. -/
def treeAt (d : Document) : Nat → Nat → Option Item
  | 0, _ => none
  | n + 1, k => match d.getElement k with
    | some e => (itemsAt (treeAt d n) e.data).map (.node k e ·)
    | none => none

theorem itemsAt_shows {d : Document} {f : Nat → Option Item} (hf : ∀ k i, f k = some i → Shows d i ∧ i.data = .element k) : ∀ (data : List Data) {items : List Item},
    itemsAt f data = some items → data = items.map Item.data ∧ ShowsAll d items
  | [], _, h => by cases h; exact ⟨rfl, trivial⟩
  | x :: rest, items, h => by
    have key : ∀ i : Item, i.data = x → Shows d i → (itemsAt f rest).map (i :: ·) = some items → x :: rest = items.map Item.data ∧ ShowsAll d items := by
      intro i hi hs h
      obtain ⟨is, h1, rfl⟩ := Option.map_eq_some_iff.mp h
      obtain ⟨h2, h3⟩ := itemsAt_shows hf rest h1
      exact ⟨by rw [List.map_cons, hi, h2], hs, h3⟩
    cases x with
    | text s => exact key (.text s) rfl trivial h
    | comment s => exact key (.comment s) rfl trivial h
    | spanReference k => exact key (.ref k) rfl trivial h
    | element k =>
      simp only [itemsAt] at h
      cases hk : f k with
      | none => rw [hk] at h; cases h
      | some i =>
        rw [hk] at h
        exact key i (hf k i hk).2 (hf k i hk).1 h
    | addElement e => cases h

theorem treeAt_shows {d : Document} : ∀ (n k : Nat) {i : Item}, treeAt d n k = some i → Shows d i ∧ i.data = .element k
  | 0, _, _, h => by cases h
  | n + 1, k, i, h => by
    simp only [treeAt] at h
    cases he : d.getElement k with
    | none => rw [he] at h; cases h
    | some e =>
      rw [he] at h
      obtain ⟨items, h1, rfl⟩ := Option.map_eq_some_iff.mp h
      obtain ⟨h2, h3⟩ := itemsAt_shows (fun k i => treeAt_shows n k) e.data h1
      exact ⟨⟨he, h2, h3⟩, rfl⟩

mutual
/-- `Legible` as a check. -/
def legible : Bool → List Item → Bool
  | _, [] => true
  | clear, .text s :: rest => clear && !blank s && legible false rest
  | _, .comment s :: rest => decide (escape s = s) && !blank s && legible true rest
  | clear, .ref _ :: rest => legible clear rest
  | _, .node k e items :: rest => legibleIn (.node k e items) && legible (endsTight e.elementtype items) rest
/-- `LegibleIn` as a check. -/
def legibleIn : Item → Bool
  | .text _ => true
  | .comment _ => true
  | .ref _ => true
  | .node _ e items => legible (!nlAfterStart e.elementtype) items
end

mutual
theorem legible_sound : ∀ (items : List Item) {c : Bool}, legible c items = true → Legible c items
  | [], _, _ => by simp only [Legible]
  | .text s :: rest, c, h => by
    simp only [legible, Bool.and_eq_true, Bool.not_eq_true'] at h
    simp only [Legible]
    exact ⟨h.1.1, h.1.2, legible_sound rest h.2⟩
  | .comment s :: rest, c, h => by
    simp only [legible, Bool.and_eq_true, Bool.not_eq_true', decide_eq_true_eq] at h
    simp only [Legible]
    exact ⟨h.1.1, h.1.2, legible_sound rest h.2⟩
  | .ref k :: rest, c, h => by
    simp only [legible] at h
    simp only [Legible]
    exact legible_sound rest h
  | .node k e items :: rest, c, h => by
    simp only [legible, Bool.and_eq_true] at h
    simp only [Legible]
    exact ⟨legibleIn_sound (.node k e items) h.1, legible_sound rest h.2⟩
theorem legibleIn_sound : ∀ (i : Item), legibleIn i = true → LegibleIn i
  | .text _, _ => by simp only [LegibleIn]
  | .comment _, _ => by simp only [LegibleIn]
  | .ref _, _ => by simp only [LegibleIn]
  | .node k e items, h => by
    simp only [legibleIn] at h
    simp only [LegibleIn]
    exact legible_sound items h
end

mutual
/-- The elements in a list of trees. -/
def elementsIn : List Item → List ElementData
  | [] => []
  | i :: is => elementsOf i ++ elementsIn is
/-- The elements in a tree. -/
def elementsOf : Item → List ElementData
  | .text _ => []
  | .comment _ => []
  | .ref _ => []
  | .node _ e items => e :: elementsIn items
end

theorem elementsIn_mem {i : Item} {e : ElementData} : ∀ {items : List Item}, i ∈ items → e ∈ elementsOf i → e ∈ elementsIn items
  | j :: js, hi, he => by
    rw [elementsIn, List.mem_append]
    rcases List.mem_cons.mp hi with rfl | hi
    · exact .inl he
    · exact .inr (elementsIn_mem hi he)

theorem elementsOf_mem {i : Item} {e : ElementData} (h : InTree e i) : e ∈ elementsOf i := by
  induction h with
  | here => simp [elementsOf]
  | inner hi _ ih => rw [elementsOf]; exact List.mem_cons_of_mem _ (elementsIn_mem hi ih)

/-- A sufficient check for `Attribute.PrintsExactly`. -/
def exactAttr : Attribute → Bool
  | .offset _ | .lineNr _ | .dateTime _ | .confidence _ => false
  | _ => true

theorem exactAttr_sound {X : Ext} {a : Attribute} (h : exactAttr a = true) : a.PrintsExactly X := by
  cases a <;> first | exact trivial | cases h

/-- A sufficient check for `Rewritable`. -/
def rewritable (d : Document) (e : ElementData) : Bool :=
  decide ((ownAttribs e).map Attribute.attribtype).Nodup && (ownAttribs e).all exactAttr &&
  (!ElementGroup.layer.contains e.elementtype || (ownAttribs e).isEmpty) &&
  (!decide (e.elementtype = .feature) || (match e.getSubset d, e.getClass d with
    | .ok (some _), .ok (some _) => true
    | _, _ => false))

theorem rewritable_sound {X : Ext} {d : Document} {e : ElementData} (h : rewritable d e = true) : Rewritable X d e := by
  unfold rewritable at h
  simp only [Bool.and_eq_true, decide_eq_true_eq, List.all_eq_true, Bool.or_eq_true, Bool.not_eq_true', decide_eq_false_iff_not, List.isEmpty_iff] at h
  obtain ⟨⟨⟨h1, h2⟩, h3⟩, h4⟩ := h
  refine ⟨⟨h1, fun a ha => exactAttr_sound (h2 a ha)⟩, fun hl => ?_, fun hf k hk => ?_⟩
  · rcases h3 with h3 | h3
    · rw [hl] at h3; cases h3
    · exact .inl h3
  · rcases h4 with h4 | h4
    · exact absurd hf h4
    · split at h4
      · exact ⟨_, _, by assumption, by assumption⟩
      · cases h4

/-- A sufficient check for `RoomLeft`. -/
def roomLeft (d : Document) : Bool := d.declarations.items.all fun o => o.all fun dec =>
  (dec.classes.all fun st => decide (st.len < cap32)) && (dec.subsets.all fun st => decide (st.len < cap16)) && dec.subclasses.all fun st => decide (st.len < cap32)

theorem roomLeft_sound {d : Document} (h : roomLeft d = true) : RoomLeft d := by
  intro k dec hk
  have hm : some dec ∈ d.declarations.items := List.mem_of_getElem? (Store.get_eq_some.mp hk)
  have := List.all_eq_true.mp h _ hm
  simp only [Option.all_some, Bool.and_eq_true] at this
  refine ⟨fun st hs => ?_, fun st hs => ?_, fun st hs => ?_⟩
  · have h1 := this.1.1; rw [hs] at h1; simpa using h1
  · have h1 := this.1.2; rw [hs] at h1; simpa using h1
  · have h1 := this.2; rw [hs] at h1; simpa using h1

/-- The body of a concrete document can be written and read back. -/
def bodyOk (d : Document) (n : Nat) : Bool := match treeAt d n 0 with
  | some i => legibleIn i && (elementsOf i).all (rewritable d)
  | none => false

theorem bodyOk_sound {X : Ext} {d : Document} {n : Nat} (h : bodyOk d n = true) :
    ∃ e items, Below d 0 e items ∧ LegibleIn (.node 0 e items) ∧ ∀ e', InTree e' (.node 0 e items) → Rewritable X d e' := by
  unfold bodyOk at h
  split at h
  · rename_i i hi
    obtain ⟨h1, h2⟩ := treeAt_shows n 0 hi
    cases i with
    | node k e items =>
      simp only [Item.data, DataType.element.injEq] at h2
      subst h2
      simp only [Bool.and_eq_true, List.all_eq_true] at h
      exact ⟨e, items, h1, legibleIn_sound _ h.1, fun e' he' => rewritable_sound (h.2 e' (elementsOf_mem he'))⟩
    | _ => simp [Item.data] at h2
  · cases h

/-! ### Sets and processors -/

/-- A check for `SoleOfType`. -/
def soleOfType (d : Document) (t : AnnotationType) : Bool :=
  ((List.range d.declarations.items.length).filter fun k => decide ((d.getDeclaration k).map (·.annotationtype) = some t)).length = 1

theorem soleOfType_sound {d : Document} {t : AnnotationType} (h : soleOfType d t = true) : SoleOfType d t := by
  unfold soleOfType at h
  simp only [decide_eq_true_eq] at h
  obtain ⟨k, hk⟩ := List.length_eq_one_iff.mp h
  have hiff : ∀ j, j = k ↔ j < d.declarations.items.length ∧ (d.getDeclaration j).map (·.annotationtype) = some t := by
    intro j
    rw [← List.mem_singleton, ← hk, List.mem_filter, List.mem_range, decide_eq_true_eq]
  obtain ⟨dec, h1, h2⟩ := Option.map_eq_some_iff.mp ((hiff k).mp rfl).2
  exact ⟨k, dec, h1, h2, fun j dec' h3 h4 => (hiff j).mpr ⟨Store.get_lt h3, by rw [h3, ← h4]; rfl⟩⟩

/-- A sufficient check for `Settled`. -/
def settled (ps : DocumentProperties) (d : Document) : Bool :=
  (d.declarations.items.all fun o => o.all fun dec => decide (dec.processors ≠ []) && (dec.processors.all fun p => d.chain.any fun c => decide (c = p) ||
    (match d.getProcessor c with
      | some x => decide (p ∈ x.processors)
      | none => false)) && (dec.set.isSome || soleOfType d dec.annotationtype)) &&
  ps.declare.all fun ts => d.declarations.items.any fun o => decide (o.map (fun dec => (dec.annotationtype, dec.set)) = some ts)

theorem settled_sound {ps : DocumentProperties} {d : Document} (h : settled ps d = true) : Settled ps d := by
  unfold settled at h
  simp only [Bool.and_eq_true, List.all_eq_true] at h
  obtain ⟨h1, h2⟩ := h
  have key : ∀ k dec, d.getDeclaration k = some dec → dec.processors ≠ [] ∧ (∀ p ∈ dec.processors, ∃ c ∈ d.chain, d.ProcOver c p) ∧ (dec.set = none → SoleOfType d dec.annotationtype) := by
    intro k dec hk
    have h3 := h1 (some dec) (List.mem_of_getElem? (Store.get_eq_some.mp hk))
    simp only [Option.all_some, Bool.and_eq_true, decide_eq_true_eq, List.all_eq_true, List.any_eq_true, Bool.or_eq_true] at h3
    refine ⟨h3.1.1, fun p hp => ?_, fun hn => ?_⟩
    · obtain ⟨c, hc, h4⟩ := h3.1.2 p hp
      refine ⟨c, hc, ?_⟩
      rcases h4 with rfl | h4
      · exact .here _
      · split at h4
        · rename_i x hx
          exact .step ⟨x, hx, of_decide_eq_true h4⟩ (.here _)
        · cases h4
    · rcases h3.2 with h4 | h4
      · rw [hn] at h4; cases h4
      · exact soleOfType_sound h4
  refine ⟨fun k dec hk => ⟨(key k dec hk).1, (key k dec hk).2.1⟩, fun k dec hk => (key k dec hk).2.2, fun ts hts => ?_⟩
  obtain ⟨o, ho, h3⟩ := List.any_eq_true.mp (h2 ts hts)
  obtain ⟨dec, rfl, rfl⟩ := Option.map_eq_some_iff.mp (of_decide_eq_true h3)
  obtain ⟨k, hk⟩ := List.mem_iff_getElem?.mp ho
  exact ⟨k, dec, Store.get_eq_some.mpr hk, rfl, rfl⟩

/-- A class is written. -/
theorem writes_class {X : Ext} {d : Document} {e : ElementData} {c : String} (h : e.getClass d = .ok (some c)) : WritesRefs X d e := by
  rintro l ⟨refs, rfl, ⟨h1, rfl⟩ | ⟨k, dec, set, subset, cls, proc, _, _, _, h4, rfl, _⟩⟩ heq
  · unfold ElementData.getClass ElementData.getDeclaration at h
    rw [h1] at h
    cases hk : e.classKeyU with
    | error f => rw [hk] at h; cases h
    | ok o => rw [hk] at h; cases o <;> cases h
  · rw [h] at h4
    have h4 := Except.ok.inj h4
    subst h4
    have := congrArg List.length heq
    simp [wattrOpt, wattr] at this

/-- A sufficient check for `Creditable`. -/
def creditable (d : Document) (e : ElementData) : Bool := match e.declarationKeyU with
  | .ok (some _) => (!e.elementtype.annotationtype.isSome || ElementGroup.layer.contains e.elementtype || (match e.getClass d, e.processorKeyU with
      | .ok (some _), .ok (some _) => true
      | _, _ => false)) &&
    (!decide (e.elementtype = .feature) || (decide (e.processorKeyU = .ok none) && (match e.parent with
      | some pk => match d.getElement pk with
        | some pe => match pe.elementtype.annotationtype with
          | some t => soleOfType d t
          | none => true
        | none => true
      | none => true)))
  | _ => true

theorem creditable_sound {X : Ext} {d : Document} {e : ElementData} (h : creditable d e = true) : Creditable X d e := by
  unfold creditable at h
  refine ⟨fun k ht hl hk => ?_, fun k hf hk => ?_⟩
  · rw [hk] at h
    simp only [Bool.and_eq_true] at h
    have h1 := h.1
    rw [ht, hl] at h1
    simp only [Bool.not_true, Bool.false_or] at h1
    split at h1
    · exact ⟨writes_class (by assumption), _, by assumption⟩
    · cases h1
  · rw [hk] at h
    simp only [Bool.and_eq_true] at h
    have h1 := h.2
    rw [decide_eq_true hf] at h1
    simp only [Bool.not_true, Bool.false_or, Bool.and_eq_true, decide_eq_true_eq] at h1
    refine ⟨h1.1, fun pk pe t hp hpe ht => ?_⟩
    have h2 := h1.2
    rw [hp] at h2
    simp only at h2
    rw [hpe] at h2
    simp only at h2
    rw [ht] at h2
    exact soleOfType_sound h2

/-- The elements in the body satisfy a check. -/
def bodyAll (d : Document) (n : Nat) (f : ElementData → Bool) : Bool := match treeAt d n 0 with
  | some i => (elementsOf i).all f
  | none => false

theorem bodyAll_sound {d : Document} {n : Nat} {f : ElementData → Bool} (h : bodyAll d n f = true) {e : ElementData} {items : List Item} (hb : Below d 0 e items) :
    ∀ e', InTree e' (.node 0 e items) → f e' = true := by
  unfold bodyAll at h
  split at h
  · rename_i i hi
    obtain ⟨h1, h2⟩ := treeAt_shows n 0 hi
    have := shows_unique h1 hb h2
    subst this
    exact fun e' he' => List.all_eq_true.mp h e' (elementsOf_mem he')
  · cases h

/-- A sufficient check for `Repeatable`, for elements that fulfil the check for `Creditable`. -/
def repeatable (d : Document) (e : ElementData) : Bool := match e.declarationKeyU with
  | .ok (some k) => !e.elementtype.annotationtype.isSome || (match e.processorKeyU, d.getDeclaration k with
      | .ok (some _), _ => true
      | _, some dec => decide (dec.processors.length = 1)
      | _, none => true)
  | _ => !ElementGroup.layer.contains e.elementtype

theorem repeatable_sound {X : Ext} {d : Document} {e : ElementData} (hc : Creditable X d e) (h : repeatable d e = true) : Repeatable d e := by
  unfold repeatable at h
  refine ⟨fun t k dec ht hk hd => ?_, hc.feature, fun t hl hk => ?_⟩
  · rw [hk, ht] at h
    simp only [Option.isSome_some, Bool.not_true, Bool.false_or, hd] at h
    split at h
    · exact .inl ⟨_, by assumption⟩
    · rename_i heq _
      cases heq
      exact .inr (List.length_eq_one_iff.mp (of_decide_eq_true h))
    · rename_i heq _
      cases heq
  · rw [hk] at h
    simp only [hl, Bool.not_true] at h
    cases h

end Folia
