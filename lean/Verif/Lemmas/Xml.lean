import Verif.XmlView
import Verif.Props.Select
import Verif.Lemmas.Text
import Verif.Props.Attributes
import Verif.Props.Declarations
/-! Lemmas on serialisation. -/
namespace Folia
open Document

/-- The line feed after an end tag. -/
def endNl (t : ElementType) : List WEvent := if nlAfterEnd t then [nl] else []

/-- The events that close tags, innermost first. -/
def closing (ts : List OpenTag) : List WEvent := ts.flatMap fun t => .endTag t.1 :: endNl t.2

theorem closeTags_append : ∀ (ts st : List OpenTag), closeTags ts.length (ts ++ st) = .ok (closing ts, st)
  | [], st => by simp [closeTags, closing]
  | (tag, t) :: ts, st => by
    simp only [List.length_cons, List.cons_append, closeTags, closeTags_append ts st]
    rfl

mutual
/-- The tags that are open after an item has been written. -/
def openIn : Item → List OpenTag
  | .text _ => []
  | .comment _ => []
  | .ref _ => []
  | .node _ e items => if items.isEmpty then [] else openAfter items ++ [(e.elementtype.asStr, e.elementtype)]
/-- See `openIn`. -/
def openAfter : List Item → List OpenTag
  | [] => []
  | i :: is => if is.isEmpty then openIn i else openAfter is
end

mutual
/-- The events for an item, without the end tags at the end. -/
def openItem (A : ElementData → List (String × String)) : Item → List WEvent
  | .text s => [.text (escape s)]
  | .comment s => [.comment (escape s)]
  | .ref _ => []
  | .node _ e items =>
    if items.isEmpty then .empty e.elementtype.asStr (A e) :: (if nlAfterStart e.elementtype then [nl] else [])
    else [.start e.elementtype.asStr (A e)] ++ (if nlAfterStart e.elementtype then [nl] else []) ++ openItems A items
/-- See `openItem`. -/
def openItems (A : ElementData → List (String × String)) : List Item → List WEvent
  | [] => []
  | i :: is => openItem A i ++ (if is.isEmpty then [] else closing (openIn i)) ++ openItems A is
end

theorem closing_append (a b : List OpenTag) : closing (a ++ b) = closing a ++ closing b := by simp [closing]

mutual
theorem openItem_false (A : ElementData → List (String × String)) : ∀ i, openItem A i ++ closing (openIn i) = itemXml A false i
  | .text s => by simp [openItem, openIn, itemXml, closing]
  | .comment s => by simp [openItem, openIn, itemXml, closing]
  | .ref s => by simp [openItem, openIn, itemXml, closing]
  | .node k e items => by
    rw [openItem, openIn, itemXml, ← openItems_false A items]
    cases items.isEmpty
    · simp [closing, endNl]
    · simp [closing]
theorem openItems_false (A : ElementData → List (String × String)) : ∀ is, openItems A is ++ closing (openAfter is) = itemsXml A false is
  | [] => by simp [openItems, openAfter, itemsXml, closing]
  | [i] => by simp [openItems, openAfter, itemsXml, ← openItem_false A i]
  | i :: j :: js => by
    rw [openItems, openAfter, itemsXml, ← openItems_false A (j :: js), Bool.false_and, ← openItem_false A i]
    simp
end

/-- The events that close tags at the end of the document. -/
def closingLast (ts : List OpenTag) : List WEvent := ts.map fun t => .endTag t.1

mutual
theorem openItem_last (A : ElementData → List (String × String)) : ∀ i, openItem A i ++ closingLast (openIn i) = itemXml A true i
  | .text s => by simp [openItem, openIn, itemXml, closingLast]
  | .comment s => by simp [openItem, openIn, itemXml, closingLast]
  | .ref s => by simp [openItem, openIn, itemXml, closingLast]
  | .node k e items => by
    rw [openItem, openIn, itemXml, ← openItems_last A items]
    cases items.isEmpty
    · simp [closingLast]
    · simp [closingLast]
theorem openItems_last (A : ElementData → List (String × String)) : ∀ is, openItems A is ++ closingLast (openAfter is) = itemsXml A true is
  | [] => by simp [openItems, openAfter, itemsXml, closingLast]
  | [i] => by simp [openItems, openAfter, itemsXml, ← openItem_last A i]
  | i :: j :: js => by
    rw [openItems, openAfter, itemsXml, ← openItems_last A (j :: js), show (true && (j :: js).isEmpty) = false by rfl, ← openItem_false A i]
    simp
end

/-- What `xmlLoop` does with a start or empty tag. -/
theorem xmlItem_node {X : Ext} {d : Document} {mask : List Bool} {A : ElementData → List (String × String)} {k : Nat} {e : ElementData}
    {items : List Item} (hb : Shows d (.node k e items)) (hA : elementAttrs X d mask e = .ok (A e)) (st : List OpenTag) :
    xmlItem X d mask (.element k) st = .ok (if items.isEmpty then
        (.empty e.elementtype.asStr (A e) :: (if nlAfterStart e.elementtype then [nl] else []), st)
      else (.start e.elementtype.asStr (A e) :: (if nlAfterStart e.elementtype then [nl] else []), (e.elementtype.asStr, e.elementtype) :: st)) := by
  obtain ⟨h1, h2, _⟩ := hb
  have : e.data.isEmpty = items.isEmpty := by rw [h2]; simp
  simp only [xmlItem, h1, hA, this]
  cases items <;> rfl

mutual
theorem loop_item {X : Ext} {d : Document} {mask : List Bool} {A : ElementData → List (String × String)} : ∀ (i : Item), Shows d i →
    (∀ e, InTree e i → elementAttrs X d mask e = .ok (A e)) → ∀ (s : SelectItem) (rest : List SelectItem) (prev : Nat)
    (st st0 : List OpenTag) (c : List WEvent), s.data = i.data → closeTags (prev - s.depth) st = .ok (c, st0) →
    xmlLoop X d mask (s :: (inside (fun _ => true) s.depth i ++ rest)) prev st =
      (xmlLoop X d mask rest (s.depth + (openIn i).length) (openIn i ++ st0)).map (c ++ openItem A i ++ ·)
  | .text t, _, _, s, rest, prev, st, st0, c, hs, hc => by
    simp only [inside, xmlLoop, hc, hs, Item.data, xmlItem, openIn, openItem, List.nil_append, List.length_nil, Nat.add_zero]
  | .comment t, _, _, s, rest, prev, st, st0, c, hs, hc => by
    simp only [inside, xmlLoop, hc, hs, Item.data, xmlItem, openIn, openItem, List.nil_append, List.length_nil, Nat.add_zero]
  | .ref t, _, _, s, rest, prev, st, st0, c, hs, hc => by
    simp only [inside, xmlLoop, hc, hs, Item.data, xmlItem, openIn, openItem, List.nil_append, List.length_nil, Nat.add_zero]
  | .node k e items, hb, hA, s, rest, prev, st, st0, c, hs, hc => by
    have ih := loop_items items hb.2.2 (fun j hj e' h => hA e' (.inner hj h)) k e.elementtype 0 (s.depth + 1) rest s.depth
      ((e.elementtype.asStr, e.elementtype) :: st0) ((e.elementtype.asStr, e.elementtype) :: st0) []
    simp only [inside, xmlLoop, hc, hs, Item.data, xmlItem_node hb (hA e .here), openIn, openItem]
    cases items with
    | nil => simp only [preorder, List.nil_append, List.length_nil, Nat.add_zero, List.isEmpty_nil, if_true]
    | cons i is =>
      have ih := ih (by simp) (by rw [show s.depth - (s.depth + 1) = 0 by omega]; rfl)
      simp only [List.isEmpty_cons, Bool.false_eq_true, if_false]
      rw [ih]
      simp only [List.length_append, List.length_cons, List.length_nil, List.append_assoc, List.cons_append, List.nil_append]
      rw [show s.depth + 1 + (openAfter (i :: is)).length = s.depth + ((openAfter (i :: is)).length + (0 + 1)) by omega]
      generalize xmlLoop X d mask rest _ _ = r
      cases r with
      | error f => rfl
      | ok evs => simp [Except.map]
theorem loop_items {X : Ext} {d : Document} {mask : List Bool} {A : ElementData → List (String × String)} : ∀ (is : List Item),
    ShowsAll d is → (∀ j ∈ is, ∀ e, InTree e j → elementAttrs X d mask e = .ok (A e)) → ∀ (k : Nat) (t : ElementType) (p n : Nat)
    (rest : List SelectItem) (prev : Nat) (st st0 : List OpenTag) (c : List WEvent), is ≠ [] → closeTags (prev - n) st = .ok (c, st0) →
    xmlLoop X d mask (preorder (fun _ => true) k t p n is ++ rest) prev st =
      (xmlLoop X d mask rest (n + (openAfter is).length) (openAfter is ++ st0)).map (c ++ openItems A is ++ ·)
  | [], _, _, _, _, _, _, _, _, _, _, _, h, _ => absurd rfl h
  | i :: is, hb, hA, k, t, p, n, rest, prev, st, st0, c, _, hc => by
    have h1 := loop_item i hb.1 (hA i (by simp)) { data := i.data, parentKey := k, cursor := p, depth := n }
      (preorder (fun _ => true) k t (p + 1) n is ++ rest) prev st st0 c rfl hc
    have h2 := loop_items is hb.2 (fun x hx => hA x (by simp [hx])) k t (p + 1) n rest (n + (openIn i).length)
      (openIn i ++ st0) st0 (closing (openIn i))
    simp only at h1
    rw [preorder, if_pos rfl, List.cons_append, List.append_assoc, h1]
    cases is with
    | nil => simp [preorder, openAfter, openItems]
    | cons j js =>
      rw [h2 (by simp) (by rw [show n + (openIn i).length - n = (openIn i).length by omega, closeTags_append]),
        show openAfter (i :: j :: js) = openAfter (j :: js) by rw [openAfter]; rfl,
        show openItems A (i :: j :: js) = openItem A i ++ closing (openIn i) ++ openItems A (j :: js) by rw [openItems]; rfl]
      generalize xmlLoop X d mask rest _ _ = r
      cases r with
      | error f => rfl
      | ok evs => simp [Except.map, List.append_assoc]
end

theorem inTree_live {d : Document} {e : ElementData} {i : Item} (hs : Shows d i) (h : InTree e i) : ∃ k, d.getElement k = some e := by
  induction h with
  | @here k e items => exact ⟨k, hs.1⟩
  | inner hi _ ih => exact ih (showsAll_iff.mp hs.2.2 _ hi)

/-- The whole loop of the serialiser, for a tree. -/
theorem xmlLoop_tree {X : Ext} {d : Document} {mask : List Bool} {A : ElementData → List (String × String)} {k : Nat} {e : ElementData}
    {items : List Item} (hb : Below d k e items) (hA : ∀ e', InTree e' (.node k e items) → elementAttrs X d mask e' = .ok (A e')) (p : Nat) :
    xmlLoop X d mask ({ data := .element k, parentKey := p, cursor := 0, depth := 0 } :: everything k e.elementtype items) 0 [] =
      .ok (itemXml A true (.node k e items)) := by
  have := loop_item (.node k e items) hb hA { data := .element k, parentKey := p, cursor := 0, depth := 0 } [] 0 [] [] [] rfl rfl
  simp only [inside, List.append_nil, List.nil_append, Nat.zero_add] at this
  rw [everything, this, xmlLoop, ← openItem_last]
  rfl

/-! ### Nesting -/

theorem nesting_append : ∀ (es : List WEvent) {st st' : List String} (es' : List WEvent), nesting st es = some st' →
    nesting st (es ++ es') = nesting st' es'
  | [], st, st', es', h => by simp only [nesting, Option.some.injEq] at h; rw [h]; rfl
  | .start t as :: es, st, st', es', h => nesting_append es es' (by simpa only [nesting] using h)
  | .empty t as :: es, st, st', es', h => by
    have h : nesting st es = some st' := by cases st <;> simpa only [nesting] using h
    have := nesting_append es es' h
    cases st <;> simpa only [nesting, List.cons_append] using this
  | .text t :: es, st, st', es', h => by
    have h : nesting st es = some st' := by cases st <;> simpa only [nesting] using h
    have := nesting_append es es' h
    cases st <;> simpa only [nesting, List.cons_append] using this
  | .comment t :: es, st, st', es', h => by
    have h : nesting st es = some st' := by cases st <;> simpa only [nesting] using h
    have := nesting_append es es' h
    cases st <;> simpa only [nesting, List.cons_append] using this
  | .endTag t :: es, [], st', es', h => by simp [nesting] at h
  | .endTag t :: es, t' :: st, st', es', h => by
    simp only [nesting] at h
    split at h
    · rename_i ht
      simp only [List.cons_append, nesting, ht, if_true]
      exact nesting_append es es' h
    · cases h

/-- The events are neither missing nor superfluous end tags. -/
def Balanced (es : List WEvent) : Prop := ∀ st, nesting st es = some st

theorem Balanced.append {a b : List WEvent} (ha : Balanced a) (hb : Balanced b) : Balanced (a ++ b) := fun st => by
  rw [nesting_append a b (ha st), hb]

theorem Balanced.nil : Balanced [] := fun st => by cases st <;> rfl
theorem Balanced.text (s : String) : Balanced [.text s] := fun st => by cases st <;> rfl
theorem Balanced.comment (s : String) : Balanced [.comment s] := fun st => by cases st <;> rfl
theorem Balanced.empty (t : String) (as : List (String × String)) : Balanced [.empty t as] := fun st => by cases st <;> rfl

theorem Balanced.wrap {es : List WEvent} (h : Balanced es) (t : String) (as : List (String × String)) :
    Balanced ([.start t as] ++ es ++ [.endTag t]) := fun st => by
  have h1 : nesting st [.start t as] = some (t :: st) := by cases st <;> rfl
  rw [List.append_assoc, nesting_append _ _ h1, nesting_append _ _ (h _)]
  simp [nesting]

theorem Balanced.nl (b : Bool) : Balanced (if b then [Folia.nl] else []) := by
  cases b
  · exact .nil
  · exact .text _

mutual
theorem itemXml_balanced (A : ElementData → List (String × String)) (last : Bool) : ∀ i, Balanced (itemXml A last i)
  | .text s => .text _
  | .comment s => .comment _
  | .ref _ => .nil
  | .node _ e items => by
    rw [itemXml]
    split
    · exact (Balanced.empty _ _).append (.nl _)
    · refine Balanced.append ?_ (.nl _)
      rw [List.append_assoc [_]]
      exact Balanced.wrap ((Balanced.nl _).append (itemsXml_balanced A last items)) _ _
theorem itemsXml_balanced (A : ElementData → List (String × String)) (last : Bool) : ∀ is, Balanced (itemsXml A last is)
  | [] => by rw [itemsXml]; exact .nil
  | i :: is => by rw [itemsXml]; exact (itemXml_balanced A _ i).append (itemsXml_balanced A last is)
end

/-! ### The attributes of elements -/

theorem plainAttrs_eq (X : Ext) : ∀ as : List Attribute, plainAttrs X as = .ok (printedAttrs X as)
  | [] => rfl
  | a :: as => by
    unfold plainAttrs
    rw [plainAttrs_eq X as]
    have hp := C39_printable_iff X a
    simp only [printedAttrs, List.filterMap_cons]
    cases hv : a.display X with
    | error f =>
      rw [hv] at hp
      have : a = .ignore ∨ a.decodable = true := by
        cases hd : a.decodable
        · exact .inl (Classical.byContradiction fun h => by obtain ⟨v, hv⟩ := hp.mpr ⟨h, hd⟩; cases hv)
        · exact .inr rfl
      rw [if_pos this]
    | ok v =>
      have := hp.mp ⟨v, hv⟩
      rw [if_neg (fun h => h.elim this.1 fun h => by rw [this.2] at h; cases h)]
      rfl

theorem printedAttrs_append (X : Ext) (as bs : List Attribute) : printedAttrs X (as ++ bs) = printedAttrs X as ++ printedAttrs X bs :=
  List.filterMap_append ..

theorem printedAttrs_refs (X : Ext) (enc : Enc) : printedAttrs X (encRefs enc) = [] := by
  obtain ⟨a1, a2, a3, a4⟩ := enc
  cases a1 <;> cases a2 <;> cases a3 <;> cases a4 <;> rfl

/-- The references of an element as they are written, for its declaration. -/
def refAttrs (d : Document) (t : ElementType) (enc : Enc) (dk : Nat) (dec : Declaration) : List (String × String) :=
  wattrOpt "set" (if getDefaultKey d.declarations.items dec.annotationtype = some dk ∨ t = .feature then none else dec.set) ++
  wattrOpt "subset" (enc.subset.bind dec.getSubset) ++
  wattrOpt "class" (enc.cls.bind fun c => if enc.subset.isSome then dec.getSubclass c else dec.getClass c) ++
  wattrOpt "processor" (if dec.processors.map some = [enc.proc] then none else (enc.proc.bind d.getProcessor).map (·.id))

theorem defaultMask_get {items : List (Option Declaration)} {k : Nat} {dec : Declaration} (h : items[k]? = some (some dec)) :
    (defaultMask items)[k]? = some (decide (getDefaultKey items dec.annotationtype = some k)) := by
  have hlen : (defaultMask items).length = items.length := by simp [defaultMask]
  have hk := (List.getElem?_eq_some_iff.mp h).1
  obtain ⟨b, hb⟩ : ∃ b, (defaultMask items)[k]? = some b := ⟨_, List.getElem?_eq_getElem (by omega)⟩
  rw [hb]
  have := (C08_default_mask items).2 k
  rw [hb] at this
  congr 1
  rw [eq_comm, Bool.eq_iff_iff, decide_eq_true_iff]
  constructor
  · intro hd
    refine Option.some.inj (this.mpr ⟨dec, h, ?_⟩)
    exact ((getDefaultKey_iff _ _ _).mp hd).2
  · intro hd
    subst hd
    obtain ⟨dec', h1, h2⟩ := this.mp rfl
    rw [h] at h1
    cases h1
    exact (getDefaultKey_iff _ _ _).mpr ⟨⟨dec, h, rfl⟩, h2⟩

theorem isDefaultProc_eq {d : Document} {dk : Nat} {dec : Declaration} (h : d.getDeclaration dk = some dec) (pk : Option Nat) :
    isDefaultProc d dk pk = decide (dec.processors.map some = [pk]) := by
  unfold isDefaultProc
  simp only [h]
  generalize dec.processors = ps
  rcases ps with _ | ⟨p, _ | ⟨q, r⟩⟩
  · simp
  · simp only [List.map_cons, List.map_nil, List.cons.injEq, and_true]
    by_cases hp : some p = pk <;> simp [hp]
  · simp

theorem getDeclaration_items {d : Document} {k : Nat} {dec : Declaration} (h : d.getDeclaration k = some dec) :
    d.declarations.items[k]? = some (some dec) := by
  unfold Document.getDeclaration Store.get at h
  split at h
  · rename_i hx; rw [hx, h]
  · cases h

theorem items_getDeclaration {d : Document} {k : Nat} {dec : Declaration} (h : d.declarations.items[k]? = some (some dec)) :
    d.getDeclaration k = some dec := by
  unfold Document.getDeclaration Store.get
  rw [h]

theorem elementAttrs_eq {X : Ext} {d : Document} {e : ElementData} {plain : List Attribute} {enc : Enc} (h : e.attribs = plain ++ encRefs enc)
    (hp : PlainAttribs plain) (hl : ∀ k, enc.dec = some k → ∃ dec, d.getDeclaration k = some dec) :
    elementAttrs X d (defaultMask d.declarations.items) e = .ok (printedAttrs X plain ++
      match enc.dec with
      | none => []
      | some dk => match d.getDeclaration dk with
        | none => []
        | some dec => refAttrs d e.elementtype enc dk dec) := by
  have hk := keysU_of_refs h hp
  obtain ⟨v1, v2, v3, v4, v5, v6⟩ := values_of_refs (d := d) h hp
  unfold elementAttrs encodedAttrs
  rw [plainAttrs_eq, h, printedAttrs_append, printedAttrs_refs, List.append_nil]
  simp only [hk.1, v3, v4, v5, v6, hk.2.2.1]
  cases hdk : enc.dec with
  | none => rfl
  | some dk =>
    obtain ⟨dec, hdec⟩ := hl dk hdk
    have hit := getDeclaration_items hdec
    simp only [bind, Except.bind, Pure.pure, Except.pure, defaultMask_get hit, isDefaultProc_eq hdec, expect, Option.bind_some, hdec, refAttrs]
    cases hpr : enc.proc.bind d.getProcessor with
    | none => by_cases hdef : getDefaultKey d.declarations.items dec.annotationtype = some dk <;>
        by_cases ht : e.elementtype = .feature <;> simp [hdef, ht]
    | some p => by_cases hdef : getDefaultKey d.declarations.items dec.annotationtype = some dk <;>
        by_cases ht : e.elementtype = .feature <;> by_cases hs : dec.processors.map some = [enc.proc] <;> simp [hdef, ht, hs]

/-! ### Fuel and the selector of the serialiser -/

theorem selCollect_next (cfg : SelCfg) : ∀ n st, Fuelled (selCollect cfg n st) (selCollect cfg (n + 1) st)
  | 0, _ => .inl rfl
  | n + 1, st => by
    unfold selCollect
    rcases step cfg st with ⟨_ | _ | _ | _, st'⟩
    · rcases selCollect_next cfg n st' with h | h
      · left; dsimp only; rw [h]; rfl
      · right; dsimp only; rw [h]
    · exact selCollect_next cfg n st'
    · exact .rfl
    · exact .rfl

theorem allData_matches {d : Document} {x : Data} (h : DataLive d x) : Selector.allData.matches d x = .ok true := by
  have hel : ∀ k, d.Live k → Selector.allData.matches d (.element k) = .ok true ∧ Selector.allData.matches d (.spanReference k) = .ok true := by
    rintro k ⟨e, he⟩
    simp [Selector.allData, Selector.matches, matchesChain, SelCore.matches, he, SelCore.matchesElement, cmpField, andAlso]
  cases x with
  | text s => rfl
  | comment s => rfl
  | element k => exact (hel k h).1
  | spanReference k => exact (hel k (h.imp fun _ h => h.1)).2
  | addElement e => cases h

theorem chosen_allData {d : Document} {is : List SelectItem} (h : ∀ i ∈ is, DataLive d i.data) : chosen d .allData is = is := by
  unfold chosen
  rw [List.filter_eq_self]
  intro i hi
  rw [allData_matches (h i hi)]

/-- Where the serialiser starts: a parent is needed unless the element is the body. -/
theorem xmlElements_tree {X : Ext} {F : Nat} {d : Document} (hr : CleanReachable X F d) (hf : d.Forest) {k : Nat} {e : ElementData}
    (he : d.getElement k = some e) (hk : e.parent ≠ none ∨ k = 0) {A : ElementData → List (String × String)}
    (hA : ∀ k e, d.getElement k = some e → elementAttrs X d (defaultMask d.declarations.items) e = .ok (A e)) :
    ∃ items, Below d k e items ∧ ∃ N, ∀ G, N ≤ G → xmlElements X d G k = .ok (itemXml A true (.node k e items)) := by
  obtain ⟨items, hb, p, _, N, hN⟩ := C23_inclusive hr hf he hk .allData rfl
  refine ⟨items, hb, N, fun G hG => ?_⟩
  have hlive : ∀ i ∈ ({ data := .element k, parentKey := p, cursor := 0, depth := 0 } :: everything k e.elementtype items : List SelectItem),
      DataLive d i.data := by
    intro i hi
    rcases List.mem_cons.mp hi with rfl | hi
    · exact ⟨e, he⟩
    · exact occurs_live hr ((mem_preorder hb i).mp hi)
  unfold xmlElements
  rw [hN G hG, chosen_allData hlive]
  exact xmlLoop_tree hb (fun e' h => by obtain ⟨k', h⟩ := inTree_live hb h; exact hA k' e' h) p

theorem xmlElements_next (X : Ext) (d : Document) (k n : Nat) : Fuelled (xmlElements X d n k) (xmlElements X d (n + 1) k) := by
  unfold xmlElements
  rcases selCollect_next { doc := d, selector := .allData, recursion := .always, inclusive := true, spanreferences := false } n (.init k) with h | h
  · left; rw [h]; rfl
  · right; rw [h]

/-! ### The metadata -/

theorem balanced_flatMap {α : Type} {f : α → List WEvent} (h : ∀ a, Balanced (f a)) : ∀ l : List α, Balanced (l.flatMap f)
  | [] => .nil
  | a :: l => by rw [List.flatMap_cons]; exact (h a).append (balanced_flatMap h l)

theorem xmlMetas_balanced (data : List (String × String)) : Balanced (xmlMetas data) :=
by
  unfold xmlMetas
  refine balanced_flatMap (fun kv => ?_) data
  exact ((Balanced.text (escape kv.2)).wrap "meta" [wattr "id" kv.1]).append (.text "\n")

theorem map_ok {α β : Type} {f : α → β} {r : Res α} {b : β} (h : r.map f = .ok b) : ∃ a, r = .ok a ∧ f a = b := by
  cases r with
  | error e => cases h
  | ok a => cases h; exact ⟨a, rfl, rfl⟩

theorem xmlAnnotators_balanced {d : Document} : ∀ {ps : List Nat} {evs}, xmlAnnotators d ps = .ok evs → Balanced evs
  | [], _, h => by cases h; exact .nil
  | p :: ps, evs, h => by
    unfold xmlAnnotators at h
    cases hp : d.getProcessor p with
    | none => rw [hp] at h; cases h
    | some proc =>
      rw [hp] at h
      obtain ⟨evs', h1, rfl⟩ := map_ok h
      exact (Balanced.empty _ _).append (xmlAnnotators_balanced h1)

theorem xmlDeclaration_balanced {d : Document} {dec : Declaration} {evs} (h : xmlDeclaration d dec = .ok evs) : Balanced evs := by
  unfold xmlDeclaration at h
  split at h
  · cases h; exact (Balanced.empty _ _).append (.text _)
  · obtain ⟨evs', h1, rfl⟩ := map_ok h
    have := ((xmlAnnotators_balanced h1).wrap (declTag dec) (declAttrs dec)).append (.text "\n")
    simpa [nl] using this

theorem xmlDeclarationList_balanced {d : Document} : ∀ {l evs}, xmlDeclarationList d l = .ok evs → Balanced evs
  | [], _, h => by cases h; exact .nil
  | none :: l, evs, h => xmlDeclarationList_balanced (l := l) h
  | some dec :: l, evs, h => by
    unfold xmlDeclarationList at h
    cases hp : xmlDeclaration d dec with
    | error f => rw [hp] at h; cases h
    | ok evs1 =>
      rw [hp] at h
      obtain ⟨evs', h1, rfl⟩ := map_ok h
      exact (xmlDeclaration_balanced hp).append (xmlDeclarationList_balanced h1)

theorem concatRes_balanced {α : Type} {f : α → Res (List WEvent)} (hf : ∀ a evs, f a = .ok evs → Balanced evs) : ∀ {l evs}, concatRes f l = .ok evs → Balanced evs
  | [], _, h => by cases h; exact .nil
  | a :: l, evs, h => by
    unfold concatRes at h
    cases hp : f a with
    | error f => rw [hp] at h; cases h
    | ok evs1 =>
      rw [hp] at h
      obtain ⟨evs', h1, rfl⟩ := map_ok h
      exact (hf a evs1 hp).append (concatRes_balanced hf h1)

theorem xmlProcessor_balanced {d : Document} : ∀ {n k evs}, xmlProcessor d n k = .ok evs → Balanced evs
  | 0, _, _, h => by cases h
  | n + 1, k, evs, h => by
    unfold xmlProcessor at h
    split at h
    · cases h; exact .nil
    · split at h
      · cases h; exact (Balanced.empty _ _).append (.text _)
      · obtain ⟨evs', h1, rfl⟩ := map_ok h
        have := ((concatRes_balanced (fun _ _ h => xmlProcessor_balanced h) h1).wrap "processor" (procAttrs ‹_›)).append (.text "\n")
        simpa [nl] using this

theorem xmlMetadata_balanced {d : Document} {n : Nat} {evs} (h : xmlMetadata d n = .ok evs) : Balanced evs := by
  unfold xmlMetadata xmlDeclarations xmlProvenance at h
  cases h1 : xmlDeclarationList d d.declarations.items with
  | error f => rw [h1] at h; cases h
  | ok a =>
    cases h2 : concatRes (xmlProcessor d n) d.chain with
    | error f => rw [h1, h2] at h; cases h
    | ok b =>
      rw [h1, h2] at h
      have ba := (((Balanced.text "\n").append (xmlDeclarationList_balanced h1)).wrap "annotations" []).append (.text "\n")
      have bb := (((Balanced.text "\n").append (concatRes_balanced (fun _ _ h => xmlProcessor_balanced h) h2)).wrap "provenance" []).append (.text "\n")
      have := ((((((Balanced.text "\n").append ba).append bb).append (xmlMetas_balanced d.metadata.data)).append
        (balanced_flatMap (fun sm : String × Metadata => xmlMetas_balanced sm.2.data) d.submetadata)).wrap "metadata"
          (wattrOpt "type" d.metadata.metadatatype ++ wattrOpt "src" d.metadata.src)).append (.text "\n")
      have hev := Except.ok.inj h
      subst hev
      simpa [nl, List.append_assoc] using this

end Folia
