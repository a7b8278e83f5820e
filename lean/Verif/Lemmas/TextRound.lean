import Verif.Lemmas.TextSim
import Verif.Props.RoundBody
import Verif.Props.Elements
/-! Corresponding elements of a document and of what is read back from it have the same text. -/
namespace Folia
open Document

/-- An item of the tree, with everything below it. -/
inductive SubItem : Item → Item → Prop
  | refl {i} : SubItem i i
  | inner {i k e items j} : j ∈ items → SubItem i j → SubItem i (.node k e items)

theorem SubItem.trans {a b c : Item} (h1 : SubItem a b) (h2 : SubItem b c) : SubItem a c := by
  induction h2 with
  | refl => exact h1
  | inner hm _ ih => exact .inner hm ih

theorem inTree_sub {e : ElementData} {i : Item} (h : InTree e i) : ∃ k items, SubItem (.node k e items) i := by
  induction h with
  | here => exact ⟨_, _, .refl⟩
  | inner hm _ ih =>
    obtain ⟨k, items, h⟩ := ih
    exact ⟨k, items, .inner hm h⟩

theorem sub_inTree {k : Nat} {e : ElementData} {items : List Item} {i : Item} (h : SubItem (.node k e items) i) : InTree e i := by
  generalize hx : Item.node k e items = x at h
  induction h with
  | refl => subst hx; exact .here
  | inner hm _ ih => exact .inner hm ih

theorem showsAll_mem {d : Document} : ∀ {is : List Item}, ShowsAll d is → ∀ i ∈ is, Shows d i
  | i :: is, h, j, hj => by
    rcases List.mem_cons.mp hj with rfl | hj
    · exact h.1
    · exact showsAll_mem h.2 j hj

theorem shows_sub {d : Document} {i j : Item} (h : SubItem i j) (hs : Shows d j) : Shows d i := by
  induction h with
  | refl => exact hs
  | inner hm _ ih => exact ih (showsAll_mem hs.2.2 _ hm)

theorem matchesAll_node {R : ElementData → ElementData → Prop} {d' : Document} {par : Option Nat} {k : Nat} {e : ElementData} {sub : List Item} :
    ∀ {items : List Item} {ys : List Data}, MatchesAll R d' par ys items → .node k e sub ∈ items → ∃ c, Matches R d' par c (.node k e sub)
  | .text s :: rest, ys, h, hm => by
    obtain ⟨ys', _, h⟩ := h
    exact matchesAll_node h ((List.mem_cons.mp hm).resolve_left (by intro hc; cases hc))
  | .comment s :: rest, ys, h, hm => by
    obtain ⟨ys', _, h⟩ := h
    exact matchesAll_node h ((List.mem_cons.mp hm).resolve_left (by intro hc; cases hc))
  | .ref s :: rest, ys, h, hm => by
    have h : MatchesAll R d' par ys rest := by simpa [MatchesAll] using h
    exact matchesAll_node h ((List.mem_cons.mp hm).resolve_left (by intro hc; cases hc))
  | .node k0 e0 i0 :: rest, ys, h, hm => by
    obtain ⟨c, ys', _, h1, h2⟩ := h
    rcases List.mem_cons.mp hm with hc | hm
    · cases hc
      exact ⟨c, h1⟩
    · exact matchesAll_node h2 hm

theorem matches_sub {R : ElementData → ElementData → Prop} {d' : Document} {i j : Item} (h : SubItem i j) : ∀ {par : Option Nat} {k' : Nat}, Matches R d' par k' j →
    ∀ {k e items}, i = .node k e items → ∃ par' c, Matches R d' par' c i := by
  induction h with
  | refl => exact fun hm _ _ _ _ => ⟨_, _, hm⟩
  | @inner k e items j hmem hs ih =>
    intro par k' hm k0 e0 items0 hi
    obtain ⟨e', _, _, _, h⟩ := hm
    cases j with
    | node k1 e1 i1 =>
      obtain ⟨c, hc⟩ := matchesAll_node h hmem
      exact ih hc hi
    | text s => subst hi; cases hs
    | comment s => subst hi; cases hs
    | ref s => subst hi; cases hs

theorem findSome_own {α : Type} (f : Attribute → Option α) (hf : ∀ a, (!a.decodable && a != .ignore) = false → f a = none) (e : ElementData) :
    (ownAttribs e).findSome? f = e.attribs.findSome? f := by
  unfold ownAttribs
  induction e.attribs with
  | nil => rfl
  | cons a as ih =>
    by_cases ha : (!a.decodable && a != .ignore) = true
    · rw [List.filter_cons_of_pos (by exact ha), List.findSome?_cons, List.findSome?_cons, ih]
    · rw [List.filter_cons_of_neg (by exact ha), List.findSome?_cons, hf a (by simpa using ha), ih]

theorem find_own (f : Attribute → Bool) (hf : ∀ a, (!a.decodable && a != .ignore) = false → f a = false) (e : ElementData) :
    (ownAttribs e).find? f = e.attribs.find? f := by
  unfold ownAttribs
  induction e.attribs with
  | nil => rfl
  | cons a as ih =>
    by_cases ha : (!a.decodable && a != .ignore) = true
    · rw [List.filter_cons_of_pos (by exact ha), List.find?_cons, List.find?_cons, ih]
    · rw [List.filter_cons_of_neg (by exact ha), List.find?_cons, hf a (by simpa using ha), ih]

theorem SameContent.id {d d' : Document} {e x : ElementData} (h : SameContent d d' e x) : x.id = e.id := by
  have hf : ∀ a : Attribute, (!a.decodable && a != .ignore) = false → (match a with | .id s => some s | _ => (none : Option String)) = none := by
    intro a ha
    cases a <;> first | rfl | (simp [Attribute.decodable] at ha)
  have hx : (ownAttribs x).findSome? _ = x.id := findSome_own _ hf x
  have he : (ownAttribs e).findSome? _ = e.id := findSome_own _ hf e
  rw [← hx, ← he, h.own]

theorem SameContent.idref {d d' : Document} {e x : ElementData} (h : SameContent d d' e x) : x.idref = e.idref := by
  have hf : ∀ a : Attribute, (!a.decodable && a != .ignore) = false → (match a with | .idref s => some s | _ => (none : Option String)) = none := by
    intro a ha
    cases a <;> first | rfl | (simp [Attribute.decodable] at ha)
  have hx : (ownAttribs x).findSome? _ = x.idref := findSome_own _ hf x
  have he : (ownAttribs e).findSome? _ = e.idref := findSome_own _ hf e
  rw [← hx, ← he, h.own]

theorem SameContent.space {d d' : Document} {e x : ElementData} (h : SameContent d d' e x) : x.attrib .SPACE = e.attrib .SPACE := by
  have hf : ∀ a : Attribute, (!a.decodable && a != .ignore) = false → (a.attribtype == .SPACE) = false := by
    intro a ha
    cases a <;> first | rfl | (simp [Attribute.decodable] at ha)
  unfold ElementData.attrib
  rw [← find_own _ hf x, ← find_own _ hf e, h.own]

/-- The element of `d'` that stands for an element in a tree of `d`. -/
def Counterpart (d d' : Document) (root : Item) (e e' : ElementData) : Prop :=
  ∃ k items par k', SubItem (.node k e items) root ∧ Matches (SameContent d d') d' par k' (.node k e items) ∧ d'.getElement k' = some e'

theorem counterpart_of {d d' : Document} {root : Item} {par : Option Nat} {k' : Nat} (hm : Matches (SameContent d d') d' par k' root) {e : ElementData}
    (he : InTree e root) : ∃ k'' e', d'.getElement k'' = some e' ∧ Counterpart d d' root e e' ∧ SameContent d d' e e' := by
  obtain ⟨k, items, hs⟩ := inTree_sub he
  obtain ⟨par', c, hc⟩ := matches_sub hs hm rfl
  obtain ⟨e', h1, h2, h3, h4⟩ := id hc
  exact ⟨c, e', h1, ⟨k, items, par', c, hs, hc, h1⟩, h3⟩

theorem silentItems_own {R : ElementData → ElementData → Prop} {d d' : Document} {xs : List Data} : ∀ {ys : List Data}, TextItems R d d' false xs (ownItems ys) → TextItems R d d' false xs ys
  | [], h => h
  | .spanReference k :: ys, h => .right .span (silentItems_own (ys := ys) (by simpa [ownItems] using h))
  | .text s :: ys, h => by
    replace h : TextItems R d d' false xs (.text s :: ownItems ys) := by simpa [ownItems] using h
    generalize hz : DataType.text s :: ownItems ys = z at h
    induction h with
    | nil => cases hz
    | text h ih => cases hz; exact .text (silentItems_own h)
    | element => cases hz
    | left hs h ih => exact .left hs (ih hz)
    | right hs h ih => cases hz; cases hs
    | inert hm => cases hm
  | .comment s :: ys, h => by
    replace h : TextItems R d d' false xs (.comment s :: ownItems ys) := by simpa [ownItems] using h
    generalize hz : DataType.comment s :: ownItems ys = z at h
    induction h with
    | nil => cases hz
    | text h ih => cases hz
    | element => cases hz
    | left hs h ih => exact .left hs (ih hz)
    | right hs h ih => cases hz; exact .right hs (silentItems_own h)
    | inert hm => cases hm
  | .element s :: ys, h => by
    replace h : TextItems R d d' false xs (.element s :: ownItems ys) := by simpa [ownItems] using h
    generalize hz : DataType.element s :: ownItems ys = z at h
    induction h with
    | nil => cases hz
    | text h ih => cases hz
    | element h1 h2 hr h => cases hz; exact .element h1 h2 hr (silentItems_own h)
    | left hs h ih => exact .left hs (ih hz)
    | right hs h ih => cases hz; exact .right hs (silentItems_own h)
    | inert hm => cases hm
  | .addElement s :: ys, h => by
    replace h : TextItems R d d' false xs (.addElement s :: ownItems ys) := by simpa [ownItems] using h
    generalize hz : DataType.addElement s :: ownItems ys = z at h
    induction h with
    | nil => cases hz
    | text h ih => cases hz
    | element => cases hz
    | left hs h ih => exact .left hs (ih hz)
    | right hs h ih => cases hz; exact .right hs (silentItems_own h)
    | inert hm => cases hm

theorem items_counterparts {d d' : Document} {root : Item} {par : Option Nat} : ∀ {items : List Item} {ys : List Data}, ShowsAll d items → (∀ i ∈ items, SubItem i root) →
    MatchesAll (SameContent d d') d' par ys items → TextItems (Counterpart d d' root) d d' false (items.map Item.data) ys
  | [], ys, _, _, h => by
    have h : ys = [] := by simpa [MatchesAll] using h
    subst h
    exact .nil
  | .text s :: rest, ys, hs, hi, h => by
    obtain ⟨ys', rfl, h⟩ := h
    exact .text (items_counterparts hs.2 (fun i hm => hi i (List.mem_cons_of_mem _ hm)) h)
  | .comment s :: rest, ys, hs, hi, h => by
    obtain ⟨ys', rfl, h⟩ := h
    exact .left .comment (.right .comment (items_counterparts hs.2 (fun i hm => hi i (List.mem_cons_of_mem _ hm)) h))
  | .ref s :: rest, ys, hs, hi, h => .left .span (items_counterparts (ys := ys) hs.2 (fun i hm => hi i (List.mem_cons_of_mem _ hm)) h)
  | .node k e items :: rest, ys, hs, hi, h => by
    obtain ⟨c, ys', rfl, h1, h⟩ := h
    obtain ⟨e', h2, h3, h4, h5⟩ := id h1
    exact .element hs.1.1 h2 ⟨k, items, par, c, hi _ (List.mem_cons_self ..), h1, h2⟩
      (items_counterparts hs.2 (fun i hm => hi i (List.mem_cons_of_mem _ hm)) h)

/-- The word reference refers to an element in the tree, by the identifier of that element. -/
def RefersWithin (root : Item) (e : ElementData) : Prop := ∃ i t, e.idref = some i ∧ InTree t root ∧ t.id = some i

theorem counterpart_sim {X : Ext} {F F' : Nat} {d d' : Document} (hd : Reachable X F d) (hd' : Reachable X F' d') {root : Item} (hs : Shows d root) {par : Option Nat}
    {k' : Nat} (hm : Matches (SameContent d d') d' par k' root) (hrefs : ∀ e, InTree e root → e.elementtype = .wordReference → RefersWithin root e) :
    TextSim (Counterpart d d' root) d d' := by
  have hsame : ∀ {e e'}, Counterpart d d' root e e' → SameContent d d' e e' := by
    rintro e e' ⟨k, items, par, k', h1, ⟨e2, h2, h3, h4, h5⟩, h6⟩
    rw [h2] at h6
    cases h6
    exact h4
  have hitems : ∀ {e e'}, Counterpart d d' root e e' → TextItems (Counterpart d d' root) d d' false e.data e'.data := by
    rintro e e' ⟨k, items, par, k', h1, ⟨e2, h2, h3, h4, h5⟩, h6⟩
    rw [h2] at h6
    cases h6
    have hsh := shows_sub h1 hs
    rw [hsh.2.1]
    exact silentItems_own (items_counterparts hsh.2.2 (fun i hi => (SubItem.inner hi .refl).trans h1) h5)
  have hdel : DelimSim (Counterpart d d' root) d d' := ⟨fun h => (hsame h).type, fun h => (hsame h).space, fun h _ => (hitems h).lastChild⟩
  refine ⟨fun h => (hsame h).type, fun h _ retain n => hdel.delimiter retain n h, fun h _ => ⟨false, hitems h, by intro h; cases h⟩, ?_⟩
  · intro e e' h hw
    have hin : InTree e root := by
      obtain ⟨k, items, par, k', h1, _⟩ := id h
      exact sub_inTree h1
    obtain ⟨i, t, hi, ht, hti⟩ := hrefs e hin hw
    obtain ⟨kt, hkt⟩ := inTree_live hs ht
    obtain ⟨k2, t', ht', hct, hst⟩ := counterpart_of hm ht
    refine ⟨some t, some t', ?_, ?_, .some hct⟩
    · simp only [ElementData.resolve, hi]
      exact (C62_found hd hkt hti).2
    · simp only [ElementData.resolve, (hsame h).idref, hi]
      exact (C62_found hd' ht' (hst.id.trans hti)).2

end Folia
