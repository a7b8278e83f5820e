import Verif.Lemmas.View
/-! The pre-order list contains the items that occur, once each. -/
namespace Folia
open Document

theorem mem_preorder_cons {go : ElementType → Bool} {k i n : Nat} {t : ElementType} {x : Item} {xs : List Item} {y : SelectItem} :
    y ∈ preorder go k t i n (x :: xs) ↔ y = { data := x.data, parentKey := k, cursor := i, depth := n } ∨
      (go t = true ∧ y ∈ inside go n x) ∨ y ∈ preorder go k t (i + 1) n xs := by
  rw [preorder, List.mem_cons, List.mem_append]
  by_cases h : go t = true
  · simp [h]
  · simp [h]

mutual
theorem preorder_occurs {d : Document} {go : ElementType → Bool} {root : Nat} : ∀ {items : List Item} {p : Nat} {pe : ElementData} {i n : Nat},
    d.getElement p = some pe → pe.data.drop i = items.map Item.data → ShowsAll d items →
    (∀ x j, pe.data[j]? = some x → Occurs d (go · = true) root x p j n) →
    ∀ y ∈ preorder go p pe.elementtype i n items, Occurs d (go · = true) root y.data y.parentKey y.cursor y.depth
  | [], _, _, _, _, _, _, _, _, _, h => by simp [preorder] at h
  | x :: xs, p, pe, i, n, hp, hd, hs, ho, y, h => by
    have hx : pe.data[i]? = some x.data ∧ pe.data.drop (i + 1) = xs.map Item.data := by
      have h1 : (pe.data.drop i)[0]? = some x.data := by rw [hd]; rfl
      rw [List.getElem?_drop] at h1
      refine ⟨by simpa using h1, ?_⟩
      rw [← List.drop_drop, hd]; rfl
    rcases mem_preorder_cons.mp h with rfl | ⟨hg, h⟩ | h
    · exact ho _ _ hx.1
    · exact inside_occurs hp hg hs.1 (ho _ _ hx.1) y h
    · exact preorder_occurs hp hx.2 hs.2 ho y h
theorem inside_occurs {d : Document} {go : ElementType → Bool} {root : Nat} : ∀ {x : Item} {p : Nat} {pe : ElementData} {i n : Nat},
    d.getElement p = some pe → go pe.elementtype = true → Shows d x → Occurs d (go · = true) root x.data p i n →
    ∀ y ∈ inside go n x, Occurs d (go · = true) root y.data y.parentKey y.cursor y.depth
  | .node k e items, _, _, _, _, hp, hg, hs, ho, y, h =>
    preorder_occurs hs.1 (by simpa using hs.2.1) hs.2.2 (fun _ _ hx => .deeper ho hp hg hs.1 hx) y h
  | .text _, _, _, _, _, _, _, _, _, _, h => by simp [inside] at h
  | .comment _, _, _, _, _, _, _, _, _, _, h => by simp [inside] at h
  | .ref _, _, _, _, _, _, _, _, _, _, h => by simp [inside] at h
end

theorem preorder_here {go : ElementType → Bool} {k n : Nat} {t : ElementType} : ∀ {items : List Item} {i j : Nat} {x : Item},
    items[j]? = some x → (⟨x.data, k, i + j, n⟩ : SelectItem) ∈ preorder go k t i n items
  | [], _, _, _, h => by simp at h
  | y :: ys, i, 0, x, h => by
    simp only [List.getElem?_cons_zero, Option.some.injEq] at h
    exact mem_preorder_cons.mpr (.inl (by rw [h]; rfl))
  | y :: ys, i, j + 1, x, h => by
    rw [List.getElem?_cons_succ] at h
    have := preorder_here (go := go) (k := k) (n := n) (t := t) (i := i + 1) h
    rw [show i + (j + 1) = i + 1 + j by omega]
    exact mem_preorder_cons.mpr (.inr (.inr this))

mutual
theorem preorder_closed {d : Document} {go : ElementType → Bool} {c p j m q : Nat} {pe e : ElementData} {x : Data} (hpe : d.getElement p = some pe)
    (hg : go pe.elementtype = true) (hc : d.getElement c = some e) (hx : e.data[q]? = some x) :
    ∀ {items : List Item} {k : Nat} {ke : ElementData} {i n : Nat}, d.getElement k = some ke → ShowsAll d items →
    (⟨.element c, p, j, m⟩ : SelectItem) ∈ preorder go k ke.elementtype i n items →
    (⟨x, c, q, m + 1⟩ : SelectItem) ∈ preorder go k ke.elementtype i n items
  | [], _, _, _, _, _, _, h => by simp [preorder] at h
  | y :: ys, k, ke, i, n, hk, hs, h => by
    rcases mem_preorder_cons.mp h with h1 | ⟨hgo, h⟩ | h
    · simp only [SelectItem.mk.injEq] at h1
      obtain ⟨h1, rfl, rfl, rfl⟩ := h1
      rw [hk] at hpe
      cases hpe
      refine mem_preorder_cons.mpr (.inr (.inl ⟨hg, ?_⟩))
      cases y with
      | node k' e' items' =>
        simp only [Item.data, DataType.element.injEq] at h1
        subst h1
        obtain ⟨⟨h2, h3, h4⟩, _⟩ := hs
        rw [hc] at h2
        cases h2
        rw [h3, List.getElem?_map, Option.map_eq_some_iff] at hx
        obtain ⟨z, hz, rfl⟩ := hx
        have := preorder_here (go := go) (k := c) (n := m + 1) (t := e.elementtype) (i := 0) hz
        simpa [inside] using this
      | _ => simp [Item.data] at h1
    · exact mem_preorder_cons.mpr (.inr (.inl ⟨hgo, inside_closed hpe hg hc hx hs.1 h⟩))
    · exact mem_preorder_cons.mpr (.inr (.inr (preorder_closed hpe hg hc hx hk hs.2 h)))
theorem inside_closed {d : Document} {go : ElementType → Bool} {c p j m q : Nat} {pe e : ElementData} {x : Data} (hpe : d.getElement p = some pe)
    (hg : go pe.elementtype = true) (hc : d.getElement c = some e) (hx : e.data[q]? = some x) :
    ∀ {y : Item} {n : Nat}, Shows d y → (⟨.element c, p, j, m⟩ : SelectItem) ∈ inside go n y → (⟨x, c, q, m + 1⟩ : SelectItem) ∈ inside go n y
  | .node _ _ _, _, hs, h => preorder_closed hpe hg hc hx hs.1 hs.2.2 h
  | .text _, _, _, h => by simp [inside] at h
  | .comment _, _, _, h => by simp [inside] at h
  | .ref _, _, _, h => by simp [inside] at h
end

theorem mem_preorder {d : Document} {go : ElementType → Bool} {k : Nat} {e : ElementData} {items : List Item} (hb : Below d k e items) (y : SelectItem) :
    y ∈ preorder go k e.elementtype 0 1 items ↔ Occurs d (go · = true) k y.data y.parentKey y.cursor y.depth := by
  obtain ⟨h1, h2, h3⟩ := below_iff.mp hb
  refine ⟨preorder_occurs h1 (by simpa using h2) h3 (fun x j hx => .direct h1 hx) y, fun h => ?_⟩
  obtain ⟨x, p, i, n⟩ := y
  simp only at h
  induction h with
  | @direct e' x i he hx =>
    rw [h1] at he
    cases he
    rw [h2, List.getElem?_map, Option.map_eq_some_iff] at hx
    obtain ⟨z, hz, rfl⟩ := hx
    have := preorder_here (go := go) (k := k) (n := 1) (t := e.elementtype) (i := 0) hz
    simpa using this
  | deeper _ hp hg hc hx ih => exact preorder_closed hp hg hc hx h1 h3 ih

/-! ### No item twice -/

mutual
/-- The keys of the elements in a list of trees. -/
def nodeKeys : List Item → List Nat
  | [] => []
  | x :: xs => nodeKeysIn x ++ nodeKeys xs
/-- The keys of the elements in a tree. -/
def nodeKeysIn : Item → List Nat
  | .node k _ items => k :: nodeKeys items
  | _ => []
end

theorem above_trans {d : Document} {a b c : Nat} (h1 : d.Above a b) (h2 : d.Above b c) : d.Above a c := by
  induction h2 with
  | parent h => exact .up h h1
  | up h _ ih => exact .up h ih

mutual
theorem nodeKeys_above {d : Document} : ∀ {items : List Item} {p : Nat}, ShowsAll d items → (∀ c, .element c ∈ items.map Item.data → d.HasParent c p) →
    (∀ q c, d.Lists q c → d.HasParent c q) → ∀ x ∈ nodeKeys items, d.Above p x
  | [], _, _, _, _, _, h => by simp [nodeKeys] at h
  | i :: is, p, hs, hp, hl, x, h => by
    rw [nodeKeys, List.mem_append] at h
    rcases h with h | h
    · exact nodeKeysIn_above hs.1 (fun c hc => hp c (by simp [hc])) hl x h
    · exact nodeKeys_above hs.2 (fun c hc => hp c (by simp only [List.map_cons, List.mem_cons]; exact .inr hc)) hl x h
theorem nodeKeysIn_above {d : Document} : ∀ {i : Item} {p : Nat}, Shows d i → (∀ c, i.data = .element c → d.HasParent c p) →
    (∀ q c, d.Lists q c → d.HasParent c q) → ∀ x ∈ nodeKeysIn i, d.Above p x
  | .node k e items, p, hs, hp, hl, x, h => by
    rw [nodeKeysIn, List.mem_cons] at h
    have hk := hp k rfl
    rcases h with rfl | h
    · exact .parent hk
    · exact above_trans (.parent hk) (nodeKeys_above hs.2.2 (fun c hc => hl k c ⟨e, hs.1, hs.2.1 ▸ hc⟩) hl x h)
  | .text _, _, _, _, _, _, h => by simp [nodeKeysIn] at h
  | .comment _, _, _, _, _, _, h => by simp [nodeKeysIn] at h
  | .ref _, _, _, _, _, _, h => by simp [nodeKeysIn] at h
end

theorem hasParent_unique {d : Document} {c p q : Nat} (h : d.HasParent c p) (h' : d.HasParent c q) : p = q := by
  obtain ⟨e, h1, h2⟩ := h
  obtain ⟨e', h3, h4⟩ := h'
  rw [h1] at h3; cases h3
  rw [h2] at h4; exact Option.some.inj h4

/-- Two ancestors of an element are on one line. -/
theorem above_linear {d : Document} {a b x : Nat} (ha : d.Above a x) (hb : d.Above b x) : a = b ∨ d.Above a b ∨ d.Above b a := by
  induction ha with
  | parent h =>
    cases hb with
    | parent h' => exact .inl (hasParent_unique h h')
    | up h' hb => rw [hasParent_unique h h']; exact .inr (.inr hb)
  | up h ha ih =>
    cases hb with
    | parent h' => rw [← hasParent_unique h h']; exact .inr (.inl ha)
    | up h' hb => rw [← hasParent_unique h h'] at hb; exact ih hb

/-- Siblings have no common descendants. -/
theorem siblings_disjoint {d : Document} (ha : Acyclic d) {a b p x : Nat} (hpa : d.HasParent a p) (hpb : d.HasParent b p)
    (hax : x = a ∨ d.Above a x) (hbx : x = b ∨ d.Above b x) : a = b := by
  have no : ∀ {u v}, d.HasParent u p → d.HasParent v p → ¬ d.Above u v := by
    intro u v hu hv h
    cases h with
    | parent h => exact ha u (.parent (hasParent_unique h hv ▸ hu))
    | up h h' => exact ha p (Above.top (hasParent_unique h hv ▸ h') hu)
  rcases hax with rfl | hax <;> rcases hbx with rfl | hbx
  · rfl
  · exact absurd hbx (no hpb hpa)
  · exact absurd hax (no hpa hpb)
  · rcases above_linear hax hbx with h | h | h
    · exact h
    · exact absurd h (no hpa hpb)
    · exact absurd h (no hpb hpa)

mutual
theorem nodeKeys_nodup {d : Document} (hl : LinksAgree d) (ha : Acyclic d) : ∀ {items : List Item} {p : Nat}, ShowsAll d items →
    (∀ c, .element c ∈ items.map Item.data → d.HasParent c p) → (kids (items.map Item.data)).Nodup → (nodeKeys items).Nodup
  | [], _, _, _, _ => List.nodup_nil
  | i :: is, p, hs, hp, hn => by
    have hp2 : ∀ c, .element c ∈ is.map Item.data → d.HasParent c p := fun c hc => hp c (by simp only [List.map_cons, List.mem_cons]; exact .inr hc)
    have hn2 : (kids (is.map Item.data)).Nodup := by
      rw [List.map_cons] at hn
      cases hd : i.data with
      | element c =>
        have h0 : kids (i.data :: is.map Item.data) = c :: kids (is.map Item.data) := by simp [kids, hd]
        rw [h0] at hn
        exact (List.nodup_cons.mp hn).2
      | _ =>
        have h0 : kids (i.data :: is.map Item.data) = kids (is.map Item.data) := by simp [kids, hd]
        rw [h0] at hn; exact hn
    rw [nodeKeys, List.nodup_append]
    refine ⟨nodeKeysIn_nodup hl ha hs.1, nodeKeys_nodup hl ha hs.2 hp2 hn2, ?_⟩
    rintro x hx y hy rfl
    cases i with
    | node k e items =>
      have hk := hp k (by simp [Item.data])
      have h1 : x = k ∨ d.Above k x := by
        rw [nodeKeysIn, List.mem_cons] at hx
        exact hx.imp id fun h => nodeKeys_above hs.1.2.2 (fun c hc => (hl.agree k c).mp ⟨e, hs.1.1, hs.1.2.1 ▸ hc⟩) (fun q c => (hl.agree q c).mp) x h
      obtain ⟨c, hc, h2⟩ := nodeKeys_top hl hs.2 hy
      have := siblings_disjoint ha hk (hp2 c hc) h1 h2
      subst this
      rw [List.map_cons] at hn
      have h0 : kids (Item.data (.node k e items) :: is.map Item.data) = k :: kids (is.map Item.data) := by simp [kids, Item.data]
      rw [h0] at hn
      refine (List.nodup_cons.mp hn).1 ?_
      simp only [kids, List.mem_filterMap]
      exact ⟨_, hc, rfl⟩
    | _ => simp [nodeKeysIn] at hx
theorem nodeKeysIn_nodup {d : Document} (hl : LinksAgree d) (ha : Acyclic d) : ∀ {i : Item}, Shows d i → (nodeKeysIn i).Nodup
  | .node k e items, hs => by
    have hpar : ∀ c, .element c ∈ items.map Item.data → d.HasParent c k := fun c hc => (hl.agree k c).mp ⟨e, hs.1, hs.2.1 ▸ hc⟩
    rw [nodeKeysIn, List.nodup_cons]
    refine ⟨fun h => ha k (nodeKeys_above hs.2.2 hpar (fun q c => (hl.agree q c).mp) k h), ?_⟩
    exact nodeKeys_nodup hl ha hs.2.2 hpar (hs.2.1 ▸ hl.once k e hs.1)
  | .text _, _ => List.nodup_nil
  | .comment _, _ => List.nodup_nil
  | .ref _, _ => List.nodup_nil
theorem nodeKeys_top {d : Document} (hl : LinksAgree d) : ∀ {items : List Item} {x : Nat}, ShowsAll d items → x ∈ nodeKeys items →
    ∃ c, .element c ∈ items.map Item.data ∧ (x = c ∨ d.Above c x)
  | [], _, _, h => by simp [nodeKeys] at h
  | i :: is, x, hs, h => by
    rw [nodeKeys, List.mem_append] at h
    rcases h with h | h
    · cases i with
      | node k e items =>
        refine ⟨k, by simp [Item.data], ?_⟩
        rw [nodeKeysIn, List.mem_cons] at h
        exact h.imp id fun h => nodeKeys_above hs.1.2.2 (fun c hc => (hl.agree k c).mp ⟨e, hs.1.1, hs.1.2.1 ▸ hc⟩) (fun q c => (hl.agree q c).mp) x h
      | _ => simp [nodeKeysIn] at h
    · obtain ⟨c, hc, h2⟩ := nodeKeys_top hl hs.2 h
      exact ⟨c, by simp only [List.map_cons, List.mem_cons]; exact .inr hc, h2⟩
end

/-- Where an item is: its container and its position. -/
def SelectItem.place (i : SelectItem) : Nat × Nat := (i.parentKey, i.cursor)

mutual
theorem preorder_places {go : ElementType → Bool} : ∀ {items : List Item} {k i n : Nat} {t : ElementType} {y : SelectItem},
    y ∈ preorder go k t i n items → (y.parentKey = k ∧ i ≤ y.cursor) ∨ y.parentKey ∈ nodeKeys items
  | [], _, _, _, _, _, h => by simp [preorder] at h
  | x :: xs, k, i, n, t, y, h => by
    rcases mem_preorder_cons.mp h with rfl | ⟨_, h⟩ | h
    · exact .inl ⟨rfl, Nat.le_refl _⟩
    · exact .inr (by rw [nodeKeys, List.mem_append]; exact .inl (inside_places h))
    · rcases preorder_places h with ⟨h1, h2⟩ | h
      · exact .inl ⟨h1, by omega⟩
      · exact .inr (by rw [nodeKeys, List.mem_append]; exact .inr h)
theorem inside_places {go : ElementType → Bool} : ∀ {x : Item} {n : Nat} {y : SelectItem}, y ∈ inside go n x → y.parentKey ∈ nodeKeysIn x
  | .node k e items, n, y, h => by
    rw [inside] at h
    rw [nodeKeysIn, List.mem_cons]
    exact (preorder_places h).imp (fun h => h.1) id
  | .text _, _, _, h => by simp [inside] at h
  | .comment _, _, _, h => by simp [inside] at h
  | .ref _, _, _, h => by simp [inside] at h
end

mutual
theorem preorder_nodup {go : ElementType → Bool} : ∀ {items : List Item} {k i n : Nat} {t : ElementType}, k ∉ nodeKeys items → (nodeKeys items).Nodup →
    ((preorder go k t i n items).map SelectItem.place).Nodup
  | [], _, _, _, _, _, _ => by simp [preorder]
  | x :: xs, k, i, n, t, hk, hn => by
    rw [nodeKeys, List.mem_append, not_or] at hk
    rw [nodeKeys, List.nodup_append] at hn
    have hin : ∀ y ∈ (if go t then inside go n x else []), y.parentKey ∈ nodeKeysIn x := by
      intro y hy
      split at hy
      · exact inside_places hy
      · cases hy
    rw [preorder, List.map_cons, List.map_append, List.nodup_cons, List.nodup_append]
    refine ⟨?_, ?_, preorder_nodup hk.2 hn.2.1, ?_⟩
    · rw [List.mem_append, List.mem_map, List.mem_map]
      rintro (⟨y, hy, h⟩ | ⟨y, hy, h⟩)
      · simp only [SelectItem.place, Prod.mk.injEq] at h
        exact hk.1 (h.1 ▸ hin y hy)
      · simp only [SelectItem.place, Prod.mk.injEq] at h
        rcases preorder_places hy with ⟨_, h2⟩ | h2
        · omega
        · exact hk.2 (h.1 ▸ h2)
    · split
      · exact inside_nodup hn.1
      · exact List.nodup_nil
    · rintro a ha b hb rfl
      rw [List.mem_map] at ha hb
      obtain ⟨y, hy, rfl⟩ := ha
      obtain ⟨z, hz, h⟩ := hb
      simp only [SelectItem.place, Prod.mk.injEq] at h
      have h1 := hin y hy
      rcases preorder_places hz with ⟨h2, _⟩ | h2
      · exact hk.1 (by rw [← h2, h.1]; exact h1)
      · exact hn.2.2 _ h1 _ h2 h.1.symm
theorem inside_nodup {go : ElementType → Bool} : ∀ {x : Item} {n : Nat}, (nodeKeysIn x).Nodup → ((inside go n x).map SelectItem.place).Nodup
  | .node k e items, n, h => by
    rw [nodeKeysIn, List.nodup_cons] at h
    exact preorder_nodup h.1 h.2
  | .text _, _, _ => List.nodup_nil
  | .comment _, _, _ => List.nodup_nil
  | .ref _, _, _ => List.nodup_nil
end

theorem preorder_once {d : Document} (hl : LinksAgree d) (ha : Acyclic d) {go : ElementType → Bool} {k : Nat} {e : ElementData} {items : List Item}
    (hb : Below d k e items) : ((preorder go k e.elementtype 0 1 items).map SelectItem.place).Nodup := by
  have h := nodeKeysIn_nodup hl ha (i := .node k e items) hb
  rw [nodeKeysIn, List.nodup_cons] at h
  exact preorder_nodup h.1 h.2

end Folia
