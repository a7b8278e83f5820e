import Verif.Tools
import Verif.Lemmas.Matches
import Verif.XmlView
/-! Selecting the elements of a type in a document that was read. -/
namespace Folia
open Document

theorem Answers.append {d0 d : Document} : ∀ {ks : List Nat} {bs : List ElementData} {ks' : List Nat} {bs' : List ElementData},
    Answers d0 d ks bs → Answers d0 d ks' bs' → Answers d0 d (ks ++ ks') (bs ++ bs')
  | [], [], _, _, _, h => h
  | _ :: _, _ :: _, _, _, ⟨h1, h2⟩, h => ⟨h1, h2.append h⟩
  | [], _ :: _, _, _, h, _ => h.elim
  | _ :: _, [], _, _, h, _ => h.elim

theorem Answers.length {d0 d : Document} : ∀ {ks : List Nat} {bs : List ElementData}, Answers d0 d ks bs → ks.length = bs.length
  | [], [], _ => rfl
  | _ :: _, _ :: _, ⟨_, h⟩ => by simp [h.length]
  | [], _ :: _, h => h.elim
  | _ :: _, [], h => h.elim

theorem type_matches (t : ElementType) {d : Document} {k : Nat} {e : ElementData} (he : d.getElement k = some e) :
    (Selector.elements.element (.is t)).matches d (.element k) = .ok (e.elementtype == t) ∧
    (Selector.elements.element (.is t)).matches d (.spanReference k) = .ok (e.elementtype == t) := by
  have h1 : (Cmp.is t).matches (some e.elementtype) = (e.elementtype == t) := by
    simp only [Cmp.matches]
    exact Bool.beq_comm
  constructor <;>
    · simp only [Selector.elements, Selector.element, Selector.matches, matchesChain, SelCore.matches, he, SelCore.matchesElement, cmpField, andAlso, h1]
      cases e.elementtype == t <;> rfl

/-- The elements of type `t` among items. -/
def typed (d : Document) (t : ElementType) (is : List SelectItem) : List Nat := (chosen d (Selector.elements.element (.is t)) is).filterMap itemKey

theorem typed_append (d : Document) (t : ElementType) (is js : List SelectItem) : typed d t (is ++ js) = typed d t is ++ typed d t js := by
  simp [typed, chosen]

theorem typed_cons (d : Document) (t : ElementType) (i : SelectItem) (is : List SelectItem) : typed d t (i :: is) = typed d t [i] ++ typed d t is :=
  typed_append d t [i] is

theorem typed_none {d : Document} {t : ElementType} {i : SelectItem} (h : (Selector.elements.element (.is t)).matches d i.data = .ok false) :
    typed d t [i] = [] := by
  unfold typed; rw [chosen_cons_false h]; rfl

theorem typed_element {d : Document} {t : ElementType} {k : Nat} {e : ElementData} (he : d.getElement k = some e) {p c n : Nat} :
    typed d t [⟨.element k, p, c, n⟩] = if e.elementtype == t then [k] else [] := by
  unfold typed
  cases h : e.elementtype == t with
  | true => rw [chosen_cons_true (by rw [(type_matches t he).1, h])]; rfl
  | false => rw [chosen_cons_false (by rw [(type_matches t he).1, h])]; rfl

theorem typed_stored {d0 d : Document} {t : ElementType} (ht : ElementGroup.span.contains t = false)
    (hd : ∀ k e, d.getElement k = some e → ∀ x ∈ e.data, DataLive d x) {lo : Nat} :
    ∀ (items : List Item) (k : Nat) (et : ElementType) (i n : Nat) (par : Option Nat) (data : List Data), ShowsAll d items →
      (∀ x ∈ items.map Item.data, DataLive d x) → StoredItems lo d0 d par (ownItems (items.map Item.data)) data →
      Answers d0 d (typed d t (preorder (fun _ => true) k et i n items)) ((builderElementsList data).filter (·.elementtype == t))
  | [], k, et, i, n, par, data, _, _, h => by
    simp only [List.map_nil, ownItems, List.filter_nil] at h
    cases data with
    | nil => simp [preorder, typed, chosen, builderElementsList, Answers]
    | cons a rest => cases a <;> simp [StoredItems] at h
  | .text s :: is, k, et, i, n, par, data, hs, hl, h => by
    have ih := typed_stored (d0 := d0) (lo := lo) ht hd is k et (i + 1) n par
    rw [preorder, typed_cons, typed_none (show _ = Except.ok false from rfl)]
    simp only [if_true, inside, List.nil_append]
    have ho : ownItems ((Item.text s :: is).map Item.data) = .text s :: ownItems (is.map Item.data) := rfl
    rw [ho] at h
    have hl' : ∀ x ∈ is.map Item.data, DataLive d x := fun x hx => hl x (by simp only [List.map_cons]; exact List.mem_cons_of_mem _ hx)
    cases data with
    | nil => simp [StoredItems] at h
    | cons a rest =>
      cases a <;> simp [StoredItems] at h
      obtain ⟨_, ⟨_, rfl⟩, h3⟩ := h
      rw [builderElementsList]
      exact ih rest hs.2 hl' h3
  | .comment s :: is, k, et, i, n, par, data, hs, hl, h => by
    have ih := typed_stored (d0 := d0) (lo := lo) ht hd is k et (i + 1) n par
    rw [preorder, typed_cons, typed_none (show _ = Except.ok false from rfl)]
    simp only [if_true, inside, List.nil_append]
    have ho : ownItems ((Item.comment s :: is).map Item.data) = .comment s :: ownItems (is.map Item.data) := rfl
    rw [ho] at h
    have hl' : ∀ x ∈ is.map Item.data, DataLive d x := fun x hx => hl x (by simp only [List.map_cons]; exact List.mem_cons_of_mem _ hx)
    cases data with
    | nil => simp [StoredItems] at h
    | cons a rest =>
      cases a <;> simp [StoredItems] at h
      obtain ⟨_, ⟨_, rfl⟩, h3⟩ := h
      rw [builderElementsList]
      exact ih rest hs.2 hl' h3
  | .ref c :: is, k, et, i, n, par, data, hs, hl, h => by
    have ih := typed_stored (d0 := d0) (lo := lo) ht hd is k et (i + 1) n par
    have hl' : ∀ x ∈ is.map Item.data, DataLive d x := fun x hx => hl x (by simp only [List.map_cons]; exact List.mem_cons_of_mem _ hx)
    obtain ⟨e, he, hsp⟩ := hl (.spanReference c) (by simp [Item.data])
    have hne : (e.elementtype == t) = false := by
      rw [beq_eq_false_iff_ne]
      rintro rfl
      rw [hsp] at ht; cases ht
    rw [preorder, typed_cons, typed_none (by rw [← hne]; exact (type_matches t he).2)]
    simp only [if_true, inside, List.nil_append]
    exact ih data hs.2 hl' h
  | .node c e items :: is, k, et, i, n, par, data, hs, hl, h => by
    have ih := typed_stored (d0 := d0) (lo := lo) ht hd is k et (i + 1) n par
    have ihc := typed_stored (d0 := d0) (lo := lo) ht hd items c e.elementtype 0 (n + 1) (some c)
    have hl' : ∀ x ∈ is.map Item.data, DataLive d x := fun x hx => hl x (by simp only [List.map_cons]; exact List.mem_cons_of_mem _ hx)
    obtain ⟨⟨he, hde, hsc⟩, hsr⟩ := hs
    have ho : ownItems ((Item.node c e items :: is).map Item.data) = .element c :: ownItems (is.map Item.data) := rfl
    rw [ho] at h
    rw [preorder, typed_cons, typed_append]
    simp only [if_true, inside]
    cases data with
    | nil => simp [StoredItems] at h
    | cons a rest =>
      cases a with
      | addElement b =>
        obtain ⟨c', ys', h1, h2, h3⟩ := h
        cases h1
        obtain ⟨t', as, bdata, bk, bp⟩ := b
        obtain ⟨x, _, g2, _, g4, g5⟩ := h2
        rw [he] at g2; cases g2
        rw [builderElementsList, builderElements, List.filter_append, List.filter_cons]
        have hc := ihc bdata hsc (by rw [← hde]; exact hd c e he) (by rw [← hde]; exact g5)
        have hty : e.elementtype = t' := g4.type
        rw [show Item.data (.node c e items) = .element c from rfl, typed_element he, hty]
        rw [hty] at hc
        cases hb : t' == t with
        | true =>
          simp only [if_true, List.cons_append, List.nil_append]
          exact ⟨⟨e, he, g4⟩, hc.append (ih rest hsr hl' h3)⟩
        | false =>
          simp only [Bool.false_eq_true, if_false, List.nil_append]
          exact hc.append (ih rest hsr hl' h3)
      | _ => simp [StoredItems] at h

theorem firstOccurrences_plain {d : Document} : ∀ (is : List SelectItem) (seen : List Nat), (∀ i ∈ is, spanOf d i.data = none) →
    firstOccurrences d seen is = is
  | [], _, _ => rfl
  | i :: is, seen, h => by
    rw [firstOccurrences, h i (List.mem_cons_self ..)]
    simp only
    rw [firstOccurrences_plain is seen fun j hj => h j (List.mem_cons_of_mem _ hj)]

/-- The type of the element satisfies `p`. -/
def kindIs (d : Document) (p : ElementType → Bool) (k : Nat) : Bool := match d.getElement k with
  | some e => p e.elementtype
  | none => false

theorem nodes_stored {d0 d : Document} (p : ElementType → Bool) {lo : Nat} :
    ∀ (items : List Item) (par : Option Nat) (data : List Data), ShowsAll d items → StoredItems lo d0 d par (ownItems (items.map Item.data)) data →
      Answers d0 d ((nodeKeys items).filter (kindIs d p)) ((builderElementsList data).filter (p ·.elementtype))
  | [], par, data, _, h => by
    simp only [List.map_nil, ownItems, List.filter_nil] at h
    cases data with
    | nil => simp [nodeKeys, builderElementsList, Answers]
    | cons a rest => cases a <;> simp [StoredItems] at h
  | .text s :: is, par, data, hs, h => by
    have ih := nodes_stored (d0 := d0) (d := d) p (lo := lo) is par
    have ho : ownItems ((Item.text s :: is).map Item.data) = .text s :: ownItems (is.map Item.data) := rfl
    rw [ho] at h
    cases data with
    | nil => simp [StoredItems] at h
    | cons a rest =>
      cases a <;> simp [StoredItems] at h
      obtain ⟨_, ⟨_, rfl⟩, h3⟩ := h
      rw [builderElementsList, nodeKeys, nodeKeysIn, List.nil_append]
      exact ih rest hs.2 h3
      all_goals simp
  | .comment s :: is, par, data, hs, h => by
    have ih := nodes_stored (d0 := d0) (d := d) p (lo := lo) is par
    have ho : ownItems ((Item.comment s :: is).map Item.data) = .comment s :: ownItems (is.map Item.data) := rfl
    rw [ho] at h
    cases data with
    | nil => simp [StoredItems] at h
    | cons a rest =>
      cases a <;> simp [StoredItems] at h
      obtain ⟨_, ⟨_, rfl⟩, h3⟩ := h
      rw [builderElementsList, nodeKeys, nodeKeysIn, List.nil_append]
      exact ih rest hs.2 h3
      all_goals simp
  | .ref c :: is, par, data, hs, h => by
    have ih := nodes_stored (d0 := d0) (d := d) p (lo := lo) is par
    rw [nodeKeys, nodeKeysIn, List.nil_append]
    exact ih data hs.2 h
    all_goals simp
  | .node c e items :: is, par, data, hs, h => by
    have ih := nodes_stored (d0 := d0) (d := d) p (lo := lo) is par
    have ihc := nodes_stored (d0 := d0) (d := d) p (lo := lo) items (some c)
    obtain ⟨⟨he, hde, hsc⟩, hsr⟩ := hs
    have ho : ownItems ((Item.node c e items :: is).map Item.data) = .element c :: ownItems (is.map Item.data) := rfl
    rw [ho] at h
    cases data with
    | nil => simp [StoredItems] at h
    | cons a rest =>
      cases a with
      | addElement b =>
        obtain ⟨c', ys', h1, h2, h3⟩ := h
        cases h1
        obtain ⟨t', as, bdata, bk, bp⟩ := b
        obtain ⟨x, _, g2, _, g4, g5⟩ := h2
        rw [he] at g2; cases g2
        have hc := ihc bdata hsc (by rw [← hde]; exact g5)
        have hty : e.elementtype = t' := g4.type
        have hk : kindIs d p c = p t' := by rw [kindIs, he, ← hty]
        rw [builderElementsList, builderElements, nodeKeys, nodeKeysIn, List.filter_append, List.filter_append, List.filter_cons, List.filter_cons, hk]
        refine Answers.append ?_ (ih rest hsr h3)
        simp only
        cases p t' with
        | true => exact ⟨⟨e, he, g4⟩, hc⟩
        | false => exact hc
      | _ => simp [StoredItems] at h

mutual
theorem builderElements_length : ∀ e : ElementData, (builderElements e).length = builderSize e
  | ⟨t, as, data, k, p⟩ => by rw [builderElements, builderSize, List.length_cons, builderElementsList_length data]
theorem builderElementsList_length : ∀ data : List Data, (builderElementsList data).length = builderSizeList data
  | [] => rfl
  | .addElement e :: rest => by rw [builderElementsList, builderSizeList, List.length_append, builderElements_length e, builderElementsList_length rest]
  | .text _ :: rest => by rw [builderElementsList, builderSizeList, builderElementsList_length rest]
  | .comment _ :: rest => by rw [builderElementsList, builderSizeList, builderElementsList_length rest]
  | .element _ :: rest => by rw [builderElementsList, builderSizeList, builderElementsList_length rest]
  | .spanReference _ :: rest => by rw [builderElementsList, builderSizeList, builderElementsList_length rest]
end

mutual
theorem nodeKeys_preorder {x : Nat} : ∀ (items : List Item) (k : Nat) (t : ElementType) (i n : Nat), x ∈ nodeKeys items →
    ∃ y ∈ preorder (fun _ => true) k t i n items, y.data = .element x
  | [], _, _, _, _, h => by simp [nodeKeys] at h
  | a :: as, k, t, i, n, h => by
    rw [nodeKeys, List.mem_append] at h
    rcases h with h | h
    · rcases nodeKeysIn_preorder a n h with h | ⟨y, h1, h2⟩
      · exact ⟨_, mem_preorder_cons.mpr (.inl rfl), h⟩
      · exact ⟨y, mem_preorder_cons.mpr (.inr (.inl ⟨rfl, h1⟩)), h2⟩
    · obtain ⟨y, h1, h2⟩ := nodeKeys_preorder as k t (i + 1) n h
      exact ⟨y, mem_preorder_cons.mpr (.inr (.inr h1)), h2⟩
theorem nodeKeysIn_preorder {x : Nat} : ∀ (a : Item) (n : Nat), x ∈ nodeKeysIn a → a.data = .element x ∨ ∃ y ∈ inside (fun _ => true) n a, y.data = .element x
  | .node k e items, n, h => by
    rw [nodeKeysIn, List.mem_cons] at h
    rcases h with rfl | h
    · exact .inl rfl
    · obtain ⟨y, h1, h2⟩ := nodeKeys_preorder items k e.elementtype 0 (n + 1) h
      exact .inr ⟨y, by rw [inside]; exact h1, h2⟩
  | .text _, _, h => by simp [nodeKeysIn] at h
  | .comment _, _, h => by simp [nodeKeysIn] at h
  | .ref _, _, h => by simp [nodeKeysIn] at h
end

/-- If the tree below the body has as many elements as there are, all elements are in the tree. -/
theorem nodeKeys_all {d0 d : Document} {e : ElementData} {items : List Item} (hf : d.Forest) (hb : Below d 0 e items) {lo : Nat} {par : Option Nat}
    {data : List Data} (hs : StoredItems lo d0 d par (ownItems (items.map Item.data)) data) (hlen : d.elements.len = builderSizeList data + 1)
    {k : Nat} {x : ElementData} (hk : d.getElement k = some x) : k = 0 ∨ k ∈ nodeKeys items := by
  have ha := (nodes_stored (fun _ => true) items par data hb.2.2 hs).length
  rw [show (builderElementsList data).filter (fun _ => true) = builderElementsList data from List.filter_eq_self.mpr fun _ _ => rfl,
    builderElementsList_length] at ha
  have hnd := nodeKeysIn_nodup hf.links hf.acyclic (show Shows d (.node 0 e items) from hb)
  rw [nodeKeysIn, List.nodup_cons] at hnd
  by_cases h0 : k = 0
  · exact .inl h0
  right
  by_cases hin : k ∈ nodeKeys items
  · exact hin
  exfalso
  let L := 0 :: k :: (nodeKeys items).filter (kindIs d fun _ => true)
  have hL : L.Nodup := by
    refine List.nodup_cons.mpr ⟨?_, List.nodup_cons.mpr ⟨fun h => hin ((List.mem_filter.mp h).1), hnd.2.sublist List.filter_sublist⟩⟩
    rw [List.mem_cons]
    rintro (h | h)
    · exact h0 h.symm
    · exact hnd.1 ((List.mem_filter.mp h).1)
  have hsub : L ⊆ List.range d.elements.len := by
    intro j hj
    rw [List.mem_range]
    rcases List.mem_cons.mp hj with rfl | hj
    · omega
    rcases List.mem_cons.mp hj with rfl | hj
    · exact Store.get_lt hk
    · have h2 := (List.mem_filter.mp hj).2
      unfold kindIs at h2
      split at h2
      · rename_i e' he'; exact Store.get_lt he'
      · cases h2
  have := hL.length_le_of_subset hsub
  simp only [L, List.length_cons, List.length_range, ha] at this
  omega

/-- An iteration that reaches an element whose first data item is the element itself does not end. -/
theorem collect_loop {d : Document} {k : Nat} {e : ElementData} (he : d.getElement k = some e) (hx : e.data[0]? = some (.element k)) {s : Selector} {b inc : Bool}
    (hm : s.matches d (.element k) = .ok b) : ∀ (G : Nat) (st : SelState) (rest : List (Nat × Nat)), st.stack = (k, 0) :: rest → st.iteration ≠ 0 →
      selCollect ⟨d, s, .always, inc, false⟩ G st = .error .fuel
  | 0, _, _, _, _ => rfl
  | G + 1, st, rest, hst, hi => by
    have ih := collect_loop (inc := inc) he hx hm G { st with iteration := st.iteration + 1, stack := (k, 0) :: (k, 1) :: rest } _ rfl (by simp)
    unfold selCollect
    rw [step_ordinary (.inl hi), stepStack_visit (rest := rest) (by exact hst) he hx]
    simp only [visitItem, hm, Bool.false_eq_true, if_false, Recursion.eval, if_true, pushChild]
    cases b with
    | true => simp only; rw [ih]; rfl
    | false => exact ih

theorem xmlElements_loop {X : Ext} {d : Document} {e : ElementData} (he : d.getElement 0 = some e) (hx : e.data[0]? = some (.element 0))
    (hp : e.parent = some 0) (G : Nat) : xmlElements X d G 0 = .error .fuel := by
  have hm : Selector.allData.matches d (.element 0) = .ok true := by
    simp [Selector.allData, Selector.matches, matchesChain, SelCore.matches, he, SelCore.matchesElement, cmpField, andAlso]
  have hst : startItem d 0 e = .ok (0, .element 0) := by simp [startItem, hp]
  unfold xmlElements
  have : selCollect { doc := d, selector := .allData, recursion := .always, inclusive := true, spanreferences := false } G (.init 0) = .error .fuel := by
    cases G with
    | zero => rfl
    | succ G =>
      unfold selCollect
      rw [step_inclusive rfl rfl he hst hm, if_pos rfl]
      simp only
      rw [collect_loop he hx hm G _ [] rfl (by simp)]
      rfl
  rw [this]; rfl

/-! ### What is written -/

theorem marks_append : ∀ (es es' : List WEvent), marks (es ++ es') = marks es ++ marks es'
  | [], _ => rfl
  | e :: es, es' => by
    have ih := marks_append es es'
    cases e <;> simp [marks, ih]

theorem marks_nl (b : Bool) : marks (if b then [nl] else []) = [] := by cases b <;> decide

theorem marks_indentFrom (n : Nat) : ∀ (evs : List WEvent) (brk : Bool) (len : Nat), marks (indentFrom n brk len evs) = marks evs
  | [], _, _ => rfl
  | ev :: evs, brk, len => by
    have hb : ∀ (b : Bool) (l : Nat), marks (breakBefore b l) = [] := by
      intro b l
      cases b with
      | false => rfl
      | true =>
        have : blank ("\n" ++ String.ofList (List.replicate l ' ')) = true := by
          simp [blank, isWs]
        simp [breakBefore, lineBreak, marks, textMark, this]
    cases ev <;> simp [indentFrom, marks_append, hb, marks, marks_indentFrom n evs]

theorem marks_indented (n : Nat) (evs : List WEvent) : marks (indented n evs) = marks evs := by
  cases n with
  | zero => rfl
  | succ n => exact marks_indentFrom _ evs _ _

theorem marks_stored {d0 d : Document} {A : ElementData → List (String × String)} {lo : Nat} :
    ∀ (items : List Item) (last : Bool) (par : Option Nat) (data : List Data), ShowsAll d items →
      StoredItems lo d0 d par (ownItems (items.map Item.data)) data → marks (itemsXml A last items) = builderMarksList data
  | [], last, par, data, _, h => by
    simp only [List.map_nil, ownItems, List.filter_nil] at h
    cases data with
    | nil => rfl
    | cons a rest => cases a <;> simp [StoredItems] at h
  | .text s :: is, last, par, data, hs, h => by
    have ih := marks_stored (d0 := d0) (d := d) (A := A) (lo := lo) is last par
    have ho : ownItems ((Item.text s :: is).map Item.data) = .text s :: ownItems (is.map Item.data) := rfl
    rw [ho] at h
    cases data with
    | nil => simp [StoredItems] at h
    | cons a rest =>
      cases a <;> simp [StoredItems] at h
      obtain ⟨_, ⟨rfl, rfl⟩, h3⟩ := h
      rw [builderMarksList, itemsXml, itemXml, marks_append, ih rest hs.2 h3]
      simp [marks]
  | .comment s :: is, last, par, data, hs, h => by
    have ih := marks_stored (d0 := d0) (d := d) (A := A) (lo := lo) is last par
    have ho : ownItems ((Item.comment s :: is).map Item.data) = .comment s :: ownItems (is.map Item.data) := rfl
    rw [ho] at h
    cases data with
    | nil => simp [StoredItems] at h
    | cons a rest =>
      cases a <;> simp [StoredItems] at h
      obtain ⟨_, ⟨rfl, rfl⟩, h3⟩ := h
      rw [builderMarksList, itemsXml, itemXml, marks_append, ih rest hs.2 h3]
      simp [marks]
  | .ref c :: is, last, par, data, hs, h => by
    have ih := marks_stored (d0 := d0) (d := d) (A := A) (lo := lo) is last par
    rw [itemsXml, itemXml, List.nil_append]
    exact ih data hs.2 h
  | .node c e items :: is, last, par, data, hs, h => by
    have ih := marks_stored (d0 := d0) (d := d) (A := A) (lo := lo) is last par
    have ihc := marks_stored (d0 := d0) (d := d) (A := A) (lo := lo) items (last && is.isEmpty) (some c)
    obtain ⟨⟨he, hde, hsc⟩, hsr⟩ := hs
    have ho : ownItems ((Item.node c e items :: is).map Item.data) = .element c :: ownItems (is.map Item.data) := rfl
    rw [ho] at h
    cases data with
    | nil => simp [StoredItems] at h
    | cons a rest =>
      cases a with
      | addElement b =>
        obtain ⟨c', ys', h1, h2, h3⟩ := h
        cases h1
        obtain ⟨t', as, bdata, bk, bp⟩ := b
        obtain ⟨x, _, g2, _, g4, g5⟩ := h2
        rw [he] at g2; cases g2
        have hc := ihc bdata hsc (by rw [← hde]; exact g5)
        have hty : e.elementtype = t' := g4.type
        rw [builderMarksList, builderMarks, itemsXml, marks_append, ih rest hsr h3, itemXml]
        split
        · rename_i hemp
          rw [List.isEmpty_iff.mp hemp, itemsXml] at hc
          rw [← hc, hty]
          simp [marks, marks_nl]
        · simp only [marks_append, marks_nl, hc, hty]
          simp [marks]
      | _ => simp [StoredItems] at h

end Folia
