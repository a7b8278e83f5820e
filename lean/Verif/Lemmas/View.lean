import Verif.View
import Verif.Lemmas.Links
/-! The tree below an element exists in consistent documents, and is unique. -/
namespace Folia
open Document

theorem showsAll_iff {d : Document} {items : List Item} : ShowsAll d items ↔ ∀ i ∈ items, Shows d i := by
  induction items with
  | nil => simp [ShowsAll]
  | cons i is ih => simp [ShowsAll, ih]

theorem below_iff {d : Document} {k : Nat} {e : ElementData} {items : List Item} :
    Below d k e items ↔ d.getElement k = some e ∧ e.data = items.map Item.data ∧ ShowsAll d items := by
  simp [Below, Shows]

theorem below_all {d : Document} {k : Nat} {e : ElementData} {items : List Item} (h : Below d k e items) : ShowsAll d items :=
  (below_iff.mp h).2.2

/-! ### Acyclic documents are ranked -/

theorem countP_lt {α : Type} {p q : α → Bool} {l : List α} (h : ∀ x ∈ l, p x = true → q x = true) {a : α} (ha : a ∈ l) (hp : p a = false)
    (hq : q a = true) : l.countP p < l.countP q := by
  induction l with
  | nil => cases ha
  | cons x xs ih =>
    have hle : xs.countP p ≤ xs.countP q := List.countP_mono_left fun y hy => h y (by simp [hy])
    rw [List.countP_cons, List.countP_cons]
    rcases List.mem_cons.mp ha with rfl | ha
    · simp [hp, hq]; omega
    · have := ih (fun y hy => h y (by simp [hy])) ha
      have hx := h x (by simp)
      split <;> split <;> first | omega | simp_all

theorem acyclic_ranked {d : Document} (hl : LinksAgree d) (ha : Acyclic d) : Ranked d := by
  classical
  refine ⟨fun k => (List.range d.elements.len).countP fun j => decide (d.Above k j), fun p c h => ?_⟩
  have hc := (hl.agree p c).mp h
  refine countP_lt (a := c) ?_ ?_ ?_ ?_
  · intro j _ hj
    simp only [decide_eq_true_eq] at hj ⊢
    exact hj.top hc
  · obtain ⟨e, he, _⟩ := hc
    exact List.mem_range.mpr (Store.get_lt he)
  · simpa using ha c
  · simpa using Above.parent hc

/-! ### Existence -/

theorem exists_items {d : Document} {data : List Data} (hl : ∀ x ∈ data, DataLive d x)
    (ih : ∀ c, .element c ∈ data → ∀ e, d.getElement c = some e → ∃ items, Below d c e items) :
    ∃ items, data = items.map Item.data ∧ ShowsAll d items := by
  induction data with
  | nil => exact ⟨[], rfl, trivial⟩
  | cons x xs ihx =>
    obtain ⟨items, h1, h2⟩ := ihx (fun y hy => hl y (by simp [hy])) (fun c hc => ih c (by simp [hc]))
    have hx := hl x (by simp)
    cases x with
    | text s => exact ⟨.text s :: items, by simp [h1, Item.data], trivial, h2⟩
    | comment s => exact ⟨.comment s :: items, by simp [h1, Item.data], trivial, h2⟩
    | spanReference k => exact ⟨.ref k :: items, by simp [h1, Item.data], trivial, h2⟩
    | addElement e => exact hx.elim
    | element c =>
      obtain ⟨e, he⟩ := hx
      obtain ⟨is, his⟩ := ih c (by simp) e he
      exact ⟨.node c e is :: items, by simp [h1, Item.data], his, h2⟩

theorem exists_below {d : Document} (hr : Ranked d) (hlive : ∀ k e, d.getElement k = some e → ∀ x ∈ e.data, DataLive d x) {k : Nat} {e : ElementData}
    (he : d.getElement k = some e) : ∃ items, Below d k e items := by
  obtain ⟨h, hr⟩ := hr
  induction hn : h k using Nat.strongRecOn generalizing k e with
  | ind n ih =>
    obtain ⟨items, h1, h2⟩ := exists_items (hlive k e he) fun c hc ec hec => ih (h c) (hn ▸ hr k c ⟨e, he, hc⟩) hec rfl
    exact ⟨items, below_iff.mpr ⟨he, h1, h2⟩⟩

/-! ### Uniqueness -/

mutual
theorem shows_unique {d : Document} : ∀ {i j : Item}, Shows d i → Shows d j → i.data = j.data → i = j
  | .text _, j, _, _, h => by cases j <;> simp_all [Item.data]
  | .comment _, j, _, _, h => by cases j <;> simp_all [Item.data]
  | .ref _, j, _, _, h => by cases j <;> simp_all [Item.data]
  | .node k e items, j, hi, hj, h => by
    cases j with
    | node k' e' items' =>
      simp only [Item.data, DataType.element.injEq] at h
      subst h
      obtain ⟨h1, h2, h3⟩ := hi
      obtain ⟨h4, h5, h6⟩ := hj
      rw [h1] at h4
      cases h4
      rw [showsAll_unique h3 h6 (h2 ▸ h5)]
    | _ => simp [Item.data] at h
theorem showsAll_unique {d : Document} : ∀ {is js : List Item}, ShowsAll d is → ShowsAll d js → is.map Item.data = js.map Item.data → is = js
  | [], js, _, _, h => by cases js <;> simp_all
  | i :: is, js, hi, hj, h => by
    cases js with
    | nil => simp at h
    | cons j js =>
      simp only [List.map_cons, List.cons.injEq] at h
      rw [shows_unique hi.1 hj.1 h.1, showsAll_unique hi.2 hj.2 h.2]
end

theorem below_unique {d : Document} {k : Nat} {e e' : ElementData} {is js : List Item} (h : Below d k e is) (h' : Below d k e' js) :
    e = e' ∧ is = js := by
  have := shows_unique h h' rfl
  cases this
  exact ⟨rfl, rfl⟩

end Folia
