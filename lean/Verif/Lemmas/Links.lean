import Verif.Tree
import Verif.Lemmas.Elements
/-! Helper lemmas about the links between elements. -/
namespace Folia
open Document

theorem getElement_update (d : Document) (k : Nat) (f : ElementData → ElementData) (j : Nat) :
    ({ d with elements := d.elements.update k f } : Document).getElement j = if j = k then (d.getElement j).map f else d.getElement j :=
  Store.get_update ..

theorem mem_kids {data : List Data} {c : Nat} : c ∈ kids data ↔ .element c ∈ data := by
  unfold kids
  rw [List.mem_filterMap]
  constructor
  · rintro ⟨x, hx, h⟩
    cases x <;> simp at h
    subst h; exact hx
  · intro h; exact ⟨_, h, rfl⟩

theorem kids_append (a b : List Data) : kids (a ++ b) = kids a ++ kids b := List.filterMap_append

theorem kids_refs (refs : List Nat) : kids (List.map .spanReference refs) = [] := by
  induction refs with
  | nil => rfl
  | cons r rs ih => exact ih

theorem isElem_iff {x : Data} {c : Nat} : x.isElem c = true ↔ x = .element c := by
  cases x <;> simp [DataType.isElem]

theorem kids_filter (data : List Data) (c : Nat) : kids (data.filter (!·.isElem c)) = (kids data).filter (· != c) := by
  induction data with
  | nil => rfl
  | cons x xs ih =>
    cases x with
    | element k =>
      by_cases hk : k = c
      · subst hk; simpa [kids, DataType.isElem] using ih
      · simpa [kids, DataType.isElem, hk] using ih
    | text | comment | spanReference | addElement => exact ih

theorem filter_isElem_none {data : List Data} {c : Nat} (h : c ∉ kids data) : data.filter (!·.isElem c) = data := by
  rw [List.filter_eq_self]
  intro x hx
  simp only [Bool.not_eq_true']
  cases hx' : x.isElem c with
  | false => rfl
  | true => rw [isElem_iff] at hx'; subst hx'; exact absurd (mem_kids.mpr hx) h

/-- Removing the first reference of a child that is listed at most once removes it altogether. -/
theorem unlink_filter {e : ElementData} {c : Nat} (h : (kids e.data).Nodup) : (unlink c e).data = e.data.filter (!·.isElem c) := by
  have key : ∀ data : List Data, (kids data).Nodup →
      (match data.findIdx? (·.isElem c) with | some i => data.eraseIdx i | none => data) = data.filter (!·.isElem c) := by
    intro data
    induction data with
    | nil => intro _; rfl
    | cons x xs ih =>
      intro h
      cases hx : x.isElem c with
      | true =>
        have := isElem_iff.mp hx
        subst this
        have hn : c ∉ kids xs := by
          have : kids (DataType.element c :: xs) = c :: kids xs := rfl
          rw [this] at h
          exact (List.nodup_cons.mp h).1
        simp only [List.findIdx?_cons, hx, List.filter_cons, if_true, List.eraseIdx_zero, List.tail_cons]
        exact (filter_isElem_none hn).symm
      | false =>
        have h' : (kids xs).Nodup := by
          have : kids xs <:+ kids (x :: xs) := by
            have h1 : x :: xs = [x] ++ xs := rfl
            rw [h1, kids_append]; exact List.suffix_append _ _
          exact List.Nodup.sublist this.sublist h
        have ih := ih h'
        rw [List.findIdx?_cons, hx]
        simp only [List.filter_cons, hx, Bool.not_false, if_true]
        rw [← ih]
        cases xs.findIdx? (·.isElem c) <;> simp
  rw [← key e.data h]
  unfold unlink ElementData.index
  cases e.data.findIdx? (·.isElem c) <;> rfl

/-! ### Attaching and detaching -/

theorem attach_unknown {d : Document} {p c : Nat} (h : d.getElement p = none ∨ d.getElement c = none) :
    attachElement p c d = (.error (.err .internal), d) := by
  unfold attachElement
  simp only [M.run_bind, M.run_get]
  cases hp : d.getElement p with
  | none => rfl
  | some pe =>
    simp only [M.run_bind, M.run_get]
    cases hc : d.getElement c with
    | none => rfl
    | some ce => rcases h with h | h <;> simp_all

theorem attach_run {d : Document} {p c : Nat} {pe ce : ElementData} (hp : d.getElement p = some pe) (hc : d.getElement c = some ce) :
    attachElement p c d = (.ok (), { d with elements :=
      let s := (d.elements.update c fun e => { e with parent := some p }).update p fun e => e.push (.element c)
      match ce.parent with
      | some old => s.update old (unlink c)
      | none => s }) := by
  unfold attachElement
  simp only [M.run_bind, M.run_get, hp, hc, updElement, M.run_modify]
  cases ce.parent with
  | none => rfl
  | some old => rfl

theorem detach_run {d : Document} {c : Nat} {ce : ElementData} (hc : d.getElement c = some ce) :
    detachElement c d = (.ok (), { d with elements :=
      match ce.parent with
      | some old => (d.elements.update c fun e => { e with parent := none }).update old (unlink c)
      | none => d.elements.update c fun e => { e with parent := none } }) := by
  unfold detachElement
  simp only [M.run_bind, M.run_get, hc, updElement, M.run_modify]
  cases ce.parent with
  | none => rfl
  | some old => rfl

theorem _root_.Folia.Document.LinksAgree.not_listed {d : Document} (h : LinksAgree d) {c : Nat} {ce : ElementData} (hc : d.getElement c = some ce) {j : Nat}
    {e : ElementData} (he : d.getElement j = some e) (hj : ce.parent ≠ some j) : c ∉ kids e.data := by
  intro hk
  obtain ⟨ce', h1, h2⟩ := (h.agree j c).mp ⟨e, he, mem_kids.mp hk⟩
  rw [hc] at h1; cases h1
  exact hj h2

theorem unlink_eq {e : ElementData} {c : Nat} (h : (kids e.data).Nodup) : unlink c e = { e with data := e.data.filter (!·.isElem c) } := by
  have h1 := unlink_filter (c := c) h
  obtain ⟨h2, h3, h4, h5⟩ := unlink_same c e
  cases hu : unlink c e
  rw [hu] at h1 h2 h3 h4 h5
  simp_all

/-- If the child is listed already, the first occurrence is removed, not a later one. -/
theorem unlink_push {e : ElementData} {c : Nat} (par : Option Nat) (tail : List Data) (hnd : (kids e.data).Nodup) (hm : c ∈ kids e.data) :
    unlink c { e with parent := par, data := e.data ++ tail } = { e with parent := par, data := e.data.filter (!·.isElem c) ++ tail } := by
  have h1 := unlink_filter (e := e) (c := c) hnd
  unfold unlink ElementData.index at h1 ⊢
  have hex : ∃ i, e.data.findIdx? (·.isElem c) = some i := by
    cases hi : e.data.findIdx? (·.isElem c) with
    | some i => exact ⟨i, rfl⟩
    | none =>
      rw [List.findIdx?_eq_none_iff] at hi
      have := hi _ (mem_kids.mp hm)
      simp [DataType.isElem] at this
  obtain ⟨i, hi⟩ := hex
  simp only [hi, ElementData.remove] at h1
  simp only [List.findIdx?_append, hi, Option.some_or, ElementData.remove]
  rw [List.eraseIdx_append_of_lt_length, h1]
  exact (List.findIdx?_eq_some_iff_findIdx_eq.mp hi).1

/-- The effect of attaching on every element of a consistent document. -/
theorem attach_effect {d : Document} (h : LinksAgree d) {p c : Nat} {pe ce : ElementData} (hp : d.getElement p = some pe)
    (hc : d.getElement c = some ce) : ∃ s, attachElement p c d = (.ok (), { d with elements := s }) ∧ s.len = d.elements.len ∧
    s.index = d.elements.index ∧ ∀ j, s.get j = (d.getElement j).map fun e =>
      { e with parent := if j = c then some p else e.parent,
               data := e.data.filter (!·.isElem c) ++ if j = p then [.element c] else [] } := by
  rw [attach_run hp hc]
  refine ⟨_, rfl, ?_, ?_, ?_⟩
  · simp only [Store.len]; cases ce.parent <;> simp
  · simp only []; cases ce.parent <;> simp
  · intro j
    cases he : d.getElement j with
    | none =>
      have he : d.elements.get j = none := he
      cases ce.parent <;> simp [Store.get_update, he]
    | some e =>
      have he' : d.elements.get j = some e := he
      have hparent : ce.parent ≠ some j → e.data.filter (!·.isElem c) = e.data := fun hj => filter_isElem_none (h.not_listed hc he hj)
      have hnd := h.once j e he
      have hs : ((d.elements.update c fun e => { e with parent := some p }).update p fun e => e.push (.element c)).get j =
          some { e with parent := if j = c then some p else e.parent, data := e.data ++ if j = p then [.element c] else [] } := by
        simp only [Store.get_update, he']
        by_cases hjp : j = p <;> by_cases hjc : j = c
        · simp only [if_pos hjp, if_pos hjc, Option.map_some, ElementData.push]
        · simp only [if_pos hjp, if_neg hjc, Option.map_some, ElementData.push]
        · simp only [if_neg hjp, if_pos hjc, Option.map_some, List.append_nil]
        · simp only [if_neg hjp, if_neg hjc, List.append_nil]; cases e; rfl
      simp only [Option.map_some]
      cases hpar : ce.parent with
      | none => simp only []; rw [hs, hparent (by rw [hpar]; simp)]
      | some old =>
        simp only []
        rw [Store.get_update, hs]
        by_cases hj : j = old
        · subst hj
          rw [if_pos rfl, Option.map_some]
          congr 1
          have hmem : c ∈ kids e.data := by
            obtain ⟨e2, h1, h2⟩ := (h.agree j c).mpr ⟨ce, hc, hpar⟩
            rw [he] at h1; cases h1
            exact mem_kids.mpr h2
          exact unlink_push _ (if j = p then [.element c] else []) hnd hmem
        · rw [if_neg hj, hparent (by rw [hpar]; simp; exact fun h => hj h.symm)]

/-- The effect of detaching on every element of a consistent document. -/
theorem detach_effect {d : Document} (h : LinksAgree d) {c : Nat} {ce : ElementData} (hc : d.getElement c = some ce) :
    ∃ s, detachElement c d = (.ok (), { d with elements := s }) ∧ s.len = d.elements.len ∧ s.index = d.elements.index ∧
    ∀ j, s.get j = (d.getElement j).map fun e =>
      { e with parent := if j = c then none else e.parent, data := e.data.filter (!·.isElem c) } := by
  rw [detach_run hc]
  refine ⟨_, rfl, ?_, ?_, ?_⟩
  · simp only [Store.len]; cases ce.parent <;> simp
  · cases ce.parent <;> simp
  · intro j
    cases he : d.getElement j with
    | none =>
      have he : d.elements.get j = none := he
      cases ce.parent <;> simp [Store.get_update, he]
    | some e =>
      have he' : d.elements.get j = some e := he
      have hparent : ce.parent ≠ some j → e.data.filter (!·.isElem c) = e.data := fun hj => filter_isElem_none (h.not_listed hc he hj)
      have hnd := h.once j e he
      have hs : (d.elements.update c fun e => { e with parent := none }).get j =
          some { e with parent := if j = c then none else e.parent } := by
        simp only [Store.get_update, he']
        by_cases hjc : j = c
        · simp [hjc]
        · simp only [if_neg hjc]; cases e; rfl
      simp only [Option.map_some]
      cases hpar : ce.parent with
      | none => simp only []; rw [hs, hparent (by rw [hpar]; simp)]
      | some old =>
        simp only []
        rw [Store.get_update, hs]
        by_cases hj : j = old
        · rw [if_pos hj, Option.map_some, unlink_eq (by exact hnd)]
        · rw [if_neg hj, hparent (by rw [hpar]; simp; exact fun h => hj h.symm)]

/-! ### Ranked documents -/

/-- There is a height that decreases from parent to child. -/
def Ranked (d : Document) : Prop := ∃ h : Nat → Nat, ∀ p c, d.Lists p c → h c < h p

theorem _root_.Folia.Document.Above.top {d : Document} {x q k : Nat} (ha : d.Above x k) (hp : d.HasParent x q) : d.Above q k := by
  induction ha with
  | parent h => exact .up h (.parent hp)
  | up h _ ih => exact .up h ih

theorem Ranked.above {d : Document} {h : Nat → Nat} (hl : LinksAgree d) (hr : ∀ p c, d.Lists p c → h c < h p) {a k : Nat}
    (ha : d.Above a k) : h k < h a := by
  induction ha with
  | parent hp => exact hr _ _ ((hl.agree _ _).mpr hp)
  | up hp _ ih => exact Nat.lt_trans (hr _ _ ((hl.agree _ _).mpr hp)) ih

theorem Ranked.acyclic {d : Document} (hl : LinksAgree d) (hr : Ranked d) : Acyclic d := by
  obtain ⟨h, hr⟩ := hr
  exact fun k ha => Nat.lt_irrefl _ (Ranked.above hl hr ha)

theorem exists_bound (h : Nat → Nat) (n : Nat) : ∃ b, ∀ k, k < n → h k ≤ b := by
  induction n with
  | zero => exact ⟨0, fun k hk => absurd hk (by omega)⟩
  | succ n ih =>
    obtain ⟨b, hb⟩ := ih
    refine ⟨b + h n, fun k hk => ?_⟩
    by_cases hkn : k = n
    · subst hkn; omega
    · have := hb k (by omega); omega

theorem Ranked.rooted {d : Document} (hl : LinksAgree d) (hr : Ranked d) {k : Nat} (hk : d.Live k) : d.Rooted k := by
  obtain ⟨h, hr⟩ := hr
  obtain ⟨b, hb⟩ := exists_bound h d.elements.len
  have key : ∀ n k, d.Live k → b - h k = n → d.Rooted k := by
    intro n
    induction n using Nat.strongRecOn with
    | ind n ih =>
      intro k hk hn
      obtain ⟨e, he⟩ := hk
      cases hp : e.parent with
      | none => exact .root he hp
      | some p =>
        have hpar : d.HasParent k p := ⟨e, he, hp⟩
        have hlist := (hl.agree p k).mpr hpar
        have hlt := hr p k hlist
        obtain ⟨pe, hpe, _⟩ := hlist
        have := hb p (Store.get_lt hpe)
        exact .child hpar (ih (b - h p) (by omega) p ⟨pe, hpe⟩ rfl)
  exact key _ k hk rfl

theorem attach_lists {d d' : Document} {p c : Nat}
    (he : ∀ j, d'.getElement j = (d.getElement j).map fun e =>
      { e with parent := if j = c then some p else e.parent,
               data := e.data.filter (!·.isElem c) ++ if j = p then [.element c] else [] })
    (hp : d.Live p) (q x : Nat) : d'.Lists q x ↔ (x = c ∧ q = p) ∨ (x ≠ c ∧ d.Lists q x) := by
  unfold Document.Lists
  rw [he q]
  constructor
  · rintro ⟨e', h1, h2⟩
    rw [Option.map_eq_some_iff] at h1
    obtain ⟨e, h1, rfl⟩ := h1
    simp only [List.mem_append, List.mem_filter] at h2
    rcases h2 with ⟨h2, h3⟩ | h2
    · right
      refine ⟨?_, e, h1, h2⟩
      rintro rfl
      simp [DataType.isElem] at h3
    · split at h2
      · simp at h2; left; exact ⟨h2, by assumption⟩
      · simp at h2
  · rintro (⟨rfl, rfl⟩ | ⟨hx, e, h1, h2⟩)
    · obtain ⟨e, h1⟩ := hp
      refine ⟨_, by rw [h1]; rfl, ?_⟩
      simp
    · refine ⟨_, by rw [h1]; rfl, ?_⟩
      simp only [List.mem_append, List.mem_filter]
      left
      refine ⟨h2, ?_⟩
      simp [DataType.isElem, hx]

theorem attach_hasParent {d d' : Document} {p c : Nat}
    (he : ∀ j, d'.getElement j = (d.getElement j).map fun e =>
      { e with parent := if j = c then some p else e.parent,
               data := e.data.filter (!·.isElem c) ++ if j = p then [.element c] else [] })
    (hc : d.Live c) (q x : Nat) : d'.HasParent x q ↔ (x = c ∧ q = p) ∨ (x ≠ c ∧ d.HasParent x q) := by
  unfold Document.HasParent
  rw [he x]
  constructor
  · rintro ⟨e', h1, h2⟩
    rw [Option.map_eq_some_iff] at h1
    obtain ⟨e, h1, rfl⟩ := h1
    simp only at h2
    split at h2
    · rename_i hx; simp at h2; exact Or.inl ⟨hx, h2.symm⟩
    · rename_i hx; exact Or.inr ⟨hx, e, h1, h2⟩
  · rintro (⟨rfl, rfl⟩ | ⟨hx, e, h1, h2⟩)
    · obtain ⟨e, h1⟩ := hc
      exact ⟨_, by rw [h1]; rfl, by simp⟩
    · exact ⟨_, by rw [h1]; rfl, by simp [hx, h2]⟩

theorem nodup_filter_append {l : List Nat} (h : l.Nodup) (c : Nat) (b : Bool) : (l.filter (· != c) ++ if b then [c] else []).Nodup := by
  rw [List.nodup_append]
  refine ⟨h.filter _, by split <;> simp, ?_⟩
  intro x hx y hy
  simp only [List.mem_filter, bne_iff_ne] at hx
  split at hy
  · simp at hy; subst hy; exact hx.2
  · simp at hy

theorem attach_links {d d' : Document} {p c : Nat} (hl : LinksAgree d) (hp : d.Live p) (hc : d.Live c)
    (he : ∀ j, d'.getElement j = (d.getElement j).map fun e =>
      { e with parent := if j = c then some p else e.parent,
               data := e.data.filter (!·.isElem c) ++ if j = p then [.element c] else [] }) : LinksAgree d' := by
  constructor
  · intro q x
    rw [attach_lists he hp, attach_hasParent he hc, hl.agree]
  · intro q e' hq
    rw [he q, Option.map_eq_some_iff] at hq
    obtain ⟨e, h1, rfl⟩ := hq
    simp only [kids_append, kids_filter]
    have := nodup_filter_append (hl.once q e h1) c (q == p)
    by_cases hqp : q = p <;> simp [hqp, kids] at this ⊢ <;> exact this

theorem attach_ranked {d d' : Document} {p c : Nat} (hl : LinksAgree d) (hr : Ranked d) (hp : d.Live p)
    (hn : p ≠ c) (hna : ¬ d.Above c p)
    (he : ∀ j, d'.getElement j = (d.getElement j).map fun e =>
      { e with parent := if j = c then some p else e.parent,
               data := e.data.filter (!·.isElem c) ++ if j = p then [.element c] else [] }) : Ranked d' := by
  obtain ⟨h, hr⟩ := hr
  haveI : ∀ k, Decidable (k = p ∨ d.Above k p) := fun k => Classical.propDecidable _
  refine ⟨fun k => if k = p ∨ d.Above k p then h k + h c + 1 else h k, ?_⟩
  intro q x hq
  rw [attach_lists he hp] at hq
  rcases hq with ⟨rfl, rfl⟩ | ⟨hx, hq⟩
  · have hx : ¬ (x = q ∨ d.Above x q) := by
      rintro (h | h)
      · exact hn h.symm
      · exact hna h
    simp only [true_or, if_true, if_neg hx]
    omega
  · have hlt := hr q x hq
    have hpar := (hl.agree q x).mp hq
    by_cases hxa : x = p ∨ d.Above x p
    · have hqa : q = p ∨ d.Above q p := by
        right
        rcases hxa with rfl | hxa
        · exact .parent hpar
        · exact hxa.top hpar
      simp only [if_pos hxa, if_pos hqa]
      omega
    · simp only [if_neg hxa]
      split <;> omega

end Folia
