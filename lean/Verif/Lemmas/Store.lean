import Verif.Document
/-! Helper lemmas about stores. -/
namespace Folia

@[simp] theorem Index.find_insert (ix : Index) (id id' : String) (k : Nat) :
    (ix.insert id k).find id' = if id = id' then some k else ix.find id' := by
  simp [Index.insert, Index.find]

namespace Store
variable {α : Type}

theorem get_eq_some {s : Store α} {k : Nat} {a : α} : s.get k = some a ↔ s.items[k]? = some (some a) := by
  unfold get
  split
  · simp_all
  · constructor
    · intro h; cases h
    · intro h; simp_all

theorem get_lt {s : Store α} {k : Nat} {a : α} (h : s.get k = some a) : k < s.items.length := by
  rw [get_eq_some] at h
  exact (List.getElem?_eq_some_iff.mp h).1

@[simp] theorem update_length (s : Store α) (k : Nat) (f : α → α) : (s.update k f).items.length = s.items.length := by
  unfold update
  split <;> simp

@[simp] theorem update_index (s : Store α) (k : Nat) (f : α → α) : (s.update k f).index = s.index := by
  unfold update
  split <;> simp

theorem get_update (s : Store α) (k : Nat) (f : α → α) (j : Nat) :
    (s.update k f).get j = if j = k then (s.get j).map f else s.get j := by
  unfold update
  split
  · rename_i a h
    by_cases hj : j = k
    · subst hj
      have hl := (List.getElem?_eq_some_iff.mp h).1
      have hg : s.get j = some a := get_eq_some.mpr h
      rw [if_pos rfl, hg]
      simp [get, hl]
    · simp [get, hj, Ne.symm hj]
  · rename_i h
    by_cases hj : j = k
    · subst hj
      have : s.get j = none := by
        unfold get
        split
        · exact absurd ‹_› (h _)
        · rfl
      simp [this]
    · simp [hj]

@[simp] theorem get_update_self (s : Store α) (k : Nat) (f : α → α) : (s.update k f).get k = (s.get k).map f := by
  simp [get_update]

theorem get_update_ne (s : Store α) (k : Nat) (f : α → α) {j : Nat} (h : j ≠ k) : (s.update k f).get j = s.get j := by
  simp [get_update, h]

variable [Storable α]

/-- The two outcomes of `add`. -/
theorem add_cases (cap : Nat) (s : Store α) (item : α) :
    (∃ id k, Storable.maybeId item = some id ∧ s.index.find id = some k ∧ s.add cap item = (.ok k, s)) ∨
    ((∀ id, Storable.maybeId item = some id → s.index.find id = none) ∧
      ((s.items.length < cap ∧ s.add cap item = (.ok s.items.length,
          { items := s.items ++ [some (Storable.assignKey item s.items.length)],
            index := match Storable.maybeId item with
              | some id => s.index.insert id s.items.length
              | none => s.index })) ∨
        (cap ≤ s.items.length ∧ s.add cap item = (.error (.err .internal), s)))) := by
  unfold add getKey
  cases hid : Storable.maybeId item with
  | none =>
    right
    refine ⟨by simp, ?_⟩
    by_cases hc : s.items.length < cap
    · left; simp [hc]
    · right; simp [hc]; omega
  | some id =>
    cases hf : s.index.find id with
    | some k => left; exact ⟨id, k, rfl, hf, by simp [hf]⟩
    | none =>
      right
      refine ⟨by simp [hf], ?_⟩
      by_cases hc : s.items.length < cap
      · left; simp [hc, hf]
      · right; simp [hc, hf]; omega

omit [Storable α] in
theorem get_append_item (items : List (Option α)) (ix ix' : Index) (a : α) (k : Nat) :
    Store.get (⟨items ++ [some a], ix⟩ : Store α) k = if k = items.length then some a else Store.get (⟨items, ix'⟩ : Store α) k := by
  unfold get
  by_cases hk : k = items.length
  · subst hk; simp
  · simp only [hk, if_false]
    by_cases hl : k < items.length
    · rw [List.getElem?_append_left hl]
    · rw [List.getElem?_eq_none (by simp; omega), List.getElem?_eq_none (by omega)]

/-- The three outcomes of `add`, by their observable effects. -/
theorem add_spec (cap : Nat) (s : Store α) (a : α) :
    (∃ id k, Storable.maybeId a = some id ∧ s.index.find id = some k ∧ s.add cap a = (.ok k, s)) ∨
    (s.add cap a = (.error (.err .internal), s) ∧ cap ≤ s.items.length) ∨
    ((∀ id, Storable.maybeId a = some id → s.index.find id = none) ∧ s.items.length < cap ∧ ∃ s', s.add cap a = (.ok s.items.length, s') ∧
      s'.items = s.items ++ [some (Storable.assignKey a s.items.length)] ∧
      (∀ k, s'.get k = if k = s.items.length then some (Storable.assignKey a s.items.length) else s.get k) ∧
      ∀ id, s'.index.find id = if Storable.maybeId a = some id then some s.items.length else s.index.find id) := by
  rcases add_cases cap s a with h | ⟨hf, ⟨hc, heq⟩ | ⟨hc, heq⟩⟩
  · exact Or.inl h
  · refine Or.inr (Or.inr ⟨hf, hc, _, heq, rfl, fun k => get_append_item s.items _ s.index _ k, fun id => ?_⟩)
    cases hm : Storable.maybeId a with
    | none => simp
    | some id' => simp [Index.find_insert]
  · exact Or.inr (Or.inl ⟨heq, by omega⟩)

end Store
end Folia
