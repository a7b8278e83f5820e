import Verif.Lemmas.Store
/-! Keyed stores: C03, C04, C05. All statements are about any item type, or about any sequence of additions. -/
namespace Folia

/-! ### C03 -/

/-- C03: adding an item whose identifier is not known (or that has none) hands out the previous item count as key, stores the item
there, leaves every other item alone, and extends the index by this identifier only. -/
theorem C03_add_fresh {α : Type} [Storable α] (cap : Nat) (s : Store α) (item : α)
    (hfresh : ∀ id, Storable.maybeId item = some id → s.idToKey id = none) (hcap : s.len < cap) :
    (s.add cap item).1 = .ok s.len ∧
    (s.add cap item).2.len = s.len + 1 ∧
    (s.add cap item).2.get s.len = some (Storable.assignKey item s.len) ∧
    (∀ k, k ≠ s.len → (s.add cap item).2.get k = s.get k) ∧
    (∀ id, (s.add cap item).2.idToKey id = if Storable.maybeId item = some id then some s.len else s.idToKey id) := by
  rcases Store.add_cases cap s item with ⟨id, k, hid, hk, _⟩ | ⟨_, ⟨_, heq⟩ | ⟨hc, _⟩⟩
  · have := hfresh id hid
    simp [Store.idToKey, hk] at this
  · rw [heq]
    refine ⟨rfl, by simp [Store.len], ?_, ?_, ?_⟩
    · simp [Store.len, Store.get_append_item _ _ s.index]
    · intro k hk
      rw [Store.get_append_item _ _ s.index]
      simp [Store.len] at hk
      simp [hk]
    · intro id
      cases hid : Storable.maybeId item with
      | none => simp [Store.idToKey]
      | some id' => simp [Store.idToKey, Store.len]
  · simp [Store.len] at hcap; omega

/-- C03: adding an item with a known identifier returns the registered key and changes nothing. -/
theorem C03_add_known {α : Type} [Storable α] (cap : Nat) (s : Store α) (item : α) (id : String) (k : Nat)
    (hid : Storable.maybeId item = some id) (hk : s.idToKey id = some k) : s.add cap item = (.ok k, s) := by
  simp only [Store.idToKey] at hk
  simp [Store.add, Store.getKey, hid, hk]

example : ∃ (s : Store Processor) (p : Processor), (∀ id, Storable.maybeId p = some id → s.idToKey id = none) ∧ 0 < s.len ∧ s.len < cap16 :=
  ⟨{ items := [some { id := "a" }], index := [("a", 0)] }, { id := "b" }, by
    intro id h
    have : id = "b" := by simpa [Storable.maybeId] using h.symm
    subst this; decide, by decide, by decide⟩

/-! ### C04 -/

/-- Adding a sequence of items: the results and the final store. -/
def Store.addAll {α : Type} [Storable α] (cap : Nat) : Store α → List α → List (Res Nat) × Store α
  | s, [] => ([], s)
  | s, a :: as => match s.add cap a with
    | (r, s') => match Store.addAll cap s' as with
      | (rs, s'') => (r :: rs, s'')

/-- C04: when the keys are used up, adding an item that is not known fails and changes nothing. -/
theorem C04_exhausted {α : Type} [Storable α] (cap : Nat) (s : Store α) (item : α)
    (hfresh : ∀ id, Storable.maybeId item = some id → s.idToKey id = none) (hfull : cap ≤ s.len) :
    s.add cap item = (.error (.err .internal), s) := by
  rcases Store.add_cases cap s item with ⟨id, k, hid, hk, _⟩ | ⟨_, ⟨hc, _⟩ | ⟨_, heq⟩⟩
  · have := hfresh id hid
    simp [Store.idToKey, hk] at this
  · simp [Store.len] at hfull; omega
  · exact heq

/-- What holds of a store filled by additions only: items sit below the capacity, and each indexed identifier belongs to the item
registered for it. -/
structure Store.Filled {α : Type} [Storable α] (cap : Nat) (s : Store α) : Prop where
  size : s.items.length ≤ cap
  sound : ∀ id k, s.index.find id = some k → ∃ a, s.get k = some a ∧ Storable.maybeId a = some id
  full : ∀ k, k < s.items.length → ∃ a, s.get k = some a

theorem Store.Filled.empty {α : Type} [Storable α] (cap : Nat) : Store.Filled cap ({} : Store α) :=
  ⟨by simp, by simp [Index.find], by simp⟩

theorem Store.Filled.add {α : Type} [Storable α] {cap : Nat} {s : Store α} (h : s.Filled cap) (item : α)
    (hlaw : ∀ (a : α) k, Storable.maybeId (Storable.assignKey a k) = Storable.maybeId a) : (s.add cap item).2.Filled cap := by
  rcases Store.add_cases cap s item with ⟨id, k, hid, hk, heq⟩ | ⟨hf, ⟨hc, heq⟩ | ⟨_, heq⟩⟩
  · rw [heq]; exact h
  · rw [heq]
    refine ⟨by simp; omega, ?_, ?_⟩
    · intro id k hfind
      rw [Store.get_append_item _ _ s.index]
      by_cases hk : k = s.items.length
      · simp only [hk, if_true]
        refine ⟨_, rfl, ?_⟩
        rw [hlaw]
        cases hid : Storable.maybeId item with
        | none =>
          simp only [hid] at hfind
          obtain ⟨a, ha, _⟩ := h.sound id k hfind
          have := Store.get_lt ha
          omega
        | some id' =>
          simp only [hid, Index.find_insert] at hfind
          split at hfind
          · simp_all
          · obtain ⟨a, ha, _⟩ := h.sound id k hfind
            have := Store.get_lt ha
            omega
      · simp only [hk, if_false]
        apply h.sound
        cases hid : Storable.maybeId item with
        | none => simpa [hid] using hfind
        | some id' =>
          simp only [hid, Index.find_insert] at hfind
          split at hfind
          · simp at hfind; omega
          · exact hfind
    · intro k hk
      rw [Store.get_append_item _ _ s.index]
      by_cases hk' : k = s.items.length
      · simp [hk']
      · simp only [hk', if_false]
        apply h.full
        simp at hk; omega
  · rw [heq]; exact h

theorem Store.add_get_stable {α : Type} [Storable α] {cap : Nat} {s : Store α} (item : α) {k : Nat} {a : α}
    (h : s.get k = some a) : (s.add cap item).2.get k = some a := by
  rcases Store.add_cases cap s item with ⟨id, k', hid, hk, heq⟩ | ⟨hf, ⟨hc, heq⟩ | ⟨_, heq⟩⟩
  · rw [heq]; exact h
  · rw [heq, Store.get_append_item _ _ s.index]
    have := Store.get_lt h
    rw [if_neg (by omega)]
    exact h
  · rw [heq]; exact h

theorem Store.addAll_get_stable {α : Type} [Storable α] {cap : Nat} (items : List α) {s : Store α} {k : Nat} {a : α}
    (h : s.get k = some a) : (Store.addAll cap s items).2.get k = some a := by
  induction items generalizing s with
  | nil => exact h
  | cons b bs ih => exact ih (Store.add_get_stable b h)

/-- C04: over any sequence of additions to an empty store, every key handed out is below the capacity of the key type and resolves,
at the end, to a stored item with the identifier of the item that was added; an item without identifier resolves to itself. -/
theorem C04_keys_valid {α : Type} [Storable α] (cap : Nat)
    (hlaw : ∀ (a : α) k, Storable.maybeId (Storable.assignKey a k) = Storable.maybeId a) (items : List α) (i : Nat) (a : α) (k : Nat)
    (ha : items[i]? = some a) (hk : (Store.addAll cap {} items).1[i]? = some (.ok k)) :
    k < cap ∧ ∃ b, (Store.addAll cap {} items).2.get k = some b ∧ Storable.maybeId b = Storable.maybeId a ∧
      (Storable.maybeId a = none → b = Storable.assignKey a k) := by
  have key : ∀ (items : List α) (s : Store α) (i : Nat), s.Filled cap → items[i]? = some a →
      (Store.addAll cap s items).1[i]? = some (.ok k) →
      k < cap ∧ ∃ b, (Store.addAll cap s items).2.get k = some b ∧ Storable.maybeId b = Storable.maybeId a ∧
        (Storable.maybeId a = none → b = Storable.assignKey a k) := by
    intro items
    induction items with
    | nil => intro s i _ h; simp at h
    | cons b bs ih =>
      intro s i hs ha hk
      cases i with
      | succ i =>
        exact ih (s.add cap b).2 i (hs.add b hlaw) (by simpa using ha) (by simpa [Store.addAll] using hk)
      | zero =>
        simp only [List.getElem?_cons_zero, Option.some.injEq] at ha
        subst ha
        have hk' : (s.add cap b).1 = .ok k := by simpa [Store.addAll] using hk
        have hfin : ∀ c, (s.add cap b).2.get k = some c → (Store.addAll cap s (b :: bs)).2.get k = some c := by
          intro c hc
          simpa [Store.addAll] using Store.addAll_get_stable bs hc
        rcases Store.add_cases cap s b with ⟨id, k', hid, hf, heq⟩ | ⟨hf, ⟨hc, heq⟩ | ⟨_, heq⟩⟩
        · rw [heq] at hk' hfin
          simp only [Except.ok.injEq] at hk'
          subst hk'
          obtain ⟨c, hc, hcid⟩ := hs.sound id k' hf
          have hl := Store.get_lt hc
          have := hs.size
          exact ⟨by omega, c, hfin c hc, by rw [hcid, hid], by simp [hid]⟩
        · rw [heq] at hk' hfin
          simp only [Except.ok.injEq] at hk'
          subst hk'
          refine ⟨hc, Storable.assignKey b s.items.length, hfin _ ?_, hlaw _ _, fun _ => rfl⟩
          rw [Store.get_append_item _ _ s.index]; simp
        · rw [heq] at hk'; simp at hk'
  exact key items {} i (Store.Filled.empty cap) ha hk

theorem Store.addAll_fresh_gt {α : Type} [Storable α] {cap : Nat} (items : List α) {s : Store α} (i : Nat) (a : α) (k : Nat)
    (ha : items[i]? = some a) (hn : Storable.maybeId a = none) (hk : (Store.addAll cap s items).1[i]? = some (.ok k)) :
    s.items.length ≤ k := by
  induction items generalizing s i with
  | nil => simp at ha
  | cons b bs ih =>
    cases i with
    | zero =>
      simp only [List.getElem?_cons_zero, Option.some.injEq] at ha
      subst ha
      have hk' : (s.add cap b).1 = .ok k := by simpa [Store.addAll] using hk
      rcases Store.add_cases cap s b with ⟨id, k', hid, hf, heq⟩ | ⟨hf, ⟨hc, heq⟩ | ⟨_, heq⟩⟩
      · simp [hn] at hid
      · rw [heq] at hk'; simp at hk'; omega
      · rw [heq] at hk'; simp at hk'
    | succ i =>
      have := ih (s := (s.add cap b).2) i (by simpa using ha) (by simpa [Store.addAll] using hk)
      have hle : s.items.length ≤ (s.add cap b).2.items.length := by
        rcases Store.add_cases cap s b with ⟨id, k', hid, hf, heq⟩ | ⟨hf, ⟨hc, heq⟩ | ⟨_, heq⟩⟩ <;> rw [heq] <;> simp
      omega

/-- C04: over any sequence of additions two items get the same key only if they carry the same identifier; items without identifier
never share a key with an item added before or after. -/
theorem C04_no_sharing {α : Type} [Storable α] (cap : Nat)
    (hlaw : ∀ (a : α) k, Storable.maybeId (Storable.assignKey a k) = Storable.maybeId a) (items : List α) (i j : Nat) (a b : α) (k : Nat)
    (hij : i < j) (ha : items[i]? = some a) (hb : items[j]? = some b)
    (hi : (Store.addAll cap {} items).1[i]? = some (.ok k)) (hj : (Store.addAll cap {} items).1[j]? = some (.ok k)) :
    ∃ id, Storable.maybeId a = some id ∧ Storable.maybeId b = some id := by
  obtain ⟨_, x, hx, hxa, hxn⟩ := C04_keys_valid cap hlaw items i a k ha hi
  obtain ⟨_, y, hy, hyb, hyn⟩ := C04_keys_valid cap hlaw items j b k hb hj
  rw [hx] at hy
  cases hy
  cases hid : Storable.maybeId b with
  | some id => exact ⟨id, by rw [← hxa, hyb, hid], rfl⟩
  | none =>
    exfalso
    -- the later item has no identifier, so its key is beyond everything present before it
    have key : ∀ (items : List α) (s : Store α) (i j : Nat), i < j → items[i]? = some a → items[j]? = some b →
        s.Filled cap → (Store.addAll cap s items).1[i]? = some (.ok k) → (Store.addAll cap s items).1[j]? = some (.ok k) → False := by
      intro items
      induction items with
      | nil => intro s i j _ h; simp at h
      | cons c cs ih =>
        intro s i j hij ha hb hs hi hj
        obtain ⟨j, rfl⟩ : ∃ j', j = j' + 1 := ⟨j - 1, by omega⟩
        cases i with
        | succ i =>
          exact ih (s.add cap c).2 i j (by omega) (by simpa using ha) (by simpa using hb) (hs.add c hlaw)
            (by simpa [Store.addAll] using hi) (by simpa [Store.addAll] using hj)
        | zero =>
          have hi' : (s.add cap c).1 = .ok k := by simpa [Store.addAll] using hi
          have hge := Store.addAll_fresh_gt (s := (s.add cap c).2) cs j b k (by simpa using hb) hid (by simpa [Store.addAll] using hj)
          rcases Store.add_cases cap s c with ⟨id, k', _, hf, heq⟩ | ⟨hf, ⟨hc, heq⟩ | ⟨_, heq⟩⟩
          · rw [heq] at hi' hge
            simp only [Except.ok.injEq] at hi'
            subst hi'
            obtain ⟨z, hz, _⟩ := hs.sound id k' hf
            have := Store.get_lt hz
            simp at hge; omega
          · rw [heq] at hi' hge
            simp at hi' hge; omega
          · rw [heq] at hi'; simp at hi'
    exact key items {} i j hij ha hb (Store.Filled.empty cap) hi hj

theorem Declaration.maybeId_assignKey (a : Declaration) (k : Nat) : Storable.maybeId (Storable.assignKey a k) = Storable.maybeId a := rfl
theorem Processor.maybeId_assignKey (a : Processor) (k : Nat) : Storable.maybeId (Storable.assignKey a k) = Storable.maybeId a := rfl
theorem ElementData.maybeId_assignKey (a : ElementData) (k : Nat) : Storable.maybeId (Storable.assignKey a k) = Storable.maybeId a := rfl

example : (Store.addAll 2 ({} : Store Processor) [{ id := "a" }, { id := "b" }, { id := "a" }, { id := "c" }]).1 =
    [.ok 0, .ok 1, .ok 0, .error (.err .internal)] := by decide +kernel

/-! ### C05 -/

/-- Adding a sequence of strings: the results and the final store. -/
def StringStore.addAll (cap : Nat) : StringStore → List String → List (Res Nat) × StringStore
  | s, [] => ([], s)
  | s, a :: as => match s.add cap a with
    | (r, s') => match StringStore.addAll cap s' as with
      | (rs, s'') => (r :: rs, s'')

/-- Specification: the distinct strings of a list, in order of first occurrence, after the strings already seen. -/
def distinctFrom : List String → List String → List String
  | seen, [] => seen
  | seen, s :: rest => if s ∈ seen then distinctFrom seen rest else distinctFrom (seen ++ [s]) rest

/-- The store holds exactly these strings, in this order. -/
def StringStore.Holds (s : StringStore) (l : List String) : Prop :=
  l.Nodup ∧ s.items = l.map some ∧ ∀ x, s.index.find x = if x ∈ l then some (l.idxOf x) else none

theorem StringStore.Holds.add {s : StringStore} {l : List String} (h : s.Holds l) (cap : Nat) (x : String) :
    (x ∈ l ∧ s.add cap x = (.ok (l.idxOf x), s)) ∨
    (x ∉ l ∧ l.length < cap ∧ (s.add cap x).1 = .ok l.length ∧ (s.add cap x).2.Holds (l ++ [x])) ∨
    (x ∉ l ∧ cap ≤ l.length ∧ s.add cap x = (.error (.err .internal), s)) := by
  obtain ⟨hnd, hit, hix⟩ := h
  by_cases hx : x ∈ l
  · left
    refine ⟨hx, ?_⟩
    simp [StringStore.add, StringStore.getKey, hix, hx]
  · right
    have hf : s.index.find x = none := by simp [hix, hx]
    have hlen : s.items.length = l.length := by simp [hit]
    by_cases hc : l.length < cap
    · left
      refine ⟨hx, hc, by simp [StringStore.add, StringStore.getKey, hf, hlen, hc], ?_⟩
      have : (s.add cap x).2 = { items := s.items ++ [some x], index := s.index.insert x s.items.length } := by
        simp [StringStore.add, StringStore.getKey, hf, hlen, hc]
      rw [this]
      refine ⟨?_, by simp [hit], ?_⟩
      · rw [List.nodup_append]
        refine ⟨hnd, by simp, ?_⟩
        intro a ha b hb
        simp only [List.mem_singleton] at hb
        rintro rfl; subst hb; exact hx ha
      · intro y
        simp only [Index.find_insert, hix]
        by_cases hy : x = y
        · subst hy
          simp [List.idxOf_append, hx, hlen]
        · simp only [hy, if_false, List.mem_append, List.mem_singleton, Ne.symm hy, or_false]
          by_cases hyl : y ∈ l
          · simp [hyl, List.idxOf_append]
          · simp [hyl]
    · right
      exact ⟨hx, by omega, by simp [StringStore.add, StringStore.getKey, hf, hlen, hc]⟩

theorem distinctFrom_prefix (l : List String) (seen : List String) : seen <+: distinctFrom seen l := by
  induction l generalizing seen with
  | nil => exact List.prefix_rfl
  | cons x xs ih =>
    simp only [distinctFrom]
    split
    · exact ih seen
    · exact (List.prefix_append seen [x]).trans (ih _)

theorem StringStore.addAll_holds (cap : Nat) (strs : List String) (s : StringStore) (l : List String) (h : s.Holds l)
    (hcap : (distinctFrom l strs).length ≤ cap) :
    (StringStore.addAll cap s strs).2.Holds (distinctFrom l strs) ∧
    (StringStore.addAll cap s strs).1 = strs.map fun x => .ok ((distinctFrom l strs).idxOf x) := by
  induction strs generalizing s l with
  | nil => exact ⟨h, rfl⟩
  | cons x xs ih =>
    simp only [distinctFrom] at hcap ⊢
    have idx : ∀ (l' : List String), x ∈ l' → (distinctFrom l' xs).idxOf x = l'.idxOf x := by
      intro l' hx
      obtain ⟨t, ht⟩ := distinctFrom_prefix xs l'
      rw [← ht, List.idxOf_append, if_pos hx]
    rcases h.add cap x with ⟨hx, heq⟩ | ⟨hx, hc, hr, hH⟩ | ⟨hx, hc, heq⟩
    · rw [if_pos hx] at hcap ⊢
      have := ih s l h hcap
      simp only [StringStore.addAll, heq, List.map_cons, idx l hx]
      exact ⟨this.1, by rw [this.2]⟩
    · rw [if_neg hx] at hcap ⊢
      have := ih _ _ hH hcap
      simp only [StringStore.addAll, List.map_cons]
      refine ⟨this.1, ?_⟩
      rw [this.2, hr, idx (l ++ [x]) (by simp)]
      simp [List.idxOf_append, hx]
    · rw [if_neg hx] at hcap
      have := (distinctFrom_prefix xs (l ++ [x])).length_le
      simp at this; omega

/-- C05: interning any sequence of strings (with at most `cap` different ones) stores each different string once, in order of first
occurrence, and every addition returns the position of its string among these: keys are a bijection with the strings. -/
theorem C05_interning (cap : Nat) (strs : List String) (hcap : (distinctFrom [] strs).length ≤ cap) :
    (StringStore.addAll cap {} strs).1 = strs.map (fun x => .ok ((distinctFrom [] strs).idxOf x)) ∧
    (∀ k, (StringStore.addAll cap {} strs).2.get k = (distinctFrom [] strs)[k]?) ∧
    (∀ x, (StringStore.addAll cap {} strs).2.getKey x = if x ∈ strs then some ((distinctFrom [] strs).idxOf x) else none) := by
  have h0 : StringStore.Holds {} [] := ⟨by simp, rfl, by simp [Index.find]⟩
  obtain ⟨⟨hnd, hit, hix⟩, hr⟩ := StringStore.addAll_holds cap strs {} [] h0 hcap
  have hmem : ∀ (l seen : List String) (x : String), x ∈ distinctFrom seen l ↔ x ∈ seen ∨ x ∈ l := by
    intro l
    induction l with
    | nil => intro seen x; simp [distinctFrom]
    | cons y ys ih =>
      intro seen x
      simp only [distinctFrom]
      split
      · rename_i hy
        rw [ih]
        constructor
        · rintro (h | h) <;> simp [h]
        · rintro (h | h)
          · exact Or.inl h
          · rcases List.mem_cons.mp h with rfl | h
            · exact Or.inl hy
            · exact Or.inr h
      · rw [ih]; simp [or_assoc]
  refine ⟨hr, ?_, ?_⟩
  · intro k
    simp only [StringStore.get, hit, List.getElem?_map]
    cases (distinctFrom [] strs)[k]? <;> rfl
  · intro x
    simp [StringStore.getKey, hix, hmem]

/-- C05: the two directions that users rely on: equal keys if and only if equal strings, and each key reads back its string, whatever
was added before, between and after, also when the store overflows. -/
theorem C05_keys_faithful (cap : Nat) (strs : List String) (i j : Nat) (x y : String) (k k' : Nat)
    (hx : strs[i]? = some x) (hy : strs[j]? = some y) (hi : (StringStore.addAll cap {} strs).1[i]? = some (.ok k))
    (hj : (StringStore.addAll cap {} strs).1[j]? = some (.ok k')) :
    (StringStore.addAll cap {} strs).2.get k = some x ∧ k < cap ∧ (k = k' ↔ x = y) := by
  -- every successful addition leaves its string at the returned position for ever
  have key : ∀ (strs : List String) (s : StringStore) (l : List String), s.Holds l → l.length ≤ cap →
      ∃ l', l <+: l' ∧ (StringStore.addAll cap s strs).2.Holds l' ∧ l'.length ≤ cap ∧
        ∀ (i : Nat) (x : String) (k : Nat), strs[i]? = some x → (StringStore.addAll cap s strs).1[i]? = some (.ok k) → l'[k]? = some x := by
    intro strs
    induction strs with
    | nil => intro s l h hl; exact ⟨l, List.prefix_rfl, h, hl, by simp⟩
    | cons z zs ih =>
      intro s l h hl
      have fin : ∀ (s' : StringStore) (l₁ : List String), (s.add cap z).2 = s' → s'.Holds l₁ → l <+: l₁ → l₁.length ≤ cap →
          (∀ k, (s.add cap z).1 = .ok k → l₁[k]? = some z) →
          ∃ l', l <+: l' ∧ (StringStore.addAll cap s (z :: zs)).2.Holds l' ∧ l'.length ≤ cap ∧
            ∀ (i : Nat) (x : String) (k : Nat), (z :: zs)[i]? = some x →
              (StringStore.addAll cap s (z :: zs)).1[i]? = some (.ok k) → l'[k]? = some x := by
        intro s' l₁ hs' h₁ hp hc hz
        obtain ⟨l', hp', hH, hc', hall⟩ := ih s' l₁ h₁ hc
        refine ⟨l', hp.trans hp', by simpa [StringStore.addAll, hs'] using hH, hc', ?_⟩
        intro i x k hx hk
        cases i with
        | zero =>
          simp only [List.getElem?_cons_zero, Option.some.injEq] at hx
          subst hx
          have := hz k (by simpa [StringStore.addAll] using hk)
          obtain ⟨t, rfl⟩ := hp'
          have hlt := (List.getElem?_eq_some_iff.mp this).1
          rw [List.getElem?_append_left hlt]
          exact this
        | succ i => exact hall i x k (by simpa using hx) (by simpa [StringStore.addAll, hs'] using hk)
      rcases h.add cap z with ⟨hz, heq⟩ | ⟨hz, hc, hr, hH⟩ | ⟨hz, hc, heq⟩
      · refine fin s l (by rw [heq]) h List.prefix_rfl hl ?_
        intro k hk
        rw [heq] at hk
        simp only [Except.ok.injEq] at hk
        subst hk
        exact List.getElem?_eq_some_iff.mpr ⟨List.idxOf_lt_length_of_mem hz, List.getElem_idxOf _⟩
      · refine fin _ (l ++ [z]) rfl hH (List.prefix_append _ _) (by simp; omega) ?_
        intro k hk
        rw [hr] at hk
        simp only [Except.ok.injEq] at hk
        subst hk
        simp
      · refine fin s l (by rw [heq]) h List.prefix_rfl hl ?_
        intro k hk
        rw [heq] at hk
        simp at hk
  have h0 : StringStore.Holds {} [] := ⟨by simp, rfl, by simp [Index.find]⟩
  obtain ⟨l', _, ⟨hnd, hit, _⟩, hc, hall⟩ := key strs {} [] h0 (by simp)
  have h1 := hall i x k hx hi
  have h2 := hall j y k' hy hj
  have hlt := (List.getElem?_eq_some_iff.mp h1).1
  refine ⟨?_, by omega, ?_, ?_⟩
  · simp [StringStore.get, hit, List.getElem?_map, h1]
  · rintro rfl
    rw [h1] at h2
    exact Option.some.inj h2
  · rintro rfl
    exact (List.getElem?_inj hlt hnd).mp (h1.trans h2.symm)

example : (StringStore.addAll 2 {} ["N", "V", "N", "X"]).1 = [.ok 0, .ok 1, .ok 0, .error (.err .internal)] := by decide +kernel

end Folia
