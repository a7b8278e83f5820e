import Verif.Lemmas.Store
import Verif.Props.Tables
import Verif.Document
/-! Helper lemmas about declarations: index identifiers, default keys, store invariants. -/
namespace Folia

/-! ### Index identifiers -/

theorem append_slash_inj {a b : List Char} {x y : List Char} (ha : '/' ∉ a) (hb : '/' ∉ b) (h : a ++ '/' :: x = b ++ '/' :: y) :
    a = b ∧ x = y := by
  induction a generalizing b with
  | nil =>
    cases b with
    | nil => simpa using h
    | cons c cs =>
      simp only [List.nil_append, List.cons_append, List.cons.injEq] at h
      exact absurd (by simp [← h.1]) hb
  | cons c cs ih =>
    cases b with
    | nil =>
      simp only [List.nil_append, List.cons_append, List.cons.injEq] at h
      exact absurd (by simp [h.1]) ha
    | cons d ds =>
      simp only [List.cons_append, List.cons.injEq] at h
      have := ih (fun hm => ha (List.mem_cons_of_mem _ hm)) (fun hm => hb (List.mem_cons_of_mem _ hm)) h.2
      exact ⟨by rw [h.1, this.1], this.2⟩

theorem Declaration.indexId_inj {t t' : AnnotationType} {s s' : Option String} (h : indexId t s = indexId t' s') : t = t' ∧ s = s' := by
  have h1 := AnnotationType.asStr_noSlash t
  have h2 := AnnotationType.asStr_noSlash t'
  have h := congrArg String.toList h
  cases s <;> cases s' <;> simp only [indexId, String.toList_append] at h
  · exact ⟨AnnotationType.asStr_inj (String.toList_inj.mp h), rfl⟩
  · exfalso; apply h1; rw [h]; simp
  · exfalso; apply h2; rw [← h]; simp
  · have h' := append_slash_inj (x := _) (y := _) h1 h2 (by simpa using h)
    exact ⟨AnnotationType.asStr_inj (String.toList_inj.mp h'.1), by rw [String.toList_inj.mp h'.2]⟩

/-! ### Default keys -/

theorem mem_matchingIndices (t : AnnotationType) (items : List (Option Declaration)) (i k : Nat) :
    k ∈ matchingIndices t i items ↔ i ≤ k ∧ ∃ dec, items[k - i]? = some (some dec) ∧ dec.annotationtype = t := by
  induction items generalizing i with
  | nil => simp [matchingIndices]
  | cons x xs ih =>
    have hsub : ∀ {k}, i < k → k - i = (k - (i + 1)) + 1 := by intro k h; omega
    rcases x with _ | d
    · simp only [matchingIndices, ih]
      constructor
      · rintro ⟨h, dec, h1, h2⟩
        exact ⟨by omega, dec, by rw [hsub (by omega)]; simpa using h1, h2⟩
      · rintro ⟨h, dec, h1, h2⟩
        have : k ≠ i := by rintro rfl; simp at h1
        rw [hsub (by omega)] at h1
        exact ⟨by omega, dec, by simpa using h1, h2⟩
    · have hstep : (∃ dec, (some d :: xs)[k - i]? = some (some dec) ∧ dec.annotationtype = t) ∧ i ≤ k ↔
          (k = i ∧ d.annotationtype = t) ∨ (i + 1 ≤ k ∧ ∃ dec, xs[k - (i + 1)]? = some (some dec) ∧ dec.annotationtype = t) := by
        constructor
        · rintro ⟨⟨dec, h1, h2⟩, h⟩
          by_cases hk : k = i
          · subst hk; simp at h1; subst h1; exact Or.inl ⟨rfl, h2⟩
          · rw [hsub (by omega)] at h1
            exact Or.inr ⟨by omega, dec, by simpa using h1, h2⟩
        · rintro (⟨rfl, h⟩ | ⟨h, dec, h1, h2⟩)
          · exact ⟨⟨d, by simp, h⟩, Nat.le_refl _⟩
          · exact ⟨⟨dec, by rw [hsub (by omega)]; simpa using h1, h2⟩, by omega⟩
      rw [and_comm, hstep]
      simp only [matchingIndices]
      split
      · rename_i h; simp [ih, h]
      · rename_i h; simp [ih, h]

theorem nodup_matchingIndices (t : AnnotationType) (items : List (Option Declaration)) (i : Nat) : (matchingIndices t i items).Nodup := by
  induction items generalizing i with
  | nil => simp [matchingIndices]
  | cons x xs ih =>
    rcases x with _ | d
    · exact ih _
    · simp only [matchingIndices]
      split
      · rw [List.nodup_cons]
        refine ⟨?_, ih _⟩
        rw [mem_matchingIndices]
        omega
      · exact ih _

theorem eq_singleton_of_nodup {l : List Nat} {k : Nat} (h : l.Nodup) (hk : k ∈ l) (hu : ∀ j ∈ l, j = k) : l = [k] := by
  cases l with
  | nil => simp at hk
  | cons x xs =>
    have hx := hu x (by simp)
    subst hx
    cases xs with
    | nil => rfl
    | cons y ys =>
      have := hu y (by simp)
      subst this
      simp at h

/-- The one and only declaration of a type: the specification of a default declaration. -/
def OnlyDeclaration (items : List (Option Declaration)) (t : AnnotationType) (k : Nat) : Prop :=
  (∃ dec, items[k]? = some (some dec) ∧ dec.annotationtype = t) ∧
  ∀ j dec, items[j]? = some (some dec) → dec.annotationtype = t → j = k

theorem getDefaultKey_iff (items : List (Option Declaration)) (t : AnnotationType) (k : Nat) :
    getDefaultKey items t = some k ↔ OnlyDeclaration items t k := by
  have hm := fun j => mem_matchingIndices t items 0 j
  simp only [Nat.zero_le, true_and, Nat.sub_zero] at hm
  have hnd := nodup_matchingIndices t items 0
  unfold getDefaultKey OnlyDeclaration
  constructor
  · intro h
    split at h
    · rename_i k' heq
      cases h
      refine ⟨(hm k).mp (by simp [heq]), fun j dec h1 h2 => ?_⟩
      have := (hm j).mpr ⟨dec, h1, h2⟩
      simpa [heq] using this
    · cases h
  · rintro ⟨h1, h2⟩
    rw [eq_singleton_of_nodup hnd ((hm k).mpr h1) (fun j hj => by
      obtain ⟨dec, h3, h4⟩ := (hm j).mp hj
      exact h2 j dec h3 h4)]

theorem typeCount_eq (items : List (Option Declaration)) (t : AnnotationType) :
    typeCount items t = (matchingIndices t 0 items).length := by
  have key : ∀ (items : List (Option Declaration)) (cnt : AnnotationType → Nat) (i : Nat),
      (items.foldl (fun cnt d => match d with
        | some d => fun t => if t = d.annotationtype then cnt t + 1 else cnt t
        | none => cnt) cnt) t = cnt t + (matchingIndices t i items).length := by
    intro items
    induction items with
    | nil => intro cnt i; simp [matchingIndices]
    | cons x xs ih =>
      intro cnt i
      rw [List.foldl_cons, ih _ (i + 1)]
      rcases x with _ | d
      · rfl
      · simp only [matchingIndices]
        by_cases h : d.annotationtype = t
        · subst h
          simp
          omega
        · have h' : ¬ t = d.annotationtype := fun e => h e.symm
          simp [h, h']
  have := key items (fun _ => 0) 0
  rw [Nat.zero_add] at this
  exact this

theorem typeCount_one (items : List (Option Declaration)) (t : AnnotationType) :
    typeCount items t = 1 ↔ ∃ k, getDefaultKey items t = some k := by
  rw [typeCount_eq]
  unfold getDefaultKey
  rcases matchingIndices t 0 items with _ | ⟨a, _ | ⟨b, l⟩⟩ <;> simp

/-! ### Exact stores: every slot is filled, items carry their key, and the index maps exactly the identifiers of the stored items -/

/-- The invariant of a store whose items never change their identifier. -/
structure Store.Exact {α : Type} [Storable α] (keyOf : α → Option Nat) (s : Store α) : Prop where
  filled : ∀ k, k < s.items.length → ∃ a, s.get k = some a
  keyed : ∀ k a, s.get k = some a → keyOf a = some k
  index : ∀ id k, s.index.find id = some k ↔ ∃ a, s.get k = some a ∧ Storable.maybeId a = some id

namespace Store.Exact
variable {α : Type} [Storable α] {keyOf : α → Option Nat}

theorem empty : Store.Exact keyOf ({} : Store α) :=
  ⟨by simp, by simp [Store.get], by simp [Index.find, Store.get]⟩

theorem add {s : Store α} (h : s.Exact keyOf) (cap : Nat) (a : α)
    (hid : ∀ (a : α) k, Storable.maybeId (Storable.assignKey a k) = Storable.maybeId a)
    (hkey : ∀ (a : α) k, keyOf (Storable.assignKey a k) = some k) : (s.add cap a).2.Exact keyOf := by
  rcases Store.add_spec cap s a with ⟨id, k, _, _, heq⟩ | ⟨heq, _⟩ | ⟨hf, hc, s', heq, hi, hg, hx⟩
  · rw [heq]; exact h
  · rw [heq]; exact h
  · rw [heq]
    refine ⟨?_, ?_, ?_⟩
    · intro k hk
      simp only [hi, List.length_append, List.length_cons, List.length_nil] at hk
      rw [hg]
      split
      · exact ⟨_, rfl⟩
      · exact h.filled k (by omega)
    · intro k b hb
      rw [hg] at hb
      split at hb
      · cases hb; rename_i hk; rw [hk]; exact hkey _ _
      · exact h.keyed k b hb
    · intro id k
      simp only [hg, hx]
      constructor
      · intro hk
        split at hk
        · rename_i he
          cases hk
          exact ⟨_, by rw [if_pos rfl], by rw [hid, he]⟩
        · obtain ⟨b, hb, hb'⟩ := (h.index id k).mp hk
          have := Store.get_lt hb
          exact ⟨b, by rw [if_neg (by omega)]; exact hb, hb'⟩
      · rintro ⟨b, hb, hb'⟩
        split at hb
        · cases hb; rename_i hk
          rw [hid] at hb'
          simp [hb', hk]
        · have hfind := (h.index id k).mpr ⟨b, hb, hb'⟩
          rw [if_neg]
          · exact hfind
          · intro he
            rw [hf id he] at hfind; cases hfind

theorem update {s : Store α} (h : s.Exact keyOf) (k : Nat) (f : α → α)
    (hid : ∀ a, s.get k = some a → Storable.maybeId (f a) = Storable.maybeId a)
    (hkey : ∀ a, s.get k = some a → keyOf (f a) = keyOf a) : (s.update k f).Exact keyOf := by
  have hg := Store.get_update s k f
  refine ⟨?_, ?_, ?_⟩
  · intro j hj
    rw [Store.update_length] at hj
    obtain ⟨a, ha⟩ := h.filled j hj
    rw [hg]
    split
    · exact ⟨f a, by simp [ha]⟩
    · exact ⟨a, ha⟩
  · intro j b hb
    rw [hg] at hb
    split at hb
    · rename_i hj; subst hj
      cases ha : s.get j with
      | none => simp [ha] at hb
      | some a =>
        simp only [ha, Option.map_some, Option.some.injEq] at hb
        subst hb
        rw [hkey a ha]; exact h.keyed j a ha
    · exact h.keyed j b hb
  · intro id j
    rw [Store.update_index, h.index]
    simp only [hg]
    constructor
    · rintro ⟨a, ha, hid'⟩
      split
      · rename_i hj; subst hj
        exact ⟨f a, by simp [ha], by rw [hid a ha]; exact hid'⟩
      · exact ⟨a, ha, hid'⟩
    · rintro ⟨b, hb, hid'⟩
      split at hb
      · rename_i hj; subst hj
        cases ha : s.get j with
        | none => simp [ha] at hb
        | some a =>
          simp only [ha, Option.map_some, Option.some.injEq] at hb
          subst hb
          exact ⟨a, rfl, by rw [← hid a ha]; exact hid'⟩
      · exact ⟨b, hb, hid'⟩

/-- A successful `add` returns a key that resolves to an item with the same identifier. -/
theorem add_get {s : Store α} (h : s.Exact keyOf) (cap : Nat) (a : α)
    (hid : ∀ (a : α) k, Storable.maybeId (Storable.assignKey a k) = Storable.maybeId a) {k : Nat} (hk : (s.add cap a).1 = .ok k) :
    ∃ b, (s.add cap a).2.get k = some b ∧ Storable.maybeId b = Storable.maybeId a := by
  rcases Store.add_spec cap s a with ⟨id, k', hi, hf, heq⟩ | ⟨heq, _⟩ | ⟨hf, hc, s', heq, hi, hg, hx⟩
  · rw [heq] at hk ⊢
    cases hk
    obtain ⟨b, hb, hb'⟩ := (h.index id k).mp hf
    exact ⟨b, hb, by rw [hb', hi]⟩
  · rw [heq] at hk; cases hk
  · rw [heq] at hk ⊢
    cases hk
    exact ⟨_, by rw [hg, if_pos rfl], hid _ _⟩

end Store.Exact

/-- The declaration store of a document is exact. -/
abbrev DeclsExact (d : Document) : Prop := d.declarations.Exact Declaration.key
/-- The processor store of a document is exact. -/
abbrev ProcsExact (d : Document) : Prop := d.processors.Exact Processor.key

/-! ### `declare` -/

/-- In an exact declaration store (an invariant of all reachable documents, see `C06_unique`) type and set determine the key. -/
theorem declarations_unique {d : Document} (h : DeclsExact d) {i j : Nat} {a b : Declaration} (hi : d.getDeclaration i = some a)
    (hj : d.getDeclaration j = some b) (ht : a.annotationtype = b.annotationtype) (hs : a.set = b.set) : i = j := by
  have h1 := (h.index (Declaration.indexId a.annotationtype a.set) i).mpr ⟨a, hi, rfl⟩
  have h2 := (h.index (Declaration.indexId b.annotationtype b.set) j).mpr ⟨b, hj, rfl⟩
  rw [ht, hs, h2] at h1
  exact (Option.some.inj h1).symm

theorem declarationKeyById_iff {d : Document} (h : DeclsExact d) (t : AnnotationType) (set : Option String) (k : Nat) :
    d.declarationKeyById (Declaration.indexId t set) = some k ↔
      ∃ dec, d.getDeclaration k = some dec ∧ dec.annotationtype = t ∧ dec.set = set := by
  unfold Document.declarationKeyById Store.idToKey
  rw [h.index]
  constructor
  · rintro ⟨dec, hd, hid⟩
    have := Declaration.indexId_inj (Option.some.inj hid)
    exact ⟨dec, hd, this.1, this.2⟩
  · rintro ⟨dec, hd, rfl, rfl⟩
    exact ⟨dec, hd, rfl⟩

theorem Store.update_id {α : Type} (s : Store α) (k : Nat) (f : α → α) (h : ∀ a, s.get k = some a → f a = a) : s.update k f = s := by
  unfold Store.update
  split
  · rename_i a ha
    rw [h a (Store.get_eq_some.mpr ha)]
    cases s with | mk items ix =>
    congr 1
    apply List.ext_getElem?
    intro i
    rw [List.getElem?_set]
    split
    · rename_i hi; subst hi
      simp only at ha
      split
      · exact ha.symm
      · rename_i hlt
        rw [List.getElem?_eq_none (by simpa using hlt)] at ha; cases ha
    · rfl
  · rfl

theorem linkProcessor_linkProcessor (p : Nat) (dec : Declaration) :
    Document.linkProcessor p (Document.linkProcessor p dec) = Document.linkProcessor p dec := by
  unfold Document.linkProcessor
  by_cases h : dec.processors.contains p = true
  · simp only [if_pos h]
  · simp only [if_neg h]
    simp

theorem linkProcessor_type (p : Nat) (dec : Declaration) : (Document.linkProcessor p dec).annotationtype = dec.annotationtype ∧
    (Document.linkProcessor p dec).set = dec.set ∧ (Document.linkProcessor p dec).key = dec.key := by
  unfold Document.linkProcessor; split <;> simp

/-- The document after associating the active processor, if any, with a declaration. -/
def linkActive (k : Nat) (d : Document) : Document :=
  match d.activeProcessor with
  | some p => { d with declarations := d.declarations.update k (Document.linkProcessor p) }
  | none => d

theorem linkActive_active (k : Nat) (d : Document) : (linkActive k d).activeProcessor = d.activeProcessor := by
  unfold linkActive; split <;> simp_all

theorem linkActive_idem (k : Nat) (d : Document) : linkActive k (linkActive k d) = linkActive k d := by
  cases h : d.activeProcessor with
  | none => simp [linkActive, h]
  | some p =>
    have h1 : linkActive k d = { d with declarations := d.declarations.update k (Document.linkProcessor p) } := by simp [linkActive, h]
    have h2 : (linkActive k d).activeProcessor = some p := by rw [linkActive_active, h]
    rw [show linkActive k (linkActive k d) = { linkActive k d with declarations := (linkActive k d).declarations.update k (Document.linkProcessor p) } by
      simp [linkActive, h]]
    rw [Store.update_id]
    intro a ha
    rw [h1] at ha
    simp only [Store.get_update, if_true] at ha
    cases hg : d.declarations.get k with
    | none => simp [hg] at ha
    | some b =>
      simp only [hg, Option.map_some, Option.some.injEq] at ha
      subst ha
      exact linkProcessor_linkProcessor p b

theorem linkActive_get (k : Nat) (d : Document) (j : Nat) (dec : Declaration) (h : d.getDeclaration j = some dec) :
    ∃ dec', (linkActive k d).getDeclaration j = some dec' ∧ dec'.annotationtype = dec.annotationtype ∧ dec'.set = dec.set := by
  unfold linkActive
  cases hp : d.activeProcessor with
  | none => exact ⟨dec, h, rfl, rfl⟩
  | some p =>
    simp only [Document.getDeclaration, Store.get_update]
    by_cases hj : j = k
    · subst hj
      have := linkProcessor_type p dec
      exact ⟨Document.linkProcessor p dec, by simp [show d.declarations.get j = some dec from h], this.1, this.2.1⟩
    · exact ⟨dec, by rw [if_neg hj]; exact h, rfl, rfl⟩

theorem linkActive_exact {d : Document} (h : DeclsExact d) (k : Nat) : DeclsExact (linkActive k d) := by
  unfold linkActive
  split
  · rename_i p _
    refine Store.Exact.update h k _ ?_ ?_
    · intro a _
      have := linkProcessor_type p a
      show some (Declaration.indexId _ _) = some (Declaration.indexId _ _)
      rw [this.1, this.2.1]
    · intro a _; exact (linkProcessor_type _ a).2.2
  · exact h

/-- The three ways in which `declare` can end. -/
theorem declare_cases (d : Document) (t : AnnotationType) (set al fmt : Option String) :
    (∃ k, d.declarationKeyById (Declaration.indexId t set) = some k ∧ Document.declare t set al fmt d = (.ok k, d)) ∨
    (d.declarationKeyById (Declaration.indexId t set) = none ∧
      ((∃ k, Document.declareDefault d t set = some k ∧ Document.declare t set al fmt d = (.ok k, linkActive k d)) ∨
       (Document.declareDefault d t set = none ∧
        match d.declarations.add cap16 (Declaration.new t set al fmt) with
        | (.ok k, st) => Document.declare t set al fmt d = (.ok k, linkActive k { d with declarations := st })
        | (.error e, st) => Document.declare t set al fmt d = (.error e, { d with declarations := st })))) := by
  unfold Document.declare
  cases hk : d.declarationKeyById (Declaration.indexId t set) with
  | some k => left; exact ⟨k, rfl, by simp [M.run_bind, hk]⟩
  | none =>
    right
    refine ⟨rfl, ?_⟩
    cases hd : Document.declareDefault d t set with
    | some k =>
      left
      refine ⟨k, rfl, ?_⟩
      simp only [M.run_bind, M.run_get, hk, hd, M.run_pure]
      cases hp : d.activeProcessor <;> simp [linkActive, hp, Document.updDeclaration, M.run_bind]
    | none =>
      right
      refine ⟨rfl, ?_⟩
      rcases ha : d.declarations.add cap16 (Declaration.new t set al fmt) with ⟨r, st⟩
      cases r with
      | error e => simp [M.run_bind, hk, hd, Document.addDeclaration, Document.onDeclarations, ha]
      | ok k =>
        simp only [M.run_bind, M.run_get, hk, hd, Document.addDeclaration, Document.onDeclarations, ha]
        cases d.activeProcessor <;> simp [linkActive, Document.updDeclaration, M.run_bind]

theorem declareDefault_some {d : Document} {t : AnnotationType} {set : Option String} {k : Nat}
    (h : Document.declareDefault d t set = some k) : OnlyDeclaration d.declarations.items t k ∧
      (set = none ∨ ∃ dec, d.getDeclaration k = some dec ∧ dec.set = set) := by
  unfold Document.declareDefault at h
  split at h
  · rename_i k' hk'
    split at h
    · rename_i dec hdec
      split at h
      · rename_i s
        split at h
        · rename_i s' hs'
          split at h
          · rename_i he; cases h
            exact ⟨(getDefaultKey_iff _ _ _).mp hk', Or.inr ⟨dec, hdec, by rw [hs', he]⟩⟩
          · cases h
        · cases h
      · cases h; exact ⟨(getDefaultKey_iff _ _ _).mp hk', Or.inl rfl⟩
    · cases h
  · cases h

theorem declareDefault_none_set {d : Document} {t : AnnotationType} (h : Document.declareDefault d t none = none) (k : Nat) :
    ¬ OnlyDeclaration d.declarations.items t k := by
  intro ho
  have hk := (getDefaultKey_iff _ _ _).mpr ho
  obtain ⟨dec, hdec, _⟩ := ho.1
  have : d.getDeclaration k = some dec := Store.get_eq_some.mpr hdec
  simp [Document.declareDefault, hk, this] at h

theorem declare_exact {d : Document} (h : DeclsExact d) (t : AnnotationType) (set al fmt : Option String) :
    DeclsExact (Document.declare t set al fmt d).2 := by
  rcases declare_cases d t set al fmt with ⟨k, _, heq⟩ | ⟨_, ⟨k, _, heq⟩ | ⟨_, hm⟩⟩
  · rw [heq]; exact h
  · rw [heq]; exact linkActive_exact h k
  · have ha := Store.Exact.add h cap16 (Declaration.new t set al fmt) (fun _ _ => rfl) (fun _ _ => rfl)
    rcases hadd : d.declarations.add cap16 (Declaration.new t set al fmt) with ⟨r, st⟩
    rw [hadd] at hm ha
    cases r with
    | ok k => simp only at hm; rw [hm]; exact linkActive_exact (d := { d with declarations := st }) ha k
    | error e => simp only at hm; rw [hm]; exact ha

end Folia
