import Verif.Lemmas.Exact
import Verif.Samples
/-! C06 (declarations are unique), C07 (`declare`), C08 (default declarations). -/
namespace Folia

/-! ### C08 -/

/-- `get_default_key` returns a key exactly if it is the key of the one and only declaration of the annotation type. -/
theorem C08_default_key (items : List (Option Declaration)) (t : AnnotationType) (k : Nat) :
    getDefaultKey items t = some k ↔
      (∃ dec, items[k]? = some (some dec) ∧ dec.annotationtype = t) ∧
      ∀ j dec, items[j]? = some (some dec) → dec.annotationtype = t → j = k := getDefaultKey_iff items t k

/-- `default_mask` has one entry per declaration slot, and it marks exactly the declarations that are the only one of their type. -/
theorem C08_default_mask (items : List (Option Declaration)) :
    (defaultMask items).length = items.length ∧
    ∀ k : Nat, (defaultMask items)[k]? = some true ↔ ∃ dec : Declaration, items[k]? = some (some dec) ∧
      ∀ (j : Nat) (dec' : Declaration), items[j]? = some (some dec') → dec'.annotationtype = dec.annotationtype → j = k := by
  refine ⟨by simp [defaultMask], fun k => ?_⟩
  simp only [defaultMask, List.getElem?_map]
  cases hk : items[k]? with
  | none => simp
  | some x =>
    cases x with
    | none => simp
    | some dec =>
      simp only [Option.map_some, Option.some.injEq, beq_iff_eq, typeCount_one]
      constructor
      · rintro ⟨k', hk'⟩
        rw [getDefaultKey_iff] at hk'
        have := hk'.2 k dec hk rfl
        subst this
        exact ⟨dec, rfl, fun j dec' h1 h2 => hk'.2 j dec' h1 h2⟩
      · rintro ⟨_, rfl, h⟩
        exact ⟨k, (getDefaultKey_iff _ _ _).mpr ⟨⟨dec, hk, rfl⟩, h⟩⟩

example : defaultMask [some (.new .POS (some "a") none none), some (.new .LEMMA none none none), some (.new .POS (some "b") none none)] =
    [false, true, false] := by decide +kernel
example : getDefaultKey [some (.new .POS (some "a") none none), some (.new .LEMMA none none none)] .LEMMA = some 1 := by decide +kernel

/-! ### C06 -/

/-- The index identifier determines annotation type and set, whatever characters the set contains. -/
theorem C06_index_id_injective (t t' : AnnotationType) (s s' : Option String)
    (h : Declaration.indexId t s = Declaration.indexId t' s') : t = t' ∧ s = s' := Declaration.indexId_inj h

/-! ### C07 -/

/-- What `declare` returns: a declaration of the requested type; with a set, one with exactly that set; without a set, the set-less
declaration if there is one, otherwise the only declaration of the type if there is exactly one, otherwise a newly added set-less
declaration. -/
theorem C07_declare_returns {X : Ext} {F : Nat} (d : Document) (hr : Reachable X F d) (t : AnnotationType) (set al fmt : Option String) (k : Nat)
    (hk : (Document.declare t set al fmt d).1 = .ok k) :
    (∃ dec, (Document.declare t set al fmt d).2.getDeclaration k = some dec ∧ dec.annotationtype = t ∧ (set.isSome → dec.set = set)) ∧
    (set = none →
      (∀ j dec, d.getDeclaration j = some dec → dec.annotationtype = t → dec.set = none → k = j) ∧
      ((∀ j dec, d.getDeclaration j = some dec → dec.annotationtype = t → dec.set ≠ none) →
        (∀ j, OnlyDeclaration d.declarations.items t j → k = j) ∧
        ((∀ j, ¬ OnlyDeclaration d.declarations.items t j) → k = d.declarations.len ∧
          ∃ dec, (Document.declare t set al fmt d).2.getDeclaration k = some dec ∧ dec.set = none))) := by
  have hd := hr.declsExact
  rcases declare_cases d t set al fmt with ⟨k', hid, heq⟩ | ⟨hid, ⟨k', hdef, heq⟩ | ⟨hdef, hm⟩⟩
  · rw [heq] at hk ⊢
    cases hk
    obtain ⟨dec, hdec, ht, hs⟩ := (declarationKeyById_iff hd t set k).mp hid
    refine ⟨⟨dec, hdec, ht, fun _ => hs⟩, ?_⟩
    rintro rfl
    refine ⟨fun j dec' hj htj hsj => declarations_unique hd hdec hj (by rw [ht, htj]) (by rw [hs, hsj]), fun hno => ?_⟩
    exact absurd hs (hno k dec hdec ht)
  · rw [heq] at hk ⊢
    cases hk
    obtain ⟨ho, hs⟩ := declareDefault_some hdef
    obtain ⟨dec, hdec, ht⟩ := ho.1
    have hdec : d.getDeclaration k = some dec := Store.get_eq_some.mpr hdec
    have hnoset : set = none := by
      rcases hs with rfl | ⟨dec', h1, h2⟩
      · rfl
      · rw [hdec] at h1; cases h1
        have := (declarationKeyById_iff hd t set k).mpr ⟨dec, hdec, ht, h2⟩
        rw [hid] at this; cases this
    subst hnoset
    obtain ⟨dec', hd1, hd2, hd3⟩ := linkActive_get k d k dec hdec
    refine ⟨⟨dec', hd1, by rw [hd2, ht], by simp⟩, fun _ => ⟨?_, fun _ => ⟨?_, ?_⟩⟩⟩
    · intro j dec2 hj htj hsj
      have := (declarationKeyById_iff hd t none j).mpr ⟨dec2, hj, htj, hsj⟩
      rw [hid] at this; cases this
    · intro j hj
      exact hj.2 k dec (Store.get_eq_some.mp hdec) ht
    · intro hn; exact absurd ho (hn k)
  · rcases Store.add_spec cap16 d.declarations (Declaration.new t set al fmt) with ⟨id, k', h1, h2, hadd⟩ | ⟨hadd, _⟩ | ⟨hf, hc, st, hadd, hi, hg, hx⟩
    · -- impossible: the identifier is unknown
      have : id = Declaration.indexId t set := (Option.some.inj h1).symm
      subst this
      simp only [Document.declarationKeyById, Store.idToKey] at hid
      rw [hid] at h2; cases h2
    · rw [hadd] at hm; simp only at hm; rw [hm] at hk; cases hk
    · rw [hadd] at hm
      simp only at hm
      rw [hm] at hk ⊢
      cases hk
      have hnew : Document.getDeclaration { d with declarations := st } d.declarations.items.length =
          some (Storable.assignKey (Declaration.new t set al fmt) d.declarations.items.length) := by
        simp only [Document.getDeclaration]; rw [hg, if_pos rfl]
      obtain ⟨dec', hd1, hd2, hd3⟩ := linkActive_get d.declarations.items.length _ _ _ hnew
      refine ⟨⟨dec', hd1, hd2, fun _ => hd3⟩, ?_⟩
      rintro rfl
      refine ⟨?_, fun _ => ⟨?_, fun _ => ⟨rfl, dec', hd1, hd3⟩⟩⟩
      · intro j dec2 hj htj hsj
        have := (declarationKeyById_iff hd t none j).mpr ⟨dec2, hj, htj, hsj⟩
        rw [hid] at this; cases this
      · intro j hj
        exact absurd hj (declareDefault_none_set hdef j)

/-- Repeating the same `declare` call returns the same key and changes nothing. -/
theorem C07_declare_idempotent {X : Ext} {F : Nat} (d : Document) (hr : Reachable X F d) (t : AnnotationType) (set al fmt : Option String) (k : Nat)
    (hk : (Document.declare t set al fmt d).1 = .ok k) :
    Document.declare t set al fmt (Document.declare t set al fmt d).2 = (.ok k, (Document.declare t set al fmt d).2) := by
  have hd := hr.declsExact
  have hex := declare_exact hd t set al fmt
  have hret := C07_declare_returns d hr t set al fmt k hk
  generalize hd' : (Document.declare t set al fmt d).2 = d' at *
  obtain ⟨⟨dec, hdec, ht, hset⟩, hrest⟩ := hret
  by_cases hs : dec.set = set
  · -- found by its identifier
    have hid := (declarationKeyById_iff hex t set k).mpr ⟨dec, hdec, ht, hs⟩
    rcases declare_cases d' t set al fmt with ⟨k', hid', heq⟩ | ⟨hid', _⟩
    · rw [hid] at hid'; cases hid'; exact heq
    · rw [hid] at hid'; cases hid'
  · -- no set requested, and the only declaration has one
    cases set with
    | some s => exact absurd (hset rfl) hs
    | none =>
      rcases declare_cases d t none al fmt with ⟨k', hid, heq⟩ | ⟨hid, ⟨k', hdef, heq⟩ | ⟨hdef, hm⟩⟩
      · rw [heq] at hk hd'; cases hk; cases hd'
        obtain ⟨dec', h1, _, h3⟩ := (declarationKeyById_iff hd t none k).mp hid
        rw [hdec] at h1; cases h1
        exact absurd h3 hs
      · rw [heq] at hk hd'; cases hk
        simp only at hd'
        obtain ⟨ho, _⟩ := declareDefault_some hdef
        -- the second call takes the same branch
        have ho' : OnlyDeclaration d'.declarations.items t k := by
          refine ⟨⟨dec, Store.get_eq_some.mp hdec, ht⟩, ?_⟩
          intro j dec2 hj htj
          have hj : d'.declarations.get j = some dec2 := Store.get_eq_some.mpr hj
          rw [← hd'] at hj
          unfold linkActive at hj
          split at hj
          · simp only [Store.get_update] at hj
            split at hj
            · assumption
            · exact ho.2 j dec2 (Store.get_eq_some.mp hj) htj
          · exact ho.2 j dec2 (Store.get_eq_some.mp hj) htj
        have hid' : d'.declarationKeyById (Declaration.indexId t none) = none := by
          cases h : d'.declarationKeyById (Declaration.indexId t none) with
          | none => rfl
          | some j =>
            obtain ⟨dec2, h1, h2, h3⟩ := (declarationKeyById_iff hex t none j).mp h
            have := ho'.2 j dec2 (Store.get_eq_some.mp h1) h2
            subst this
            rw [hdec] at h1; cases h1
            exact absurd h3 hs
        rcases declare_cases d' t none al fmt with ⟨k', hid2, _⟩ | ⟨_, ⟨k', hdef2, heq2⟩ | ⟨hdef2, _⟩⟩
        · rw [hid'] at hid2; cases hid2
        · have : k' = k := ((declareDefault_some hdef2).1.2 k dec (Store.get_eq_some.mp hdec) ht).symm
          subst this
          rw [heq2, ← hd', linkActive_idem]
        · exact absurd ho' (declareDefault_none_set hdef2 k)
      · rcases hadd : d.declarations.add cap16 (Declaration.new t none al fmt) with ⟨r, st⟩
        rw [hadd] at hm
        cases r with
        | error e => simp only at hm; rw [hm] at hk; cases hk
        | ok k' =>
          simp only at hm
          exfalso
          have hno := hrest rfl
          by_cases hany : ∃ j dec, d.getDeclaration j = some dec ∧ dec.annotationtype = t ∧ dec.set = none
          · obtain ⟨j, dec2, h1, h2, h3⟩ := hany
            have := (declarationKeyById_iff hd t none j).mpr ⟨dec2, h1, h2, h3⟩
            rw [hid] at this; cases this
          · have hnone : ∀ j dec, d.getDeclaration j = some dec → dec.annotationtype = t → dec.set ≠ none :=
              fun j dec h1 h2 h3 => hany ⟨j, dec, h1, h2, h3⟩
            obtain ⟨_, dec2, h1, h2⟩ := (hno.2 hnone).2 (declareDefault_none_set hdef)
            rw [hdec] at h1; cases h1
            exact hs h2

/-- Two declarations of one type: the premises of the theorems are met and `declare` without a set adds another one. -/
example : ∃ d : Document, Reachable Sample.X Sample.F d ∧ d.declarations.len = 2 ∧ (Document.declare .POS none none none d).1 = .ok 2 :=
  ⟨runOps Sample.F [.declare .POS (some "a") none none, .declare .POS (some "b") none none]
      (Sample.value (Document.new "d" { declare := [] })),
    Sample.reachable_ops _ (.new (Sample.value_eq (by decide +kernel))), by decide +kernel, by decide +kernel⟩

end Folia
