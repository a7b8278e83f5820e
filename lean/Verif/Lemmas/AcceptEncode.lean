import Verif.Accept
import Verif.Lemmas.Source
import Verif.Lemmas.MetaBack
/-! When an element can be encoded and stored. -/
namespace Folia
open Document

theorem nodup_length {α : Type} [DecidableEq α] : ∀ {l L : List α}, l.Nodup → (∀ x ∈ l, x ∈ L) → l.length ≤ L.length
  | [], _, _, _ => Nat.zero_le _
  | x :: l, L, hn, hs => by
    rw [List.nodup_cons] at hn
    have hx := hs x (List.mem_cons_self ..)
    have ih := nodup_length (l := l) (L := L.erase x) hn.2 fun y hy =>
      (List.mem_erase_of_ne (by rintro rfl; exact hn.1 hy)).mpr (hs y (List.mem_cons_of_mem _ hy))
    rw [List.length_erase_of_mem hx] at ih
    have := List.length_pos_of_mem hx
    simp only [List.length_cons]
    omega

/-- The annotation type and set of every declaration is in the list. -/
def Room (L : List DeclName) (d : Document) : Prop :=
  ∀ k dec, d.getDeclaration k = some dec → (dec.annotationtype, dec.set) ∈ L

theorem Room.of_eq {L : List DeclName} {d d' : Document} (h : Room L d) (he : d'.declarations = d.declarations) : Room L d' := by
  intro k dec hk
  unfold getDeclaration at hk
  rw [he] at hk
  exact h k dec hk

theorem Room.update {L : List DeclName} {d : Document} (h : Room L d) (k : Nat) (f : Declaration → Declaration)
    (hf : ∀ a, d.getDeclaration k = some a → (f a).annotationtype = a.annotationtype ∧ (f a).set = a.set) :
    Room L { d with declarations := d.declarations.update k f } := by
  intro j dec hj
  unfold getDeclaration at hj
  simp only [Store.get_update] at hj
  split at hj
  · rename_i hjk; subst hjk
    cases hb : d.declarations.get j with
    | none => simp [hb] at hj
    | some b =>
      simp only [hb, Option.map_some, Option.some.injEq] at hj
      subst hj
      obtain ⟨h1, h2⟩ := hf b hb
      rw [h1, h2]; exact h j b hb
  · exact h j dec hj

theorem Room.of_shape {L : List DeclName} {d d' : Document} (h : Room L d) (hs : SameShape d d') : Room L d' := by
  intro k dec hk
  have h1 : shapeOf d' k = some (dec.annotationtype, dec.set, dec.processors) := by unfold shapeOf; rw [hk]; rfl
  rw [hs.shape] at h1
  obtain ⟨dec', g1, g2, g3, _⟩ := shapeOf_some h1
  rw [← g2, ← g3]; exact h k dec' g1

theorem filterMap_full {α β : Type} {f : α → Option β} : ∀ {l : List α}, (∀ a ∈ l, (f a).isSome = true) → (l.filterMap f).length = l.length
  | [], _ => rfl
  | a :: l, h => by
    have := h a (List.mem_cons_self ..)
    cases hf : f a with
    | none => rw [hf] at this; cases this
    | some b =>
      rw [List.filterMap_cons, hf]
      simp [filterMap_full fun a ha => h a (List.mem_cons_of_mem _ ha)]

/-- If a declaration is missing that there is room for, the store is not full. -/
theorem room_left {L : List DeclName} {d : Document} (hx : DeclsExact d) (hr : Room L d) {t : AnnotationType} {s : Option String}
    (hm : (t, s) ∈ L) (hno : d.declarationKeyById (Declaration.indexId t s) = none) : d.declarations.items.length < L.length := by
  let f : Option Declaration → Option (AnnotationType × Option String) := fun o => o.map fun dec => (dec.annotationtype, dec.set)
  have hget : ∀ o ∈ d.declarations.items, ∃ k dec, o = some dec ∧ d.getDeclaration k = some dec := by
    intro o ho
    obtain ⟨k, hk, rfl⟩ := List.mem_iff_getElem.mp ho
    obtain ⟨a, ha⟩ := hx.filled k hk
    have := Store.get_eq_some.mp ha
    rw [List.getElem?_eq_getElem hk] at this
    exact ⟨k, a, Option.some.inj this, ha⟩
  have hlen : (d.declarations.items.filterMap f).length = d.declarations.items.length := by
    refine filterMap_full fun o ho => ?_
    obtain ⟨k, dec, rfl, _⟩ := hget o ho
    rfl
  have hnd : (d.declarations.items.filterMap f).Nodup := by
    refine List.Pairwise.filterMap (S := fun a b => a ≠ b) f ?_ (declsExact_pairwise hx)
    intro a a' hne b hb b' hb' hbb
    subst hbb
    cases a with
    | none => cases hb
    | some x => cases a' with
      | none => cases hb'
      | some y =>
        refine hne x y rfl rfl ?_
        have h1 : (x.annotationtype, x.set) = b := Option.some.inj hb
        have h2 : (y.annotationtype, y.set) = b := Option.some.inj hb'
        have h3 := h1.trans h2.symm
        exact ⟨congrArg Prod.fst h3, congrArg Prod.snd h3⟩
  have hnot : (t, s) ∉ d.declarations.items.filterMap f := by
    intro hmem
    obtain ⟨o, ho, hfo⟩ := List.mem_filterMap.mp hmem
    obtain ⟨k, dec, rfl, hk⟩ := hget o ho
    have h1 : (dec.annotationtype, dec.set) = (t, s) := Option.some.inj hfo
    have := (declarationKeyById_iff hx t s k).mpr ⟨dec, hk, congrArg Prod.fst h1, congrArg Prod.snd h1⟩
    rw [hno] at this; cases this
  have := nodup_length (l := (t, s) :: d.declarations.items.filterMap f) (L := L) (List.nodup_cons.mpr ⟨hnot, hnd⟩) (by
    intro p hp
    rcases List.mem_cons.mp hp with rfl | hp
    · exact hm
    · obtain ⟨o, ho, hfo⟩ := List.mem_filterMap.mp hp
      obtain ⟨k, dec, rfl, hk⟩ := hget o ho
      have h1 : (dec.annotationtype, dec.set) = p := Option.some.inj hfo
      rw [← h1]; exact hr k dec hk)
  simp only [List.length_cons, hlen] at this
  omega

theorem linkActive_room {L : List DeclName} {d : Document} (hr : Room L d) (k : Nat) : Room L (linkActive k d) := by
  unfold linkActive
  split
  · rename_i p _
    exact hr.update k _ fun a _ => ⟨(linkProcessor_type p a).1, (linkProcessor_type p a).2.1⟩
  · exact hr

/-- Declaring succeeds if there is room. -/
theorem declare_ok {L : List DeclName} {d : Document} (hx : DeclsExact d) (hr : Room L d) (hL : L.length ≤ cap16)
    {t : AnnotationType} {s : Option String} (hm : (t, s) ∈ L) (al f : Option String) : ∃ k d', declare t s al f d = (.ok k, d') ∧ Room L d' := by
  rcases declare_cases d t s al f with ⟨k, _, heq⟩ | ⟨hno, ⟨k, _, heq⟩ | ⟨_, hadd⟩⟩
  · exact ⟨k, d, heq, hr⟩
  · exact ⟨k, _, heq, linkActive_room hr k⟩
  · have hlt := room_left hx hr hm hno
    have hgk : d.declarations.getKey (Declaration.new t s al f) = none := hno
    have ha : d.declarations.add cap16 (Declaration.new t s al f) = (.ok d.declarations.items.length,
        { items := d.declarations.items ++ [some (Storable.assignKey (Declaration.new t s al f) d.declarations.items.length)],
          index := d.declarations.index.insert (Declaration.indexId t s) d.declarations.items.length }) := by
      unfold Store.add
      rw [hgk]
      simp only
      rw [if_pos (by omega)]
      rfl
    rw [ha] at hadd
    refine ⟨_, _, hadd, linkActive_room ?_ _⟩
    intro k dec hk
    have hk := Store.get_eq_some.mp hk
    simp only at hk
    rw [List.getElem?_append] at hk
    split at hk
    · exact hr k dec (Store.get_eq_some.mpr hk)
    · cases hi : k - d.declarations.items.length with
      | zero => rw [hi] at hk; simp only [List.getElem?_cons_zero, Option.some.injEq] at hk; subst hk; exact hm
      | succ n => rw [hi] at hk; simp at hk

theorem addName_room {L : List DeclName} {d : Document} (hr : Room L d) (k : Nat) (name : Res (Option String))
    {f : String → Declaration → Res Nat × Declaration}
    (hf : ∀ s a, (f s a).2.annotationtype = a.annotationtype ∧ (f s a).2.set = a.set ∧ (f s a).2.processors = a.processors) :
    ∃ o d', addName k name f d = (.ok o, d') ∧ Room L d' := by
  have hs := addName_shape k name hf d
  have : ∃ o d', addName k name f d = (.ok o, d') := by
    unfold addName
    split
    · rw [M.run_bind]
      unfold callDeclaration
      cases d.getDeclaration k with
      | none => exact ⟨_, _, rfl⟩
      | some a =>
        simp only
        cases (f _ a).1 <;> exact ⟨_, _, rfl⟩
    · exact ⟨_, _, rfl⟩
  obtain ⟨o, d', h⟩ := this
  rw [h] at hs
  exact ⟨o, d', h, hr.of_shape hs⟩

theorem plainAttr_ok {f : Attribute → Option String} : ∀ {as : List Attribute}, CleanAttribs as → ∃ o, ElementData.plainAttr f as = .ok o
  | [], _ => ⟨none, rfl⟩
  | a :: as, h => by
    simp only [ElementData.plainAttr]
    cases f a with
    | some s => exact ⟨_, rfl⟩
    | none =>
      simp only [h a (List.mem_cons_self ..), Bool.false_eq_true, if_false]
      exact plainAttr_ok fun b hb => h b (List.mem_cons_of_mem _ hb)

theorem encode_ok {L : List DeclName} {d : Document} {e : ElementData} {ctx : Option Nat} {c : Option ElementType} (hx : DeclsExact d)
    (hr : Room L d) (hL : L.length ≤ cap16) (hcl : CleanAttribs e.attribs) (he : Encodes L c e)
    (hct : ∀ c', c = some c' → ∃ pk pe, ctx = some pk ∧ d.getElement pk = some pe ∧ pe.elementtype = c') :
    ∃ e' d', encode e ctx d = (.ok e', d') ∧ Room L d' := by
  unfold encode
  split
  · rename_i hen
    obtain ⟨s, hs⟩ : ∃ s, e.set = .ok s := plainAttr_ok hcl
    have hcore : ∃ enc d', encodeCore e ctx d = (.ok enc, d') ∧ Room L d' := by
      unfold encodeCore
      cases hat : e.elementtype.annotationtype with
      | some t =>
        simp only
        unfold encodeTyped
        obtain ⟨k, d1, h1, hr1⟩ := declare_ok hx hr hL (he.typed t s hen hat hs) none none
        obtain ⟨ck, d2, h2, hr2⟩ := addName_room hr1 k e.cls (f := fun c decl => decl.addClass c) (fun _ _ => ⟨rfl, rfl, rfl⟩)
        have h3 : ∃ r, encodeProc k d2 = (.ok r, d2) := by
          unfold encodeProc
          simp only [M.run_bind, M.run_get]
          cases d2.getDeclaration k with
          | none => exact ⟨_, rfl⟩
          | some decl =>
            simp only
            cases decl.defaultProcessor with
            | some p => exact ⟨_, rfl⟩
            | none => cases d2.activeProcessor <;> exact ⟨_, rfl⟩
        obtain ⟨r, h3⟩ := h3
        refine ⟨{ dec := some k, cls := ck, proc := r.1, test := r.2 }, d2, ?_, hr2⟩
        rw [hs]
        simp only [M.run_bind, M.ofRes, unwrapRes, h1, h2, h3]
        rfl
      | none =>
        simp only
        split
        · rename_i hf
          obtain ⟨c', t, hc, hct', hm⟩ := he.feature hen hat hf
          obtain ⟨pk, pe, rfl, hpe, rfl⟩ := hct c' hc
          unfold encodeFeature
          obtain ⟨k, d1, h1, hr1⟩ := declare_ok hx hr hL (hm s hs) none none
          obtain ⟨ck, d2, h2, hr2⟩ := addName_room hr1 k e.cls (f := fun c decl => decl.addSubclass c) (fun _ _ => ⟨rfl, rfl, rfl⟩)
          obtain ⟨sk, d3, h3, hr3⟩ := addName_room hr2 k e.subset (f := fun c decl => decl.addSubset c) (fun _ _ => ⟨rfl, rfl, rfl⟩)
          refine ⟨{ dec := some k, cls := ck, subset := sk }, d3, ?_, hr3⟩
          rw [hs]
          simp only [M.run_bind, M.ofRes, unwrapRes, hpe, okOr, hct', expect, h1, h2, h3]
          rfl
        · exact ⟨_, d, rfl, hr⟩
    obtain ⟨enc, d1, h1, hr1⟩ := hcore
    have hlink : ∃ d2, encodeLink (encodeExplicit d1 e enc) d1 = (.ok (), d2) ∧ Room L d2 := by
      rcases encodeLink_cases (encodeExplicit d1 e enc) d1 with ⟨_, heq⟩ | ⟨j, p, _, _, _, heq⟩
      · exact ⟨d1, heq, hr1⟩
      · exact ⟨_, heq, hr1.update j _ fun a _ => ⟨(linkProcessor_type p a).1, (linkProcessor_type p a).2.1⟩⟩
    obtain ⟨d2, h2, hr2⟩ := hlink
    refine ⟨{ e with attribs := encodedAttribs e.attribs (encodeExplicit d1 e enc) }, d2, ?_, hr2⟩
    simp only [M.run_bind, h1, M.run_get, h2]
    rfl
  · exact ⟨e, d, rfl, hr⟩

/-- An element can be stored if it can be encoded and the store is not full. -/
theorem addElem_ok {L : List DeclName} {d : Document} {e : ElementData} {ctx : Option Nat} {c : Option ElementType} (hx : DeclsExact d)
    (hr : Room L d) (hL : L.length ≤ cap16) (hcl : CleanAttribs e.attribs) (he : Encodes L c e)
    (hct : ∀ c', c = some c' → ∃ pk pe, ctx = some pk ∧ d.getElement pk = some pe ∧ pe.elementtype = c') (hcap : d.elements.len < cap32) :
    ∃ k d', addElem e ctx d = (.ok k, d') ∧ Room L d' := by
  obtain ⟨e', d', h, hr'⟩ := encode_ok hx hr hL hcl he hct
  have hel : d'.elements = d.elements := by
    have := (OnlyDecls.encode e ctx d).1
    rw [h] at this
    exact this
  rw [addElem_eq, h]
  simp only
  have : ∃ k, (d'.elements.add cap32 e').1 = .ok k := by
    unfold Store.add
    rw [hel]
    split
    · exact ⟨_, rfl⟩
    · rw [if_pos (show d.elements.items.length < cap32 from hcap)]; exact ⟨_, rfl⟩
  obtain ⟨k, hk⟩ := this
  rw [hk]
  exact ⟨k, _, rfl, hr'.of_eq rfl⟩

end Folia
