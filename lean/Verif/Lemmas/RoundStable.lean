import Verif.Lemmas.RoundRefs
/-! Writing again what was written and read. -/
namespace Folia
open Document

/-- What is written depends on the own attributes only. -/
theorem printed_own {X : Ext} {e x : ElementData} (h : ownAttribs x = ownAttribs e) : printedAttrs X x.attribs = printedAttrs X e.attribs := by
  have : ∀ as : List Attribute, printedAttrs X as = printedAttrs X (as.filter fun a => !a.decodable && a != .ignore) := by
    intro as
    unfold printedAttrs
    induction as with
    | nil => rfl
    | cons a as ih =>
      by_cases ha : (!a.decodable && a != .ignore) = true
      · rw [List.filter_cons_of_pos (p := fun a : Attribute => !a.decodable && a != .ignore) ha, List.filterMap_cons, List.filterMap_cons, ih]
      · rw [List.filter_cons_of_neg (p := fun a : Attribute => !a.decodable && a != .ignore) ha, List.filterMap_cons, ← ih]
        have : ∃ f, a.display X = .error f := by cases a <;> first | exact ⟨_, rfl⟩ | exact absurd rfl ha
        obtain ⟨f, hf⟩ := this
        rw [hf]
  unfold ownAttribs at h
  rw [this x.attribs, this e.attribs, h]

/-- What is written for an element is determined. -/
theorem attrsAre_unique {X : Ext} {d : Document} {e : ElementData} {l l' : List (String × String)} (h : AttrsAre X d e l) (h' : AttrsAre X d e l') : l = l' := by
  obtain ⟨refs, rfl, h⟩ := h
  obtain ⟨refs', rfl, h'⟩ := h'
  congr 1
  rcases h with ⟨h1, rfl⟩ | ⟨k, dec, set, subset, cls, proc, h1, h2, h3, h4, rfl, h5, h6⟩
  · rcases h' with ⟨_, rfl⟩ | ⟨k, dec, set, subset, cls, proc, g1, _⟩
    · rfl
    · rw [h1] at g1; cases g1
  · rcases h' with ⟨g1, rfl⟩ | ⟨k', dec', set', subset', cls', proc', g1, g2, g3, g4, rfl, g5, g6⟩
    · rw [h1] at g1; cases g1
    · rw [h1] at g1; cases g1
      rw [h2] at g2; cases g2
      rw [h3] at g3; cases g3
      rw [h4] at g4; cases g4
      have e1 : set = set' := by
        rcases h5 with ⟨a1, rfl⟩ | ⟨⟨a1, j, dec', a2, a3, a4⟩, a5⟩ <;> rcases g5 with ⟨b1, rfl⟩ | ⟨⟨b1, j', dec'', b2, b3, b4⟩, b5⟩
        · rfl
        · rcases a1 with a1 | a1
          · exact absurd a1 b1
          · exact absurd (a1 _ _ b2 b3) b4
        · rcases b1 with b1 | b1
          · exact absurd b1 a1
          · exact absurd (b1 _ _ a2 a3) a4
        · rw [a5] at b5; exact Except.ok.inj b5
      have e2 : proc = proc' := by
        rcases h6 with ⟨a1, rfl⟩ | ⟨a1, a2⟩ <;> rcases g6 with ⟨b1, rfl⟩ | ⟨b1, b2⟩
        · rfl
        · exact absurd a1 b1
        · exact absurd b1 a1
        · rw [a2] at b2; exact Except.ok.inj b2
      rw [e1, e2]

/-- All processors that a declaration lists come back. -/
theorem procsBack_length {d d1 d2 : Document} {ps : DocumentProperties} {ts : List ProcTree} (hm : MetaBack d d1 d2 ts) (hx : ProcsExact d2)
    (hts : ProcsStored 0 d none d.chain ts) (hs : Settled ps d) (hi : CInv d) {k : Nat} {dec : Declaration} (hd : d.getDeclaration k = some dec) :
    (procsBack d d2 dec).length = dec.processors.length := by
  have hall : ∀ l : List Nat, (∀ p ∈ l, p ∈ dec.processors) → ((procNames d l).filterMap d2.processorKeyById).length = l.length := by
    intro l
    induction l with
    | nil => intro _; rfl
    | cons p l ih =>
      intro h
      have hp := h p (List.mem_cons_self ..)
      obtain ⟨y, hy⟩ := (hi.decls.ok k dec hd).procs p hp
      obtain ⟨p2, y2, r1, _, _⟩ := proc_forth hm hx hts hy ((hs.kept k dec hd).2 p hp)
      have := ih fun q hq => h q (List.mem_cons_of_mem _ hq)
      unfold procNames at this ⊢
      rw [List.filterMap_cons, hy]
      simp only [Option.map_some]
      rw [List.filterMap_cons, r1]
      simp only [List.length_cons, this]
  exact hall _ fun _ h => h

section
variable {d d1 d2 d' : Document} {ps : DocumentProperties} {ts : List ProcTree} (hm : MetaBack d d1 d2 ts) (hp : Pinned d2 d')
include hm hp

/-- The only declaration of its type is still the only one. -/
theorem sole_after {k : Nat} {dec : Declaration} (h : d.getDeclaration k = some dec)
    (hu : ∀ j dec', d.getDeclaration j = some dec' → dec'.annotationtype = dec.annotationtype → j = k) {k2 : Nat}
    (hk2 : shapeOf d2 k2 = some (dec.annotationtype, dec.set, procsBack d d2 dec)) {j : Nat} {dec' : Declaration} (hj : d'.getDeclaration j = some dec')
    (ht : dec'.annotationtype = dec.annotationtype) : j = k2 := by
  have : shapeOf d2 j = some (dec'.annotationtype, dec'.set, dec'.processors) := by
    rw [← hp.shape j]; unfold shapeOf; rw [hj]; rfl
  exact sole_forth hm h hu this ht hk2

/-- A declaration of a type with several ones is still not the only one. -/
theorem several_after (hs : Settled ps d) (hx : DeclsExact d) {k : Nat} {dec : Declaration} (h : d.getDeclaration k = some dec)
    (hu : ∃ j dec', d.getDeclaration j = some dec' ∧ dec'.annotationtype = dec.annotationtype ∧ j ≠ k) {k2 : Nat}
    (hk2 : shapeOf d2 k2 = some (dec.annotationtype, dec.set, procsBack d d2 dec)) :
    ∃ j dec', d'.getDeclaration j = some dec' ∧ dec'.annotationtype = dec.annotationtype ∧ j ≠ k2 := by
  obtain ⟨j, dec', h1, h2, h3⟩ := hu
  obtain ⟨j2, hj2⟩ := decl_forth hm (fun k dec h => (hs.kept k dec h).1) h1
  obtain ⟨dec2, g1, g2, g3, _⟩ := shapeOf_some ((hp.shape j2).trans hj2)
  refine ⟨j2, dec2, g1, g2.trans h2, fun heq => h3 ?_⟩
  subst heq
  rw [hk2] at hj2
  have := Option.some.inj hj2
  simp only [Prod.mk.injEq] at this
  exact declarations_unique hx h1 h h2 this.2.1.symm

end

/-- If there is at most one declaration of a type, this is so after reading. -/
theorem atMost_after {d d1 d2 d' : Document} {ts : List ProcTree} (hm : MetaBack d d1 d2 ts) (hp : Pinned d2 d') {t : AnnotationType}
    (h : ∀ i j a b, d.getDeclaration i = some a → d.getDeclaration j = some b → a.annotationtype = t → b.annotationtype = t → i = j) :
    ∀ i j a b, d'.getDeclaration i = some a → d'.getDeclaration j = some b → a.annotationtype = t → b.annotationtype = t → i = j := by
  intro i j a b h1 h2 h3 h4
  have s1 : shapeOf d2 i = some (a.annotationtype, a.set, a.processors) := by rw [← hp.shape i]; unfold shapeOf; rw [h1]; rfl
  have s2 : shapeOf d2 j = some (b.annotationtype, b.set, b.processors) := by rw [← hp.shape j]; unfold shapeOf; rw [h2]; rfl
  obtain ⟨i', a', g1, g2⟩ := decl_back hm s1
  obtain ⟨j', b', g3, g4⟩ := decl_back hm s2
  simp only [Prod.mk.injEq] at g2 g4
  have := h i' j' a' b' g1 g3 (g2.1.symm.trans h3) (g4.1.symm.trans h4)
  subst this
  rw [g1] at g3
  cases g3
  rw [g2.1, g2.2.1] at s1
  rw [g4.1, g4.2.1] at s2
  exact shape_unique hm s1 s2

/-- The same attributes are written again. -/
theorem attrs_stable {X : Ext} {d d1 d2 d' : Document} {ps : DocumentProperties} {ts : List ProcTree} (hm : MetaBack d d1 d2 ts) (hx : ProcsExact d2)
    (hts : ProcsStored 0 d none d.chain ts) (hs : Settled ps d) (hi : CInv d) (hxd : DeclsExact d) {e x : ElementData} (he : RefsOk d e) (hx' : RefsOk d' x)
    (hc : ∀ a ∈ e.attribs, a.encodable = false) (hcr : Repeatable d e) {as : List Attribute} (ha : AttrsOf d e as) {data : List Data} (hp : Pinned d2 d')
    (hw : Rewritable X d e) (hb : ReadsBack d2 d' x ⟨e.elementtype, as, data, none, none⟩) (hsame : SameContent d d' e x) {l : List (String × String)} (hl : AttrsAre X d e l) :
    AttrsAre X d' x l := by
  have hc' : ∀ a ∈ ownAttribs e, a.encodable = false := fun a ha => hc a (List.mem_filter.mp ha).1
  have hprint : printedAttrs X x.attribs = printedAttrs X e.attribs := printed_own hsame.own
  obtain ⟨plain, enc, q1, q2, q3⟩ := id hx'
  obtain ⟨x1, x2, x3, x4⟩ := keysU_of_refs q1 q2
  -- nothing is written for `x` if there is nothing to write
  have hnone : x.declarationKeyU = .ok none → AttrsAre X d' x (printedAttrs X e.attribs) := fun h => ⟨[], by rw [hprint]; simp, .inl ⟨h, rfl⟩⟩
  have hbare : as = ownAttribs e → e.getSubset d = .ok none → e.getClass d = .ok none → (ElementGroup.layer.contains e.elementtype = true → ∀ t, e.elementtype.annotationtype = some t →
        ∀ i j a b, d.getDeclaration i = some a → d.getDeclaration j = some b → a.annotationtype = t → b.annotationtype = t → i = j) →
      AttrsAre X d' x (printedAttrs X e.attribs) := by
    rintro rfl hsub hcls hsole
    have hen := own_encodable hc' e.elementtype data
    by_cases hlay : ElementGroup.layer.contains e.elementtype = true
    · cases hd : enc.dec with
      | none => exact hnone (by rw [x1, hd])
      | some k2 =>
        obtain ⟨t, ht⟩ := Option.isSome_iff_exists.mp (layer_typed _ hlay).1
        obtain ⟨dec2, hd2⟩ := q3.dec k2 hd
        have htype := q3.kind k2 dec2 t hd hd2 (by rw [hsame.type]; exact ht)
        obtain ⟨g1, g2, g3, g4, g5, g6⟩ := builder_refs hc' none none none none e.elementtype data
        simp only [refAttribs, Option.map_none, Option.toList_none, List.append_nil] at g1 g2 g3 g4
        have hproc : x.processorKeyU = .ok none := hb.uncredited (.inr hen) fun id h => by rw [g4] at h; cases h
        refine ⟨[], by rw [hprint]; simp, .inr ⟨k2, dec2, none, none, none, none, by rw [x1, hd], hd2, hsame.subset.trans hsub, hsame.cls.trans hcls, rfl, .inl ⟨.inr ?_, rfl⟩,
          .inr ⟨?_, procId_none hproc⟩⟩⟩
        · exact fun j dec' h1 h2 => atMost_after hm hp (hsole hlay t ht) j k2 dec' dec2 h1 hd2 (h2.trans htype) htype
        · rintro ⟨p, _, h⟩; rw [hproc] at h; cases h
    · exact hnone (hb.undeclared hen (by simpa using hlay))
  rcases ha with ⟨h1, rfl⟩ | ⟨k, dec, set, subset, cls, proc, h1, has⟩
  · rw [attrsAre_unique hl (l' := printedAttrs X e.attribs) ⟨[], by simp, .inl ⟨h1, rfl⟩⟩]
    exact hbare rfl (undeclared_values he h1).2.1 (undeclared_values he h1).1 fun hlay t ht => hcr.layer t hlay h1 ht
  · rw [attrsAre_unique hl ⟨wattrOpt "set" set ++ wattrOpt "subset" subset ++ wattrOpt "class" cls ++ wattrOpt "processor" proc, rfl,
      .inr ⟨k, dec, set, subset, cls, proc, h1.key, h1.stored, h1.subset, h1.cls, rfl, h1.set, h1.proc⟩⟩]
    obtain ⟨eplain, eenc, eq1, eq2, eq3⟩ := id he
    obtain ⟨e1, e2, e3, e4⟩ := keysU_of_refs eq1 eq2
    have hdk : eenc.dec = some k := by have := h1.key; rw [e1] at this; exact Except.ok.inj this
    cases ht : e.elementtype.annotationtype with
    | none =>
      -- a feature
      have hf : e.elementtype = .feature := by
        rcases eq3.declarable k hdk with h | h
        · rw [ht] at h; cases h
        · exact h
      subst has
      obtain ⟨g1, g2, g3, g4, g5, g6⟩ := builder_refs hc' set subset cls proc e.elementtype data
      have hpe := (hcr.feature k hf h1.key).1
      have hset : set = none := by
        rcases h1.set with ⟨_, h⟩ | ⟨⟨h, _⟩, _⟩
        · exact h
        · exact absurd hf h
      have hproc : proc = none := by
        rcases h1.proc with ⟨_, h⟩ | ⟨_, h⟩
        · exact h
        · rw [procId_none hpe] at h; exact (Except.ok.inj h).symm
      subst hset hproc
      have hpx : x.processorKeyU = .ok none := hb.uncredited (.inl ht) fun id h => by rw [g4] at h; cases h
      obtain ⟨s, c, w1, _⟩ := hw.feature hf k h1.key
      cases hd : enc.dec with
      | none =>
        have := (undeclared_values hx' (by rw [x1, hd])).2.1
        rw [hsame.subset, w1] at this
        cases this
      | some k2 =>
        obtain ⟨dec2, hd2⟩ := q3.dec k2 hd
        refine ⟨_, by rw [hprint], .inr ⟨k2, dec2, none, subset, cls, none, by rw [x1, hd], hd2, hsame.subset.trans h1.subset, hsame.cls.trans h1.cls, rfl,
          .inl ⟨.inl (hsame.type.trans hf), rfl⟩, .inr ⟨?_, procId_none hpx⟩⟩⟩
        rintro ⟨p, _, h⟩; rw [hpx] at h; cases h
    | some t =>
      by_cases hen : (set.isSome || subset.isSome || cls.isSome || proc.isSome) = true
      · subst has
        obtain ⟨k2, dec', hk2, hdk2, ht2, hset2, hpr2, hj⟩ := decl_same hm hs he hx' hc h1 hp ht hb hen
        obtain ⟨g1, g2, g3, g4, g5, g6⟩ := builder_refs hc' set subset cls proc e.elementtype data
        have hlen := procsBack_length hm hx hts hs hi h1.stored
        -- a processor of `x` is among those of its declaration
        have hdefault : (∃ p, dec.processors = [p]) → proc = none →
            (∃ p, dec'.processors = [p] ∧ x.processorKeyU = .ok (some p)) ∧ proc = none ∨
            (¬ ∃ p, dec'.processors = [p] ∧ x.processorKeyU = .ok (some p)) ∧ x.getProcessorId d' = .ok proc := by
          rintro ⟨p, hp1⟩ rfl
          rw [hp1] at hlen
          obtain ⟨p2, hp2⟩ := List.length_eq_one_iff.mp hlen
          cases hxp : enc.proc with
          | none => exact .inr ⟨(by rintro ⟨_, _, h⟩; rw [x3, hxp] at h; cases h), procId_none (by rw [x3, hxp])⟩
          | some q =>
            have hk2' : enc.dec = some k2 := by rw [x1] at hk2; exact Except.ok.inj hk2
            have := q3.listed k2 dec' q hk2' hxp hdk2
            rw [hpr2, hp2] at this
            have hq := List.mem_singleton.mp this
            exact .inl ⟨⟨q, by rw [hq]; exact hpr2.trans hp2, by rw [x3, hxp]⟩, rfl⟩
        refine ⟨_, by rw [hprint], .inr ⟨k2, dec', set, subset, cls, proc, hk2, hdk2, hsame.subset.trans h1.subset, hsame.cls.trans h1.cls, rfl, ?_, ?_⟩⟩
        · rcases h1.set with ⟨hf | hu, h⟩ | ⟨⟨hf, hu⟩, h⟩
          · exact .inl ⟨.inl (hsame.type.trans hf), h⟩
          · exact .inl ⟨.inr fun j dec2 a b => sole_after hm hp h1.stored hu hj a (b.trans ht2), h⟩
          · refine .inr ⟨⟨by rw [hsame.type]; exact hf, ?_⟩, ?_⟩
            · rw [ht2]; exact several_after hm hp hs hxd h1.stored hu hj
            · rw [set_of_key hk2 hdk2, hset2, ← set_of_key h1.key h1.stored, h]
        · rcases h1.proc with ⟨⟨p, h2, _⟩, h⟩ | ⟨hno, h⟩
          · exact hdefault ⟨p, h2⟩ h
          · cases hpr : proc with
            | none =>
              refine (hpr ▸ hdefault ?_ hpr :)
              rcases hcr.credited t k dec ht h1.key h1.stored with ⟨p, h3⟩ | h3
              · obtain ⟨y, hy⟩ := eq3.proc p (by rw [e3] at h3; exact Except.ok.inj h3)
                rw [procId_of_key h3 hy, hpr] at h
                cases h
              · exact h3
            | some pid =>
              rw [hpr] at h
              obtain ⟨p, y, h3, h4, h5⟩ := procKey_of_id he h
              have hlist := (refs_listed he ht h1.key h1.stored).2 p h3
              obtain ⟨p2, y2, r1, r2, r3⟩ := proc_forth hm hx hts h4 ((hs.kept k dec h1.stored).2 p hlist)
              refine .inr ⟨?_, hb.processor pid p2 (by rw [g4, hpr]) (by rw [← h5]; exact r1)⟩
              rintro ⟨p', h6, _⟩
              rw [← hpr2, h6] at hlen
              obtain ⟨p3, h7⟩ := List.length_eq_one_iff.mp hlen.symm
              rw [h7] at hlist
              cases List.mem_singleton.mp hlist
              exact hno ⟨_, h7, h3⟩
      · -- nothing was written
        simp only [Bool.or_eq_true, not_or, Bool.not_eq_true, Option.isSome_eq_false_iff, Option.isNone_iff_eq_none] at hen
        obtain ⟨⟨⟨rfl, rfl⟩, rfl⟩, rfl⟩ := hen
        have : AttrsAre X d' x (printedAttrs X e.attribs) := by
          refine hbare (by simpa [refAttribs] using has) h1.subset h1.cls fun hlay t' ht' => ?_
          have l1 := (refs_listed he ht' h1.key h1.stored).1
          have hu : ∀ j dec', d.getDeclaration j = some dec' → dec'.annotationtype = dec.annotationtype → j = k := by
            rcases h1.set with ⟨hf | hu, _⟩ | ⟨_, hset⟩
            · rw [hf] at ht; cases ht
            · exact hu
            · rw [set_of_key h1.key h1.stored] at hset
              obtain ⟨k3, dec3, u1, u2, u3⟩ := hs.unset k dec h1.stored (Except.ok.inj hset)
              have := u3 k dec h1.stored rfl
              subst this
              exact u3
          exact fun i j a b g1 g2 g3 g4 => (hu i a g1 (g3.trans l1.symm)).trans (hu j b g2 (g4.trans l1.symm)).symm
        simpa [wattrOpt] using this

/-! ### The tree -/

theorem squeeze_append : ∀ a b : List WEvent, squeeze (a ++ b) = squeeze a ++ squeeze b
  | [], b => rfl
  | .text s :: a, b => by
    simp only [List.cons_append, squeeze, squeeze_append a b]
    split <;> simp
  | .empty t as :: a, b => by simp [squeeze, squeeze_append a b]
  | .start t as :: a, b => by simp [squeeze, squeeze_append a b]
  | .endTag t :: a, b => by simp [squeeze, squeeze_append a b]
  | .comment s :: a, b => by simp [squeeze, squeeze_append a b]

mutual
/-- A tree without line feeds. -/
def flatItem (A : ElementData → List (String × String)) : Item → List WEvent
  | .text s => squeeze [.text (escape s)]
  | .comment s => [.comment (escape s)]
  | .ref _ => []
  | .node _ e items => .start e.elementtype.asStr (A e) :: flatItems A items ++ [.endTag e.elementtype.asStr]
/-- See `flatItem`. -/
def flatItems (A : ElementData → List (String × String)) : List Item → List WEvent
  | [] => []
  | i :: is => flatItem A i ++ flatItems A is
end

theorem squeeze_nl (b : Bool) : squeeze (if b then [nl] else []) = [] := by cases b <;> rfl

mutual
theorem squeeze_item (A : ElementData → List (String × String)) : ∀ (i : Item) (last : Bool), squeeze (itemXml A last i) = flatItem A i
  | .text s, _ => by rw [itemXml, flatItem]
  | .comment s, _ => by rw [itemXml, flatItem]; rfl
  | .ref _, _ => by rw [itemXml, flatItem]; rfl
  | .node k e [], last => by simp [itemXml, flatItem, flatItems, squeeze, squeeze_nl]
  | .node k e (i :: is), last => by
    rw [itemXml, if_neg (by simp)]
    simp only [squeeze_append, squeeze_nl, squeeze_items A (i :: is) last, flatItem, squeeze]
    simp
theorem squeeze_items (A : ElementData → List (String × String)) : ∀ (is : List Item) (last : Bool), squeeze (itemsXml A last is) = flatItems A is
  | [], _ => by rw [itemsXml, flatItems]; rfl
  | i :: is, last => by rw [itemsXml, squeeze_append, squeeze_item A i, squeeze_items A is, flatItems]
end

/-- The items other than references. -/
def plainItems (is : List Item) : List Item := is.filter fun
  | .ref _ => false
  | _ => true

theorem plainItems_flat (A : ElementData → List (String × String)) : ∀ is, flatItems A (plainItems is) = flatItems A is
  | [] => rfl
  | .ref _ :: is => by
    have := plainItems_flat A is
    unfold plainItems at this ⊢
    rw [List.filter_cons_of_neg (by simp), this]
    simp [flatItems, flatItem]
  | .text _ :: is => by
    have := plainItems_flat A is
    unfold plainItems at this ⊢
    rw [List.filter_cons_of_pos (by simp), flatItems, this, flatItems]
  | .comment _ :: is => by
    have := plainItems_flat A is
    unfold plainItems at this ⊢
    rw [List.filter_cons_of_pos (by simp), flatItems, this, flatItems]
  | .node _ _ _ :: is => by
    have := plainItems_flat A is
    unfold plainItems at this ⊢
    rw [List.filter_cons_of_pos (by simp), flatItems, this, flatItems]

theorem plainItems_data : ∀ is : List Item, (plainItems is).map Item.data = ownItems (is.map Item.data)
  | [] => rfl
  | .ref _ :: is => by
    have := plainItems_data is
    unfold plainItems ownItems at this ⊢
    simpa [Item.data] using this
  | .text _ :: is => by
    have := plainItems_data is
    unfold plainItems ownItems at this ⊢
    simpa [Item.data] using this
  | .comment _ :: is => by
    have := plainItems_data is
    unfold plainItems ownItems at this ⊢
    simpa [Item.data] using this
  | .node _ _ _ :: is => by
    have := plainItems_data is
    unfold plainItems ownItems at this ⊢
    simpa [Item.data] using this

/-- A list of items is determined, up to references, by its data. -/
theorem item_of_data {i : Item} {c : Nat} (h : i.data = .element c) : ∃ e items, i = .node c e items := by
  cases i <;> simp only [Item.data] at h <;> cases h
  exact ⟨_, _, rfl⟩

mutual
/-- Matching trees are written in the same way. -/
theorem flat_match {d' : Document} {A A' : ElementData → List (String × String)} : ∀ (i : Item) (par : Option Nat) (k' : Nat) (x : ElementData) (its : List Item),
    Matches (fun e x => A' x = A e ∧ x.elementtype = e.elementtype) d' par k' i → Shows d' (.node k' x its) → flatItem A' (.node k' x its) = flatItem A i
  | .node k e items, par, k', x, its, h, hs => by
    simp only [Matches] at h
    obtain ⟨x1, h1, _, ⟨h2, h3⟩, h4⟩ := h
    simp only [Shows] at hs
    rw [h1] at hs
    obtain ⟨⟨⟩, h5, h6⟩ := hs
    rw [flatItem, flatItem, h2, h3]
    rw [h5, ← plainItems_data] at h4
    rw [← plainItems_flat A' its, flats_match items (some k') (plainItems its) h4 (showsAll_iff.mpr fun i hi => showsAll_iff.mp h6 i (List.mem_filter.mp hi).1)]
  | .text _, _, _, _, _, h, _ => by simp only [Matches] at h
  | .comment _, _, _, _, _, h, _ => by simp only [Matches] at h
  | .ref _, _, _, _, _, h, _ => by simp only [Matches] at h
theorem flats_match {d' : Document} {A A' : ElementData → List (String × String)} : ∀ (is : List Item) (par : Option Nat) (its : List Item),
    MatchesAll (fun e x => A' x = A e ∧ x.elementtype = e.elementtype) d' par (its.map Item.data) is → ShowsAll d' its → flatItems A' its = flatItems A is
  | [], _, its, h, _ => by
    simp only [MatchesAll, List.map_eq_nil_iff] at h
    rw [h]
    rfl
  | .ref _ :: is, par, its, h, hs => by
    simp only [MatchesAll] at h
    rw [flats_match is par its h hs, flatItems, flatItem, List.nil_append]
  | .text s :: is, par, its, h, hs => by
    simp only [MatchesAll] at h
    obtain ⟨ys, h1, h2⟩ := h
    cases its with
    | nil => cases h1
    | cons j js =>
      simp only [List.map_cons, List.cons.injEq] at h1
      obtain ⟨h1, rfl⟩ := h1
      cases j <;> simp only [Item.data] at h1 <;> cases h1
      rw [flatItems, flatItems, flats_match is par js h2 hs.2, flatItem, flatItem]
  | .comment s :: is, par, its, h, hs => by
    simp only [MatchesAll] at h
    obtain ⟨ys, h1, h2⟩ := h
    cases its with
    | nil => cases h1
    | cons j js =>
      simp only [List.map_cons, List.cons.injEq] at h1
      obtain ⟨h1, rfl⟩ := h1
      cases j <;> simp only [Item.data] at h1 <;> cases h1
      rw [flatItems, flatItems, flats_match is par js h2 hs.2, flatItem, flatItem]
  | .node k e items :: is, par, its, h, hs => by
    simp only [MatchesAll] at h
    obtain ⟨c, ys, h1, h2, h3⟩ := h
    cases its with
    | nil => cases h1
    | cons j js =>
      simp only [List.map_cons, List.cons.injEq] at h1
      obtain ⟨h1, rfl⟩ := h1
      obtain ⟨x, its', rfl⟩ := item_of_data h1
      rw [flatItems, flatItems, flats_match is par js h3 hs.2, flat_match (.node k e items) par c x its' h2 hs.1]
end

/-! ### The metadata -/

theorem concatRes_map {α : Type} (f : α → Res (List WEvent)) : ∀ l : List α, concatRes f l = concatRes (fun r => r) (l.map f)
  | [] => rfl
  | a :: l => by simp only [concatRes, List.map_cons, concatRes_map f l]

theorem declarationList_concat (d : Document) : ∀ items, xmlDeclarationList d items = concatRes (xmlDeclaration d) (items.filterMap fun o => o)
  | [] => rfl
  | none :: rest => by simp only [xmlDeclarationList, List.filterMap_cons, declarationList_concat d rest]
  | some dec :: rest => by simp only [xmlDeclarationList, List.filterMap_cons, concatRes, declarationList_concat d rest]

theorem annotators_written {d : Document} : ∀ (ps : List Nat), (∀ p ∈ ps, d.ProcLive p) →
    xmlAnnotators d ps = .ok ((procIdents d ps).map fun s => .empty "annotator" [wattr "processor" s])
  | [], _ => rfl
  | p :: ps, h => by
    obtain ⟨y, hy⟩ := h p (List.mem_cons_self ..)
    simp only [xmlAnnotators, hy, annotators_written ps fun q hq => h q (List.mem_cons_of_mem _ hq), procIdents, List.filterMap_cons, Option.map_some]
    rfl

/-- The entries of a list that has entries only in front. -/
theorem front_entries {α : Type} : ∀ (items : List (Option α)), (∀ i j : Nat, i ≤ j → items[i]?.join = none → items[j]?.join = none) →
    ∀ j : Nat, (items.filterMap fun o => o)[j]? = items[j]?.join
  | [], _, j => by simp
  | none :: rest, h, j => by
    have hall : ∀ j : Nat, (none :: rest : List (Option α))[j]?.join = none := fun j => h 0 j (Nat.zero_le _) rfl
    rw [hall]
    have : ((none :: rest : List (Option α)).filterMap fun o => o) = [] := by
      rw [List.filterMap_eq_nil_iff]
      intro o ho
      obtain ⟨i, hi⟩ := List.mem_iff_getElem?.mp ho
      have := hall i
      rw [hi] at this
      exact this
    rw [this]
    rfl
  | some a :: rest, h, j => by
    rw [List.filterMap_cons]
    simp only
    cases j with
    | zero => rfl
    | succ j =>
      rw [List.getElem?_cons_succ, List.getElem?_cons_succ]
      refine front_entries rest (fun i j hij h1 => ?_) j
      have := h (i + 1) (j + 1) (by omega) (by rw [List.getElem?_cons_succ]; exact h1)
      rwa [List.getElem?_cons_succ] at this

theorem getDeclaration_join (d : Document) (j : Nat) : d.getDeclaration j = d.declarations.items[j]?.join := by
  unfold getDeclaration Store.get
  cases d.declarations.items[j]? with
  | none => rfl
  | some o => cases o <;> rfl

/-- The same declarations are written again. -/
theorem declarations_stable {d d1 d2 d' : Document} {ps : DocumentProperties} {ts : List ProcTree} (hm : MetaBack d d1 d2 ts) (hx : ProcsExact d2)
    (hts : ProcsStored 0 d none d.chain ts) (hs : Settled ps d) (hi : CInv d) (hi' : CInv d') (hmono : DeclMono d2 d') (hp : Pinned d2 d') :
    xmlDeclarations d' = xmlDeclarations d := by
  have hkept : keptDecls d.declarations.items = allDeclarations d := by
    rw [kept_filter]
    refine List.filter_eq_self.mpr fun dec hd => ?_
    obtain ⟨o, ho, rfl⟩ := List.mem_filterMap.mp hd
    obtain ⟨k, hk⟩ := List.mem_iff_getElem?.mp ho
    simpa using (hs.kept k dec (Store.get_eq_some.mpr hk)).1
  have hnone : ∀ j, d'.getDeclaration j = none ↔ (allDeclarations d)[j]? = none := by
    intro j
    have h1 := hm.decls j
    rw [hkept] at h1
    have h2 := hp.shape j
    unfold shapeOf at h2
    cases h3 : d'.getDeclaration j <;> cases h4 : (allDeclarations d)[j]? <;> rw [h4] at h1 <;> rw [h3, h1] at h2 <;> simp at h2 ⊢
  have hfront : ∀ i j : Nat, i ≤ j → d'.declarations.items[i]?.join = none → d'.declarations.items[j]?.join = none := by
    intro i j hij h
    rw [← getDeclaration_join, hnone] at h ⊢
    rw [List.getElem?_eq_none_iff] at h ⊢
    omega
  unfold xmlDeclarations
  congr 1
  rw [declarationList_concat, declarationList_concat, concatRes_map, concatRes_map (xmlDeclaration d)]
  congr 1
  apply List.ext_getElem?
  intro j
  rw [List.getElem?_map, List.getElem?_map, front_entries _ hfront, ← getDeclaration_join]
  change _ = Option.map _ (allDeclarations d)[j]?
  cases h4 : (allDeclarations d)[j]? with
  | none => rw [(hnone j).mpr h4]; rfl
  | some dec =>
    obtain ⟨k, hk⟩ : ∃ k, d.getDeclaration k = some dec := by
      obtain ⟨o, ho, rfl⟩ := List.mem_filterMap.mp (List.mem_of_getElem? h4)
      obtain ⟨k, hk⟩ := List.mem_iff_getElem?.mp ho
      exact ⟨k, Store.get_eq_some.mpr hk⟩
    have h1 := hm.decls j
    rw [hkept, h4] at h1
    simp only [Option.map_some] at h1
    obtain ⟨dec', h2, h3⟩ := hmono j _ h1
    rw [h2]
    simp only [Option.map_some, Option.some.injEq]
    have hproc : dec'.processors = procsBack d d2 dec := by
      have := hp.shape j
      unfold shapeOf at this
      rw [h2, h1] at this
      simp only [Option.map_some, Option.some.injEq, Prod.mk.injEq] at this
      exact this.2.2
    have hids : procIdents d' dec'.processors = procIdents d dec.processors := by
      rw [hproc]
      have : procIdents d' (procsBack d d2 dec) = procIdents d2 (procsBack d d2 dec) := by
        unfold procIdents getProcessor
        rw [hp.procs]
      rw [this]
      refine names_back hx dec.processors fun p hp' y hy => ?_
      obtain ⟨c, hc1, hc2⟩ := (hs.kept k dec hk).2 p hp'
      exact trees_ids_live ts _ _ hm.stored _ (over_in_trees ts _ _ hts hc1 hc2 hy)
    have hw := annotators_written dec.processors (hi.decls.ok k dec hk).procs
    have hw' := annotators_written dec'.processors (hi'.decls.ok j dec' h2).procs
    have hlen := procsBack_length hm hx hts hs hi hk
    have htag : declTag dec' = declTag dec := by unfold declTag; rw [h3.type]; rfl
    have hatt : declAttrs dec' = declAttrs dec := by unfold declAttrs; rw [h3.set, h3.alias, h3.format]; rfl
    unfold xmlDeclaration
    rw [htag, hatt]
    cases hq : dec.processors with
    | nil => exact absurd hq (hs.kept k dec hk).1
    | cons p ps =>
      cases hq' : dec'.processors with
      | nil => rw [← hproc, hq, hq'] at hlen; cases hlen
      | cons p' ps' =>
        simp only
        rw [← hq, ← hq', hw, hw', hids]

/-- The same metadata is written again. -/
theorem metadata_stable {d d' : Document} {ts : List ProcTree} (hts : ProcsStored 0 d none d.chain ts) (hts' : ProcsStored 0 d' none d'.chain ts)
    (hd : xmlDeclarations d' = xmlDeclarations d) (hm : d'.metadata = d.metadata) (hs : d'.submetadata = d.submetadata) {G : Nat} {m : List WEvent}
    (h : xmlMetadata d G = .ok m) : ∃ N, ∀ G', N ≤ G' → xmlMetadata d' G' = .ok m := by
  obtain ⟨N1, hN1⟩ := xmlProcessors_tree ts d.chain none 0 hts
  obtain ⟨N2, hN2⟩ := xmlProcessors_tree ts d'.chain none 0 hts'
  refine ⟨N2, fun G' hG => ?_⟩
  unfold xmlMetadata at h ⊢
  rw [hd, hm, hs]
  simp only [bind, Except.bind] at h ⊢
  cases hd0 : xmlDeclarations d with
  | error e => rw [hd0] at h; cases h
  | ok decs =>
    rw [hd0] at h
    simp only [xmlProvenance, hN2 G' hG] at h ⊢
    cases hc : concatRes (xmlProcessor d G) d.chain with
    | error e => rw [hc] at h; cases h
    | ok r =>
      have := fuelled_mono (f := fun n => concatRes (xmlProcessor d n) d.chain) (fun n => concatRes_next (xmlProcessor_next d n) _) hc (by simp) (Nat.le_max_left G N1)
      rw [hN1 _ (Nat.le_max_right G N1)] at this
      cases this
      rw [hc] at h
      exact h

end Folia
