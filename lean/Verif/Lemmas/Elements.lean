import Verif.Lemmas.Encode
/-! How elementary transitions change stored elements, and the invariant of documents made with clean arguments. -/
namespace Folia
open Document

/-! ### Attributes after encoding -/

/-- The references appended by `encode`. -/
def encRefs (enc : Enc) : List Attribute :=
  (enc.dec.map .declarationRef).toList ++ ((enc.cls.map .classRef).toList ++ ((enc.proc.map .processorRef).toList ++
    (enc.subset.map .subsetRef).toList))

theorem encodedAttribs_eq (as : List Attribute) (enc : Enc) : encodedAttribs as enc = as.filter (!·.encodable) ++ encRefs enc := by
  simp [encodedAttribs, encRefs, List.append_assoc]

theorem encRefs_encodable (enc : Enc) : ∀ a ∈ encRefs enc, a.encodable = false := by
  intro a ha
  simp only [encRefs, List.mem_append, Option.mem_toList, Option.map_eq_some_iff] at ha
  rcases ha with ⟨_, _, rfl⟩ | ⟨_, _, rfl⟩ | ⟨_, _, rfl⟩ | ⟨_, _, rfl⟩ <;> rfl

theorem encode_attribs {e e' : ElementData} {ctx : Option Nat} {d : Document} (h : (encode e ctx d).1 = .ok e') :
    (e.encodable = false ∧ e' = e) ∨ (e.encodable = true ∧ ∃ enc, e'.attribs = encodedAttribs e.attribs enc) := by
  unfold encode at h
  split at h
  · rename_i he
    rw [M.run_bind] at h
    rcases hm : encodeCore e ctx d with ⟨_ | enc, d'⟩
    · rw [hm] at h; simp at h
    · rw [hm] at h
      simp only [M.run_bind, M.run_get] at h
      rcases hl : encodeLink (encodeExplicit d' e enc) d' with ⟨_ | _, d''⟩
      · rw [hl] at h; simp at h
      · rw [hl] at h
        simp only [M.run_pure] at h
        cases h
        exact Or.inr ⟨he, _, rfl⟩
  · rename_i he
    cases h; exact Or.inl ⟨by simpa using he, rfl⟩

/-- Encoded elements have no attribute left to encode. -/
theorem encode_plain {e e' : ElementData} {ctx : Option Nat} {d : Document} (h : (encode e ctx d).1 = .ok e') :
    ∀ a ∈ e'.attribs, a.encodable = false := by
  intro a ha
  rcases encode_attribs h with ⟨he, rfl⟩ | ⟨_, enc, heq⟩
  · unfold ElementData.encodable at he
    rw [List.any_eq_false] at he
    simpa using he a ha
  · rw [heq, encodedAttribs_eq, List.mem_append] at ha
    rcases ha with ha | ha
    · rw [List.mem_filter] at ha; simpa using ha.2
    · exact encRefs_encodable enc a ha

/-! ### Change of one element -/

/-- How an elementary transition can change a stored element. -/
structure ElemChange (d : Document) (e e' : ElementData) : Prop where
  type : e'.elementtype = e.elementtype
  key : e'.key = e.key
  attribs : e'.attribs = e.attribs ∨ (ElementGroup.layer.contains e.elementtype = true ∧ e.hasAttrib .SET = false ∧
    ∃ dk, e'.attribs = [.declarationRef dk] ∧ ∃ k1 e1, d.getElement k1 = some e1 ∧ e1.declarationKeyU = .ok (some dk) ∧
      e1.elementtype.annotationtype = e.elementtype.annotationtype)
  parent : e'.parent = e.parent ∨ e'.parent = none ∨ ∃ p, e'.parent = some p ∧ d.Live p
  data : ∀ x ∈ e'.data, x ∈ e.data ∨ DataLive d x

theorem ElemChange.refl (d : Document) (e : ElementData) : ElemChange d e e :=
  ⟨rfl, rfl, Or.inl rfl, Or.inl rfl, fun _ h => Or.inl h⟩

theorem ElemChange.push {d : Document} {e : ElementData} {x : Data} (h : DataLive d x) : ElemChange d e (e.push x) := by
  refine ⟨rfl, rfl, Or.inl rfl, Or.inl rfl, ?_⟩
  intro y hy
  simp only [ElementData.push, List.mem_append, List.mem_singleton] at hy
  rcases hy with hy | rfl
  · exact Or.inl hy
  · exact Or.inr h

theorem unlink_data (c : Nat) (e : ElementData) : ∀ x ∈ (unlink c e).data, x ∈ e.data := by
  intro x hx
  unfold unlink at hx
  split at hx
  · exact List.mem_of_mem_eraseIdx hx
  · exact hx

theorem unlink_same (c : Nat) (e : ElementData) : (unlink c e).elementtype = e.elementtype ∧ (unlink c e).attribs = e.attribs ∧
    (unlink c e).key = e.key ∧ (unlink c e).parent = e.parent := by
  unfold unlink; split <;> exact ⟨rfl, rfl, rfl, rfl⟩

theorem ElemChange.unlink (d : Document) (c : Nat) (e : ElementData) : ElemChange d e (unlink c e) :=
  have h := unlink_same c e
  ⟨h.1, h.2.2.1, Or.inl h.2.1, Or.inl h.2.2.2, fun x hx => Or.inl (unlink_data c e x hx)⟩

/-- The element at `k` after a transition, in terms of the state before. -/
theorem Prim.element_back {C : Prop} {d d' : Document} (h : Prim C d d') {k : Nat} {e' : ElementData} (hk : d'.getElement k = some e') :
    (∃ e, d.getElement k = some e ∧ ElemChange d e e') ∨
    (d.getElement k = none ∧ ∃ e0 ctx e1, (C → CleanAttribs e0.attribs ∧ (∀ x ∈ e0.data, DataLive d x) ∧ e0.parent = none) ∧
      d' = (Document.addElem e0 ctx d).2 ∧ (Document.encode e0 ctx d).1 = .ok e1 ∧ e' = { e1 with key := some k }) := by
  have same : d'.elements = d.elements → ∃ e, d.getElement k = some e ∧ ElemChange d e e' := fun h => by
    unfold getElement at hk ⊢
    rw [h] at hk
    exact ⟨e', hk, .refl d e'⟩
  have upd : ∀ (j : Nat) (f : ElementData → ElementData), d'.elements = d.elements.update j f →
      (∀ e, d.getElement j = some e → ElemChange d e (f e)) → ∃ e, d.getElement k = some e ∧ ElemChange d e e' := fun j f h hf => by
    unfold getElement at hk hf ⊢
    rw [h, Store.get_update] at hk
    split at hk
    · rename_i hj; subst hj
      cases he : d.elements.get k with
      | none => simp [he] at hk
      | some e =>
        simp only [he, Option.map_some, Option.some.injEq] at hk
        subst hk
        exact ⟨e, rfl, hf e he⟩
    · exact ⟨e', hk, .refl d e'⟩
  cases h with
  | admin he _ _ _ _ => exact Or.inl (same he)
  | addDeclaration dec _ => exact Or.inl (same rfl)
  | declare t s a f => exact Or.inl (same (declare_elements ..).1)
  | addClass k c => exact Or.inl (same (OnlyDecls.addClass k c d).elements)
  | annotator k p _ => exact Or.inl (same rfl)
  | addElem e0 ctx hc =>
    obtain ⟨_, h⟩ := addElem_elements e0 ctx d
    rcases h with ⟨f, _, he⟩ | ⟨e1, _, _, _, _, he, henc⟩
    · exact Or.inl (same he)
    · unfold getElement at hk ⊢
      rw [he] at hk
      rcases Store.add_spec cap32 d.elements e1 with ⟨_, _, _, _, heq⟩ | ⟨heq, _⟩ | ⟨_, _, s', heq, _, hg, _⟩
      · rw [heq] at hk; exact Or.inl ⟨e', hk, .refl d e'⟩
      · rw [heq] at hk; exact Or.inl ⟨e', hk, .refl d e'⟩
      · rw [heq] at hk
        simp only [hg] at hk
        split at hk
        · rename_i hk'
          refine Or.inr ⟨?_, e0, ctx, e1, hc, rfl, henc, ?_⟩
          · cases hn : d.elements.get k with
            | none => rfl
            | some x => have := Store.get_lt hn; omega
          · cases hk; rw [hk']; rfl
        · exact Or.inl ⟨e', hk, .refl d e'⟩
  | setParent c p hp =>
    exact Or.inl (upd c _ rfl fun e _ => ⟨rfl, rfl, Or.inl rfl, Or.inr (Or.inr ⟨p, rfl, hp⟩), fun _ h => Or.inl h⟩)
  | orphan c => exact Or.inl (upd c _ rfl fun e _ => ⟨rfl, rfl, Or.inl rfl, Or.inr (Or.inl rfl), fun _ h => Or.inl h⟩)
  | pushElem p c hc => exact Or.inl (upd p _ rfl fun e _ => .push hc)
  | pushText p x hx => exact Or.inl (upd p _ rfl fun e _ => .push (by cases x <;> first | trivial | exact hx.elim))
  | pushSpan t s hs => exact Or.inl (upd t _ rfl fun e _ => .push hs)
  | unlink p c => exact Or.inl (upd p _ rfl fun e _ => .unlink d c e)
  | layer j dk e0 he hl hn hd =>
    refine Or.inl (upd j _ rfl fun e hej => ?_)
    rw [he] at hej; cases hej
    exact ⟨rfl, rfl, Or.inr ⟨hl, hn, dk, rfl, hd⟩, Or.inl rfl, fun _ h => Or.inl h⟩
  | addProc p _ => exact Or.inl (same rfl)
  | chain | activate | procParent | procPush => exact Or.inl (same rfl)

/-- The element at `k` before a transition, in terms of the state after. -/
theorem Prim.element_forward {C : Prop} {d d' : Document} (h : Prim C d d') {k : Nat} {e : ElementData} (hk : d.getElement k = some e) :
    ∃ e', d'.getElement k = some e' ∧ ElemChange d e e' := by
  obtain ⟨e', he'⟩ := h.liveMono.elems k ⟨e, hk⟩
  rcases h.element_back he' with ⟨e2, h1, h2⟩ | ⟨h1, _⟩
  · rw [hk] at h1; cases h1; exact ⟨e', he', h2⟩
  · rw [hk] at h1; cases h1

/-! ### Reading references -/

/-- A list of attributes that are neither to be encoded nor encoded. -/
def PlainAttribs (as : List Attribute) : Prop := ∀ a ∈ as, a.encodable = false ∧ a.decodable = false

theorem keyAttr_plain (f : Attribute → Option Nat) (as bs : List Attribute) (h : PlainAttribs as) (hf : ∀ a, a.decodable = false → f a = none) :
    ElementData.keyAttr f (as ++ bs) = ElementData.keyAttr f bs := by
  induction as with
  | nil => rfl
  | cons a as ih =>
    have ha := h a (by simp)
    simp only [List.cons_append, ElementData.keyAttr, hf a ha.2, ha.1]
    exact ih fun b hb => h b (by simp [hb])

theorem keys_of_refs {e : ElementData} {plain : List Attribute} {enc : Enc} (h : e.attribs = plain ++ encRefs enc) (hp : PlainAttribs plain) :
    e.declarationKey = .ok enc.dec ∧ e.classKey = .ok enc.cls ∧ e.processorKey = .ok enc.proc ∧ e.subsetKey = .ok enc.subset := by
  unfold ElementData.declarationKey ElementData.classKey ElementData.processorKey ElementData.subsetKey
  rw [h]
  refine ⟨?_, ?_, ?_, ?_⟩
  all_goals
    rw [keyAttr_plain _ _ _ hp (by intro a ha; cases a <;> first | rfl | cases ha)]
    obtain ⟨dec, cls, proc, subset, test⟩ := enc
    cases dec <;> cases cls <;> cases proc <;> cases subset <;> rfl

theorem unwrapRes_ok_eq {α : Type} {r : Res α} {a : α} (h : r = .ok a) : unwrapRes r = .ok a := by subst h; rfl

theorem keysU_of_refs {e : ElementData} {plain : List Attribute} {enc : Enc} (h : e.attribs = plain ++ encRefs enc) (hp : PlainAttribs plain) :
    e.declarationKeyU = .ok enc.dec ∧ e.classKeyU = .ok enc.cls ∧ e.processorKeyU = .ok enc.proc ∧ e.subsetKeyU = .ok enc.subset :=
  have hk := keys_of_refs h hp
  ⟨unwrapRes_ok_eq hk.1, unwrapRes_ok_eq hk.2.1, unwrapRes_ok_eq hk.2.2.1, unwrapRes_ok_eq hk.2.2.2⟩

/-! ### The invariant of documents made with clean arguments -/

/-- Layers have an annotation type. -/
theorem layer_typed (t : ElementType) (h : ElementGroup.layer.contains t = true) : t.annotationtype.isSome = true ∧ t ≠ .feature := by
  revert h
  cases t <;> decide

/-- References that resolve. -/
structure RefLive (d : Document) (t : ElementType) (enc : Enc) : Prop where
  dec : ∀ k, enc.dec = some k → ∃ dec, d.getDeclaration k = some dec
  cls : ∀ c, enc.cls = some c → ∃ k dec, enc.dec = some k ∧ d.getDeclaration k = some dec ∧
    ∃ s, (if t = .feature then dec.getSubclass c else dec.getClass c) = some s
  subset : ∀ c, enc.subset = some c → t = .feature ∧ ∃ k dec, enc.dec = some k ∧ d.getDeclaration k = some dec ∧ ∃ s, dec.getSubset c = some s
  proc : ∀ p, enc.proc = some p → d.ProcLive p
  typed : t.annotationtype.isSome = true → enc.dec = none → enc.proc = none
  kind : ∀ k dec a, enc.dec = some k → d.getDeclaration k = some dec → t.annotationtype = some a → dec.annotationtype = a
  declarable : ∀ k, enc.dec = some k → t.annotationtype.isSome = true ∨ t = .feature
  listed : ∀ k dec p, enc.dec = some k → enc.proc = some p → d.getDeclaration k = some dec → p ∈ dec.processors

/-- The attributes of a stored element: plain ones followed by references that resolve. -/
def RefsOk (d : Document) (e : ElementData) : Prop :=
  ∃ plain enc, e.attribs = plain ++ encRefs enc ∧ PlainAttribs plain ∧ RefLive d e.elementtype enc

theorem RefLive.mono {d d' : Document} (hd : DeclMono d d') (hl : LiveMono d d') {t : ElementType} {enc : Enc} (h : RefLive d t enc) :
    RefLive d' t enc := by
  refine ⟨?_, ?_, ?_, fun p hp => hl.procs p (h.proc p hp), h.typed, ?_, h.declarable, ?_⟩
  · intro k hk
    obtain ⟨dec, h1⟩ := h.dec k hk
    obtain ⟨dec', h2, _⟩ := hd k dec h1
    exact ⟨dec', h2⟩
  · intro c hc
    obtain ⟨k, dec, h1, h2, s, h3⟩ := h.cls c hc
    obtain ⟨dec', h4, h5⟩ := hd k dec h2
    refine ⟨k, dec', h1, h4, s, ?_⟩
    split
    · rename_i ht; rw [if_pos ht] at h3; exact h5.subclasses.get _ _ h3
    · rename_i ht; rw [if_neg ht] at h3; exact h5.classes.get _ _ h3
  · intro c hc
    obtain ⟨ht, k, dec, h1, h2, s, h3⟩ := h.subset c hc
    obtain ⟨dec', h4, h5⟩ := hd k dec h2
    exact ⟨ht, k, dec', h1, h4, s, h5.subsets.get _ _ h3⟩
  · intro k dec a h1 h2 h3
    obtain ⟨dec0, h5⟩ := h.dec k h1
    obtain ⟨dec', h6, h7⟩ := hd k dec0 h5
    rw [h2] at h6; cases h6
    exact h7.type.trans (h.kind k dec0 a h1 h5 h3)
  · intro k dec p h1 h2 h3
    obtain ⟨dec0, h5⟩ := h.dec k h1
    obtain ⟨dec', h6, h7⟩ := hd k dec0 h5
    rw [h3] at h6; cases h6
    exact h7.processors.mem (h.listed k dec0 p h1 h2 h5)

theorem RefsOk.mono {d d' : Document} (hd : DeclMono d d') (hl : LiveMono d d') {e : ElementData} (h : RefsOk d e) : RefsOk d' e := by
  obtain ⟨plain, enc, h1, h2, h3⟩ := h
  exact ⟨plain, enc, h1, h2, h3.mono hd hl⟩

theorem RefLive.layer {d : Document} {t : ElementType} {dk : Nat} {dec : Declaration} (h : d.getDeclaration dk = some dec)
    (ht : t.annotationtype.isSome = true) (hk : ∀ a, t.annotationtype = some a → dec.annotationtype = a) : RefLive d t { dec := some dk } := by
  refine ⟨?_, nofun, nofun, nofun, fun _ _ => rfl, ?_, fun _ _ => .inl ht, fun _ _ _ _ h => (by cases h)⟩
  · intro k2 h4
    rw [← Option.some.inj h4]
    exact ⟨dec, h⟩
  · intro k2 dec2 a h4 h5 h6
    have h4 : dk = k2 := Option.some.inj h4
    rw [← h4, h] at h5
    cases h5
    exact hk a h6

theorem RefLive.nothing (d : Document) (t : ElementType) : RefLive d t {} :=
  ⟨nofun, nofun, nofun, nofun, fun _ _ => rfl, fun _ _ _ h => (by cases h), fun _ h => (by cases h), fun _ _ _ h => (by cases h)⟩

theorem refLive_of_encOk {e : ElementData} {ctx : Option Nat} {enc : Enc} {d : Document} (h : EncOk e ctx enc d) : RefLive d e.elementtype enc := by
  have hcore := h.core
  have hlist : ∀ k dec p, enc.dec = some k → enc.proc = some p → d.getDeclaration k = some dec → p ∈ dec.processors := by
    intro k dec p h1 h2 h3
    obtain ⟨dec', h4, h5⟩ := h.listed k p h1 h2
    rw [h3] at h4; cases h4; exact h5
  unfold CoreOk at hcore
  split at hcore
  · rename_i t ht
    have hnf : e.elementtype ≠ .feature := by
      intro hf
      rw [hf] at ht; cases ht
    obtain ⟨⟨k, s, h1, h2, ⟨dec, h3, h4⟩, ⟨dec', h5, h6⟩⟩, h7⟩ := hcore
    rw [h3] at h5; cases h5
    refine ⟨?_, ?_, ?_, h.proc, (by intro ht hn; rw [h1] at hn; cases hn), ?_, fun _ _ => .inl (by rw [ht]; rfl), hlist⟩
    · intro j hj; rw [h1] at hj; cases hj; exact ⟨dec, h3⟩
    · intro c hc
      obtain ⟨n, _, hn⟩ := h6.1 c hc
      exact ⟨k, dec, h1, h3, n, by rw [if_neg hnf]; exact hn⟩
    · intro c hc; rw [h7] at hc; cases hc
    · intro j dec' a hj hdec' ha
      rw [h1] at hj; cases hj
      rw [h3] at hdec'; cases hdec'
      rw [ht] at ha; cases ha
      exact h4.1
  · rename_i hnone
    split at hcore
    · rename_i hf
      obtain ⟨pk, parent, t, _, _, _, ⟨k, s, h1, h2, ⟨dec, h3, h4⟩, ⟨dec', h5, h6⟩, ⟨dec'', h7, h8⟩⟩⟩ := hcore
      rw [h3] at h5 h7; cases h5; cases h7
      refine ⟨?_, ?_, ?_, h.proc, (by intro ht hn; rw [h1] at hn; cases hn), (by intro _ _ _ _ _ ha; rw [hnone] at ha; cases ha), fun _ _ => .inr hf, hlist⟩
      · intro j hj; rw [h1] at hj; cases hj; exact ⟨dec, h3⟩
      · intro c hc
        obtain ⟨n, _, hn⟩ := h6.1 c hc
        exact ⟨k, dec, h1, h3, n, by rw [if_pos hf]; exact hn⟩
      · intro c hc
        obtain ⟨n, _, hn⟩ := h8.1 c hc
        exact ⟨hf, k, dec, h1, h3, n, hn⟩
    · obtain ⟨h1, h2, h3⟩ := hcore
      refine ⟨?_, ?_, ?_, h.proc, (by intro ht; rw [hnone] at ht; cases ht), (by intro _ _ _ _ _ ha; rw [hnone] at ha; cases ha), (by intro j hj; rw [h1] at hj; cases hj), hlist⟩
      · intro j hj; rw [h1] at hj; cases hj
      · intro j hj; rw [h2] at hj; cases hj
      · intro j hj; rw [h3] at hj; cases hj

/-- What holds of every stored element. -/
structure ElemOk (d : Document) (k : Nat) (e : ElementData) : Prop where
  key : e.key = some k
  refs : RefsOk d e
  data : ∀ x ∈ e.data, DataLive d x
  parent : ∀ p, e.parent = some p → d.Live p

/-- What holds of every stored processor. -/
structure ProcOk (d : Document) (p : Processor) : Prop where
  children : ∀ c ∈ p.processors, d.ProcLive c
  parent : ∀ q, p.parent = some q → d.ProcLive q

/-- The invariant of documents made with clean arguments. -/
structure CInv (d : Document) : Prop where
  ix : IxOk d
  decls : DInv d
  procs : ProcsExact d
  proc : ∀ k p, d.getProcessor k = some p → ProcOk d p
  chain : ∀ k ∈ d.chain, d.ProcLive k
  elem : ∀ k e, d.getElement k = some e → ElemOk d k e

theorem DeclOk.mono {d d' : Document} (hl : LiveMono d d') {dec : Declaration} (h : DeclOk d dec) : DeclOk d' dec :=
  ⟨h.1, h.2, h.3, fun p hp => hl.procs p (h.4 p hp)⟩

/-- Clean transitions preserve the invariant of the declarations and only grow them. -/
theorem Prim.dinv {d d' : Document} (h : Prim True d d') (hi : DInv d) : DInv d' ∧ DeclMono d d' := by
  have hix : ∀ id p, d'.processors.index.find id = some p → d'.ProcLive p := by
    have : IxOk { d with elements := {} } := ⟨fun _ _ h => (by cases h), hi.procs⟩
    have hm := h.liveMono
    intro id p hp
    cases h with
    | admin he hd hpr hc ha => exact hm.procs p (hi.procs id p (by rw [← hpr]; exact hp))
    | addDeclaration dec _ => exact hi.procs id p hp
    | declare t s a f => exact hm.procs p (hi.procs id p (by rw [(declare_elements ..).2.1] at hp; exact hp))
    | addClass k c => exact hm.procs p (hi.procs id p (by rw [(OnlyDecls.addClass k c d).2] at hp; exact hp))
    | annotator k p _ => exact hi.procs id _ hp
    | addElem e ctx _ => exact hm.procs p (hi.procs id p (by rw [(addElem_elements e ctx d).1.processors] at hp; exact hp))
    | setParent | orphan | pushElem | pushText | pushSpan | unlink | layer | chain | activate => exact hi.procs id _ hp
    | addProc q _ => exact Store.sound_add cap16 d.processors q hi.procs id p hp
    | procParent | procPush => exact hm.procs p (hi.procs id p (by rw [Store.update_index] at hp; exact hp))
  have same : d'.declarations = d.declarations → d'.activeProcessor = d.activeProcessor → DInv d' ∧ DeclMono d d' := by
    intro h1 h2
    refine ⟨⟨?_, ?_, ?_, hix⟩, DeclMono.of_eq h1⟩
    · unfold DeclsExact; rw [h1]; exact hi.exact
    · intro k dec hd
      unfold getDeclaration at hd
      rw [h1] at hd
      exact (hi.ok k dec hd).mono h.liveMono
    · intro p hp
      rw [h2] at hp
      exact h.liveMono.procs p (hi.active p hp)
  cases h with
  | admin he hd hp hc ha => exact same hd ha
  | addDeclaration dec hb => exact ⟨hi.add (hb trivial), DeclMono.add d dec⟩
  | declare t s a f =>
    have := ddoes_declare t s a f d hi trivial
    exact ⟨this.1, this.2.1.decls⟩
  | addClass k c =>
    unfold Document.addClass
    simp only [M.run_bind]
    cases hk : d.getDeclaration k with
    | none =>
      have : callDeclaration k (fun x => x.addClass c) d = (.ok none, d) := by unfold callDeclaration; rw [hk]
      rw [this]; exact ⟨hi, .refl d⟩
    | some dec =>
      have : callDeclaration k (fun x => x.addClass c) d =
          (.ok (some (dec.addClass c).1), { d with declarations := d.declarations.update k fun _ => (dec.addClass c).2 }) := by
        unfold callDeclaration; rw [hk]
      rw [this]
      refine ⟨hi.update k _ ?_ ?_, DeclMono.update d k _ ?_⟩
      · intro a ha; rw [hk] at ha; cases ha; exact adder_class.grows c dec
      · intro a ha; rw [hk] at ha; cases ha; exact adder_class.ok c dec d (hi.ok k dec hk)
      · intro a ha; rw [hk] at ha; cases ha; exact adder_class.grows c dec
  | annotator k p hp =>
    have hg : ∀ a : Declaration, DeclGrows a { a with processors := a.processors ++ [p] } := fun a =>
      ⟨rfl, rfl, rfl, rfl, rfl, List.prefix_append _ _, .refl _, .refl _, .refl _⟩
    refine ⟨hi.update k _ (fun a _ => hg a) ?_, DeclMono.update d k _ fun a _ => hg a⟩
    intro a ha
    have hok := hi.ok k a ha
    refine ⟨hok.1, hok.2, hok.3, ?_⟩
    intro q hq
    simp only [List.mem_append, List.mem_singleton] at hq
    rcases hq with hq | rfl
    · exact hok.4 q hq
    · exact hp
  | addElem e ctx _ =>
    have henc := ddoes_encode e ctx d hi trivial
    have heq := addElem_eq e ctx d
    rcases hm : encode e ctx d with ⟨f | e', d1⟩
    · rw [hm] at heq henc; rw [heq]; exact ⟨henc.1, henc.2.1.decls⟩
    · rw [hm] at heq henc
      simp only at heq
      rw [heq]
      refine ⟨⟨henc.1.exact, fun k dec hk => (henc.1.ok k dec hk).congr (by rfl), henc.1.active, henc.1.procs⟩, ?_⟩
      exact henc.2.1.decls.trans (DeclMono.of_eq rfl)
  | setParent | orphan | pushElem | pushText | pushSpan | unlink | layer | addProc | chain | procParent | procPush => exact same rfl rfl
  | activate k hk =>
    refine ⟨⟨hi.exact, fun j dec hj => (hi.ok j dec hj).congr (by rfl), ?_, hi.procs⟩, DeclMono.of_eq rfl⟩
    rintro p ⟨⟩
    exact hk trivial

theorem ProcOk.mono {d d' : Document} (hl : LiveMono d d') {p : Processor} (h : ProcOk d p) : ProcOk d' p :=
  ⟨fun c hc => hl.procs c (h.1 c hc), fun q hq => hl.procs q (h.2 q hq)⟩

theorem DataLive.mono {d d' : Document} (hl : LiveMono d d') {x : Data} (h : DataLive d x) : DataLive d' x := Stable.dataLive x d d' hl h

theorem hasSet_of_refs {e : ElementData} {plain : List Attribute} {enc : Enc} (h : e.attribs = plain ++ encRefs enc)
    (hn : e.hasAttrib .SET = false) : enc.dec = none := by
  cases hd : enc.dec with
  | none => rfl
  | some k =>
    exfalso
    unfold ElementData.hasAttrib at hn
    rw [h, Option.isSome_eq_false_iff, Option.isNone_iff_eq_none, List.find?_eq_none] at hn
    exact hn (.declarationRef k) (by simp [encRefs, hd]) (by rfl)

/-- Clean transitions preserve the invariant. -/
theorem Prim.cinv {d d' : Document} (h : Prim True d d') (hi : CInv d) : CInv d' := by
  have hl := h.liveMono
  have hd := h.dinv hi.decls
  have hix := h.ixOk hi.ix
  have helem : ∀ k e, d'.getElement k = some e → ElemOk d' k e := by
    intro k e' he'
    rcases h.element_back he' with ⟨e, he, hc⟩ | ⟨hn, e0, ctx, e1, hclean, hd', henc, rfl⟩
    · have hok := hi.elem k e he
      refine ⟨hc.key.trans hok.key, ?_, ?_, ?_⟩
      · rcases hc.attribs with ha | ⟨hlayer, _, dk, ha, k1, e1, he1, hdk, hty⟩
        · obtain ⟨plain, enc, h1, h2, h3⟩ := hok.refs
          exact ⟨plain, enc, by rw [ha, h1], h2, by rw [hc.type]; exact h3.mono hd.2 hl⟩
        · obtain ⟨plain, enc, h1, h2, h3⟩ := (hi.elem k1 e1 he1).refs
          have hk := (keysU_of_refs h1 h2).1
          rw [hk] at hdk
          have hdk : enc.dec = some dk := by simpa using hdk
          obtain ⟨dec, hdec⟩ := h3.dec dk hdk
          obtain ⟨dec', hdec', _⟩ := hd.2 dk dec hdec
          refine ⟨[], { dec := some dk }, ha, (fun _ h => by cases h), .layer hdec' (by rw [hc.type]; exact (layer_typed _ hlayer).1) fun a h6 => ?_⟩
          rw [hc.type, ← hty] at h6
          exact (h3.mono hd.2 hl).kind dk dec' a hdk hdec' h6
      · intro x hx
        rcases hc.data x hx with hx | hx
        · exact (hok.data x hx).mono hl
        · exact hx.mono hl
      · intro p hp
        rcases hc.parent with h1 | h1 | ⟨q, h1, h2⟩
        · exact hl.elems p (hok.parent p (by rw [← h1]; exact hp))
        · rw [h1] at hp; cases hp
        · rw [h1] at hp; cases hp; exact hl.elems _ h2
    · obtain ⟨hca, hdata, hpar⟩ := hclean trivial
      have hres := encode_result e0 ctx d e1 henc
      refine ⟨rfl, ?_, ?_, ?_⟩
      · have hspec := ddoes_encode e0 ctx d hi.decls trivial
        have heq := addElem_eq e0 ctx d
        rcases hm : encode e0 ctx d with ⟨f | e2, d1⟩
        · rw [hm] at henc; cases henc
        · rw [hm] at henc heq hspec
          cases henc
          simp only at heq
          have hcong : DeclMono d1 d' ∧ LiveMono d1 d' := by
            rw [hd', heq]
            refine ⟨DeclMono.of_eq rfl, liveMono_of_elements _ rfl rfl fun k a hk => Store.type_add _ _ _ hk⟩
          rcases hspec.2.2 e1 rfl with ⟨hne, rfl⟩ | ⟨_, enc, rfl, hok⟩
          · refine ⟨e1.attribs, {}, by simp [encRefs], ?_, .nothing _ _⟩
            intro a ha
            refine ⟨?_, hca a ha⟩
            unfold ElementData.encodable at hne
            rw [List.any_eq_false] at hne
            simpa using hne a ha
          · refine ⟨e0.attribs.filter (!·.encodable), enc, encodedAttribs_eq _ _, ?_, (refLive_of_encOk hok).mono hcong.1 hcong.2⟩
            intro a ha
            rw [List.mem_filter] at ha
            exact ⟨by simpa using ha.2, hca a ha.1⟩
      · intro x hx
        exact (hdata x (by rw [← hres.2.1]; exact hx)).mono hl
      · intro p hp
        have : e1.parent = some p := hp
        rw [hres.2.2.2, hpar] at this; cases this
  have psame : d'.processors = d.processors → ProcsExact d' ∧ ∀ k p, d'.getProcessor k = some p → ProcOk d' p := by
    intro h1
    refine ⟨by unfold ProcsExact; rw [h1]; exact hi.procs, fun k p hp => ?_⟩
    unfold getProcessor at hp
    rw [h1] at hp
    exact (hi.proc k p hp).mono hl
  have pupd : ∀ (j : Nat) (f : Processor → Processor), d'.processors = d.processors.update j f →
      (∀ p, (f p).id = p.id ∧ (f p).key = p.key) → (∀ p, ProcOk d p → ProcOk d (f p)) →
      ProcsExact d' ∧ ∀ k p, d'.getProcessor k = some p → ProcOk d' p := by
    intro j f h1 hid hf
    refine ⟨?_, fun k p hp => ?_⟩
    · unfold ProcsExact; rw [h1]
      refine Store.Exact.update hi.procs j f (fun a _ => ?_) fun a _ => (hid a).2
      show some (f a).id = some a.id
      rw [(hid a).1]
    · unfold getProcessor at hp
      rw [h1, Store.get_update] at hp
      split at hp
      · rename_i hj; subst hj
        cases hq : d.processors.get k with
        | none => simp [hq] at hp
        | some q =>
          simp only [hq, Option.map_some, Option.some.injEq] at hp
          subst hp
          exact (hf q (hi.proc k q hq)).mono hl
      · exact (hi.proc k p hp).mono hl
  have chsame : d'.chain = d.chain → ∀ k ∈ d'.chain, d'.ProcLive k := fun h1 k hk => hl.procs k (hi.chain k (by rw [← h1]; exact hk))
  cases h with
  | admin he hd hp hc ha => exact ⟨hix, ‹_ ∧ _›.1, (psame hp).1, (psame hp).2, chsame hc, helem⟩
  | addDeclaration dec hb => exact ⟨hix, hd.1, (psame rfl).1, (psame rfl).2, chsame rfl, helem⟩
  | declare t s a f =>
    have hs := declare_elements t s a f d
    exact ⟨hix, hd.1, (psame hs.2.1).1, (psame hs.2.1).2, chsame hs.2.2.1, helem⟩
  | addClass k c =>
    have hs := OnlyDecls.addClass k c d
    exact ⟨hix, hd.1, (psame hs.2).1, (psame hs.2).2, chsame hs.3, helem⟩
  | annotator k p hp => exact ⟨hix, hd.1, (psame rfl).1, (psame rfl).2, chsame rfl, helem⟩
  | addElem e ctx _ =>
    have hs := (addElem_elements e ctx d).1
    exact ⟨hix, hd.1, (psame hs.processors).1, (psame hs.processors).2, chsame hs.chain, helem⟩
  | setParent | orphan | pushElem | pushText | pushSpan | unlink | layer | activate =>
    exact ⟨hix, hd.1, (psame rfl).1, (psame rfl).2, chsame rfl, helem⟩
  | addProc p hp =>
    obtain ⟨hp1, hp2⟩ := hp trivial
    refine ⟨hix, hd.1, Store.Exact.add hi.procs cap16 p (fun _ _ => rfl) (fun _ _ => rfl), ?_, chsame rfl, helem⟩
    intro k q hq
    have hq' : (d.processors.add cap16 p).2.get k = some q := hq
    rcases Store.add_spec cap16 d.processors p with ⟨_, _, _, _, heq⟩ | ⟨heq, _⟩ | ⟨_, _, s', heq, _, hg, _⟩
    · rw [heq] at hq'; exact (hi.proc k q hq').mono hl
    · rw [heq] at hq'; exact (hi.proc k q hq').mono hl
    · rw [heq] at hq'
      simp only [hg] at hq'
      split at hq'
      · cases hq'
        exact ⟨fun c hc => by simp [Storable.assignKey, hp1] at hc, fun q hq => by simp [Storable.assignKey, hp2] at hq⟩
      · exact (hi.proc k q hq').mono hl
  | chain k hk =>
    refine ⟨hix, hd.1, (psame rfl).1, (psame rfl).2, ?_, helem⟩
    intro j hj
    simp only [List.mem_append, List.mem_singleton] at hj
    rcases hj with hj | rfl
    · exact hi.chain j hj
    · exact hk
  | procParent c p hp =>
    have := pupd c _ rfl (fun _ => ⟨rfl, rfl⟩) fun q hq => ⟨hq.1, by rintro _ ⟨⟩; exact hp⟩
    exact ⟨hix, hd.1, this.1, this.2, chsame rfl, helem⟩
  | procPush p c hc =>
    have := pupd p _ rfl (fun _ => ⟨rfl, rfl⟩) fun q hq => ⟨fun x hx => by
      simp only [List.mem_append, List.mem_singleton] at hx
      rcases hx with hx | rfl
      · exact hq.1 x hx
      · exact hc, hq.2⟩
    exact ⟨hix, hd.1, this.1, this.2, chsame rfl, helem⟩

theorem cinv_empty : CInv {} where
  ix := ixOk_empty _ _
  decls := ⟨.empty, fun _ _ h => (by simp [getDeclaration, Store.get] at h), nofun, fun _ _ h => (by cases h)⟩
  procs := .empty
  proc := fun _ _ h => (by simp [getProcessor, Store.get] at h)
  chain := nofun
  elem := fun _ _ h => (by simp [getElement, Store.get] at h)

theorem CleanReachable.cinv {X : Ext} {F : Nat} {d : Document} (h : CleanReachable X F d) : CInv d := h.steps.inv Prim.cinv cinv_empty


/-! ### Histories -/

theorem Reachable.ixOk {X : Ext} {F : Nat} {d : Document} (h : Reachable X F d) : IxOk d := h.steps.ixOk (ixOk_empty _ _)

theorem runOps_steps {F : Nat} : ∀ (os : List Op) {d : Document}, IxOk d → Steps False d (runOps F os d)
  | [], d, _ => .refl d
  | o :: os, d, hi => by
    have h := op_steps (C := False) F o hi (fun h => h.elim)
    exact h.trans (runOps_steps os (h.ixOk hi))

theorem runOps_clean {F : Nat} : ∀ (os : List Op) {d : Document}, IxOk d → OpsClean F os d → Steps True d (runOps F os d)
  | [], d, _, _ => .refl d
  | o :: os, d, hi, hc => by
    have h := op_steps (C := True) F o hi (fun _ => hc.1)
    exact h.trans (runOps_clean os (h.ixOk hi) hc.2)

/-- Stored elements report their keys. -/
def KeysOk (d : Document) : Prop := ∀ k e, d.getElement k = some e → e.key = some k

theorem Prim.keysOk {C : Prop} {d d' : Document} (h : Prim C d d') (hi : KeysOk d) : KeysOk d' := by
  intro k e' he'
  rcases h.element_back he' with ⟨e, he, hc⟩ | ⟨_, _, _, _, _, _, _, rfl⟩
  · exact hc.key.trans (hi k e he)
  · rfl

/-- Stored elements have nothing left to encode. -/
def Encoded (d : Document) : Prop := ∀ k e, d.getElement k = some e → ∀ a ∈ e.attribs, a.encodable = false

theorem Prim.encoded {C : Prop} {d d' : Document} (h : Prim C d d') (hi : Encoded d) : Encoded d' := by
  intro k e' he' a ha
  rcases h.element_back he' with ⟨e, he, hc⟩ | ⟨_, e0, ctx, e1, _, _, henc, rfl⟩
  · rcases hc.attribs with h | ⟨_, _, dk, h, _⟩
    · rw [h] at ha; exact hi k e he a ha
    · rw [h, List.mem_singleton] at ha; subst ha; rfl
  · exact encode_plain henc a ha

theorem Reachable.keysOk {X : Ext} {F : Nat} {d : Document} (h : Reachable X F d) : KeysOk d :=
  h.steps.inv Prim.keysOk fun _ _ h => (by simp [getElement, Store.get] at h)

theorem Reachable.encoded {X : Ext} {F : Nat} {d : Document} (h : Reachable X F d) : Encoded d :=
  h.steps.inv Prim.encoded fun _ _ h => (by simp [getElement, Store.get] at h)

/-- The change of an element over a history. -/
structure ElemLater (e e' : ElementData) : Prop where
  type : e'.elementtype = e.elementtype
  key : e'.key = e.key
  attribs : e'.attribs = e.attribs ∨ (ElementGroup.layer.contains e.elementtype = true ∧ e.hasAttrib .SET = false ∧
    ∃ dk, e'.attribs = [.declarationRef dk])

theorem ElemLater.trans {a b c : ElementData} (h : ElemLater a b) (h' : ElemLater b c) : ElemLater a c := by
  refine ⟨h'.type.trans h.type, h'.key.trans h.key, ?_⟩
  rcases h'.attribs with h2 | ⟨hl, hn, dk, h2⟩
  · rw [h2]; exact h.attribs
  · rcases h.attribs with h1 | ⟨_, _, dk', h1⟩
    · right
      rw [h.type] at hl
      refine ⟨hl, ?_, dk, h2⟩
      unfold ElementData.hasAttrib at hn ⊢
      rw [← h1]; exact hn
    · unfold ElementData.hasAttrib at hn
      rw [h1] at hn; cases hn

theorem Steps.element_forward {C : Prop} {d d' : Document} (h : Steps C d d') :
    ∀ k e, d.getElement k = some e → ∃ e', d'.getElement k = some e' ∧ ElemLater e e' := by
  refine Steps.lift (R := fun d d' => ∀ k e, d.getElement k = some e → ∃ e', d'.getElement k = some e' ∧ ElemLater e e') ?_ ?_ ?_ h
  · exact fun d k e he => ⟨e, he, rfl, rfl, Or.inl rfl⟩
  · intro a b c h1 h2 k e he
    obtain ⟨e1, he1, hl1⟩ := h1 k e he
    obtain ⟨e2, he2, hl2⟩ := h2 k e1 he1
    exact ⟨e2, he2, hl1.trans hl2⟩
  · intro a b hp k e he
    obtain ⟨e', he', hc⟩ := hp.element_forward he
    refine ⟨e', he', hc.type, hc.key, ?_⟩
    rcases hc.attribs with h | ⟨h1, h2, dk, h3, _⟩
    · exact Or.inl h
    · exact Or.inr ⟨h1, h2, dk, h3⟩

/-- Number of element slots. -/
theorem Prim.len_mono {C : Prop} {d d' : Document} (h : Prim C d d') : d.elements.len ≤ d'.elements.len := by
  have same : d'.elements = d.elements → d.elements.len ≤ d'.elements.len := fun h => by rw [h]; exact Nat.le_refl _
  have upd : ∀ j f, d'.elements = d.elements.update j f → d.elements.len ≤ d'.elements.len := fun j f h => by
    rw [h]; unfold Store.len; rw [Store.update_length]; exact Nat.le_refl _
  cases h with
  | admin he _ _ _ _ => exact same he
  | addDeclaration dec _ => exact same rfl
  | declare t s a f => exact same (declare_elements ..).1
  | addClass k c => exact same (OnlyDecls.addClass k c d).elements
  | annotator k p _ => exact same rfl
  | addElem e0 ctx hc =>
    obtain ⟨_, h⟩ := addElem_elements e0 ctx d
    rcases h with ⟨f, _, he⟩ | ⟨e1, _, _, _, _, he, henc⟩
    · exact same he
    · rw [he]
      unfold Store.len
      rcases Store.add_spec cap32 d.elements e1 with ⟨_, _, _, _, heq⟩ | ⟨heq, _⟩ | ⟨_, _, s', heq, hlen, _, _⟩
      · rw [heq]; exact Nat.le_refl _
      · rw [heq]; exact Nat.le_refl _
      · rw [heq]
        show _ ≤ s'.items.length
        rw [hlen]; simp
  | setParent | orphan | pushElem | pushText | pushSpan | unlink | layer => exact upd _ _ rfl
  | addProc | chain | activate | procParent | procPush => exact same rfl

theorem Steps.len_mono {C : Prop} {d d' : Document} (h : Steps C d d') : d.elements.len ≤ d'.elements.len :=
  Steps.lift (R := fun d d' => d.elements.len ≤ d'.elements.len) (fun _ => Nat.le_refl _) Nat.le_trans Prim.len_mono h

/-- Every slot of the element store is filled. -/
def Filled (d : Document) : Prop := ∀ k, k < d.elements.len → d.Live k

theorem Prim.filled {C : Prop} {d d' : Document} (h : Prim C d d') (hi : Filled d) : Filled d' := by
  have hm := h.liveMono
  have same : d'.elements.len = d.elements.len → Filled d' := fun h k hk => hm.elems k (hi k (by omega))
  have upd : ∀ j f, d'.elements = d.elements.update j f → Filled d' := fun j f h => same (by
    rw [h]; unfold Store.len; rw [Store.update_length])
  cases h with
  | admin he _ _ _ _ => exact same (by rw [he])
  | addDeclaration dec _ => exact same rfl
  | declare t s a f => exact same (by rw [(declare_elements ..).1])
  | addClass k c => exact same (by rw [(OnlyDecls.addClass k c d).elements])
  | annotator k p _ => exact same rfl
  | addElem e0 ctx hc =>
    obtain ⟨_, h⟩ := addElem_elements e0 ctx d
    rcases h with ⟨f, _, he⟩ | ⟨e1, _, _, _, _, he, henc⟩
    · exact same (by rw [he])
    · rcases Store.add_spec cap32 d.elements e1 with ⟨_, _, _, _, heq⟩ | ⟨heq, _⟩ | ⟨_, _, s', heq, hlen, hg, _⟩
      · exact same (by rw [he, heq])
      · exact same (by rw [he, heq])
      · intro k hk
        rw [he, heq] at hk
        unfold Store.len at hk
        rw [hlen, List.length_append, List.length_singleton] at hk
        by_cases hk' : k = d.elements.items.length
        · unfold Document.Live getElement
          rw [he, heq]
          exact ⟨_, by rw [hg, if_pos hk']⟩
        · exact hm.elems k (hi k (by unfold Store.len; omega))
  | setParent | orphan | pushElem | pushText | pushSpan | unlink | layer => exact upd _ _ rfl
  | addProc | chain | activate | procParent | procPush => exact same rfl

theorem Reachable.filled {X : Ext} {F : Nat} {d : Document} (h : Reachable X F d) : Filled d :=
  h.steps.inv Prim.filled fun _ h => (by simp [Store.len] at h)

/-- Processors keep everything but their relations. -/
def ProcMono (d d' : Document) : Prop := ∀ k p, d.getProcessor k = some p →
  ∃ p', d'.getProcessor k = some p' ∧ p' = { p with processors := p'.processors, parent := p'.parent }

theorem ProcMono.trans {a b c : Document} (h : ProcMono a b) (h' : ProcMono b c) : ProcMono a c := by
  intro k p hp
  obtain ⟨p1, h1, h2⟩ := h k p hp
  obtain ⟨p2, h3, h4⟩ := h' k p1 h1
  refine ⟨p2, h3, ?_⟩
  rw [h4]; rw [h2]

theorem Prim.procMono {C : Prop} {d d' : Document} (h : Prim C d d') : ProcMono d d' := by
  have same : d'.processors = d.processors → ProcMono d d' := fun h k p hp => ⟨p, by unfold getProcessor; rw [h]; exact hp, rfl⟩
  have upd : ∀ j f, d'.processors = d.processors.update j f → (∀ p, f p = { p with processors := (f p).processors, parent := (f p).parent }) →
      ProcMono d d' := fun j f h hf k p hp => by
    unfold getProcessor at hp ⊢
    rw [h, Store.get_update]
    split
    · refine ⟨f p, by simp [hp], hf p⟩
    · exact ⟨p, hp, rfl⟩
  cases h with
  | admin he _ hp _ _ => exact same hp
  | addDeclaration dec _ => exact same rfl
  | declare t s a f => exact same (declare_elements ..).2.1
  | addClass k c => exact same (OnlyDecls.addClass k c d).processors
  | annotator k p _ => exact same rfl
  | addElem e0 ctx hc => exact same (addElem_elements e0 ctx d).1.processors
  | setParent | orphan | pushElem | pushText | pushSpan | unlink | layer | chain | activate => exact same rfl
  | addProc q _ =>
    intro k p hp
    have := Store.get_lt hp
    unfold getProcessor at hp ⊢
    show ∃ p', (d.processors.add cap16 q).2.get k = some p' ∧ _
    rcases Store.add_spec cap16 d.processors q with ⟨_, _, _, _, heq⟩ | ⟨heq, _⟩ | ⟨_, _, s', heq, _, hg, _⟩
    · rw [heq]; exact ⟨p, hp, rfl⟩
    · rw [heq]; exact ⟨p, hp, rfl⟩
    · rw [heq]; exact ⟨p, by rw [hg, if_neg (by omega)]; exact hp, rfl⟩
  | procParent c p hp => exact upd c _ rfl fun q => rfl
  | procPush p c hc => exact upd p _ rfl fun q => rfl

theorem Steps.procMono {C : Prop} {d d' : Document} (h : Steps C d d') : ProcMono d d' :=
  Steps.lift (R := ProcMono) (fun _ _ p hp => ⟨p, hp, rfl⟩) ProcMono.trans Prim.procMono h

theorem Steps.clean {d d' : Document} (h : Steps True d d') (hi : CInv d) : CInv d' ∧ DeclMono d d' := by
  induction h with
  | refl => exact ⟨hi, .refl _⟩
  | tail _ hp ih => exact ⟨hp.cinv ih.1, ih.2.trans (hp.dinv ih.1.decls).2⟩

/-! ### The values that accessors report -/

/-- The values reported for an element with the given references. -/
theorem values_of_refs {d : Document} {e : ElementData} {plain : List Attribute} {enc : Enc} (h : e.attribs = plain ++ encRefs enc)
    (hp : PlainAttribs plain) :
    e.getDeclaration d = .ok (enc.dec.bind d.getDeclaration) ∧
    e.getProcessor d = .ok (enc.proc.bind d.getProcessor) ∧
    e.getSet d = .ok ((enc.dec.bind d.getDeclaration).bind (·.set)) ∧
    e.getSubset d = .ok ((enc.dec.bind d.getDeclaration).bind fun dec => enc.subset.bind dec.getSubset) ∧
    e.getClass d = .ok (enc.cls.bind fun c => (enc.dec.bind d.getDeclaration).bind fun dec =>
      if enc.subset.isSome then dec.getSubclass c else dec.getClass c) ∧
    e.getProcessorId d = .ok ((enc.proc.bind d.getProcessor).map (·.id)) := by
  obtain ⟨h1, h2, h3, h4⟩ := keysU_of_refs h hp
  have hd : e.getDeclaration d = .ok (enc.dec.bind d.getDeclaration) := by
    unfold ElementData.getDeclaration
    rw [h1]
    cases enc.dec <;> rfl
  have hpr : e.getProcessor d = .ok (enc.proc.bind d.getProcessor) := by
    unfold ElementData.getProcessor
    rw [h3]
    cases enc.proc <;> rfl
  refine ⟨hd, hpr, ?_, ?_, ?_, ?_⟩
  · unfold ElementData.getSet
    rw [hd]
    cases enc.dec.bind d.getDeclaration <;> rfl
  · unfold ElementData.getSubset
    rw [hd, h4]
    cases enc.dec.bind d.getDeclaration with
    | none => rfl
    | some dec => cases enc.subset <;> rfl
  · unfold ElementData.getClass
    rw [h2, hd, h4]
    cases enc.cls with
    | none => rfl
    | some c =>
      cases enc.dec.bind d.getDeclaration with
      | none => rfl
      | some dec => cases enc.subset <;> rfl
  · unfold ElementData.getProcessorId
    rw [hpr]
    cases enc.proc.bind d.getProcessor <;> rfl

end Folia
