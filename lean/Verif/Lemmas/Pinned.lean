import Verif.Source
import Verif.Lemmas.Build
/-! Elements that only ask for what is declared already: adding them leaves the declarations as they are, apart from classes. -/
namespace Folia
open Document

/-- Annotation type, set and processors of a declaration. -/
def shapeOf (d : Document) (k : Nat) : Option (AnnotationType × Option String × List Nat) :=
  (d.getDeclaration k).map fun dec => (dec.annotationtype, dec.set, dec.processors)

theorem shapeOf_some {d : Document} {k : Nat} {t : AnnotationType} {s : Option String} {ps : List Nat} (h : shapeOf d k = some (t, s, ps)) :
    ∃ dec, d.getDeclaration k = some dec ∧ dec.annotationtype = t ∧ dec.set = s ∧ dec.processors = ps := by
  unfold shapeOf at h
  cases hd : d.getDeclaration k with
  | none => rw [hd] at h; cases h
  | some dec => rw [hd] at h; cases h; exact ⟨dec, rfl, rfl, rfl, rfl⟩

theorem shapeOf_decls {d d' : Document} (h : d'.declarations = d.declarations) (k : Nat) : shapeOf d' k = shapeOf d k := by
  unfold shapeOf getDeclaration; rw [h]

/-- An annotation under a declaration with a single processor has that processor. -/
def Credited (b : Document) (x : ElementData) : Prop := ∀ j t s p, x.declarationKeyU = .ok (some j) → x.elementtype.annotationtype.isSome = true →
  ElementGroup.layer.contains x.elementtype = false → shapeOf b j = some (t, s, [p]) → x.processorKeyU = .ok (some p)

/-- The document has the declarations and processors of `b`. -/
structure Pinned (b d : Document) : Prop where
  shape : ∀ k, shapeOf d k = shapeOf b k
  procs : d.processors = b.processors
  active : d.activeProcessor = none
  credit : ∀ k x, d.getElement k = some x → Credited b x

/-- There is a declaration for the annotation type and set, with the processor. -/
def Served (b : Document) (t : AnnotationType) (s : Option String) (pid : Res (Option String)) : Prop :=
  ∃ j s' procs, shapeOf b j = some (t, s', procs) ∧ (s' = s ∨ (s = none ∧ ∀ i x, shapeOf b i = some x → x.1 = t → i = j)) ∧
    ∀ id p, pid = .ok (some id) → b.processorKeyById id = some p → p ∈ procs

/-- Everything the builder `e` asks for, below an element of type `c`, is declared. -/
structure Asks (b : Document) (c : Option ElementType) (e : ElementData) : Prop where
  typed : ∀ t s, e.encodable = true → e.elementtype.annotationtype = some t → e.set = .ok s → Served b t s e.processor
  feature : ∀ t s c', e.encodable = true → e.elementtype = .feature → c = some c' → c'.annotationtype = some t → e.set = .ok s → Served b t s e.processor

mutual
/-- Everything that a builder asks for, at any depth, is declared. -/
def AsksTree (b : Document) (c : ElementType) : ElementData → Prop
  | ⟨t, as, data, k, p⟩ => Asks b (some c) ⟨t, as, data, k, p⟩ ∧ AsksItems b t data
/-- See `AsksTree`. -/
def AsksItems (b : Document) (c : ElementType) : List Data → Prop
  | [] => True
  | .addElement e :: rest => AsksTree b c e ∧ AsksItems b c rest
  | .text _ :: rest => AsksItems b c rest
  | .comment _ :: rest => AsksItems b c rest
  | .element _ :: rest => AsksItems b c rest
  | .spanReference _ :: rest => AsksItems b c rest
end

theorem asksItems_append {b : Document} {c : ElementType} : ∀ {xs ys : List Data}, AsksItems b c (xs ++ ys) ↔ AsksItems b c xs ∧ AsksItems b c ys
  | [], ys => by simp [AsksItems]
  | x :: xs, ys => by
    cases x <;> simp only [List.cons_append, AsksItems, asksItems_append (xs := xs)]
    rw [and_assoc]

/-- Declaring what is declared already changes nothing. -/
theorem declare_served {b d : Document} (hx : DeclsExact d) (hs : ∀ k, shapeOf d k = shapeOf b k) (ha : d.activeProcessor = none) {t : AnnotationType}
    {s s' : Option String} {j : Nat} {procs : List Nat} (hj : shapeOf b j = some (t, s', procs))
    (hu : s' = s ∨ (s = none ∧ ∀ i x, shapeOf b i = some x → x.1 = t → i = j)) (al f : Option String) : declare t s al f d = (.ok j, d) := by
  obtain ⟨dec, h1, h2, h3, h4⟩ := shapeOf_some ((hs j).trans hj)
  have hshape : ∀ i dec', d.getDeclaration i = some dec' → shapeOf b i = some (dec'.annotationtype, dec'.set, dec'.processors) := by
    intro i dec' hi
    rw [← hs i]; unfold shapeOf; rw [hi]; rfl
  have huniq : ∀ i dec', d.getDeclaration i = some dec' → dec'.annotationtype = t → (s = none ∧ ∀ i x, shapeOf b i = some x → x.1 = t → i = j) → i = j :=
    fun i dec' hi ht hn => hn.2 i _ (hshape i dec' hi) ht
  rcases declare_cases d t s al f with ⟨k, hk, heq⟩ | ⟨hnone, hrest⟩
  · obtain ⟨dec', h5, h6, h7⟩ := (declarationKeyById_iff hx t s k).mp hk
    rw [heq]
    have : k = j := by
      rcases hu with rfl | hu
      · have := (declarationKeyById_iff hx t s' j).mpr ⟨dec, h1, h2, h3⟩
        rw [hk] at this; exact Option.some.inj this
      · exact huniq k dec' h5 h6 hu
    rw [this]
  · rcases hu with rfl | hu
    · have := (declarationKeyById_iff hx t s' j).mpr ⟨dec, h1, h2, h3⟩
      rw [hnone] at this; cases this
    · have honly : OnlyDeclaration d.declarations.items t j :=
        ⟨⟨dec, Store.get_eq_some.mp h1, h2⟩, fun i dec' h5 h6 => huniq i dec' (Store.get_eq_some.mpr h5) h6 hu⟩
      rcases hrest with ⟨k, hk, heq⟩ | ⟨hk, _⟩
      · obtain ⟨⟨⟨dec', h5, h6⟩, _⟩, _⟩ := declareDefault_some hk
        have : k = j := huniq k dec' (Store.get_eq_some.mpr h5) h6 hu
        rw [heq, this]
        unfold linkActive
        rw [ha]
      · rw [hu.1] at hk
        exact absurd honly (declareDefault_none_set hk j)

/-- Same shapes, processors and elements. -/
structure SameShape (d d' : Document) : Prop where
  shape : ∀ k, shapeOf d' k = shapeOf d k
  same : SameButDecls d d'

theorem SameShape.refl (d : Document) : SameShape d d := ⟨fun _ => rfl, .refl d⟩
theorem SameShape.trans {a b c : Document} (h : SameShape a b) (h' : SameShape b c) : SameShape a c :=
  ⟨fun k => (h'.shape k).trans (h.shape k), h.same.trans h'.same⟩

theorem sameShape_update (d : Document) (k : Nat) (f : Declaration → Declaration)
    (hf : ∀ a, d.getDeclaration k = some a → (f a).annotationtype = a.annotationtype ∧ (f a).set = a.set ∧ (f a).processors = a.processors) :
    SameShape d { d with declarations := d.declarations.update k f } := by
  refine ⟨fun j => ?_, rfl, rfl, rfl, rfl⟩
  unfold shapeOf getDeclaration
  simp only [Store.get_update]
  split
  · rename_i hj; subst hj
    cases hd : d.declarations.get j with
    | none => rfl
    | some a =>
      obtain ⟨h1, h2, h3⟩ := hf a hd
      simp [h1, h2, h3]
  · rfl

theorem addName_shape (k : Nat) (name : Res (Option String)) {f : String → Declaration → Res Nat × Declaration}
    (hf : ∀ s a, (f s a).2.annotationtype = a.annotationtype ∧ (f s a).2.set = a.set ∧ (f s a).2.processors = a.processors) (d : Document) :
    SameShape d (addName k name f d).2 := by
  unfold addName
  split
  · rename_i c
    rw [M.run_bind]
    have : SameShape d (callDeclaration k (f c) d).2 := by
      unfold callDeclaration
      split
      · rename_i a ha
        refine sameShape_update d k _ fun a' ha' => ?_
        rw [ha] at ha'; cases ha'; exact hf c a
      · exact .refl d
    rcases hc : callDeclaration k (f c) d with ⟨e | r, d'⟩
    · rw [hc] at this; exact this
    · rw [hc] at this
      simp only
      split <;> exact this
  · exact .refl d

/-- What the references computed for an element look like if all it asks for is declared. -/
theorem encode_pinned {b d d' : Document} {e e' : ElementData} {ctx : Option Nat} {ct : Option ElementType} (hi : CInv d) (hp : Pinned b d)
    (hcl : CleanAttribs e.attribs) (hct : ∀ pk pe, ctx = some pk → d.getElement pk = some pe → ct = some pe.elementtype) (ha : Asks b ct e)
    (h : encode e ctx d = (.ok e', d')) : SameShape d d' ∧ Credited b e' := by
  unfold encode at h
  split at h
  · rename_i hen
    obtain ⟨enc, d1, h1, h⟩ := bind_ok h
    obtain ⟨_, d2, h2, h⟩ := bind_ok h
    cases h2
    obtain ⟨_, d3, h3, h⟩ := bind_ok h
    cases h
    -- what the core does
    have hcore : SameShape d d1 ∧ ∀ j, enc.dec = some j → ∃ t s procs, shapeOf b j = some (t, s, procs) ∧
        (∀ id p, e.processor = .ok (some id) → b.processorKeyById id = some p → p ∈ procs) ∧
        enc.test = false ∧ (e.elementtype.annotationtype.isSome = true → ∀ p, procs = [p] → enc.proc = some p) := by
      unfold encodeCore at h1
      cases hat : e.elementtype.annotationtype with
      | some t =>
        rw [hat] at h1
        simp only at h1
        unfold encodeTyped at h1
        obtain ⟨s, dd, g1, c1⟩ := bind_ok h1
        have hset : e.set = .ok s ∧ dd = d := by
          unfold M.ofRes at g1
          simp only [Prod.mk.injEq] at g1
          exact ⟨unwrapRes_ok g1.1, g1.2.symm⟩
        obtain ⟨hset, rfl⟩ := hset
        obtain ⟨j, s', procs, q1, q2, q3⟩ := ha.typed t s hen hat hset
        obtain ⟨k, da, g2, c2⟩ := bind_ok c1
        rw [declare_served hi.decls.exact hp.shape hp.active q1 q2] at g2
        cases g2
        obtain ⟨ck, db, g3, c3⟩ := bind_ok c2
        have hsh := addName_shape j e.cls (f := fun c decl => decl.addClass c) (fun _ _ => ⟨rfl, rfl, rfl⟩) dd
        rw [g3] at hsh
        obtain ⟨r, dc, g4, c4⟩ := bind_ok c3
        obtain ⟨dec, w1, w2, w3, w4⟩ := shapeOf_some ((hsh.shape j).trans ((hp.shape j).trans q1))
        have hr : r = (dec.defaultProcessor, false) ∧ dc = db := by
          unfold encodeProc at g4
          simp only [M.run_bind, M.run_get, w1] at g4
          have hact : db.activeProcessor = none := by rw [hsh.same.active, hp.active]
          rw [hact] at g4
          cases hdp : dec.defaultProcessor with
          | some p => rw [hdp] at g4; cases g4; exact ⟨rfl, rfl⟩
          | none => rw [hdp] at g4; cases g4; exact ⟨rfl, rfl⟩
        obtain ⟨rfl, rfl⟩ := hr
        cases c4
        refine ⟨hsh, fun j' hj' => ?_⟩
        cases hj'
        refine ⟨t, s', procs, q1, q3, rfl, fun _ p hpp => ?_⟩
        show dec.defaultProcessor = some p
        unfold Declaration.defaultProcessor
        rw [w4, hpp]
      | none =>
        rw [hat] at h1
        simp only at h1
        split at h1
        · rename_i hf
          unfold encodeFeature at h1
          cases ctx with
          | none => cases h1
          | some pk =>
            simp only at h1
            obtain ⟨parent, dd, g0, c5⟩ := bind_ok h1
            have hpar : d.getElement pk = some parent ∧ dd = d := by
              unfold M.ofRes at g0
              simp only [Prod.mk.injEq] at g0
              refine ⟨?_, g0.2.symm⟩
              have := g0.1
              unfold okOr at this
              split at this
              · rename_i a ha; cases this; exact ha
              · cases this
            obtain ⟨hpar, rfl⟩ := hpar
            obtain ⟨t, d5, g5, c6⟩ := bind_ok c5
            have ht : parent.elementtype.annotationtype = some t ∧ d5 = dd := by
              unfold M.ofRes at g5
              simp only [Prod.mk.injEq] at g5
              refine ⟨?_, g5.2.symm⟩
              have := g5.1
              unfold expect at this
              split at this
              · rename_i t' ht'; cases this; exact ht'
              · cases this
            obtain ⟨ht, rfl⟩ := ht
            obtain ⟨s, d6, g1, c7⟩ := bind_ok c6
            have hset : e.set = .ok s ∧ d6 = d5 := by
              unfold M.ofRes at g1
              simp only [Prod.mk.injEq] at g1
              exact ⟨unwrapRes_ok g1.1, g1.2.symm⟩
            obtain ⟨hset, rfl⟩ := hset
            obtain ⟨j, s', procs, q1, q2, q3⟩ := ha.feature t s _ hen hf (hct pk parent rfl hpar) ht hset
            obtain ⟨k, da, g2, c8⟩ := bind_ok c7
            rw [declare_served hi.decls.exact hp.shape hp.active q1 q2] at g2
            cases g2
            obtain ⟨ck, db, g3, c9⟩ := bind_ok c8
            have hsh := addName_shape j e.cls (f := fun c decl => decl.addSubclass c) (fun _ _ => ⟨rfl, rfl, rfl⟩) d6
            rw [g3] at hsh
            obtain ⟨sk, dc, g4, c10⟩ := bind_ok c9
            have hsh2 := addName_shape j e.subset (f := fun c decl => decl.addSubset c) (fun _ _ => ⟨rfl, rfl, rfl⟩) db
            rw [g4] at hsh2
            cases c10
            refine ⟨hsh.trans hsh2, fun j' hj' => ?_⟩
            cases hj'
            exact ⟨t, s', procs, q1, q3, rfl, by simp⟩
        · cases h1
          exact ⟨.refl _, nofun⟩
    obtain ⟨hsh, hdec⟩ := hcore
    have hkey : ∀ id, d1.processorKeyById id = b.processorKeyById id := by
      intro id
      unfold processorKeyById
      rw [hsh.same.processors, hp.procs]
    have hf := encodeExplicit_fields d1 e enc
    -- the processor, if the declaration has a single one
    have hproc : ∀ j t s p, enc.dec = some j → e.elementtype.annotationtype.isSome = true → shapeOf b j = some (t, s, [p]) →
        (encodeExplicit d1 e enc).proc = some p := by
      intro j t s p hj hty hs
      obtain ⟨t', s', procs, q1, q2, q3, q4⟩ := hdec j hj
      rw [hs] at q1; cases q1
      unfold encodeExplicit
      split
      · rename_i id hid
        rw [hkey]
        cases hk : b.processorKeyById id with
        | none => exact q4 hty p rfl
        | some q =>
          have := q2 id q hid hk
          rw [List.mem_singleton] at this
          rw [this]
      · exact q4 hty p rfl
    have hlink : SameShape d1 d' := by
      rcases encodeLink_cases (encodeExplicit d1 e enc) d1 with ⟨_, heq⟩ | ⟨j, p, hj, hpp, htest, heq⟩
      · rw [heq] at h3; cases h3; exact .refl _
      · rw [heq] at h3; cases h3
        rw [hf.1] at hj
        obtain ⟨t, s, procs, q1, q2, q3, q4⟩ := hdec j hj
        refine sameShape_update d1 j _ fun a ha' => ?_
        have hmem : p ∈ a.processors := by
          have hq : a.processors = procs := by
            obtain ⟨dec, w1, _, _, w4⟩ := shapeOf_some ((hsh.shape j).trans ((hp.shape j).trans q1))
            rw [ha'] at w1; cases w1; exact w4
          rw [hq]
          unfold encodeExplicit at hpp htest
          split at hpp
          · rename_i id hid
            rw [hid] at htest
            simp only at htest
            cases hk : d1.processorKeyById id with
            | none => rw [hk] at htest; simp only at htest; rw [q3] at htest; cases htest
            | some q =>
              rw [hk] at hpp
              cases hpp
              exact q2 id _ hid (by rw [← hkey]; exact hk)
          · rename_i hno
            split at htest
            · rename_i id hid; exact absurd hid (hno id)
            · rw [q3] at htest; cases htest
        unfold linkProcessor
        rw [if_pos (by simpa using hmem)]
        exact ⟨rfl, rfl, rfl⟩
    refine ⟨hsh.trans hlink, ?_⟩
    have hpl : PlainAttribs (e.attribs.filter (!·.encodable)) := by
      intro a ha'
      rw [List.mem_filter] at ha'
      exact ⟨by simpa using ha'.2, hcl a ha'.1⟩
    obtain ⟨u1, _, u3, _⟩ := keysU_of_refs (e := { e with attribs := encodedAttribs e.attribs (encodeExplicit d1 e enc) }) (encodedAttribs_eq _ _) hpl
    intro j t s p hj hty hl hs
    rw [u1, hf.1] at hj
    rw [u3]
    rw [hproc j t s p (by injection hj) hty hs]
  · rename_i hen
    cases h
    have hpl : PlainAttribs e.attribs := by
      intro a ha'
      refine ⟨?_, hcl a ha'⟩
      unfold ElementData.encodable at hen
      rw [Bool.not_eq_true, List.any_eq_false] at hen
      simpa using hen a ha'
    obtain ⟨u1, _, _, _⟩ := keysU_of_refs (e := e) (plain := e.attribs) (enc := {}) (by simp [encRefs]) hpl
    refine ⟨.refl _, fun j t s p hj _ _ _ => ?_⟩
    rw [u1] at hj; cases hj

theorem addElem_pinned {b d d' : Document} {e : ElementData} {ctx : Option Nat} {ct : Option ElementType} {k : Nat} (hi : CInv d) (hp : Pinned b d)
    (hcl : CleanAttribs e.attribs) (hct : ∀ pk pe, ctx = some pk → d.getElement pk = some pe → ct = some pe.elementtype) (ha : Asks b ct e)
    (hfresh : d.FreshIds e.id.toList) (h : addElem e ctx d = (.ok k, d')) : Pinned b d' := by
  obtain ⟨_, hpr, _, _, e', henc, hget⟩ := addElem_fresh (fun id hid => hfresh.2 id (by simp [hid])) h
  obtain ⟨hs, hc⟩ := encode_pinned hi hp hcl hct ha henc
  refine ⟨fun j => ?_, hpr.trans hp.procs, ?_, ?_⟩
  · rw [← hp.shape j, ← hs.shape j]
    exact shapeOf_decls (by rfl) j
  · have := hs.same.active
    exact this.trans hp.active
  · intro j x hx
    rw [hget] at hx
    split at hx
    · cases hx; exact hc
    · exact hp.credit j x hx

/-- Changes of elements that keep types and attributes, apart from layers. -/
theorem Pinned.elements {b d d' : Document} (hp : Pinned b d) (hd : d'.declarations = d.declarations) (hpr : d'.processors = d.processors)
    (hac : d'.activeProcessor = d.activeProcessor)
    (he : ∀ j x', d'.getElement j = some x' → ∃ x, d.getElement j = some x ∧ x'.elementtype = x.elementtype ∧
      (x'.attribs = x.attribs ∨ ElementGroup.layer.contains x.elementtype = true)) : Pinned b d' := by
  refine ⟨fun k => (shapeOf_decls hd k).trans (hp.shape k), hpr.trans hp.procs, hac.trans hp.active, fun j x' hx' => ?_⟩
  obtain ⟨x, h1, h2, h3⟩ := he j x' hx'
  intro i t s p hi hty hl hs
  rw [h2] at hty hl
  rcases h3 with h3 | h3
  · have := hp.credit j x h1 i t s p (by
      unfold ElementData.declarationKeyU ElementData.declarationKey at hi ⊢; rw [← h3]; exact hi) hty hl hs
    unfold ElementData.processorKeyU ElementData.processorKey at this ⊢
    rw [h3]; exact this
  · rw [h3] at hl; cases hl

end Folia
