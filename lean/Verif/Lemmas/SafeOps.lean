import Verif.Lemmas.Safe
/-! The mutating methods do not panic, except for features below elements without an annotation type. -/
namespace Folia
open Document

theorem NoPanic.store {α : Type} [Storable α] (cap : Nat) (s : Store α) (a : α) : NoPanic (s.add cap a).1 := by
  unfold Store.add
  split
  · exact .ok _
  · split
    · exact .ok _
    · exact .err _

theorem never_addDeclaration (dec : Declaration) : Never (addDeclaration dec) := fun _ => NoPanic.store _ _ _
theorem never_addProvenance (p : Processor) : Never (addProvenance p) := fun _ => NoPanic.store _ _ _

theorem never_callDeclaration {α : Type} (k : Nat) (f : Declaration → Res α × Declaration) : Never (callDeclaration k f) := by
  intro d
  unfold callDeclaration
  split <;> exact .ok _

theorem NoPanic.optAdd (cap : Nat) (st : Option StringStore) (s : String) : NoPanic (Folia.optAdd cap st s).1 := by
  unfold Folia.optAdd
  simp only
  split
  · exact .ok _
  · unfold StringStore.add
    repeat' split
    all_goals first | exact .ok _ | exact .err _

theorem never_addClass (k : Nat) (c : String) : Never (Document.addClass k c) := by
  intro d
  unfold Document.addClass
  rw [M.run_bind]
  unfold callDeclaration
  cases d.getDeclaration k with
  | none => exact .err _
  | some decl => exact NoPanic.optAdd _ _ _

theorem never_declare (t : AnnotationType) (s a f : Option String) : Never (declare t s a f) := by
  unfold declare
  refine Never.bind Never.get fun d => ?_
  split
  · exact Never.pure _
  · have : ∀ k, Never (do
        match (← M.get : Document).activeProcessor with
        | some p => updDeclaration k (linkProcessor p)
        | none => pure ()
        return k : M Document Nat) := by
      intro k
      refine Never.bind Never.get fun d => ?_
      split
      · exact Never.bind (Never.modify _) fun _ => Never.pure _
      · exact Never.pure _
    refine Never.bind Never.get fun d => ?_
    split
    · exact this _
    · exact Never.bind (never_addDeclaration _) this

theorem never_addName (k : Nat) (name : Res (Option String)) (f : String → Declaration → Res Nat × Declaration) : Never (addName k name f) := by
  unfold addName
  split
  · refine Never.bind (never_callDeclaration _ _) fun r => ?_
    split <;> exact Never.pure _
  · exact Never.pure _

theorem never_encodeProc (k : Nat) : Never (encodeProc k) := by
  unfold encodeProc
  refine Never.bind Never.get fun d => ?_
  repeat' split
  all_goals exact Never.pure _

theorem NoPanic.set {e : ElementData} (h : CleanAttribs e.attribs) : NoPanic (unwrapRes e.set) := by
  obtain ⟨o, ho⟩ := plainAttr_ok (f := fun | .set s => some s | _ => none) h
  have : e.set = .ok o := ho
  rw [this]; exact .ok _

theorem never_encodeTyped {e : ElementData} (h : CleanAttribs e.attribs) (t : AnnotationType) : Never (encodeTyped e t) := by
  unfold encodeTyped
  refine Never.bind (Never.ofRes fun _ => NoPanic.set h) fun set => Never.bind (never_declare _ _ _ _) fun k => ?_
  refine Never.bind (never_addName _ _ _) fun ck => Never.bind (never_encodeProc _) fun r => ?_
  exact Never.pure _

/-- If the element is a feature, its parent has an annotation type. -/
def HeldFeature (d : Document) (ctx : Option Nat) (t : ElementType) : Prop :=
  t = .feature → ∀ p e, ctx = some p → d.getElement p = some e → e.elementtype.annotationtype.isSome

theorem encodeFeature_safe {e : ElementData} (h : CleanAttribs e.attribs) (ctx : Option Nat) (d : Document)
    (hf : ∀ p e, ctx = some p → d.getElement p = some e → e.elementtype.annotationtype.isSome) : NoPanic (encodeFeature e ctx d).1 := by
  unfold encodeFeature
  cases ctx with
  | none => exact .err _
  | some pk =>
    simp only
    rw [M.run_bind, M.run_ofRes]
    cases hp : d.getElement pk with
    | none => exact .err _
    | some parent =>
      simp only [okOr]
      have := hf pk parent rfl hp
      rw [M.run_bind, M.run_ofRes]
      cases ht : parent.elementtype.annotationtype with
      | none => rw [ht] at this; cases this
      | some t =>
        simp only [expect]
        have hn : Never (do
            let set ← M.ofRes fun _ => unwrapRes e.set
            let k ← declare t set none none
            let ck ← addName k e.cls fun c decl => decl.addSubclass c
            let sk ← addName k e.subset fun c decl => decl.addSubset c
            return { dec := some k, cls := ck, subset := sk } : M Document Enc) :=
          Never.bind (Never.ofRes fun _ => NoPanic.set h) fun set => Never.bind (never_declare _ _ _ _) fun k =>
            Never.bind (never_addName _ _ _) fun ck => Never.bind (never_addName _ _ _) fun sk => Never.pure _
        exact hn d

theorem never_encodeLink (enc : Enc) : Never (encodeLink enc) := by
  unfold encodeLink
  split
  · exact Never.modify _
  · exact Never.pure _

theorem encode_safe {e : ElementData} (h : CleanAttribs e.attribs) (ctx : Option Nat) (d : Document) (hf : HeldFeature d ctx e.elementtype) :
    NoPanic (encode e ctx d).1 := by
  unfold encode
  split
  · have hcore : NoPanic (encodeCore e ctx d).1 := by
      unfold encodeCore
      cases e.elementtype.annotationtype with
      | some t => exact never_encodeTyped h t d
      | none =>
        simp only
        split
        · rename_i ht
          exact encodeFeature_safe h ctx d (hf ht)
        · exact .ok _
    rw [M.run_bind]
    rcases hc : encodeCore e ctx d with ⟨f | enc, d'⟩
    · rw [hc] at hcore; exact NoPanic.of_error hcore
    · have hn : Never (do
          let d ← M.get
          encodeLink (encodeExplicit d e enc)
          return { e with attribs := encodedAttribs e.attribs (encodeExplicit d e enc) } : M Document ElementData) :=
        Never.bind Never.get fun d => Never.bind (never_encodeLink _) fun _ => Never.pure _
      exact hn d'
  · exact .ok _

theorem addElem_safe {e : ElementData} (h : CleanAttribs e.attribs) (ctx : Option Nat) (d : Document) (hf : HeldFeature d ctx e.elementtype) :
    NoPanic (addElem e ctx d).1 := by
  have hn : ∀ e : ElementData, Never (onElements (·.add cap32 e)) := fun e d => NoPanic.store _ _ _
  unfold addElem
  split
  · have := encode_safe h ctx d hf
    rw [M.run_bind]
    rcases hc : encode e ctx d with ⟨f | e', d'⟩
    · rw [hc] at this; exact NoPanic.of_error this
    · exact hn e' d'
  · exact hn e d

theorem never_updElement (k : Nat) (f : ElementData → ElementData) : Never (updElement k f) := Never.modify _

theorem never_attachElement (p c : Nat) : Never (attachElement p c) := by
  unfold attachElement
  refine Never.bind Never.get fun d => ?_
  split
  · exact Never.err _
  · refine Never.bind Never.get fun d => ?_
    split
    · exact Never.err _
    · refine Never.bind (never_updElement _ _) fun _ => Never.bind (never_updElement _ _) fun _ => ?_
      split
      · exact never_updElement _ _
      · exact Never.pure _

theorem never_detachElement (c : Nat) : Never (detachElement c) := by
  unfold detachElement
  refine Never.bind Never.get fun d => ?_
  split
  · exact Never.err _
  · refine Never.bind (never_updElement _ _) fun _ => ?_
    split
    · exact never_updElement _ _
    · exact Never.pure _

theorem postAdd_safe (F key : Nat) (stack : Option (List Nat)) : Safe (fun _ => True) (postAdd F key stack) := by
  unfold postAdd
  refine Safe.getBind fun d0 => ?_
  split
  · exact (Never.err _).safe
  · rename_i e he
    split
    · split
      · exact (Never.err _).safe
      · refine Safe.ofResBind (fun d hi _ => spanKey_safe hi _ _ _) fun sk => ?_
        split
        · exact (Never.err _).safe
        · refine Safe.getBind fun d1 => ?_
          split
          · exact (Never.err _).safe
          · rename_i target ht
            refine Safe.getBind fun d2 => ?_
            split
            · rename_i hn
              rintro d hi ⟨rfl, rfl, _⟩
              obtain ⟨t, h⟩ := hi.ix.elems _ target ht
              rw [hn] at h; cases h
            · exact (never_updElement _ _).safe
    · split
      · refine Safe.ofResBind ?_ fun r => ?_
        · rintro d hi ⟨rfl, _⟩
          exact layerDecl_safe hi F ⟨e, he⟩ _
        · split
          · exact (never_updElement _ _).safe
          · exact (Never.pure _).safe
      · exact (Never.pure _).safe

theorem adopt_safe (F p c : Nat) : Safe (·.Live p) (adopt F p c) := by
  unfold adopt
  exact Safe.bind (does_updParent c p) (never_updElement _ _).safe fun _ => (postAdd_safe F c none).pre fun _ _ => trivial

theorem addChildren_type (F : Nat) : ∀ (e : ElementData) (d : Document) r, (addChildren F e d).1 = .ok r → r.1.elementtype = e.elementtype
  | ⟨t, as, data, k, p⟩, d, r, h => by
    rw [addChildren_run] at h
    split at h
    · rw [M.run_bind] at h
      rcases hc : addChildrenList F data d with ⟨f | r', d'⟩ <;> rw [hc] at h
      · cases h
      · cases h; rfl
    · cases h; rfl

/-- What is known of the element that `addChildren` returns. -/
def WithChildren (t : ElementType) (r : ElementData × Option (List Nat)) (d : Document) : Prop :=
  (CleanHead r.1 ∧ ∀ x ∈ r.1.data, DataLive d x) ∧ r.1.elementtype = t

theorem does_grown (F : Nat) (e : ElementData) (hc : CleanBuilder e) : Does True (fun _ => True) (addChildren F e) (WithChildren e.elementtype) := by
  intro d hi hd
  obtain ⟨h1, h2⟩ := does_addChildren (C := True) F e (fun _ => hc) d hi hd
  exact ⟨h1, fun r hr => ⟨h2 r hr trivial, addChildren_type F e d r hr⟩⟩

theorem does_addGrown (t : ElementType) (r : ElementData × Option (List Nat)) (ctx : Option Nat) {K : Document → Prop} (hk : ∀ d d', Steps True d d' → K d → K d') :
    Does True (fun d => WithChildren t r d ∧ K d) (addElem r.1 ctx) fun k d => d.Live k ∧ K d := by
  intro d hi hd
  obtain ⟨h1, h2⟩ := does_addElem (C := True) r.1 ctx d hi fun _ => ⟨hd.1.1.1.1, hd.1.1.2, hd.1.1.1.2⟩
  exact ⟨h1, fun k hk' => ⟨h2 k hk', hk _ _ h1 hd.2⟩⟩

theorem heldFeature_none (d : Document) (t : ElementType) : HeldFeature d none t := fun _ _ _ h => by cases h

mutual
theorem addChildren_safe (F : Nat) : ∀ e : ElementData, CleanBuilder e → Safe (fun _ => True) (addChildren F e)
  | ⟨t, as, data, k, p⟩, hc => by
    simp only [CleanBuilder] at hc
    rw [addChildren_run]
    split
    · exact Safe.bind (does_addChildrenList (C := True) F data fun _ => hc.2.1) (addChildrenList_safe F data hc.2.1) fun _ => (Never.pure _).safe
    · exact (Never.pure _).safe
theorem addChildrenList_safe (F : Nat) : ∀ data : List Data, CleanData data → Safe (fun _ => True) (addChildrenList F data)
  | [], _ => (Never.pure _).safe
  | .addElement e :: rest, hc => by
    simp only [CleanData] at hc
    have h1 := addChildren_safe F e hc.1
    have h2 := addChildrenList_safe F rest hc.2
    have h3 := does_addChildrenList (C := True) F rest fun _ => hc.2
    simp only [addChildrenList]
    refine Safe.bind (does_grown F e hc.1) h1 fun r => ?_
    refine Safe.bind (Q := fun ck d => d.Live ck) ?_ ?_ fun ck => ?_
    · exact (does_addElem (C := True) r.1 none).pre fun d hd _ => ⟨hd.1.1.1, hd.1.2, hd.1.1.2⟩
    · exact fun d hi hd => addElem_safe hd.1.1.1 none d (heldFeature_none _ _)
    · have h4 : Safe (fun _ => True) (do
          let rs ← addChildrenList F rest
          pure (DataType.element ck :: rs.1, ck :: rs.2) : M Document (List Data × List Nat)) := Safe.bind h3 h2 fun _ => (Never.pure _).safe
      split
      · exact Safe.bind (Does.forEach _ fun c _ => does_adopt F ck c) (Safe.forEach _ (fun c _ => does_adopt F ck c) fun c _ => adopt_safe F ck c)
          fun _ => h4.pre fun _ _ => trivial
      · exact h4.pre fun _ _ => trivial
  | .text s :: rest, hc => by
    simp only [CleanData] at hc
    simp only [addChildrenList]
    exact Safe.bind (does_addChildrenList (C := True) F rest fun _ => hc) (addChildrenList_safe F rest hc) fun _ => (Never.pure _).safe
  | .comment s :: rest, hc => by
    simp only [CleanData] at hc
    simp only [addChildrenList]
    exact Safe.bind (does_addChildrenList (C := True) F rest fun _ => hc) (addChildrenList_safe F rest hc) fun _ => (Never.pure _).safe
  | .element k :: rest, hc => by simp only [CleanData] at hc
  | .spanReference k :: rest, hc => by simp only [CleanData] at hc
end

theorem addElement_safe (F : Nat) (e : ElementData) (hc : CleanBuilder e) : Safe (fun _ => True) (addElement F e) := by
  unfold addElement
  exact Safe.bind (does_grown F e hc) (addChildren_safe F e hc) fun r d _ hd => addElem_safe hd.1.1.1 none d (heldFeature_none _ _)

/-- The parent of a feature exists and has an annotation type. -/
def ParentOk (p : Nat) (t : ElementType) (d : Document) : Prop :=
  t = .feature → ∃ e, d.getElement p = some e ∧ e.elementtype.annotationtype.isSome

theorem ParentOk.steps {p : Nat} {t : ElementType} {d d' : Document} (hs : Steps True d d') (h : ParentOk p t d) : ParentOk p t d' := by
  intro ht
  obtain ⟨e, h1, h2⟩ := h ht
  obtain ⟨e', h3, h4⟩ := hs.element_forward p e h1
  exact ⟨e', h3, by rw [h4.1]; exact h2⟩

theorem ParentOk.feature {p : Nat} {t : ElementType} {d : Document} (h : ParentOk p t d) : HeldFeature d (some p) t := by
  intro ht q e hq he
  cases hq
  obtain ⟨e', h1, h2⟩ := h ht
  rw [he] at h1; cases h1
  exact h2

theorem addElementTo_safe (F p : Nat) (e : ElementData) (hc : CleanBuilder e) : Safe (ParentOk p e.elementtype) (addElementTo F p e) := by
  unfold addElementTo
  refine Safe.bind (Q := fun r d => WithChildren e.elementtype r d ∧ ParentOk p e.elementtype d) ?_ ((addChildren_safe F e hc).pre fun _ _ => trivial) fun r => ?_
  · intro d hi hd
    obtain ⟨h1, h2⟩ := does_grown F e hc d hi trivial
    exact ⟨h1, fun r hr => ⟨h2 r hr, hd.steps h1⟩⟩
  · refine Safe.bind (Q := fun ck d => d.Live ck) ?_ (Safe.mapErr _ fun d hi hd => addElem_safe hd.1.1.1.1 (some p) d (by rw [hd.1.2]; exact hd.2.feature)) fun ck => ?_
    · exact Does.mapErr _ ((does_addElem (C := True) r.1 (some p)).pre fun d hd _ => ⟨hd.1.1.1.1, hd.1.1.2, hd.1.1.1.2⟩)
    · have h3 : Safe (fun _ => True) (do
          attachElement p ck
          postAdd F ck none
          pure ck : M Document Nat) :=
        Safe.bind (does_attachElement p ck) (never_attachElement p ck).safe fun _ =>
          Safe.bind (does_postAdd F ck none) (postAdd_safe F ck none) fun _ => (Never.pure _).safe
      split
      · exact Safe.bind (Does.forEach _ fun c _ => does_adopt F ck c) (Safe.forEach _ (fun c _ => does_adopt F ck c) fun c _ => adopt_safe F ck c)
          fun _ => h3.pre fun _ _ => trivial
      · exact h3.pre fun _ _ => trivial

theorem never_attachProcessor (p c : Nat) : Never (attachProcessor p c) := by
  unfold attachProcessor
  refine Never.bind Never.get fun d => ?_
  split
  · exact Never.err _
  · refine Never.bind Never.get fun d => ?_
    split
    · exact Never.err _
    · exact Never.bind (Never.modify _) fun _ => Never.modify _

mutual
theorem never_addSubprocessor (parent : Nat) : ∀ p : ProcTree, Never (addSubprocessor parent p)
  | .node p pending => by
    simp only [addSubprocessor]
    exact Never.bind (never_addProvenance p) fun k => Never.bind (never_attachProcessor parent k) fun _ =>
      Never.bind (never_addSubprocessors k pending) fun _ => Never.pure _
theorem never_addSubprocessors (parent : Nat) : ∀ ps : List ProcTree, Never (addSubprocessors parent ps)
  | [] => Never.pure _
  | p :: ps => by
    simp only [addSubprocessors]
    exact Never.bind (never_addSubprocessor parent p) fun _ => never_addSubprocessors parent ps
end

theorem never_addProcessor : ∀ p : ProcTree, Never (addProcessor p)
  | .node p pending => by
    simp only [addProcessor]
    exact Never.bind (never_addProvenance p) fun k => Never.bind (Never.modify _) fun _ => Never.bind (never_addSubprocessors k pending) fun _ => Never.pure _

theorem never_applyProperties (ps : DocumentProperties) : Never (applyProperties ps) := by
  have hrest : Never (M.forEach applyDeclare ps.declare) := by
    refine Never.forEach (fun ts => ?_) _
    unfold applyDeclare
    refine Never.bind (never_declare _ _ _ _) fun k => ?_
    split
    · exact Never.bind (never_addClass _ _) fun _ => Never.pure _
    · exact Never.pure _
  unfold applyProperties
  split
  · exact Never.bind (never_addProcessor _) fun k => Never.bind (Never.modify _) fun _ => hrest
  · exact hrest

theorem checkElementAddable_safe (d : Document) (p : Nat) (t : ElementType) : NoPanic (checkElementAddable d p t) := by
  unfold checkElementAddable
  split
  · exact .err _
  · split
    · exact .ok _
    · exact .err _

theorem layertype_not_feature : ∀ t : AnnotationType, t.layertype ≠ some .feature := by
  intro t; cases t <;> decide

theorem span_annotationtype : ∀ t : ElementType, ElementGroup.span.contains t = true → t.annotationtype.isSome ∧ t ≠ .feature := by
  intro t; cases t <;> decide

theorem parentOk_of_ne {p : Nat} {t : ElementType} {d : Document} (h : t ≠ .feature) : ParentOk p t d := fun ht => (h ht).elim

theorem addToLayer_safe (F lookup holder : Nat) (t : AnnotationType) (lt : ElementType) (hlt : t.layertype = some lt) (set : Option String) (e : ElementData)
    (hc : CleanBuilder e) (he : e.elementtype ≠ .feature) : Safe (fun _ => True) (addToLayer F lookup holder t lt set e) := by
  have hend : ∀ layer, Safe (fun _ => True) (do
      M.ofRes fun d => d.checkElementAddable layer e.elementtype
      addElementTo F layer e : M Document Nat) := fun layer =>
    Safe.ofResBind (fun d _ _ => checkElementAddable_safe d _ _) fun _ => (addElementTo_safe F layer e hc).pre fun _ _ => parentOk_of_ne he
  unfold addToLayer
  refine Safe.ofResBind (fun d hi _ => getLayerKey_safe hi _ _ _ _) fun found => ?_
  split
  · exact (hend _).pre fun _ _ => trivial
  · refine Safe.ofResBind (fun d _ _ => checkElementAddable_safe d _ _) fun _ => ?_
    refine Safe.bind (does_addElementTo (C := True) F holder _ fun _ => cleanBuilder_layer lt set).skip
      ((addElementTo_safe F holder _ (cleanBuilder_layer lt set)).pre fun _ _ => parentOk_of_ne ?_) fun layer => (hend layer).pre fun _ _ => trivial
    have : lt ≠ .feature := fun h => layertype_not_feature t (by rw [hlt, h])
    cases set <;> exact this

theorem spanSet_safe {d : Document} {e : ElementData} (h : CleanAttribs e.attribs) (t : AnnotationType) : NoPanic (spanSet d e t) := by
  unfold spanSet
  obtain ⟨o, ho⟩ := plainAttr_ok (f := fun | .set s => some s | _ => none) h
  refine NoPanic.bind (by rw [show e.set = .ok o from ho]; exact .ok _) fun o _ => ?_
  split
  · exact .ok _
  · exact NoPanic.okOr _ _

theorem cleanAttribs_of {e : ElementData} (h : CleanBuilder e) : CleanAttribs e.attribs := by
  obtain ⟨t, as, data, k, p⟩ := e
  simp only [CleanBuilder] at h
  exact h.1

theorem structuralQuery_ok (d : Document) : ∃ s, Selector.fromQuery d { elementgroup := .is .structural } = .ok s := ⟨_, rfl⟩

theorem annotate_safe (F parent : Nat) (e : ElementData) (hc : CleanBuilder e) :
    Safe (fun d => (d.getElement parent).isSome → ParentOk parent e.elementtype d) (annotate F parent e) := by
  unfold annotate
  refine Safe.ofResBind (fun d _ _ => NoPanic.okOr _ _) fun p => ?_
  have hplain : Safe (fun d => okOr ErrKind.internal (d.getElement parent) = .ok p ∧ ((d.getElement parent).isSome → ParentOk parent e.elementtype d)) (do
      M.ofRes fun d => d.checkElementAddable parent e.elementtype
      addElementTo F parent e : M Document Nat) := by
    refine Safe.ofResBind (fun d _ _ => checkElementAddable_safe d _ _) fun _ => (addElementTo_safe F parent e hc).pre fun d hd => ?_
    refine hd.2.2 ?_
    have := hd.2.1
    cases hg : d.getElement parent with
    | none => rw [hg] at this; cases this
    | some x => rfl
  split
  · rename_i hspan
    obtain ⟨hs1, hs2⟩ := span_annotationtype _ hspan
    refine Safe.ofResBind (fun d _ _ => ?_) fun t => Safe.ofResBind (fun d _ _ => NoPanic.okOr _ _) fun lt => ?_
    · cases ht : e.elementtype.annotationtype with
      | none => rw [ht] at hs1; cases hs1
      | some t => exact .ok _
    · intro d0 hi0 hd0
      have hlt : t.layertype = some lt := by
        have := hd0.1
        cases hl : t.layertype with
        | none => rw [hl] at this; cases this
        | some x => rw [hl] at this; cases this; rfl
      revert d0 hi0 hd0
      change Safe _ _
      split
      · refine Safe.ofResBind (fun d _ _ => spanSet_safe (cleanAttribs_of hc) t) fun set => Safe.getBind fun d1 => ?_
        simp only
        split
        · exact (Never.err _).safe
        · refine Safe.ofResBind (fun d _ _ => ?_) fun sel => Safe.ofResBind (fun d hi _ => commonAncestors_safe hi _ _ _ _) fun common => Safe.getBind fun d2 => ?_
          · obtain ⟨s, hs⟩ := structuralQuery_ok d
            rw [hs]; exact .ok _
          · split
            · exact (addToLayer_safe F _ _ t lt hlt _ e hc hs2).pre fun _ _ => trivial
            · exact (Never.err _).safe
      · split
        · exact Safe.ofResBind (fun d _ _ => spanSet_safe (cleanAttribs_of hc) t) fun set => (addToLayer_safe F _ _ t lt hlt _ e hc hs2).pre fun _ _ => trivial
        · exact hplain.pre fun _ hd => hd.2.2
  · exact hplain

theorem annotateSpan_safe (F : Nat) (e : ElementData) (hc : CleanBuilder e) : Safe (fun _ => True) (annotateSpan F e) := by
  unfold annotateSpan
  split
  · rename_i hspan
    refine Safe.getBind fun d0 => ?_
    split
    · exact (Never.err _).safe
    · exact (annotate_safe F _ e hc).pre fun _ _ _ => parentOk_of_ne (span_annotationtype _ hspan).2
  · exact (Never.err _).safe

end Folia
