import Verif.Lemmas.Steps
/-! Decomposition of the public operations into elementary transitions. -/
namespace Folia

/-- Started in a state satisfying `P`, the method makes elementary transitions only, and if it succeeds `Q` holds of the result. -/
def Does (C : Prop) (P : Document → Prop) {α : Type} (m : M Document α) (Q : α → Document → Prop) : Prop :=
  ∀ d, IxOk d → P d → Steps C d (m d).2 ∧ ∀ a, (m d).1 = .ok a → Q a (m d).2

/-- Facts that survive the growth of the document. -/
def Stable (K : Document → Prop) : Prop := ∀ d d', LiveMono d d' → K d → K d'

theorem Stable.live (k : Nat) : Stable (·.Live k) := fun _ _ h hk => h.elems k hk
theorem Stable.procLive (k : Nat) : Stable (·.ProcLive k) := fun _ _ h hk => h.2 k hk
theorem Stable.and {K L : Document → Prop} (h : Stable K) (h' : Stable L) : Stable fun d => K d ∧ L d :=
  fun d d' hm hk => ⟨h d d' hm hk.1, h' d d' hm hk.2⟩
theorem Stable.const (p : Prop) : Stable fun _ => p := fun _ _ _ h => h
theorem Stable.forall {ι : Type} {K : ι → Document → Prop} (h : ∀ i, Stable (K i)) : Stable fun d => ∀ i, K i d :=
  fun d d' hm hk i => h i d d' hm (hk i)
theorem Stable.imp {p : Prop} {K : Document → Prop} (h : Stable K) : Stable fun d => p → K d := fun d d' hm hk hp => h d d' hm (hk hp)
theorem Stable.dataLive (x : Data) : Stable (DataLive · x) := by
  cases x with
  | text | comment | addElement => exact fun _ _ _ h => h
  | element k => exact Stable.live k
  | spanReference k =>
    intro d d' hm ⟨e, he, hs⟩
    obtain ⟨e', he', ht⟩ := hm.types k e he
    exact ⟨e', he', ht ▸ hs⟩

namespace Does
variable {C : Prop} {α β : Type} {P : Document → Prop} {Q : α → Document → Prop} {R : β → Document → Prop}

theorem weaken {P' : Document → Prop} {Q' : α → Document → Prop} {m : M Document α} (h : Does C P m Q) (hp : ∀ d, P' d → P d)
    (hq : ∀ a d, Q a d → Q' a d) : Does C P' m Q' :=
  fun d hi hd => ⟨(h d hi (hp d hd)).1, fun a ha => hq a _ ((h d hi (hp d hd)).2 a ha)⟩

theorem pre {P' : Document → Prop} {m : M Document α} (h : Does C P m Q) (hp : ∀ d, P' d → P d) : Does C P' m Q :=
  h.weaken hp fun _ _ h => h

theorem post {Q' : α → Document → Prop} {m : M Document α} (h : Does C P m Q) (hq : ∀ a d, Q a d → Q' a d) : Does C P m Q' :=
  h.weaken (fun _ h => h) hq

theorem frame {K : Document → Prop} (hK : Stable K) {m : M Document α} (h : Does C P m Q) :
    Does C (fun d => P d ∧ K d) m fun a d => Q a d ∧ K d :=
  fun d hi hd => ⟨(h d hi hd.1).1, fun a ha => ⟨(h d hi hd.1).2 a ha, hK _ _ (h d hi hd.1).1.liveMono hd.2⟩⟩

theorem bind {m : M Document α} {f : α → M Document β} (h : Does C P m Q) (h' : ∀ a, Does C (Q a) (f a) R) : Does C P (m >>= f) R := by
  intro d hi hd
  obtain ⟨h1, h2⟩ := h d hi hd
  rw [M.run_bind]
  rcases hm : m d with ⟨e | a, d'⟩
  · rw [hm] at h1
    exact ⟨h1, by simp⟩
  · rw [hm] at h1 h2
    obtain ⟨h3, h4⟩ := h' a d' (h1.ixOk hi) (h2 a rfl)
    exact ⟨h1.trans h3, h4⟩

/-- Sequencing that keeps a stable fact at hand. -/
theorem bindK {K : Document → Prop} (hK : Stable K) {m : M Document α} {f : α → M Document β} (h : Does C P m Q)
    (h' : ∀ a, Does C (fun d => Q a d ∧ K d) (f a) R) : Does C (fun d => P d ∧ K d) (m >>= f) R :=
  bind (frame hK h) h'

theorem pure {a : α} (h : ∀ d, P d → Q a d) : Does C P (pure a) Q := fun d _ hd => ⟨.refl d, fun b hb => by cases hb; exact h d hd⟩
theorem throw (e : Fault) : Does C P (M.throw e : M Document α) Q := fun d _ _ => ⟨.refl d, by simp⟩
theorem err (e : ErrKind) : Does C P (M.err e : M Document α) Q := fun d _ _ => ⟨.refl d, by simp⟩
theorem ofRes (f : Document → Res α) : Does C P (M.ofRes f) fun a d => f d = .ok a ∧ P d :=
  fun d _ hd => ⟨.refl d, fun _ ha => ⟨ha, hd⟩⟩
theorem get : Does C P M.get fun a d => a = d ∧ P d := fun d _ hd => ⟨.refl d, fun a ha => by cases ha; exact ⟨rfl, hd⟩⟩

/-- Reading the state: continue with the state itself. -/
theorem getBind {f : Document → M Document β} (h : ∀ d0, Does C (fun d => d0 = d ∧ P d) (f d0) R) : Does C P (M.get >>= f) R :=
  bind get h

theorem mapErr {m : M Document α} (k : ErrKind) (h : Does C P m Q) : Does C P (M.mapErr k m) Q := by
  intro d hi hd
  obtain ⟨h1, h2⟩ := h d hi hd
  unfold M.mapErr
  rcases hm : m d with ⟨e | a, d'⟩
  · rw [hm] at h1
    cases e <;> exact ⟨h1, by simp⟩
  · rw [hm] at h1 h2; exact ⟨h1, h2⟩

theorem forEach {f : α → M Document Unit} {K : Document → Prop} (l : List α) (h : ∀ a ∈ l, Does C K (f a) fun _ => K) :
    Does C K (M.forEach f l) fun _ => K := by
  induction l with
  | nil => exact pure fun _ h => h
  | cons a as ih =>
    exact bind (h a (by simp)) fun _ => ih fun b hb => h b (by simp [hb])

theorem void {m : M Document α} (h : Does C P m Q) : Does C P m.void fun _ _ => True :=
  bind h fun _ => pure fun _ _ => trivial

theorem modify {f : Document → Document} (h : ∀ d, P d → Prim C d (f d)) (hq : ∀ d, P d → P (f d)) :
    Does C P (M.modify f) fun _ => P :=
  fun d _ hd => ⟨.single (h d hd), fun _ _ => hq d hd⟩

end Does

/-! ### The pieces -/
section pieces
variable {C : Prop}
open Document

theorem spanSelector_matches {d : Document} {k : Nat} (h : spanSelector.matches d (.element k) = .ok true) :
    ∃ e, d.getElement k = some e ∧ ElementGroup.span.contains e.elementtype = true := by
  simp only [spanSelector, Selector.elementgroup, Selector.elements, Selector.matches, matchesChain, SelCore.matches] at h
  cases hg : d.getElement k with
  | none => simp [hg] at h
  | some e =>
    refine ⟨e, rfl, ?_⟩
    rw [hg] at h
    simp only [SelCore.matchesElement] at h
    cases hc : ElementGroup.span.contains e.elementtype with
    | true => rfl
    | false => simp [hc, andAlso] at h

theorem firstMatch_span {d : Document} {ks : List Nat} {k : Nat} (h : firstMatch d spanSelector ks = .ok (some k)) :
    ∃ e, d.getElement k = some e ∧ ElementGroup.span.contains e.elementtype = true := by
  induction ks with
  | nil => simp [firstMatch] at h
  | cons x xs ih =>
    unfold firstMatch at h
    split at h
    · simp at h
    · rename_i hm; cases h; exact spanSelector_matches hm
    · exact ih h

theorem ancNext_span {d : Document} {r : Recursion} {n key k : Nat} (h : ancNext d spanSelector r n key = .ok (some k)) :
    ∃ e, d.getElement k = some e ∧ ElementGroup.span.contains e.elementtype = true := by
  induction n generalizing key with
  | zero => simp [ancNext] at h
  | succ n ih =>
    unfold ancNext at h
    split at h
    · simp at h
    · split at h
      · simp at h
      · split at h
        · simp at h
        · rename_i hm
          split at h
          · cases h; exact spanSelector_matches hm
          · simp at h
        · split at h
          · simp at h
          · split at h
            · exact ih h
            · simp at h

theorem spanKey_span {d : Document} {F key : Nat} {stack : Option (List Nat)} {k : Nat} (h : spanKey d F key stack = .ok (some k)) :
    ∃ e, d.getElement k = some e ∧ ElementGroup.span.contains e.elementtype = true := by
  unfold spanKey at h
  split at h
  · exact firstMatch_span h
  · exact ancNext_span h

theorem layerSearch_decl {cfg : SelCfg} {F : Nat} {t : ElementType} {n : Nat} {st : SelState} {dk : Nat}
    (h : layerSearch cfg F t n st = .ok (some dk)) :
    ∃ k' e', cfg.doc.getElement k' = some e' ∧ e'.elementtype.annotationtype = t.annotationtype ∧ e'.declarationKeyU = .ok (some dk) := by
  induction n generalizing st with
  | zero => simp [layerSearch] at h
  | succ n ih =>
    unfold layerSearch at h
    split at h
    · simp at h
    · simp at h
    · split at h
      · simp at h
      · rename_i e he
        split at h
        · rename_i ht
          split at h
          · simp at h
          · rename_i dk' hdk; cases h; exact ⟨_, e, he, ht, hdk⟩
          · exact ih h
        · exact ih h

theorem layerDecl_decl {d : Document} {F key : Nat} {t : ElementType} {dk : Nat} (h : layerDecl d F key t = .ok (some dk)) :
    ∃ k' e', d.getElement k' = some e' ∧ e'.elementtype.annotationtype = t.annotationtype ∧ e'.declarationKeyU = .ok (some dk) := by
  unfold layerDecl at h
  cases hs : Selector.fromQuery d { elementgroup := .is .span, set := .some } with
  | error f => rw [hs] at h; cases h
  | ok sel =>
    rw [hs] at h
    exact layerSearch_decl h

theorem does_updParent (c p : Nat) : Does C (·.Live p) (updElement c fun e => { e with parent := some p }) fun _ => (·.Live p) :=
  Does.modify (fun d hd => Prim.setParent d c p hd) fun d hd => (Prim.setParent (C := C) d c p hd).liveMono.elems p hd

theorem does_attachElement (p c : Nat) : Does C (fun _ => True) (attachElement p c) fun _ _ => True := by
  unfold attachElement
  refine Does.getBind fun d0 => ?_
  split
  · exact Does.err _
  · rename_i pe hpe
    refine Does.getBind fun d1 => ?_
    split
    · exact Does.err _
    · rename_i ce hce
      have h1 : Does C (fun d => d.Live p ∧ d.Live c) (updElement c fun e => { e with parent := some p }) fun _ d => d.Live p ∧ d.Live c :=
        Does.frame (Stable.live c) (does_updParent c p)
      have h2 : Does C (fun d => d.Live p ∧ d.Live c) (updElement p fun e => e.push (.element c)) fun _ d => d.Live p ∧ d.Live c :=
        Does.modify (fun d hd => Prim.pushElem d p c hd.2) fun d hd =>
          ⟨(Prim.pushElem (C := C) d p c hd.2).liveMono.elems _ hd.1, (Prim.pushElem (C := C) d p c hd.2).liveMono.elems _ hd.2⟩
      refine Does.pre (P := fun d => d.Live p ∧ d.Live c) (Does.bind h1 fun _ => Does.bind h2 fun _ => ?_) ?_
      · split
        · exact (Does.modify (P := fun _ => True) (fun d _ => Prim.unlink d _ _) fun _ _ => trivial).weaken (fun _ _ => trivial) fun _ _ _ => trivial
        · exact Does.pure fun _ _ => trivial
      · rintro d ⟨rfl, rfl, _⟩
        exact ⟨⟨pe, hpe⟩, ⟨ce, hce⟩⟩

theorem does_detachElement (c : Nat) : Does C (fun _ => True) (detachElement c) fun _ _ => True := by
  unfold detachElement
  refine Does.getBind fun d0 => ?_
  split
  · exact Does.err _
  · refine Does.bind ((Does.modify (P := fun _ => True) (fun d _ => Prim.orphan d c) fun _ _ => trivial).pre fun _ _ => trivial) fun _ => ?_
    split
    · exact Does.modify (fun d _ => Prim.unlink d _ _) fun _ _ => trivial
    · exact Does.pure fun _ _ => trivial

theorem does_postAdd (F key : Nat) (stack : Option (List Nat)) : Does C (fun _ => True) (postAdd F key stack) fun _ _ => True := by
  unfold postAdd
  refine Does.getBind fun d0 => ?_
  split
  · exact Does.err _
  · rename_i e he
    split
    · split
      · exact Does.err _
      · refine Does.bind (Does.ofRes _) fun sk => ?_
        split
        · exact Does.err _
        · rename_i sk
          refine Does.getBind fun d1 => ?_
          split
          · exact Does.err _
          · rename_i target _
            refine Does.getBind fun d2 => ?_
            split
            · exact Does.throw _
            · intro d _ hd
              obtain ⟨_, _, h, _⟩ := hd
              exact ⟨.single (Prim.pushSpan d target sk (spanKey_span h)), fun _ _ => trivial⟩
    · split
      · rename_i hl
        simp only [Bool.and_eq_true, Bool.not_eq_true'] at hl
        refine Does.bind (Does.ofRes _) fun r => ?_
        split
        · rename_i dk
          intro d _ hd
          obtain ⟨h, rfl, _⟩ := hd
          obtain ⟨k', e', h1, h3, h2⟩ := layerDecl_decl h
          exact ⟨.single (Prim.layer d0 key dk e he hl.1 hl.2 ⟨k', e', h1, h2, h3⟩), fun _ _ => trivial⟩
        · exact Does.pure fun _ _ => trivial
      · exact Does.pure fun _ _ => trivial

theorem does_adopt (F p c : Nat) : Does C (·.Live p) (adopt F p c) fun _ => (·.Live p) := by
  unfold adopt
  refine Does.bind (does_updParent c p) fun _ => ?_
  exact (Does.frame (Stable.live p) (does_postAdd F c none)).weaken (fun _ h => ⟨trivial, h⟩) fun _ _ h => h.2

theorem does_addElem (e : ElementData) (ctx : Option Nat) :
    Does C (fun d => C → CleanAttribs e.attribs ∧ (∀ x ∈ e.data, DataLive d x) ∧ e.parent = none) (addElem e ctx) fun k d => d.Live k := by
  intro d hi hd
  refine ⟨.single (Prim.addElem d e ctx hd), fun k hk => ?_⟩
  obtain ⟨_, h⟩ := addElem_elements e ctx d
  rcases h with ⟨f, hf, _⟩ | ⟨e', _, _, _, h1, h2, _⟩
  · rw [hf] at hk; cases hk
  · rw [h1] at hk
    have := Store.live_of_add hi.1 hk
    unfold Document.Live Document.getElement
    rw [h2]; exact this

/-- The attribute and parent part of a clean builder. -/
def CleanHead (e : ElementData) : Prop := CleanAttribs e.attribs ∧ e.parent = none

theorem addChildren_run (F : Nat) (t : ElementType) (as : List Attribute) (data : List Data) (k p : Option Nat) :
    addChildren F ⟨t, as, data, k, p⟩ = if data.any isUnborn then do
      let r ← addChildrenList F data
      return (⟨t, as, r.1, k, p⟩, some r.2)
    else return (⟨t, as, data, k, p⟩, none) := rfl

theorem cleanData_not_unborn {d : Document} : ∀ (data : List Data), CleanData data → data.any isUnborn = false → ∀ x ∈ data, DataLive d x
  | [], _, _, _, h => by simp at h
  | x :: rest, hc, hu, y, hy => by
    rw [List.any_cons, Bool.or_eq_false_iff] at hu
    have hrest : CleanData rest := by cases x <;> simp_all [CleanData]
    rcases List.mem_cons.mp hy with rfl | hy
    · cases y <;> simp_all [CleanData, DataLive, isUnborn]
    · exact cleanData_not_unborn rest hrest hu.2 y hy

mutual
theorem does_addChildren (F : Nat) : ∀ e : ElementData, (C → CleanBuilder e) →
    Does C (fun _ => True) (addChildren F e) fun r d => (C → CleanHead r.1 ∧ ∀ x ∈ r.1.data, DataLive d x)
  | ⟨t, as, data, k, p⟩, hc => by
    rw [addChildren_run]
    split
    · refine Does.bind (does_addChildrenList F data fun c => (by have := hc c; simp only [CleanBuilder] at this; exact this.2.1)) fun r => ?_
      refine Does.pure fun d hd c => ⟨?_, hd c⟩
      have := hc c
      simp only [CleanBuilder] at this
      exact ⟨this.1, this.2.2⟩
    · rename_i hu
      refine Does.pure fun d _ c => ?_
      have := hc c
      simp only [CleanBuilder] at this
      exact ⟨⟨this.1, this.2.2⟩, cleanData_not_unborn data this.2.1 (by simpa using hu)⟩
theorem does_addChildrenList (F : Nat) : ∀ data : List Data, (C → CleanData data) →
    Does C (fun _ => True) (addChildrenList F data) fun r d => (C → ∀ x ∈ r.1, DataLive d x)
  | [], _ => Does.pure fun _ _ _ => by simp
  | .addElement e :: rest, hc => by
    have h1 := does_addChildren F e fun c => (by have := hc c; simp only [CleanData] at this; exact this.1)
    have h2 := does_addChildrenList F rest fun c => (by have := hc c; simp only [CleanData] at this; exact this.2)
    simp only [addChildrenList]
    refine Does.bind h1 fun r => ?_
    refine Does.bind ((does_addElem r.1 none).pre fun d hd c => ⟨(hd c).1.1, (hd c).2, (hd c).1.2⟩) fun ck => ?_
    have h3 : Does C (·.Live ck) (do
        let rs ← addChildrenList F rest
        pure (DataType.element ck :: rs.1, ck :: rs.2)) fun r d => (C → ∀ x ∈ r.1, DataLive d x) := by
      refine Does.pre (P := fun d => True ∧ d.Live ck) (Does.bindK (Stable.live ck) h2 fun rs => Does.pure fun d hd c x hx => ?_) fun _ h => ⟨trivial, h⟩
      rcases List.mem_cons.mp hx with rfl | hx
      · exact hd.2
      · exact hd.1 c x hx
    split
    · refine Does.bind (Does.forEach _ fun c _ => does_adopt F ck c) fun _ => ?_
      exact h3
    · exact h3
  | .text s :: rest, hc => by
    have h2 := does_addChildrenList F rest fun c => (by have := hc c; simp only [CleanData] at this; exact this)
    simp only [addChildrenList]
    refine Does.bind h2 fun rs => Does.pure fun d hd c x hx => ?_
    rcases List.mem_cons.mp hx with rfl | hx
    · trivial
    · exact hd c x hx
  | .comment s :: rest, hc => by
    have h2 := does_addChildrenList F rest fun c => (by have := hc c; simp only [CleanData] at this; exact this)
    simp only [addChildrenList]
    refine Does.bind h2 fun rs => Does.pure fun d hd c x hx => ?_
    rcases List.mem_cons.mp hx with rfl | hx
    · trivial
    · exact hd c x hx
  | .element k :: rest, hc => by
    have h2 := does_addChildrenList F rest fun c => (by have := hc c; simp only [CleanData] at this)
    simp only [addChildrenList]
    exact Does.bind h2 fun rs => Does.pure fun d hd c => (by have := hc c; simp only [CleanData] at this)
  | .spanReference k :: rest, hc => by
    have h2 := does_addChildrenList F rest fun c => (by have := hc c; simp only [CleanData] at this)
    simp only [addChildrenList]
    exact Does.bind h2 fun rs => Does.pure fun d hd c => (by have := hc c; simp only [CleanData] at this)
end

theorem does_addElement (F : Nat) (e : ElementData) (hc : C → CleanBuilder e) :
    Does C (fun _ => True) (addElement F e) fun k d => d.Live k := by
  unfold addElement
  exact Does.bind (does_addChildren F e hc) fun r => (does_addElem r.1 none).pre fun d hd c => ⟨(hd c).1.1, (hd c).2, (hd c).1.2⟩

theorem does_addElementTo (F p : Nat) (e : ElementData) (hc : C → CleanBuilder e) :
    Does C (fun _ => True) (addElementTo F p e) fun k d => d.Live k := by
  unfold addElementTo
  refine Does.bind (does_addChildren F e hc) fun r => ?_
  refine Does.bind ((Does.mapErr _ (does_addElem r.1 (some p))).pre fun d hd c => ⟨(hd c).1.1, (hd c).2, (hd c).1.2⟩) fun ck => ?_
  have h3 : Does C (·.Live ck) (do
      attachElement p ck
      postAdd F ck none
      pure ck) fun k d => d.Live k := by
    refine Does.pre (P := fun d => True ∧ d.Live ck) (Does.bindK (Stable.live ck) (does_attachElement p ck) fun _ => ?_) fun _ h => ⟨trivial, h⟩
    exact Does.bindK (Stable.live ck) (does_postAdd F ck none) fun _ => Does.pure fun _ h => h.2
  split
  · refine Does.bind (Does.forEach _ fun c _ => does_adopt F ck c) fun _ => ?_
    exact h3
  · exact h3

theorem does_addProvenance (p : Processor) (h : C → p.processors = [] ∧ p.parent = none) :
    Does C (fun _ => True) (addProvenance p) fun k d => d.ProcLive k := by
  intro d hi _
  refine ⟨.single (Prim.addProc d p h), fun k hk => ?_⟩
  exact Store.live_of_add hi.2 hk

theorem does_attachProcessor (p c : Nat) : Does C (fun _ => True) (attachProcessor p c) fun _ _ => True := by
  unfold attachProcessor
  refine Does.getBind fun d0 => ?_
  split
  · exact Does.err _
  · rename_i pe hpe
    refine Does.getBind fun d1 => ?_
    split
    · exact Does.err _
    · rename_i ce hce
      have h1 : Does C (fun d => d.ProcLive p ∧ d.ProcLive c) (updProcessor c fun q => { q with parent := some p })
          fun _ d => d.ProcLive p ∧ d.ProcLive c :=
        Does.modify (fun d hd => Prim.procParent d c p hd.1) fun d hd =>
          ⟨(Prim.procParent (C := C) d c p hd.1).liveMono.2 _ hd.1, (Prim.procParent (C := C) d c p hd.1).liveMono.2 _ hd.2⟩
      refine Does.pre (P := fun d => d.ProcLive p ∧ d.ProcLive c) (Does.bind h1 fun _ => ?_) ?_
      · intro d _ hd
        exact ⟨.single (Prim.procPush d p c hd.2), fun _ _ => trivial⟩
      · rintro d ⟨rfl, rfl, _⟩
        exact ⟨⟨pe, hpe⟩, ⟨ce, hce⟩⟩

mutual
theorem does_addSubprocessor (parent : Nat) : ∀ p : ProcTree, (C → CleanProc p) →
    Does C (fun _ => True) (addSubprocessor parent p) fun k d => d.ProcLive k
  | .node p pending, hc => by
    simp only [addSubprocessor]
    refine Does.bind (does_addProvenance p fun c => (by have := hc c; simp only [CleanProc] at this; exact ⟨this.1, this.2.1⟩)) fun k => ?_
    refine Does.pre (P := fun d => True ∧ d.ProcLive k) (Does.bindK (Stable.procLive k) (does_attachProcessor parent k) fun _ => ?_) fun _ h => ⟨trivial, h⟩
    refine Does.bindK (Stable.procLive k) (does_addSubprocessors k pending fun c => (by have := hc c; simp only [CleanProc] at this; exact this.2.2)) fun _ => ?_
    exact Does.pure fun _ h => h.2
theorem does_addSubprocessors (parent : Nat) : ∀ ps : List ProcTree, (C → CleanProcs ps) →
    Does C (fun _ => True) (addSubprocessors parent ps) fun _ _ => True
  | [], _ => Does.pure fun _ _ => trivial
  | p :: ps, hc => by
    simp only [addSubprocessors]
    refine Does.bind (does_addSubprocessor parent p fun c => (by have := hc c; simp only [CleanProcs] at this; exact this.1)) fun _ => ?_
    exact (does_addSubprocessors parent ps fun c => (by have := hc c; simp only [CleanProcs] at this; exact this.2)).pre fun _ _ => trivial
end

theorem does_addProcessor : ∀ p : ProcTree, (C → CleanProc p) → Does C (fun _ => True) (addProcessor p) fun k d => d.ProcLive k
  | .node p pending, hc => by
    simp only [addProcessor]
    refine Does.bind (does_addProvenance p fun c => (by have := hc c; simp only [CleanProc] at this; exact ⟨this.1, this.2.1⟩)) fun k => ?_
    refine Does.bind (Q := fun _ d => d.ProcLive k) ?_ fun _ => ?_
    · intro d _ hd
      exact ⟨.single (Prim.chain d k hd), fun _ _ => hd⟩
    · refine Does.pre (P := fun d => True ∧ d.ProcLive k) (Does.bindK (Stable.procLive k)
        (does_addSubprocessors k pending fun c => (by have := hc c; simp only [CleanProc] at this; exact this.2.2)) fun _ => ?_) fun _ h => ⟨trivial, h⟩
      exact Does.pure fun _ h => h.2

theorem does_declare (t : AnnotationType) (s a f : Option String) : Does C (fun _ => True) (declare t s a f) fun _ _ => True :=
  fun d _ _ => ⟨.single (Prim.declare d t s a f), fun _ _ => trivial⟩

theorem does_addClass (k : Nat) (c : String) : Does C (fun _ => True) (Document.addClass k c) fun _ _ => True :=
  fun d _ _ => ⟨.single (Prim.addClass d k c), fun _ _ => trivial⟩

theorem does_applyProperties (ps : DocumentProperties) (hc : C → ∀ p, ps.processor = some p → CleanProc p) :
    Does C (fun _ => True) (applyProperties ps) fun _ _ => True := by
  have hrest : Does C (fun _ => True) (M.forEach applyDeclare ps.declare) fun _ _ => True := by
    refine Does.forEach _ fun ts _ => ?_
    unfold applyDeclare
    refine Does.bind (does_declare _ _ _ _) fun k => ?_
    split
    · exact Does.bind (does_addClass _ _) fun _ => Does.pure fun _ _ => trivial
    · exact Does.pure fun _ _ => trivial
  unfold applyProperties
  split
  · rename_i p hp
    refine Does.bind (does_addProcessor p fun c => hc c p hp) fun k => ?_
    refine Does.bind (Q := fun _ _ => True) ?_ fun _ => hrest
    intro d _ hd
    exact ⟨.single (Prim.activate d k fun _ => hd), fun _ _ => trivial⟩
  · exact hrest

theorem Does.skip {α : Type} {P : Document → Prop} {Q : α → Document → Prop} {m : M Document α} (h : Does C (fun _ => True) m Q) : Does C P m Q :=
  h.pre fun _ _ => trivial

theorem cleanBuilder_layer (t : ElementType) (s : Option String) : CleanBuilder (match s with
    | some s => (ElementData.new t).setAttrib (.set s)
    | none => ElementData.new t) := by
  cases s with
  | none =>
    simp only [ElementData.new]
    unfold CleanBuilder
    exact ⟨by simp, by simp [CleanData], rfl⟩
  | some s =>
    simp only [ElementData.new, ElementData.setAttrib, ElementData.delAttrib]
    unfold CleanBuilder
    refine ⟨?_, by simp [CleanData], rfl⟩
    simp [Attribute.decodable]

theorem does_addToLayer (F lookup holder : Nat) (t : AnnotationType) (lt : ElementType) (set : Option String) (e : ElementData)
    (hc : C → CleanBuilder e) : Does C (fun _ => True) (addToLayer F lookup holder t lt set e) fun k d => d.Live k := by
  have hend : ∀ layer, Does C (fun _ => True) (do
      M.ofRes fun d => d.checkElementAddable layer e.elementtype
      addElementTo F layer e) fun k d => d.Live k := fun layer =>
    Does.bind (Does.ofRes _) fun _ => (does_addElementTo F layer e hc).skip
  unfold addToLayer
  refine Does.bind (Does.ofRes _) fun found => ?_
  split
  · exact (hend _).skip
  · refine Does.bind (Does.ofRes _) fun _ => ?_
    exact Does.bind (does_addElementTo F holder _ fun _ => cleanBuilder_layer lt set).skip fun layer => (hend layer).skip

theorem does_annotate (F parent : Nat) (e : ElementData) (hc : C → CleanBuilder e) :
    Does C (fun _ => True) (annotate F parent e) fun k d => d.Live k := by
  unfold annotate
  refine Does.bind (Does.ofRes _) fun p => ?_
  split
  · refine Does.bind (Does.ofRes _) fun t => Does.bind (Does.ofRes _) fun lt => ?_
    split
    · refine Does.bind (Does.ofRes _) fun set => Does.getBind fun d0 => ?_
      simp only
      split
      · exact Does.err _
      · refine Does.bind (Does.ofRes _) fun sel => Does.bind (Does.ofRes _) fun common => Does.getBind fun d1 => ?_
        split
        · exact (does_addToLayer F _ _ _ _ _ e hc).skip
        · exact Does.err _
    · split
      · refine Does.bind (Does.ofRes _) fun set => (does_addToLayer F _ _ _ _ _ e hc).skip
      · exact Does.bind (Does.ofRes _) fun _ => (does_addElementTo F parent e hc).skip
  · exact Does.bind (Does.ofRes _) fun _ => (does_addElementTo F parent e hc).skip

theorem does_annotateSpan (F : Nat) (e : ElementData) (hc : C → CleanBuilder e) :
    Does C (fun _ => True) (annotateSpan F e) fun k d => d.Live k := by
  unfold annotateSpan
  split
  · refine Does.getBind fun d0 => ?_
    split
    · exact Does.err _
    · exact (does_annotate F _ e hc).skip
  · exact Does.err _

/-- Every operation is a sequence of elementary transitions. -/
theorem op_steps (F : Nat) (o : Op) {d : Document} (hi : IxOk d) (hc : C → o.Clean d) : Steps C d (o.run F d).2 := by
  have go : ∀ {m : M Document Unit} {Q : Unit → Document → Prop}, Does C (fun _ => True) m Q → Steps C d (m d).2 := fun h => (h d hi trivial).1
  cases o with
  | declare t s a f => exact go (does_declare t s a f).void
  | addDeclaration dec =>
    have : Does C (fun d' => d' = d) (Document.addDeclaration dec) fun _ _ => True :=
      fun d' _ hd => by subst hd; exact ⟨.single (Prim.addDeclaration d' dec hc), fun _ _ => trivial⟩
    exact (this.void d hi rfl).1
  | addClass k c => exact go (does_addClass k c).void
  | addElement e => exact go (does_addElement F e hc).void
  | addElementTo p e => exact go (does_addElementTo F p e hc).void
  | attachElement p c => exact go (does_attachElement p c)
  | detachElement c => exact go (does_detachElement c)
  | annotate p e => exact go (does_annotate F p e hc).void
  | annotateSpan e => exact go (does_annotateSpan F e hc).void
  | addProvenance p => exact go (does_addProvenance p fun c => (by have := hc c; simp only [Op.Clean, CleanProc] at this; exact ⟨this.1, this.2.1⟩)).void
  | addProcessor p => exact go (does_addProcessor p hc).void
  | addSubprocessor p c => exact go (does_addSubprocessor p c hc).void
  | attachProcessor p c => exact go (does_attachProcessor p c)
  | activateProcessor k =>
    refine .single (Prim.activate d k fun c => ?_)
    have := hc c
    simp only [Op.Clean, Option.isSome_iff_exists] at this
    exact this
  | applyProperties ps => exact go (does_applyProperties ps hc)
  | assign => exact .single (.admin rfl rfl rfl rfl rfl)

end pieces
end Folia
