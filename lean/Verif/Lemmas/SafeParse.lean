import Verif.Lemmas.SafeOps
import Verif.Lemmas.ParseSteps
import Verif.Lemmas.Build
import Verif.Lemmas.Parse
/-! Parsing does not panic. -/
namespace Folia
open Document

/-! ### The index of identifiers -/

/-- A method that leaves the index of identifiers alone. -/
def KeepsIndex {α : Type} (m : M Document α) : Prop := ∀ d, (m d).2.elements.index = d.elements.index

namespace KeepsIndex
variable {α β : Type}
theorem pure (a : α) : KeepsIndex (Pure.pure a : M Document α) := fun _ => rfl
theorem err (k : ErrKind) : KeepsIndex (M.err k : M Document α) := fun _ => rfl
theorem throw (f : Fault) : KeepsIndex (M.throw f : M Document α) := fun _ => rfl
theorem get : KeepsIndex (M.get : M Document Document) := fun _ => rfl
theorem ofRes (f : Document → Res α) : KeepsIndex (M.ofRes f) := fun _ => rfl
theorem updElement (k : Nat) (f : ElementData → ElementData) : KeepsIndex (updElement k f) := by
  intro d
  show (d.elements.update k f).index = d.elements.index
  exact Store.update_index ..
theorem bind {m : M Document α} {f : α → M Document β} (h : KeepsIndex m) (h' : ∀ a, KeepsIndex (f a)) : KeepsIndex (m >>= f) := by
  intro d
  rw [M.run_bind]
  have := h d
  rcases hm : m d with ⟨_ | a, d'⟩
  · rw [hm] at this; exact this
  · rw [hm] at this; exact (h' a d').trans this
theorem mapErr (k : ErrKind) {m : M Document α} (h : KeepsIndex m) : KeepsIndex (M.mapErr k m) := by
  intro d
  have := h d
  unfold M.mapErr
  rcases hm : m d with ⟨e | a, d'⟩
  · rw [hm] at this; cases e <;> exact this
  · rw [hm] at this; exact this
theorem forEach {f : α → M Document Unit} : ∀ (l : List α), (∀ a ∈ l, KeepsIndex (f a)) → KeepsIndex (M.forEach f l)
  | [], _ => pure ()
  | a :: as, h => bind (h a (List.mem_cons_self ..)) fun _ => forEach as fun b hb => h b (List.mem_cons_of_mem _ hb)
theorem attachElement (p c : Nat) : KeepsIndex (attachElement p c) := by
  unfold Document.attachElement
  refine bind get fun d => ?_
  split
  · exact err _
  · refine bind get fun d => ?_
    split
    · exact err _
    · refine bind (updElement _ _) fun _ => bind (updElement _ _) fun _ => ?_
      split
      · exact updElement _ _
      · exact pure _
theorem postAdd (F key : Nat) (stack : Option (List Nat)) : KeepsIndex (postAdd F key stack) := by
  unfold Document.postAdd
  refine bind get fun d => ?_
  split
  · exact err _
  · split
    · split
      · exact err _
      · refine bind (ofRes _) fun _ => ?_
        split
        · exact err _
        · refine bind get fun _ => ?_
          split
          · exact err _
          · refine bind get fun _ => ?_
            split
            · exact throw _
            · exact updElement _ _
    · split
      · refine bind (ofRes _) fun _ => ?_
        split
        · exact updElement _ _
        · exact pure _
      · exact pure _
theorem pushData (stack : List Nat) (x : Data) : KeepsIndex (pushData stack x) := by
  unfold Folia.pushData
  split
  · exact updElement _ _
  · exact pure _
end KeepsIndex

/-! ### The state of the parser -/

/-- The method does not panic and, if it succeeds, takes documents with `P` to documents with `Q`. -/
def Fine {α : Type} (P : Document → Prop) (m : M Document α) (Q : α → Document → Prop) : Prop :=
  ∀ d, CInv d → P d → NoPanic (m d).1 ∧ ∀ a d', m d = (.ok a, d') → CInv d' ∧ Q a d'

namespace Fine
variable {α β : Type} {P : Document → Prop} {Q : α → Document → Prop} {R : β → Document → Prop}

theorem bind {m : M Document α} {f : α → M Document β} (h : Fine P m Q) (h' : ∀ a, Fine (Q a) (f a) R) : Fine P (m >>= f) R := by
  intro d hi hd
  obtain ⟨h1, h2⟩ := h d hi hd
  rw [M.run_bind]
  rcases hm : m d with ⟨e | a, d'⟩
  · rw [hm] at h1; exact ⟨h1.of_error, nofun⟩
  · obtain ⟨h3, h4⟩ := h2 a d' hm
    exact h' a d' h3 h4
theorem pure {a : α} (h : ∀ d, P d → Q a d) : Fine P (Pure.pure a : M Document α) Q := fun d hi hd => ⟨.ok _, fun _ _ he => by cases he; exact ⟨hi, h d hd⟩⟩
theorem err (k : ErrKind) : Fine P (M.err k : M Document α) Q := fun _ _ _ => ⟨.err k, nofun⟩
theorem mapErr (k : ErrKind) {m : M Document α} (h : Fine P m Q) : Fine P (M.mapErr k m) Q := by
  intro d hi hd
  obtain ⟨h1, h2⟩ := h d hi hd
  unfold M.mapErr
  rcases hm : m d with ⟨e | a, d'⟩
  · rw [hm] at h1
    cases e with
    | err _ => exact ⟨.err _, nofun⟩
    | panic => exact absurd rfl h1
    | fuel => exact ⟨.fuel, nofun⟩
  · rw [hm] at h2
    exact ⟨.ok _, fun b d'' hb => by cases hb; exact h2 a d' rfl⟩
theorem pre {P' : Document → Prop} {m : M Document α} (h : Fine P m Q) (hp : ∀ d, P' d → P d) : Fine P' m Q := fun d hi hd => h d hi (hp d hd)
theorem post {Q' : α → Document → Prop} {m : M Document α} (h : Fine P m Q) (hq : ∀ a d, Q a d → Q' a d) : Fine P m Q' := fun d hi hd =>
  have ⟨h1, h2⟩ := h d hi hd
  ⟨h1, fun a d' hm => ⟨(h2 a d' hm).1, hq _ _ (h2 a d' hm).2⟩⟩
end Fine

/-- The element has the type. -/
def TypeAt (d : Document) (k : Nat) (t : ElementType) : Prop := ∃ e, d.getElement k = some e ∧ e.elementtype = t

theorem TypeAt.steps {d d' : Document} (hs : Steps True d d') {k : Nat} {t : ElementType} (h : TypeAt d k t) : TypeAt d' k t := by
  obtain ⟨e, h1, h2⟩ := h
  obtain ⟨e', h3, h4⟩ := hs.element_forward k e h1
  exact ⟨e', h3, h4.1.trans h2⟩

/-- The elements have these types. -/
inductive Typed (d : Document) : List Nat → List ElementType → Prop
  | nil : Typed d [] []
  | cons {k : Nat} {t : ElementType} {ks : List Nat} {ts : List ElementType} : TypeAt d k t → Typed d ks ts → Typed d (k :: ks) (t :: ts)

theorem Typed.steps {d d' : Document} (hs : Steps True d d') {ks : List Nat} {ts : List ElementType} (h : Typed d ks ts) : Typed d' ks ts := by
  induction h with
  | nil => exact .nil
  | cons h _ ih => exact .cons (h.steps hs) ih

/-- The open elements have these types, and all identifiers have been seen. -/
structure PState (stack : List Nat) (ts : List ElementType) (seen : List String) (d : Document) : Prop where
  types : Typed d stack ts
  ids : ∀ i k, d.elements.index.find i = some k → i ∈ seen

theorem PState.tail {k : Nat} {t : ElementType} {stack : List Nat} {ts : List ElementType} {seen : List String} {d : Document}
    (h : PState (k :: stack) (t :: ts) seen d) : PState stack ts seen d := by
  obtain ⟨h1, h2⟩ := h
  cases h1 with
  | cons _ h1 => exact ⟨h1, h2⟩

theorem Fine.keeps {α : Type} {m : M Document α} {Q : α → Document → Prop} (hs : Safe (fun _ => True) m) (hd : Does True (fun _ => True) m Q) (hk : KeepsIndex m)
    (stack : List Nat) (ts : List ElementType) (seen : List String) : Fine (PState stack ts seen) m fun a d => PState stack ts seen d ∧ Q a d := by
  intro d hi hp
  refine ⟨hs d hi trivial, fun a d' hm => ?_⟩
  obtain ⟨h1, h2⟩ := hd d hi.ix trivial
  have h3 := hk d
  rw [hm] at h1 h2 h3
  exact ⟨(h1.clean hi).1, ⟨hp.types.steps h1, fun i k h => hp.ids i k (by rw [← h3]; exact h)⟩, h2 a rfl⟩

theorem fine_addElem {e : ElementData} {stack : List Nat} {ts : List ElementType} {seen : List String} (hc : CleanAttribs e.attribs)
    (hd : ∀ d, ∀ x ∈ e.data, DataLive d x) (hp : e.parent = none) (hf : ∀ i, e.id = some i → i ∉ seen)
    (hh : e.elementtype = .feature → ∀ t, ts.head? = some t → t.annotationtype.isSome) :
    Fine (PState stack ts seen) (addElem e stack.head?) fun k => PState (k :: stack) (e.elementtype :: ts) (e.id.toList ++ seen) := by
  intro d hi hs
  have hheld : HeldFeature d stack.head? e.elementtype := by
    intro ht p pe hpk hpe
    have h1 := hs.types
    cases h1 with
    | nil => cases hpk
    | cons h1 _ =>
      cases hpk
      obtain ⟨x, hx1, hx2⟩ := h1
      rw [hpe] at hx1
      cases hx1
      rw [hx2]
      exact hh ht _ rfl
  refine ⟨addElem_safe hc _ d hheld, fun k d' hm => ?_⟩
  have hst : Steps True d d' := by
    have := (Steps.single (Prim.addElem (C := True) d e stack.head? fun _ => ⟨hc, hd d, hp⟩))
    rw [hm] at this
    exact this
  have hfresh : ∀ id, e.id = some id → d.elementKeyById id = none := by
    intro id hid
    cases hk : d.elementKeyById id with
    | none => rfl
    | some k => exact absurd (hs.ids id k hk) (hf id hid)
  obtain ⟨_, _, _, h4, e', h5, h6⟩ := addElem_fresh hfresh hm
  refine ⟨(hst.clean hi).1, .cons ⟨_, by rw [h6, if_pos rfl], ?_⟩ (hs.types.steps hst), ?_⟩
  · have := encode_result e stack.head? d e' (by rw [h5])
    exact this.1
  · intro i k hk
    rcases h4 i k hk with h | h
    · exact List.mem_append_right _ (hs.ids i k h)
    · exact List.mem_append_left _ (by rw [h]; simp)

theorem fine_attach (p c : Nat) (stack : List Nat) (ts : List ElementType) (seen : List String) :
    Fine (PState stack ts seen) (attachElement p c) fun _ => PState stack ts seen :=
  (Fine.keeps (never_attachElement p c).safe (does_attachElement p c) (.attachElement p c) stack ts seen).post fun _ _ h => h.1

theorem fine_postAdd (F k : Nat) (st : Option (List Nat)) (stack : List Nat) (ts : List ElementType) (seen : List String) :
    Fine (PState stack ts seen) (postAdd F k st) fun _ => PState stack ts seen :=
  (Fine.keeps (postAdd_safe F k st) (does_postAdd F k st) (.postAdd F k st) stack ts seen).post fun _ _ h => h.1

theorem fine_pushData (x : Data) (hx : x.Textual) (stack : List Nat) (ts : List ElementType) (seen : List String) :
    Fine (PState stack ts seen) (pushData stack x) fun _ => PState stack ts seen := by
  refine (Fine.keeps (Never.safe ?_) (does_pushData stack x hx) (.pushData stack x) stack ts seen).post fun _ _ h => h.1
  unfold pushData
  split
  · exact Never.modify _
  · exact Never.pure _

theorem fine_shortcuts (key : Nat) (t : ElementType) (stack : List Nat) (ts : List ElementType) (seen : List String) : ∀ (cs : List ElementData),
    (∀ c ∈ cs, ∃ s v, c = shortcutFeature s v) → (cs ≠ [] → t.annotationtype.isSome) →
    Fine (PState (key :: stack) (t :: ts) seen) (addShortcuts key cs) fun _ => PState (key :: stack) (t :: ts) seen
  | [], _, _ => Fine.pure fun _ h => h
  | c :: cs, h, ht => by
    obtain ⟨s, v, rfl⟩ := h c (List.mem_cons_self ..)
    refine Fine.bind (Fine.bind (Q := fun _ => PState (key :: stack) (t :: ts) seen) ?_ fun ck => fine_attach key ck _ _ _) fun _ =>
      fine_shortcuts key t stack ts seen cs (fun c hc => h c (List.mem_cons_of_mem _ hc)) fun _ => ht nofun
    refine (fine_addElem (stack := key :: stack) (ts := t :: ts) (seen := seen) (e := shortcutFeature s v) ?_ ?_ rfl nofun ?_).post fun k d h => h.tail
    · intro a ha
      simp only [shortcutFeature, ElementData.withChildren, ElementData.withAttribs, ElementData.new, ElementData.push, List.foldl_cons,
        List.foldl_nil, List.mem_cons, List.not_mem_nil, or_false] at ha
      rcases ha with rfl | rfl <;> rfl
    · intro d x hx
      simp only [shortcutFeature, ElementData.withChildren, ElementData.withAttribs, ElementData.new, ElementData.push, List.foldl_cons,
        List.foldl_nil, List.nil_append, List.mem_cons, List.not_mem_nil, or_false] at hx
      subst hx; trivial
    · intro _ t' ht'
      cases ht'
      exact ht nofun

/-! ### Tags -/

/-- No attribute is malformed, and all values can be unescaped. -/
def SoundAttrs (as : List RAttr) : Prop := ∀ a ∈ as, ∃ k v u, a = .ok k v ∧ unescape v = some u

theorem shortcut_annotated : ∀ t : ElementType, ((props t).acceptedData.any fun
    | .type a => ElementGroup.feature.contains a && (props a).subset.isSome
    | .group _ => false) = true → t.annotationtype.isSome = true := by intro t; cases t <;> decide

theorem featureShortcut_annotated {t : ElementType} {k s : String} (h : featureShortcut t k = some s) : t.annotationtype.isSome = true := by
  refine shortcut_annotated t ?_
  unfold featureShortcut at h
  obtain ⟨a, ha, h⟩ := List.exists_of_findSome?_eq_some h
  rw [List.any_eq_true]
  refine ⟨a, ha, ?_⟩
  cases a with
  | group g => cases h
  | type a =>
    simp only at h ⊢
    split at h
    · rename_i hf
      cases hs : (props a).subset with
      | none => rw [hs] at h; cases h
      | some s => rw [hf]; rfl
    · cases h

theorem parseAttributes_safe {X : Ext} {t : ElementType} {as : List RAttr} (h : SoundAttrs as) : NoPanic (parseAttributes X t as) := by
  induction as with
  | nil => exact .ok _
  | cons a as ih =>
    obtain ⟨k, v, u, rfl, hu⟩ := h a (List.mem_cons_self ..)
    have ih := ih fun b hb => h b (List.mem_cons_of_mem _ hb)
    simp only [parseAttributes, hu]
    split
    · exact ih.map
    · split
      · exact ih.map
      · exact .err _

theorem asParseError_safe {α : Type} {r : Res α} (h : NoPanic r) : NoPanic (asParseError r) := by
  cases r with
  | ok a => exact .ok a
  | error f => cases f with
    | err k => exact .err _
    | panic => exact absurd rfl h
    | fuel => exact .fuel

theorem parseElementTag_safe {X : Ext} {tag : String} {as : List RAttr} (h : SoundAttrs as) : NoPanic (parseElementTag X tag as) := by
  unfold parseElementTag
  split
  · exact .err _
  · exact (asParseError_safe (parseAttributes_safe h)).map

theorem parseAttributes_shortcuts {X : Ext} {t : ElementType} {as : List RAttr} {r : List Attribute × List ElementData} (h : parseAttributes X t as = .ok r)
    (hr : r.2 ≠ []) : t.annotationtype.isSome = true := by
  induction as generalizing r with
  | nil => cases h; exact absurd rfl hr
  | cons a as ih =>
    cases a with
    | bad => cases h
    | ok k v =>
      simp only [parseAttributes] at h
      split at h
      · cases h
      · split at h
        · cases hp : parseAttributes X t as with
          | error f => rw [hp] at h; cases h
          | ok r' => rw [hp] at h; cases h; exact ih hp hr
        · split at h
          · rename_i hs
            exact featureShortcut_annotated hs
          · cases h

theorem parseElementTag_shortcuts {X : Ext} {tag : String} {as : List RAttr} {r : ElementData × List ElementData}
    (h : asParseError (parseElementTag X tag as) = .ok r) (hr : r.2 ≠ []) : r.1.elementtype.annotationtype.isSome = true := by
  have h := asParseError_ok h
  unfold parseElementTag at h
  split at h
  · cases h
  · rename_i t _
    cases hp : parseAttributes X t as with
    | error f => rw [hp] at h; cases f <;> cases h
    | ok r' =>
      rw [hp] at h
      cases h
      exact parseAttributes_shortcuts hp hr

/-! ### The body -/

/-- A tag with an identifier that was not seen before, and no feature directly in an element without annotation type. -/
def TagPlaced (ts : List ElementType) (seen : List String) (e : ElementData) : Prop :=
  (∀ i, e.id = some i → i ∉ seen) ∧ (e.elementtype = .feature → ∀ t, ts.head? = some t → t.annotationtype.isSome)

/-- All attributes of all tags are sound. -/
def SoundTags (evs : List REvent) : Prop := ∀ ns tag as, (.start ns tag as ∈ evs ∨ .empty ns tag as ∈ evs) → SoundAttrs as

theorem SoundTags.tail {ev : REvent} {evs : List REvent} (h : SoundTags (ev :: evs)) : SoundTags evs :=
  fun ns tag as ht => h ns tag as (ht.imp (List.mem_cons_of_mem _) (List.mem_cons_of_mem _))

/-- Identifiers are used once, and features are not directly in elements without annotation type. The list of types is that of the open elements, the list
of strings that of the identifiers before. -/
def TagsPlaced (X : Ext) : List REvent → List ElementType → List String → Prop
  | [], _, _ => True
  | .start .folia tag as :: rest, ts, seen => match parseElementTag X tag as with
    | .ok (e, _) => TagPlaced ts seen e ∧ TagsPlaced X rest (e.elementtype :: ts) (e.id.toList ++ seen)
    | .error _ => True
  | .empty .folia tag as :: rest, ts, seen => match parseElementTag X tag as with
    | .ok (e, _) => TagPlaced ts seen e ∧ TagsPlaced X rest ts (e.id.toList ++ seen)
    | .error _ => True
  | .endTag .folia _ :: rest, ts, seen => TagsPlaced X rest ts.tail seen
  | _ :: rest, ts, seen => TagsPlaced X rest ts seen

theorem fine_tag {X : Ext} {tag : String} {as : List RAttr} {stack : List Nat} {ts : List ElementType} {seen : List String} (hr : SoundAttrs as)
    {β : Type} {f : ElementData × List ElementData → M Document β} {R : β → Document → Prop}
    (h : ∀ e cs, parseElementTag X tag as = .ok (e, cs) → Fine (PState stack ts seen) (f (e, cs)) R) :
    Fine (PState stack ts seen) ((M.ofRes fun _ => asParseError (parseElementTag X tag as)) >>= f) R := by
  have hn := asParseError_safe (parseElementTag_safe (X := X) (tag := tag) hr)
  intro d hi hs
  rw [M.run_bind]
  cases hp : asParseError (parseElementTag X tag as) with
  | error e =>
    rw [hp] at hn
    exact ⟨hn.of_error, nofun⟩
  | ok r =>
    exact h r.1 r.2 (asParseError_ok hp) d hi hs

theorem fine_startTag {X : Ext} {tag : String} {as : List RAttr} {stack : List Nat} {ts : List ElementType} {seen : List String} (hr : SoundAttrs as)
    (h : ∀ e cs, parseElementTag X tag as = .ok (e, cs) → TagPlaced ts seen e) {R : Nat → Document → Prop}
    (hR : ∀ e cs, parseElementTag X tag as = .ok (e, cs) → ∀ k d, PState (k :: stack) (e.elementtype :: ts) (e.id.toList ++ seen) d → R k d) :
    Fine (PState stack ts seen) (startTag X tag as stack) R := by
  unfold startTag
  refine fine_tag hr fun e cs he => ?_
  have he' : asParseError (parseElementTag X tag as) = .ok (e, cs) := by rw [he]; rfl
  obtain ⟨h1, h2, h3, h4⟩ := parseElementTag_clean he'
  simp only at h1 h2 h3 h4 ⊢
  obtain ⟨h5, h6⟩ := h e cs he
  refine Fine.bind (Fine.mapErr _ (fine_addElem h1 (by simp [h2]) h3 h5 h6)) fun key => ?_
  refine Fine.bind (fine_shortcuts key e.elementtype stack ts _ cs h4 fun hne => parseElementTag_shortcuts he' hne) fun _ => ?_
  exact Fine.pure fun d hd => hR e cs he key d hd

theorem fine_emptyTag {X : Ext} {F : Nat} {tag : String} {as : List RAttr} {stack : List Nat} {ts : List ElementType} {seen : List String} (hr : SoundAttrs as)
    (h : ∀ e cs, parseElementTag X tag as = .ok (e, cs) → TagPlaced ts seen e) {R : Document → Prop}
    (hR : ∀ e cs, parseElementTag X tag as = .ok (e, cs) → ∀ d, PState stack ts (e.id.toList ++ seen) d → R d) :
    Fine (PState stack ts seen) (emptyTag X F tag as stack) fun _ => R := by
  unfold emptyTag
  refine fine_tag hr fun e cs he => ?_
  have he' : asParseError (parseElementTag X tag as) = .ok (e, cs) := by rw [he]; rfl
  obtain ⟨h1, h2, h3, h4⟩ := parseElementTag_clean he'
  simp only at h1 h2 h3 h4 ⊢
  obtain ⟨h5, h6⟩ := h e cs he
  refine Fine.bind (Fine.mapErr _ (fine_addElem h1 (by simp [h2]) h3 h5 h6)) fun key => ?_
  have hend : Fine (PState (key :: stack) (e.elementtype :: ts) (e.id.toList ++ seen)) (do
      addShortcuts key cs
      postAdd F key (some stack)) fun _ => R :=
    Fine.bind (fine_shortcuts key e.elementtype stack ts _ cs h4 fun hne => parseElementTag_shortcuts he' hne) fun _ =>
      (fine_postAdd F key _ _ _ _).post fun _ d hd => hR e cs he d hd.tail
  split
  · exact Fine.bind (fine_attach _ _ _ _ _) fun _ => hend
  · exact hend

theorem fine_closeTag (F : Nat) (tag : String) (key : Nat) (below stack : List Nat) (ts : List ElementType) (seen : List String) :
    Fine (PState stack ts seen) (closeTag F tag key below) fun _ => PState stack ts seen := by
  unfold closeTag
  refine Fine.bind (fine_postAdd F key _ _ _ _) fun _ => ?_
  refine Fine.bind (Q := fun _ => PState stack ts seen) (fun d hi hd => ⟨.ok _, fun a d' he => by cases he; exact ⟨hi, hd⟩⟩) fun d0 => ?_
  split
  · exact Fine.err _
  · split
    · exact Fine.err _
    · split
      · exact Fine.err _
      · split
        · exact fine_attach _ _ _ _ _
        · exact Fine.pure fun _ h => h

theorem fine_parseElements (X : Ext) (F : Nat) : ∀ (evs : List REvent) (stack : List Nat) (ts : List ElementType) (seen : List String), SoundTags evs → TagsPlaced X evs ts seen →
    Fine (PState stack ts seen) (parseElements X F evs stack) fun _ _ => True := by
  intro evs
  induction evs with
  | nil => exact fun _ _ _ _ _ => Fine.pure fun _ _ => trivial
  | cons ev rest ih =>
    intro stack ts seen hs h
    have ih := fun stack ts seen h => ih stack ts seen hs.tail h
    have guarded : ∀ (b : Bool) (x : Data), x.Textual → TagsPlaced X rest ts seen → Fine (PState stack ts seen) (do
        if b then pushData stack x
        parseElements X F rest stack) fun _ _ => True := by
      intro b x hx h
      cases b
      · exact ih stack ts seen h
      · exact Fine.bind (fine_pushData x hx stack ts seen) fun _ => ih stack ts seen h
    cases ev with
    | error => exact Fine.err _
    | other => exact ih stack ts seen h
    | empty ns tag as =>
      simp only [parseElements]
      split
      · rename_i hns
        subst hns
        have h1 := hs _ _ _ (Or.inr (List.mem_cons_self ..))
        have h2 := h
        simp only [TagsPlaced] at h2
        refine Fine.bind (fine_emptyTag (R := fun d => ∃ e cs, parseElementTag X tag as = .ok (e, cs) ∧ PState stack ts (e.id.toList ++ seen) d) h1 (fun e cs he => ?_)
          (fun e cs he d hd => ⟨e, cs, he, hd⟩)) fun _ d hi ⟨e, cs, he, hd⟩ => ?_
        · rw [he] at h2; exact h2.1
        · rw [he] at h2; exact ih stack ts _ h2.2 d hi hd
      · rename_i hns
        cases ns with
        | folia => exact absurd rfl hns
        | _ => exact ih stack ts seen h
    | start ns tag as =>
      simp only [parseElements]
      split
      · rename_i hns
        subst hns
        have h1 := hs _ _ _ (Or.inl (List.mem_cons_self ..))
        have h2 := h
        simp only [TagsPlaced] at h2
        refine Fine.bind (fine_startTag (R := fun k d => ∃ e cs, parseElementTag X tag as = .ok (e, cs) ∧ PState (k :: stack) (e.elementtype :: ts) (e.id.toList ++ seen) d)
          h1 (fun e cs he => ?_) (fun e cs he k d hd => ⟨e, cs, he, hd⟩)) fun key d hi ⟨e, cs, he, hd⟩ => ?_
        · rw [he] at h2; exact h2.1
        · rw [he] at h2; exact ih (key :: stack) _ _ h2.2 d hi hd
      · rename_i hns
        cases ns with
        | folia => exact absurd rfl hns
        | _ => exact ih stack ts seen h
    | endTag ns tag =>
      simp only [parseElements]
      split
      · rename_i hns
        subst hns
        split
        · rename_i key parent below
          refine Fine.bind (fine_closeTag F tag key (parent :: below) _ ts seen) fun _ d hi hd => ?_
          have ht := hd.types
          cases ht with
          | cons _ _ => exact ih (parent :: below) _ seen h d hi hd.tail
        · exact Fine.pure fun _ _ => trivial
      · rename_i hns
        cases ns with
        | folia => exact absurd rfl hns
        | _ => exact ih stack ts seen h
    | text s =>
      simp only [parseElements]
      split
      · exact Fine.err _
      · exact guarded _ _ trivial h
    | cdata s => simp only [parseElements]; exact guarded _ _ trivial h
    | comment s => simp only [parseElements]; exact guarded _ _ trivial h

/-! ### Root and metadata -/

theorem forAttrs_safe {σ : Type} (f : String → String → σ → σ) {as : List RAttr} (h : SoundAttrs as) : ∀ s, NoPanic (forAttrs f as s) := by
  induction as with
  | nil => exact fun _ => .ok _
  | cons a as ih =>
    intro s
    obtain ⟨k, v, u, rfl, hu⟩ := h a (List.mem_cons_self ..)
    simp only [forAttrs, hu]
    exact ih (fun b hb => h b (List.mem_cons_of_mem _ hb)) _

theorem rootAttrs_safe {as : List RAttr} (h : SoundAttrs as) : ∀ d, NoPanic (rootAttrs d as) := by
  induction as with
  | nil => exact fun _ => .ok _
  | cons a as ih =>
    intro d
    obtain ⟨k, v, u, rfl, hu⟩ := h a (List.mem_cons_self ..)
    have ih := ih (fun b hb => h b (List.mem_cons_of_mem _ hb))
    simp only [rootAttrs, hu]
    repeat' split
    all_goals exact ih _

theorem parseRoot_safe {evs : List REvent} (h : SoundTags evs) (d : Document) : NoPanic (parseRoot d evs) := by
  induction evs with
  | nil => exact .err _
  | cons ev rest ih =>
    cases ev with
    | error => exact .err _
    | start ns tag as =>
      simp only [parseRoot]
      split
      · exact (rootAttrs_safe (h _ _ _ (Or.inl (List.mem_cons_self ..))) d).map
      · exact .err _
    | _ => exact ih h.tail

theorem parseProcessor_safe {as : List RAttr} (h : SoundAttrs as) : ∀ p, NoPanic (parseProcessor p as) := by
  induction as with
  | nil => exact fun _ => .ok _
  | cons a as ih =>
    intro p
    obtain ⟨k, v, u, rfl, hu⟩ := h a (List.mem_cons_self ..)
    simp only [parseProcessor, hu]
    split
    · exact ih (fun b hb => h b (List.mem_cons_of_mem _ hb)) _
    · exact .err _

theorem parseDeclaration_safe {tag : String} {as : List RAttr} (h : SoundAttrs as) : NoPanic (parseDeclaration tag as) := by
  unfold parseDeclaration
  refine NoPanic.bind ?_ fun t _ => forAttrs_safe _ h _
  unfold getDeclarationType
  simp only
  split
  · exact .okOr _ _
  · exact .err _

theorem runDoc_safe {α : Type} {m : M Document α} (h : Never m) (d : Document) : NoPanic (runDoc m d) := by
  have := h d
  unfold runDoc
  rcases hm : m d with ⟨f | a, d'⟩
  · rw [hm] at this; exact this.of_error
  · exact .ok _

theorem never_addParsedProcessor (st : MetaSt) (p : Processor) : Never (addParsedProcessor st p) := by
  unfold addParsedProcessor
  refine Never.mapErr _ ?_
  split
  · exact never_addProcessor _
  · exact never_addSubprocessor _ _

theorem metaEmpty_safe {d : Document} {st : MetaSt} {ns : Ns} {tag : String} {as : List RAttr} (h : SoundAttrs as) : NoPanic (metaEmpty d st ns tag as) := by
  unfold metaEmpty
  split
  · exact NoPanic.bind (asParseError_safe (parseProcessor_safe h _)) fun p _ => NoPanic.bind (runDoc_safe (never_addParsedProcessor st p) d) fun _ _ => .ok _
  · split
    · refine NoPanic.bind (forAttrs_safe _ h _) fun pid _ => ?_
      split <;> exact .ok _
    · exact .ok _

theorem metaStart_safe {d : Document} {st : MetaSt} {ns : Ns} {tag : String} {as : List RAttr} (h : SoundAttrs as) : NoPanic (metaStart d st ns tag as) := by
  unfold metaStart
  split
  · split
    · exact NoPanic.bind (forAttrs_safe _ h _) fun _ _ => .ok _
    · split
      · exact .ok _
      · split
        · exact .ok _
        · split
          · refine NoPanic.bind (forAttrs_safe _ h _) fun st' _ => ?_
            split
            · exact .err _
            · exact .ok _
          · split
            · exact NoPanic.bind (forAttrs_safe _ h _) fun _ _ => .ok _
            · split
              · exact NoPanic.bind (asParseError_safe (parseProcessor_safe h _)) fun p _ => NoPanic.bind (runDoc_safe (never_addParsedProcessor st p) d) fun _ _ => .ok _
              · split
                · exact NoPanic.bind (asParseError_safe (parseDeclaration_safe h)) fun dec _ =>
                    NoPanic.bind (runDoc_safe (Never.mapErr _ (never_addDeclaration dec)) d) fun _ _ => .ok _
                · exact .err _
  · exact .err _

theorem parseMeta_safe {evs : List REvent} (h : SoundTags evs) : ∀ d st, NoPanic (parseMeta d st evs) := by
  induction evs with
  | nil => exact fun _ _ => .err _
  | cons ev rest ih =>
    intro d st
    have ih := ih h.tail
    cases ev with
    | error => exact .err _
    | empty ns tag as =>
      have := metaEmpty_safe (d := d) (st := st) (ns := ns) (tag := tag) (h _ _ _ (Or.inr (List.mem_cons_self ..)))
      simp only [parseMeta]
      split
      · exact ih _ _
      · rename_i hm; rw [hm] at this; exact this.of_error
    | start ns tag as =>
      have := metaStart_safe (d := d) (st := st) (ns := ns) (tag := tag) (h _ _ _ (Or.inl (List.mem_cons_self ..)))
      simp only [parseMeta]
      split
      · exact ih _ _
      · rename_i hm; rw [hm] at this; exact this.of_error
    | text s =>
      simp only [parseMeta]
      split
      · exact ih _ _
      · exact .err _
    | endTag ns tag =>
      simp only [parseMeta]
      split
      · exact .ok _
      · exact ih _ _
    | cdata s => exact ih _ _
    | comment s => exact ih _ _
    | other => exact ih _ _

theorem bodyOf_safe {X : Ext} {t : ElementType} {as : List RAttr} (h : SoundAttrs as) : NoPanic (bodyOf X t as) := by
  have := parseAttributes_safe (X := X) (t := t) h
  unfold bodyOf
  cases hp : parseAttributes X t as with
  | ok r => exact .ok _
  | error f => cases f with
    | err k => exact .ok _
    | panic => exact absurd hp this
    | fuel => exact .fuel

theorem parseBody_safe {X : Ext} {evs : List REvent} (h : SoundTags evs) : NoPanic (parseBody X evs) := by
  induction evs with
  | nil => exact .err _
  | cons ev rest ih =>
    cases ev with
    | error => exact .err _
    | start ns tag as =>
      have ha := h _ _ _ (Or.inl (List.mem_cons_self ..))
      simp only [parseBody]
      split
      · exact (bodyOf_safe ha).map
      · split
        · exact (bodyOf_safe ha).map
        · exact .err _
    | _ => exact ih h.tail

theorem bodyOf_tag {X : Ext} {t : ElementType} {tag : String} (ht : ElementType.fromStr tag = some t) {as : List RAttr} {b : ElementData} (h : bodyOf X t as = .ok (some b)) :
    ∃ cs, parseElementTag X tag as = .ok (b, cs) ∧ b.elementtype = t := by
  unfold bodyOf at h
  split at h
  · rename_i as' cs hp
    cases h
    refine ⟨cs, ?_, rfl⟩
    exact (by unfold parseElementTag; rw [ht]; simp only [hp]; rfl)
  · cases h
  · cases h

theorem parseBody_tag {X : Ext} : ∀ {evs : List REvent} {b : ElementData} {rest : List REvent}, parseBody X evs = .ok (some b, rest) →
    ∃ gap tag as cs, evs = gap ++ .start .folia tag as :: rest ∧ (∀ ev ∈ gap, isStart ev = false) ∧ parseElementTag X tag as = .ok (b, cs) ∧ b.elementtype ≠ .feature
  | [], _, _, h => by cases h
  | ev :: evs, b, rest, h => by
    have go : isStart ev = false → parseBody X evs = .ok (some b, rest) → ∃ gap tag as cs, ev :: evs = gap ++ .start .folia tag as :: rest ∧
        (∀ ev ∈ gap, isStart ev = false) ∧ parseElementTag X tag as = .ok (b, cs) ∧ b.elementtype ≠ .feature := by
      intro hs h
      obtain ⟨gap, tag, as, cs, h1, h2, h3⟩ := parseBody_tag h
      exact ⟨ev :: gap, tag, as, cs, by rw [h1]; rfl, List.forall_mem_cons.mpr ⟨hs, h2⟩, h3⟩
    cases ev with
    | error => cases h
    | start ns tag as =>
      simp only [parseBody] at h
      split at h
      · rename_i hc
        obtain ⟨rfl, rfl⟩ := hc
        cases hb : bodyOf X .text as with
        | error f => rw [hb] at h; cases h
        | ok o =>
          rw [hb] at h
          cases h
          obtain ⟨cs, hcs, ht⟩ := bodyOf_tag (tag := "text") (by decide) hb
          exact ⟨[], "text", as, cs, rfl, nofun, hcs, by rw [ht]; decide⟩
      · split at h
        · rename_i hc
          obtain ⟨rfl, rfl⟩ := hc
          cases hb : bodyOf X .speech as with
          | error f => rw [hb] at h; cases h
          | ok o =>
            rw [hb] at h
            cases h
            obtain ⟨cs, hcs, ht⟩ := bodyOf_tag (tag := "speech") (by decide) hb
            exact ⟨[], "speech", as, cs, rfl, nofun, hcs, by rw [ht]; decide⟩
        · cases h
    | _ => exact go rfl h

/-! ### The document -/

theorem keepsIndex_of {α : Type} {m : M Document α} (h : KeepsElements m) : KeepsIndex m := fun d => by rw [h d]

theorem fine_parseRest {X : Ext} {F : Nat} {ps : DocumentProperties} (hps : ∀ p, ps.processor = some p → CleanProc p) {body : ElementData}
    (hb : CleanAttribs body.attribs ∧ body.data = [] ∧ body.parent = none) (hbf : body.elementtype ≠ .feature) {evs : List REvent} (hs : SoundTags evs)
    (ht : TagsPlaced X evs [body.elementtype] body.id.toList) : Fine (fun d => d.elements = {}) (parseRest X F ps body evs) fun _ _ => True := by
  unfold parseRest
  refine Fine.bind (Q := fun _ => PState [0] [body.elementtype] body.id.toList) (Fine.mapErr _ ?_) fun _ => ?_
  · intro d hi hd
    have hp : PState [] [] [] d := ⟨.nil, fun i k h => by rw [hd] at h; cases h⟩
    obtain ⟨h1, h2⟩ := fine_addElem (stack := []) (ts := []) (seen := []) hb.1 (by simp [hb.2.1]) hb.2.2 (fun _ _ h => nomatch h) (fun h => absurd h hbf) d hi hp
    refine ⟨h1, fun k d' hm => ?_⟩
    obtain ⟨h3, h4⟩ := h2 k d' hm
    have hk : k = 0 := by
      have := (addElem_fresh (fun id _ => by unfold Document.elementKeyById Store.idToKey; rw [hd]; rfl) hm).1
      rw [this, hd]
      rfl
    rw [List.append_nil, hk] at h4
    exact ⟨h3, h4⟩
  · refine Fine.bind (Q := fun _ => PState [0] [body.elementtype] body.id.toList) (Fine.mapErr _ ((Fine.keeps (never_applyProperties ps).safe
      (does_applyProperties ps fun _ => hps) (keepsIndex_of (.applyProperties ps)) _ _ _).post fun _ _ h => h.1)) fun _ => ?_
    refine Fine.bind (Q := fun _ => PState [0] [body.elementtype] body.id.toList) (fun d hi hd => ⟨.ok _, fun a d' he => by cases he; exact ⟨hi, hd⟩⟩) fun d0 => ?_
    split
    · exact Fine.err _
    · exact fine_parseElements X F evs [0] _ _ hs ht

end Folia
