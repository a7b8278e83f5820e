import Verif.Lemmas.Decompose
/-! Creating and parsing a document decomposes into elementary transitions, so every reachable document is reached by them. -/
namespace Folia
variable {C : Prop}
open Document

theorem Does.pull {α : Type} {P : Document → Prop} {m : M Document α} {Q : α → Document → Prop} {p : Prop} (hp : ∀ d, P d → p)
    (h : p → Does C P m Q) : Does C P m Q := fun d hi hd => h (hp d hd) d hi hd

/-- Run a document method and keep the steps. -/
theorem runDoc_steps {α : Type} {m : M Document α} {Q : α → Document → Prop} (h : Does C (fun _ => True) m Q) {d d' : Document} {a : α}
    (hi : IxOk d) (hr : runDoc m d = .ok (a, d')) : Steps C d d' ∧ Q a d' := by
  unfold runDoc at hr
  obtain ⟨h1, h2⟩ := h d hi trivial
  rcases hm : m d with ⟨f | b, d''⟩
  · rw [hm] at hr; cases hr
  · rw [hm] at hr h1 h2
    cases hr
    exact ⟨h1, h2 a rfl⟩

/-- Every value of the option satisfies `P`. -/
def AllSome {α : Type} (P : α → Prop) (o : Option α) : Prop := ∀ a, o = some a → P a

theorem AllSome.ite {α : Type} {P : α → Prop} {c : Prop} [Decidable c] {x y : Option α} (hx : AllSome P x) (hy : AllSome P y) :
    AllSome P (if c then x else y) := by split <;> assumption
theorem AllSome.some {α : Type} {P : α → Prop} {a : α} (h : P a) : AllSome P (some a) := by rintro _ ⟨⟩; exact h
theorem AllSome.none {α : Type} {P : α → Prop} : AllSome P none := by rintro _ ⟨⟩
theorem AllSome.map {α β : Type} {P : α → Prop} {f : β → α} (h : ∀ x, P (f x)) (o : Option β) : AllSome P (o.map f) := by
  cases o
  · exact AllSome.none
  · exact AllSome.some (h _)

theorem Attribute.parse_clean {X : Ext} {k v : String} {a : Attribute} (h : Attribute.parse X k v = some a) : a.decodable = false := by
  suffices AllSome (fun a => Attribute.decodable a = false) (Attribute.parse X k v) from this a h
  unfold Attribute.parse
  repeat' apply AllSome.ite
  all_goals first
    | exact AllSome.some rfl
    | exact AllSome.none
    | (apply AllSome.map; intro _; rfl)

/-- The attributes and shortcut children that the parser makes have no encoded references. -/
theorem parseAttributes_clean {X : Ext} {t : ElementType} {as : List RAttr} {r : List Attribute × List ElementData}
    (h : parseAttributes X t as = .ok r) :
    CleanAttribs r.1 ∧ ∀ c ∈ r.2, ∃ s v, c = shortcutFeature s v := by
  induction as generalizing r with
  | nil => cases h; exact ⟨by simp [CleanAttribs], by simp⟩
  | cons x xs ih =>
    cases x with
    | bad => cases h
    | ok k v =>
      simp only [parseAttributes] at h
      split at h
      · cases h
      · split at h
        · rename_i a ha
          cases hr : parseAttributes X t xs with
          | error f => rw [hr] at h; cases h
          | ok r' =>
            rw [hr] at h; cases h
            refine ⟨?_, (ih hr).2⟩
            intro b hb
            rcases List.mem_cons.mp hb with rfl | hb
            · exact Attribute.parse_clean ha
            · exact (ih hr).1 b hb
        · split at h
          · rename_i s hs
            cases hr : parseAttributes X t xs with
            | error f => rw [hr] at h; cases h
            | ok r' =>
              rw [hr] at h; cases h
              refine ⟨(ih hr).1, ?_⟩
              intro c hc
              rcases List.mem_cons.mp hc with rfl | hc
              · exact ⟨_, _, rfl⟩
              · exact (ih hr).2 c hc
          · cases h

theorem parseElementTag_clean {X : Ext} {tag : String} {as : List RAttr} {r : ElementData × List ElementData}
    (h : asParseError (parseElementTag X tag as) = .ok r) :
    CleanAttribs r.1.attribs ∧ r.1.data = [] ∧ r.1.parent = none ∧ ∀ c ∈ r.2, ∃ s v, c = shortcutFeature s v := by
  unfold parseElementTag at h
  split at h
  · cases h
  · rename_i t _
    cases hp : parseAttributes X t as with
    | error f =>
      rw [hp] at h
      cases f <;> cases h
    | ok r' =>
      rw [hp] at h
      cases h
      exact ⟨(parseAttributes_clean hp).1, rfl, rfl, (parseAttributes_clean hp).2⟩

theorem does_addElemClean {e : ElementData} (ctx : Option Nat) (h1 : CleanAttribs e.attribs) (h2 : ∀ d, ∀ x ∈ e.data, DataLive d x)
    (h3 : e.parent = none) : Does C (fun _ => True) (addElem e ctx) fun k d => d.Live k :=
  (does_addElem e ctx).pre fun d _ _ => ⟨h1, h2 d, h3⟩

theorem does_shortcuts (key : Nat) (cs : List ElementData) (h : ∀ c ∈ cs, ∃ s v, c = shortcutFeature s v) :
    Does C (fun _ => True) (addShortcuts key cs) fun _ _ => True := by
  unfold addShortcuts
  refine Does.forEach _ fun c hc => ?_
  obtain ⟨s, v, rfl⟩ := h c hc
  refine Does.bind (does_addElemClean _ ?_ ?_ rfl) fun ck => (does_attachElement key ck).skip
  · intro a ha
    simp only [shortcutFeature, ElementData.withChildren, ElementData.withAttribs, ElementData.new, ElementData.push, List.foldl_cons,
      List.foldl_nil, List.mem_cons, List.not_mem_nil, or_false] at ha
    rcases ha with rfl | rfl <;> rfl
  · intro d x hx
    simp only [shortcutFeature, ElementData.withChildren, ElementData.withAttribs, ElementData.new, ElementData.push, List.foldl_cons,
      List.foldl_nil, List.nil_append, List.mem_cons, List.not_mem_nil, or_false] at hx
    subst hx; trivial

theorem does_emptyTag (X : Ext) (F : Nat) (tag : String) (as : List RAttr) (stack : List Nat) :
    Does C (fun _ => True) (emptyTag X F tag as stack) fun _ _ => True := by
  unfold emptyTag
  refine Does.bind (Does.ofRes _) fun r => ?_
  obtain ⟨elem, children⟩ := r
  refine Does.pull (fun d hd => parseElementTag_clean hd.1) fun ⟨h1, h2, h3, h4⟩ => ?_
  simp only at h1 h2 h3 h4 ⊢
  refine Does.bind (Does.mapErr _ (does_addElemClean _ h1 (by simp [h2]) h3)).skip fun key => ?_
  have hrest : Does C (fun _ => True) (do
      addShortcuts key children
      Document.postAdd F key (some stack)) fun _ _ => True :=
    Does.bind (does_shortcuts key _ h4) fun _ => does_postAdd F key _
  split
  · exact Does.bind (does_attachElement _ _).skip fun _ => hrest
  · exact hrest.skip

theorem does_startTag (X : Ext) (tag : String) (as : List RAttr) (stack : List Nat) :
    Does C (fun _ => True) (startTag X tag as stack) fun k d => d.Live k := by
  unfold startTag
  refine Does.bind (Does.ofRes _) fun r => ?_
  obtain ⟨elem, children⟩ := r
  refine Does.pull (fun d hd => parseElementTag_clean hd.1) fun ⟨h1, h2, h3, h4⟩ => ?_
  simp only at h1 h2 h3 h4 ⊢
  refine Does.bind (Does.mapErr _ (does_addElemClean _ h1 (by simp [h2]) h3)).skip fun key => ?_
  refine Does.pre (P := fun d => True ∧ d.Live key) (Does.bindK (Stable.live key) (does_shortcuts key _ h4) fun _ => ?_) fun _ h => ⟨trivial, h⟩
  exact Does.pure fun _ h => h.2

theorem does_closeTag (F : Nat) (tag : String) (key : Nat) (stack : List Nat) :
    Does C (fun _ => True) (closeTag F tag key stack) fun _ _ => True := by
  unfold closeTag
  refine Does.bind (does_postAdd F key _) fun _ => Does.getBind fun d0 => ?_
  split
  · exact Does.err _
  · split
    · exact Does.err _
    · split
      · exact Does.err _
      · split
        · exact (does_attachElement _ _).skip
        · exact Does.pure fun _ _ => trivial

theorem does_pushData (stack : List Nat) (x : Data) (h : x.Textual) : Does C (fun _ => True) (pushData stack x) fun _ _ => True := by
  unfold pushData
  split
  · exact Does.modify (fun d _ => Prim.pushText d _ x h) fun _ _ => trivial
  · exact Does.pure fun _ _ => trivial

theorem does_parseElements (X : Ext) (F : Nat) (evs : List REvent) :
    ∀ stack, Does C (fun _ => True) (parseElements X F evs stack) fun _ _ => True := by
  induction evs with
  | nil => exact fun _ => Does.pure fun _ _ => trivial
  | cons ev rest ih =>
    intro stack
    have guarded : ∀ (b : Bool) (x : Data), x.Textual → Does C (fun _ => True) (do
        if b then pushData stack x
        parseElements X F rest stack) fun _ _ => True := by
      intro b x hx
      cases b
      · exact ih stack
      · exact Does.bind (does_pushData stack x hx) fun _ => ih stack
    cases ev with
    | error => exact Does.err _
    | other => exact ih stack
    | empty ns tag as =>
      simp only [parseElements]
      split
      · exact Does.bind (does_emptyTag X F tag as stack) fun _ => ih stack
      · exact ih stack
    | start ns tag as =>
      simp only [parseElements]
      split
      · exact Does.bind (does_startTag X tag as stack) fun _ => (ih _).skip
      · exact ih stack
    | endTag ns tag =>
      simp only [parseElements]
      split
      · split
        · exact Does.bind (does_closeTag F tag _ _) fun _ => ih _
        · exact Does.pure fun _ _ => trivial
      · exact ih stack
    | text s =>
      simp only [parseElements]
      split
      · exact Does.err _
      · exact guarded _ _ trivial
    | cdata s => simp only [parseElements]; exact guarded _ _ trivial
    | comment s => simp only [parseElements]; exact guarded _ _ trivial

theorem does_parseRest (X : Ext) (F : Nat) (ps : DocumentProperties) (hps : C → ∀ p, ps.processor = some p → CleanProc p)
    (body : ElementData) (hb : CleanAttribs body.attribs ∧ body.data = [] ∧ body.parent = none) (evs : List REvent) :
    Does C (fun _ => True) (parseRest X F ps body evs) fun _ _ => True := by
  unfold parseRest
  refine Does.bind (Does.mapErr _ (does_addElemClean _ hb.1 (by simp [hb.2.1]) hb.2.2)) fun _ => ?_
  refine Does.bind (Does.mapErr _ (does_applyProperties ps hps)).skip fun _ => Does.getBind fun d0 => ?_
  split
  · exact Does.err _
  · exact (does_parseElements X F evs [0]).skip

/-! ### Metadata -/

/-- Two documents with the same elements, declarations and processors. -/
def SameStores (d d' : Document) : Prop :=
  d'.elements = d.elements ∧ d'.declarations = d.declarations ∧ d'.processors = d.processors ∧ d'.chain = d.chain ∧
  d'.activeProcessor = d.activeProcessor

theorem SameStores.steps {d d' : Document} (h : SameStores d d') : Steps C d d' := .single (.admin h.1 h.2.1 h.2.2.1 h.2.2.2.1 h.2.2.2.2)

theorem rootAttrs_same (as : List RAttr) : ∀ {d d' : Document}, rootAttrs d as = .ok d' → SameStores d d' := by
  induction as with
  | nil => intro d d' h; cases h; exact ⟨rfl, rfl, rfl, rfl, rfl⟩
  | cons x xs ih =>
    intro d d' h
    cases x with
    | bad => cases h
    | ok k v =>
      simp only [rootAttrs] at h
      split at h
      · split at h
        · have := ih h; exact this
        · cases h
      · split at h
        · split at h
          · have := ih h; exact this
          · cases h
        · exact ih h

theorem parseRoot_same {d : Document} {evs : List REvent} {r : Document × List REvent} (h : parseRoot d evs = .ok r) : SameStores d r.1 := by
  induction evs with
  | nil => cases h
  | cons ev rest ih =>
    cases ev with
    | start ns tag as =>
      simp only [parseRoot] at h
      split at h
      · cases hr : rootAttrs d as with
        | error f => rw [hr] at h; cases h
        | ok d' => rw [hr] at h; cases h; exact rootAttrs_same _ hr
      · cases h
    | error => cases h
    | _ => exact ih h

theorem procAttr_clean {p p' : Processor} {k v : String} (h : procAttr p k v = some p') (hp : p.processors = [] ∧ p.parent = none) :
    p'.processors = [] ∧ p'.parent = none := by
  suffices AllSome (fun q : Processor => q.processors = [] ∧ q.parent = none) (procAttr p k v) from this p' h
  unfold procAttr
  repeat' apply AllSome.ite
  all_goals first
    | exact AllSome.some hp
    | exact AllSome.none
    | (apply AllSome.map; intro _; exact hp)

theorem parseProcessor_clean {p p' : Processor} {as : List RAttr} (h : parseProcessor p as = .ok p') (hp : p.processors = [] ∧ p.parent = none) :
    p'.processors = [] ∧ p'.parent = none := by
  induction as generalizing p with
  | nil => cases h; exact hp
  | cons x xs ih =>
    cases x with
    | bad => exact ih h hp
    | ok k v =>
      simp only [parseProcessor] at h
      split at h
      · cases h
      · split at h
        · rename_i p'' hp''
          exact ih h (procAttr_clean hp'' hp)
        · cases h

theorem asParseError_ok {α : Type} {r : Res α} {a : α} (h : asParseError r = .ok a) : r = .ok a := by
  unfold asParseError at h
  split at h
  · cases h
  · exact h

theorem forAttrs_inv {σ : Type} {I : σ → Prop} {f : String → String → σ → σ} (hf : ∀ k v s, I s → I (f k v s)) {as : List RAttr} {s s' : σ}
    (h : forAttrs f as s = .ok s') (hs : I s) : I s' := by
  induction as generalizing s with
  | nil => cases h; exact hs
  | cons x xs ih =>
    cases x with
    | bad => cases h
    | ok k v =>
      simp only [forAttrs] at h
      split at h
      · exact ih h (hf _ _ _ hs)
      · exact ih h hs

theorem parseDeclaration_blank {tag : String} {as : List RAttr} {dec : Declaration} (h : parseDeclaration tag as = .ok dec) : dec.Blank := by
  unfold parseDeclaration at h
  cases ht : getDeclarationType tag with
  | error f => rw [ht] at h; cases h
  | ok t =>
    rw [ht] at h
    refine forAttrs_inv (I := Declaration.Blank) ?_ h ⟨rfl, rfl, rfl, rfl⟩
    intro k v s hs
    repeat' split
    all_goals exact hs

theorem does_addParsedProcessor (st : MetaSt) (p : Processor) (hp : p.processors = [] ∧ p.parent = none) :
    Does C (fun _ => True) (addParsedProcessor st p) fun _ _ => True := by
  unfold addParsedProcessor
  have hc : CleanProc (.node p []) := by simp [CleanProc, CleanProcs, hp]
  refine Does.mapErr _ ?_
  split
  · exact (does_addProcessor _ fun _ => hc).post fun _ _ _ => trivial
  · exact (does_addSubprocessor _ _ fun _ => hc).post fun _ _ _ => trivial

theorem metaEmpty_steps {d : Document} {st : MetaSt} {ns : Ns} {tag : String} {as : List RAttr} {r : Document × MetaSt} (hi : IxOk d)
    (h : metaEmpty d st ns tag as = .ok r) : Steps C d r.1 := by
  unfold metaEmpty at h
  split at h
  · cases hp : asParseError (parseProcessor {} as) with
    | error f => rw [hp] at h; cases h
    | ok p =>
      rw [hp] at h
      have hc := parseProcessor_clean (asParseError_ok hp) ⟨rfl, rfl⟩
      cases hr : runDoc (addParsedProcessor st p) d with
      | error f => simp only [Bind.bind, Except.bind] at h; rw [hr] at h; cases h
      | ok r' =>
        simp only [Bind.bind, Except.bind] at h
        rw [hr] at h; cases h
        exact (runDoc_steps (does_addParsedProcessor st p hc) hi hr).1
  · split at h
    · simp only [Bind.bind, Except.bind] at h
      split at h
      · cases h
      · split at h <;> (cases h; exact .refl d)
    · cases h; exact .refl d

theorem metaStart_steps {d : Document} {st : MetaSt} {ns : Ns} {tag : String} {as : List RAttr} {r : Document × MetaSt} (hi : IxOk d)
    (h : metaStart d st ns tag as = .ok r) : Steps C d r.1 := by
  unfold metaStart at h
  simp only [Bind.bind, Except.bind] at h
  split at h
  · split at h
    · split at h
      · cases h
      · cases h; exact SameStores.steps ⟨rfl, rfl, rfl, rfl, rfl⟩
    · split at h
      · cases h; exact .refl d
      · split at h
        · cases h; exact .refl d
        · split at h
          · split at h
            · cases h
            · split at h
              · cases h
              · cases h; exact .refl d
          · split at h
            · split at h
              · cases h
              · cases h; exact .refl d
            · split at h
              · split at h
                · cases h
                · rename_i p hp
                  have hc := parseProcessor_clean (asParseError_ok hp) ⟨rfl, rfl⟩
                  split at h
                  · cases h
                  · rename_i r' hr
                    cases h
                    exact (runDoc_steps (does_addParsedProcessor st p hc) hi hr).1
              · split at h
                · split at h
                  · cases h
                  · rename_i dec hdec
                    have hb := parseDeclaration_blank (asParseError_ok hdec)
                    have hd : Does C (fun _ => True) (M.mapErr .parse (addDeclaration dec)) fun _ _ => True :=
                      Does.mapErr _ fun d _ _ => ⟨.single (Prim.addDeclaration d dec fun _ => hb), fun _ _ => trivial⟩
                    split at h
                    · cases h
                    · rename_i r' hr
                      cases h
                      exact (runDoc_steps hd hi hr).1
                · cases h
  · cases h

theorem assignAnnotators_steps (l : List (Nat × String)) {d : Document} (hi : IxOk d) : Steps C d (assignAnnotators d l) := by
  induction l generalizing d with
  | nil => exact .refl d
  | cons x xs ih =>
    obtain ⟨dk, id⟩ := x
    simp only [assignAnnotators]
    split
    · rename_i pk hpk
      have h := Prim.annotator (C := C) d dk pk (hi.2 id pk hpk)
      exact (Steps.single h).trans (ih (h.ixOk hi))
    · exact ih hi

theorem metaEnd_steps {d : Document} {st : MetaSt} {ns : Ns} {tag : String} (hi : IxOk d) : Steps C d (metaEnd d st ns tag).1 := by
  unfold metaEnd
  repeat' split
  all_goals first
    | exact .refl d
    | exact assignAnnotators_steps _ hi
    | skip
  unfold metaValue
  repeat' split
  all_goals exact SameStores.steps ⟨rfl, rfl, rfl, rfl, rfl⟩

theorem parseMeta_steps (evs : List REvent) : ∀ {d : Document} {st : MetaSt} {r : Document × List REvent}, IxOk d →
    parseMeta d st evs = .ok r → Steps C d r.1 := by
  induction evs with
  | nil => intro d st r _ h; cases h
  | cons ev rest ih =>
    intro d st r hi h
    cases ev with
    | error => cases h
    | other => exact ih hi h
    | cdata s => exact ih hi h
    | comment s => exact ih hi h
    | text s =>
      simp only [parseMeta] at h
      split at h
      · exact ih hi h
      · cases h
    | empty ns tag as =>
      simp only [parseMeta] at h
      split at h
      · rename_i d' st' hm
        have hs := metaEmpty_steps (C := C) hi hm
        exact hs.trans (ih (hs.ixOk hi) h)
      · cases h
    | start ns tag as =>
      simp only [parseMeta] at h
      split at h
      · rename_i d' st' hm
        have hs := metaStart_steps (C := C) hi hm
        exact hs.trans (ih (hs.ixOk hi) h)
      · cases h
    | endTag ns tag =>
      simp only [parseMeta] at h
      split at h
      · cases h; exact .refl d
      · have hs := metaEnd_steps (C := C) (st := st) (ns := ns) (tag := tag) hi
        exact hs.trans (ih (hs.ixOk hi) h)

theorem bodyOf_clean {X : Ext} {t : ElementType} {as : List RAttr} {b : ElementData} (h : bodyOf X t as = .ok (some b)) :
    CleanAttribs b.attribs ∧ b.data = [] ∧ b.parent = none := by
  unfold bodyOf at h
  split at h
  · rename_i as' _ hp
    cases h
    exact ⟨(parseAttributes_clean hp).1, rfl, rfl⟩
  · cases h
  · cases h

theorem parseBody_clean {X : Ext} {evs : List REvent} {b : ElementData} {rest : List REvent} (h : parseBody X evs = .ok (some b, rest)) :
    CleanAttribs b.attribs ∧ b.data = [] ∧ b.parent = none := by
  induction evs with
  | nil => cases h
  | cons ev rest' ih =>
    cases ev with
    | start ns tag as =>
      simp only [parseBody] at h
      split at h
      · cases hb : bodyOf X .text as with
        | error f => rw [hb] at h; cases h
        | ok o => rw [hb] at h; cases h; exact bodyOf_clean hb
      · split at h
        · cases hb : bodyOf X .speech as with
          | error f => rw [hb] at h; cases h
          | ok o => rw [hb] at h; cases h; exact bodyOf_clean hb
        · cases h
    | error => cases h
    | _ => exact ih h

theorem ixOk_empty (id : String) (b : Bool) : IxOk { id, autodeclare := b } :=
  ⟨fun _ _ h => (by cases h), fun _ _ h => (by cases h)⟩

/-- The starting point of every document. -/
theorem parse_steps {X : Ext} {F : Nat} {ps : DocumentProperties} {evs : List REvent} {d : Document}
    (hps : C → ∀ p, ps.processor = some p → CleanProc p) (h : Document.parse X F ps evs = .ok d) : Steps C {} d := by
  have h0 : Steps C {} { autodeclare := ps.autodeclare } := SameStores.steps ⟨rfl, rfl, rfl, rfl, rfl⟩
  have i0 : IxOk { autodeclare := ps.autodeclare } := ixOk_empty _ _
  unfold Document.parse at h
  simp only [Bind.bind, Except.bind] at h
  split at h
  · cases h
  · rename_i r1 h1
    have s1 := (parseRoot_same h1).steps (C := C)
    have i1 := s1.ixOk i0
    split at h
    · cases h
    · rename_i r2 h2
      have s2 := parseMeta_steps (C := C) _ i1 h2
      have i2 := s2.ixOk i1
      split at h
      · cases h
      · rename_i r3 h3
        split at h
        · cases h
        · rename_i body hbody
          split at h
          · cases h
          · rename_i r4 h4
            cases h
            obtain ⟨b, rest⟩ := r3
            simp only at hbody
            subst hbody
            have := (runDoc_steps (does_parseRest X F ps hps body (parseBody_clean h3) _) i2 h4).1
            exact h0.trans (s1.trans (s2.trans this))

theorem new_steps {id : String} {ps : DocumentProperties} {d : Document} (hps : C → ∀ p, ps.processor = some p → CleanProc p)
    (h : Document.new id ps = .ok d) : Steps C {} d := by
  have h0 : Steps C {} { id, autodeclare := ps.autodeclare } := SameStores.steps ⟨rfl, rfl, rfl, rfl, rfl⟩
  have hb : encode (bodyElement ps.bodytype) none = pure (bodyElement ps.bodytype) := by cases ps.bodytype <;> rfl
  have hd : Does C (fun _ => True) (do
      let body ← encode (bodyElement ps.bodytype) none
      let _ ← addElem body none
      applyProperties ps) fun _ _ => True := by
    rw [hb]
    refine Does.bind (Q := fun a _ => a = bodyElement ps.bodytype) (Does.pure fun _ _ => rfl) fun b => ?_
    intro d hi hd
    subst hd
    refine (Does.bind (P := fun _ => True) (does_addElemClean none ?_ ?_ ?_) fun _ => (does_applyProperties ps hps).skip) d hi trivial
    · cases ps.bodytype <;> simp [bodyElement, ElementData.new, CleanAttribs]
    · cases ps.bodytype <;> simp [bodyElement, ElementData.new]
    · cases ps.bodytype <;> rfl
  unfold Document.new at h
  simp only at h
  split at h
  · rename_i d' hm
    cases h
    have := (hd { id, autodeclare := ps.autodeclare } (ixOk_empty _ _) trivial).1
    rw [hm] at this
    exact h0.trans this
  · cases h

theorem Reachable.steps {X : Ext} {F : Nat} {d : Document} (h : Reachable X F d) : Steps False {} d := by
  induction h with
  | new h => exact new_steps (fun c => c.elim) h
  | parse h => exact parse_steps (fun c => c.elim) h
  | op o _ ih => exact ih.trans (op_steps _ o (ih.ixOk (ixOk_empty _ _)) fun c => c.elim)

theorem CleanReachable.steps {X : Ext} {F : Nat} {d : Document} (h : CleanReachable X F d) : Steps True {} d := by
  induction h with
  | new hp h => exact new_steps (fun _ => hp) h
  | parse hp h => exact parse_steps (fun _ => hp) h
  | op o _ hc ih => exact ih.trans (op_steps _ o (ih.ixOk (ixOk_empty _ _)) fun _ => hc)

end Folia
