import Verif.Lemmas.Source
import Verif.Lemmas.Tame
/-! Parsing up to the start tag of the body. -/
namespace Folia
open Document

theorem mapErr_run_ok {σ α : Type} {k : ErrKind} {m : M σ α} {s s' : σ} {a : α} (h : m s = (.ok a, s')) : M.mapErr k m s = (.ok a, s') := by
  unfold M.mapErr; rw [h]
theorem mapErr_run_err {σ α : Type} {k : ErrKind} {m : M σ α} {s s' : σ} {f : Fault} (h : m s = (.error f, s')) : ∃ f', M.mapErr k m s = (.error f', s') := by
  unfold M.mapErr; rw [h]; cases f <;> exact ⟨_, rfl⟩

theorem runDoc_elements {α : Type} {m : M Document α} (h : KeepsElements m) {d d' : Document} {a : α} (hr : runDoc m d = .ok (a, d')) :
    d'.elements = d.elements := by
  have := h d
  unfold runDoc at hr
  rcases hm : m d with ⟨f | b, d''⟩
  · rw [hm] at hr; cases hr
  · rw [hm] at hr this; cases hr; exact this

theorem keeps_mapErr {α : Type} {m : M Document α} {k : ErrKind} (h : KeepsElements m) : KeepsElements (M.mapErr k m) := by
  intro d
  have := h d
  unfold M.mapErr
  rcases hm : m d with ⟨f | b, d''⟩
  · rw [hm] at this; cases f <;> exact this
  · rw [hm] at this; exact this

theorem keeps_addParsedProcessor (st : MetaSt) (p : Processor) : KeepsElements (addParsedProcessor st p) := by
  unfold addParsedProcessor
  refine keeps_mapErr ?_
  split
  · exact KeepsElements.addProcessor _
  · exact KeepsElements.addSubprocessor _ _

theorem metaEmpty_elements {d : Document} {st : MetaSt} {ns : Ns} {tag : String} {as : List RAttr} {r : Document × MetaSt}
    (h : metaEmpty d st ns tag as = .ok r) : r.1.elements = d.elements := by
  unfold metaEmpty at h
  simp only [Bind.bind, Except.bind] at h
  split at h
  · split at h
    · cases h
    · split at h
      · cases h
      · rename_i r' hr
        cases h
        exact runDoc_elements (keeps_addParsedProcessor st _) hr
  · split at h
    · split at h
      · cases h
      · split at h <;> (cases h; rfl)
    · cases h; rfl

theorem metaStart_elements {d : Document} {st : MetaSt} {ns : Ns} {tag : String} {as : List RAttr} {r : Document × MetaSt}
    (h : metaStart d st ns tag as = .ok r) : r.1.elements = d.elements := by
  unfold metaStart at h
  simp only [Bind.bind, Except.bind] at h
  split at h
  · split at h
    · split at h
      · cases h
      · cases h; rfl
    · split at h
      · cases h; rfl
      · split at h
        · cases h; rfl
        · split at h
          · split at h
            · cases h
            · split at h
              · cases h
              · cases h; rfl
          · split at h
            · split at h
              · cases h
              · cases h; rfl
            · split at h
              · split at h
                · cases h
                · split at h
                  · cases h
                  · rename_i r' hr
                    cases h
                    exact runDoc_elements (keeps_addParsedProcessor st _) hr
              · split at h
                · split at h
                  · cases h
                  · split at h
                    · cases h
                    · rename_i r' hr
                      cases h
                      exact runDoc_elements (keeps_mapErr (KeepsElements.of_decls (OnlyDecls.addDeclaration _))) hr
                · cases h
  · cases h

theorem assignAnnotators_elements (l : List (Nat × String)) (d : Document) : (assignAnnotators d l).elements = d.elements := by
  induction l generalizing d with
  | nil => rfl
  | cons x xs ih =>
    obtain ⟨dk, id⟩ := x
    simp only [assignAnnotators]
    split
    · rw [ih]
    · exact ih d

theorem metaEnd_elements (d : Document) (st : MetaSt) (ns : Ns) (tag : String) : (metaEnd d st ns tag).1.elements = d.elements := by
  unfold metaEnd
  repeat' split
  all_goals first
    | rfl
    | exact assignAnnotators_elements _ _
    | (unfold metaValue; repeat' split)
  all_goals rfl

theorem parseMeta_elements (evs : List REvent) : ∀ {d : Document} {st : MetaSt} {r : Document × List REvent},
    parseMeta d st evs = .ok r → r.1.elements = d.elements := by
  induction evs with
  | nil => intro d st r h; cases h
  | cons ev rest ih =>
    intro d st r h
    cases ev with
    | error => cases h
    | other => exact ih h
    | cdata s => exact ih h
    | comment s => exact ih h
    | text s =>
      simp only [parseMeta] at h
      split at h
      · exact ih h
      · cases h
    | empty ns tag as =>
      simp only [parseMeta] at h
      split at h
      · rename_i d' st' hm; rw [ih h]; exact metaEmpty_elements hm
      · cases h
    | start ns tag as =>
      simp only [parseMeta] at h
      split at h
      · rename_i d' st' hm; rw [ih h]; exact metaStart_elements hm
      · cases h
    | endTag ns tag =>
      simp only [parseMeta] at h
      split at h
      · cases h; rfl
      · rw [ih h]; exact metaEnd_elements ..

/-- The metadata loop stops at the first end of the metadata. -/
theorem parseMeta_split (rest : List REvent) : ∀ (pre : List REvent) (d : Document) (st : MetaSt), metadataEnd ∉ pre →
    parseMeta d st (pre ++ metadataEnd :: rest) = (parseMeta d st (pre ++ [metadataEnd])).map fun r => (r.1, rest) := by
  intro pre
  induction pre with
  | nil => intro d st _; rfl
  | cons ev pre ih =>
    intro d st hn
    have hn' : metadataEnd ∉ pre := fun h => hn (List.mem_cons_of_mem _ h)
    cases ev with
    | error => rfl
    | other => exact ih d st hn'
    | cdata s => exact ih d st hn'
    | comment s => exact ih d st hn'
    | text s =>
      simp only [List.cons_append, parseMeta]
      split
      · exact ih _ _ hn'
      · rfl
    | empty ns tag as =>
      simp only [List.cons_append, parseMeta]
      split
      · exact ih _ _ hn'
      · rfl
    | start ns tag as =>
      simp only [List.cons_append, parseMeta]
      split
      · exact ih _ _ hn'
      · rfl
    | endTag ns tag =>
      simp only [List.cons_append, parseMeta]
      split
      · rename_i h; exact absurd (by rw [h.1, h.2]; exact List.mem_cons_self ..) hn
      · exact ih _ _ hn'

theorem parseRoot_gap {tag : String} (ht : tag ≠ "FoLiA") (attrs : List RAttr) (rest : List REvent) (d : Document) : ∀ gap : List REvent, (∀ ev ∈ gap, isStart ev = false) →
    ∃ f, parseRoot d (gap ++ .start .folia tag attrs :: rest) = .error f := by
  intro gap
  induction gap with
  | nil => intro _; exact ⟨_, by simp only [List.nil_append, parseRoot]; rw [if_neg (by simp [ht])]⟩
  | cons ev gap ih =>
    intro hg
    have ih := ih fun ev h => hg ev (List.mem_cons_of_mem _ h)
    have := hg ev (List.mem_cons_self ..)
    cases ev with
    | start => cases this
    | error => exact ⟨_, rfl⟩
    | _ => exact ih

/-- The root is found in the header, or not at all. -/
theorem parseRoot_split {tag : String} (ht : tag ≠ "FoLiA") (attrs : List RAttr) {gap : List REvent} (hg : ∀ ev ∈ gap, isStart ev = false) (d : Document) :
    ∀ pre : List REvent, (∀ rest, ∃ f, parseRoot d (pre ++ metadataEnd :: gap ++ .start .folia tag attrs :: rest) = .error f) ∨
      ∃ d' pre', (∀ ev ∈ pre', ev ∈ pre) ∧ SameStores d d' ∧
        ∀ rest, parseRoot d (pre ++ metadataEnd :: gap ++ .start .folia tag attrs :: rest) = .ok (d', pre' ++ metadataEnd :: gap ++ .start .folia tag attrs :: rest) := by
  intro pre
  induction pre with
  | nil => exact Or.inl fun rest => parseRoot_gap ht attrs rest d gap hg
  | cons ev pre ih =>
    have go : (∀ evs, parseRoot d (ev :: evs) = parseRoot d evs) → _ := fun hev => (by
      rcases ih with h | ⟨d', pre', h1, h2, h3⟩
      · exact Or.inl fun rest => by obtain ⟨f, hf⟩ := h rest; exact ⟨f, (hev _).trans hf⟩
      · exact Or.inr ⟨d', pre', fun ev h => List.mem_cons_of_mem _ (h1 ev h), h2, fun rest => (hev _).trans (h3 rest)⟩ :
        (∀ rest, ∃ f, parseRoot d (ev :: pre ++ metadataEnd :: gap ++ .start .folia tag attrs :: rest) = .error f) ∨
      ∃ d' pre', (∀ e ∈ pre', e ∈ ev :: pre) ∧ SameStores d d' ∧
        ∀ rest, parseRoot d (ev :: pre ++ metadataEnd :: gap ++ .start .folia tag attrs :: rest) = .ok (d', pre' ++ metadataEnd :: gap ++ .start .folia tag attrs :: rest))
    cases ev with
    | error => exact Or.inl fun rest => ⟨_, rfl⟩
    | start ns tag' as =>
      by_cases hc : ns = .folia ∧ tag' = "FoLiA"
      · cases hr : rootAttrs d as with
        | error f =>
          refine Or.inl fun rest => ⟨f, ?_⟩
          simp only [List.cons_append, parseRoot, if_pos hc, hr]; rfl
        | ok d' =>
          refine Or.inr ⟨d', pre, fun ev h => List.mem_cons_of_mem _ h, rootAttrs_same _ hr, fun rest => ?_⟩
          simp only [List.cons_append, parseRoot, if_pos hc, hr]; rfl
      · refine Or.inl fun rest => ⟨.err .parse, ?_⟩
        simp only [List.cons_append, parseRoot, if_neg hc]
    | other => exact go fun _ => rfl
    | cdata s => exact go fun _ => rfl
    | comment s => exact go fun _ => rfl
    | text s => exact go fun _ => rfl
    | empty ns tag' as => exact go fun _ => rfl
    | endTag ns tag' => exact go fun _ => rfl

theorem parseBody_split (X : Ext) (tag : String) (attrs : List RAttr) (gap : List REvent) : (∀ ev ∈ gap, isStart ev = false) →
    (∃ f, ∀ rest, parseBody X (gap ++ .start .folia tag attrs :: rest) = .error f) ∨
      ∃ t, bodyTypeOf tag = some t ∧ ∀ rest, parseBody X (gap ++ .start .folia tag attrs :: rest) = (bodyOf X t attrs).map fun b => (b, rest) := by
  induction gap with
  | nil =>
    intro _
    simp only [List.nil_append, parseBody, true_and, bodyTypeOf]
    by_cases h1 : tag = "text"
    · simp only [h1, if_true]; exact Or.inr ⟨_, rfl, fun _ => rfl⟩
    · by_cases h2 : tag = "speech"
      · simp only [h2]; exact Or.inr ⟨_, rfl, fun _ => rfl⟩
      · simp only [h1, h2, if_false]; exact Or.inl ⟨_, fun _ => rfl⟩
  | cons ev gap ih =>
    intro hg
    have ih := ih fun ev h => hg ev (List.mem_cons_of_mem _ h)
    have := hg ev (List.mem_cons_self ..)
    cases ev with
    | start => cases this
    | error => exact Or.inl ⟨_, fun _ => rfl⟩
    | _ => exact ih

/-- The state before the contents of the body are read. -/
structure AtBody (X : Ext) (ps : DocumentProperties) (tag : String) (attrs : List RAttr) (d : Document) : Prop where
  body : ∃ t as fs x d0, bodyTypeOf tag = some t ∧ attrsMeaning X t attrs = some (as, fs) ∧ d.getElement 0 = some x ∧ x.parent = none ∧ x.data = [] ∧
    ReadsBack d0 d x ⟨t, as, [], none, none⟩ ∧ (ps.processor = none → d0.processors = d.processors) ∧
    ∀ id k, d.elements.index.find id = some k → (ElementData.mk t as [] none none).id = some id
  inv : CInv d
  len : d.elements.len = 1
  links : LinksAgree d
  ranked : Ranked d

/-- The result of a run of the parser over the body. -/
def bodyResult : Res Unit × Document → Res Document
  | (.ok (), d) => .ok d
  | (.error f, _) => .error f

theorem bodyTypeOf_ne {tag : String} {t : ElementType} (h : bodyTypeOf tag = some t) : tag ≠ "FoLiA" := by
  rintro rfl
  have : bodyTypeOf "FoLiA" = none := by decide
  rw [this] at h; cases h

theorem bodyOf_meaning {X : Ext} {t : ElementType} {attrs : List RAttr} {b : ElementData} (h : bodyOf X t attrs = .ok (some b)) :
    ∃ as fs, attrsMeaning X t attrs = some (as, fs) ∧ b = ⟨t, as, [], none, none⟩ := by
  unfold bodyOf at h
  have hm := parseAttributes_meaning X t attrs
  cases ha : attrsMeaning X t attrs with
  | none =>
    rw [ha] at hm
    obtain ⟨f, hf⟩ := hm
    rw [hf] at h
    cases f <;> cases h
  | some r =>
    obtain ⟨as, fs⟩ := r
    rw [ha] at hm
    obtain ⟨cs, h1, _⟩ := hm
    rw [h1] at h
    cases h
    exact ⟨as, fs, rfl, rfl⟩

theorem applyProperties_procs {ps : DocumentProperties} (hn : ps.processor = none) (d : Document) : (applyProperties ps d).2.processors = d.processors := by
  have h : OnlyDecls (applyProperties ps) := by
    unfold applyProperties
    rw [hn]
    have : ∀ l, OnlyDecls (M.forEach applyDeclare l) := by
      intro l
      induction l with
      | nil => exact OnlyDecls.pure ()
      | cons a l ih =>
        refine OnlyDecls.bind ?_ fun _ => ih
        unfold applyDeclare
        refine OnlyDecls.bind (OnlyDecls.declare _ _ _ _) fun k => ?_
        split
        · exact OnlyDecls.bind (OnlyDecls.addClass _ _) fun _ => OnlyDecls.pure _
        · exact OnlyDecls.pure _
    exact this _
  exact (h d).processors

theorem links_empty {d : Document} (h : d.elements = {}) : LinksAgree d ∧ Ranked d := by
  have hg : ∀ j, d.getElement j = none := fun j => by unfold getElement; rw [h]; rfl
  refine ⟨⟨fun p c => ⟨?_, ?_⟩, fun p e he => ?_⟩, fun _ => 0, ?_⟩
  · rintro ⟨e, h1, _⟩; rw [hg] at h1; cases h1
  · rintro ⟨e, h1, _⟩; rw [hg] at h1; cases h1
  · rw [hg] at he; cases he
  · rintro p c ⟨e, h1, _⟩; rw [hg] at h1; cases h1

/-- Everything before the contents of the body either makes parsing fail or leads to a state that does not depend on the rest. -/
theorem parse_prefix_all (X : Ext) (ps : DocumentProperties) (hcl : ∀ p, ps.processor = some p → CleanProc p)
    {header gap : List REvent} (hh : metadataEnd ∉ header) (hg : ∀ ev ∈ gap, isStart ev = false) (tag : String) (attrs : List RAttr)
    (htag : tag ≠ "FoLiA") :
    (∀ F rest, ∃ f, Document.parse X F ps (source header gap tag attrs rest) = .error f) ∨
    ∃ d1, AtBody X ps tag attrs d1 ∧ ∀ F rest, Document.parse X F ps (source header gap tag attrs rest) = bodyResult (parseElements X F rest [0] d1) := by
  have h0 : CInv { autodeclare := ps.autodeclare } := Prim.cinv (d := {}) (.admin rfl rfl rfl rfl rfl) cinv_empty
  unfold source
  rcases parseRoot_split htag attrs hg { autodeclare := ps.autodeclare } header with h | ⟨dr, pre, hpre, hsame, hroot⟩
  · left
    intro F rest
    obtain ⟨f, hf⟩ := h rest
    exact ⟨f, by unfold Document.parse; simp only [bind, Except.bind]; rw [hf]⟩
  have hir : CInv dr := (hsame.steps.clean h0).1
  have hpn : metadataEnd ∉ pre := fun h => hh (hpre _ h)
  cases hm : parseMeta dr {} (pre ++ [metadataEnd]) with
  | error f =>
    left
    intro F rest
    refine ⟨f, ?_⟩
    unfold Document.parse
    simp only [bind, Except.bind]
    rw [hroot]
    simp only [List.append_assoc, List.cons_append]
    rw [parseMeta_split _ _ _ _ hpn, hm]
    rfl
  | ok rm =>
    obtain ⟨dm, rm2⟩ := rm
    have him : CInv dm := ((parseMeta_steps (C := True) _ hir.ix hm).clean hir).1
    have hem : dm.elements = {} := by
      have := parseMeta_elements _ hm
      simp only at this
      rw [this, hsame.1]
    rcases parseBody_split X tag attrs gap hg with ⟨f, h⟩ | ⟨t, ht, hb⟩
    · left
      intro F rest
      refine ⟨f, ?_⟩
      unfold Document.parse
      simp only [bind, Except.bind]
      rw [hroot]
      simp only [List.append_assoc, List.cons_append]
      rw [parseMeta_split _ _ _ _ hpn, hm]
      simp only [Except.map]
      rw [h]
    · cases hbo : bodyOf X t attrs with
      | error f =>
        left
        intro F rest
        refine ⟨f, ?_⟩
        unfold Document.parse
        simp only [bind, Except.bind]
        rw [hroot]
        simp only [List.append_assoc, List.cons_append]
        rw [parseMeta_split _ _ _ _ hpn, hm]
        simp only [Except.map]
        rw [hb, hbo]
        rfl
      | ok ob =>
        cases ob with
        | none =>
          left
          intro F rest
          refine ⟨.err .parse, ?_⟩
          unfold Document.parse
          simp only [bind, Except.bind]
          rw [hroot]
          simp only [List.append_assoc, List.cons_append]
          rw [parseMeta_split _ _ _ _ hpn, hm]
          simp only [Except.map]
          rw [hb, hbo]
          rfl
        | some b =>
          have hrun : ∀ F rest, Document.parse X F ps (header ++ metadataEnd :: gap ++ .start .folia tag attrs :: rest) = bodyResult (parseRest X F ps b rest dm) := by
            intro F rest
            unfold Document.parse
            simp only [bind, Except.bind]
            rw [hroot]
            simp only [List.append_assoc, List.cons_append]
            rw [parseMeta_split _ _ _ _ hpn, hm]
            simp only [Except.map]
            rw [hb, hbo]
            simp only [Except.map, runDoc]
            rcases parseRest X F ps b rest dm with ⟨f | ⟨⟩, d'⟩ <;> rfl
          obtain ⟨as, fs, hmean, hbe⟩ := bodyOf_meaning hbo
          obtain ⟨hc1, hc2, hc3⟩ := bodyOf_clean hbo
          rcases hadd : addElem b none dm with ⟨f | k, da⟩
          · left
            intro F rest
            have : ∃ f', parseRest X F ps b rest dm = (.error f', da) := by
              unfold parseRest
              obtain ⟨f', hf'⟩ := mapErr_run_err (k := .parse) hadd
              rw [M.run_bind, hf']
              exact ⟨_, rfl⟩
            obtain ⟨f', hf'⟩ := this
            exact ⟨f', by rw [hrun F rest, hf']; rfl⟩
          · rcases happ : applyProperties ps da with ⟨f | u, d1⟩
            · left
              intro F rest
              have : ∃ f', parseRest X F ps b rest dm = (.error f', d1) := by
                unfold parseRest
                obtain ⟨f', hf'⟩ := mapErr_run_err (k := .parse) happ
                rw [M.run_bind, mapErr_run_ok hadd]
                simp only
                rw [M.run_bind, hf']
                exact ⟨_, rfl⟩
              obtain ⟨f', hf'⟩ := this
              exact ⟨f', by rw [hrun F rest, hf']; rfl⟩
            · have hfresh : dm.FreshIds b.id.toList := by
                by_cases hid : b.id = none
                · rw [hid]; exact ⟨List.nodup_nil, by simp⟩
                · cases hid' : b.id with
                  | none => exact absurd hid' hid
                  | some i => exact ⟨by simp, fun j _ => by unfold elementKeyById; rw [hem]; rfl⟩
              obtain ⟨l1, l2, l3, l4, x, l5, l6, l7, l8⟩ := leaf (d0 := dm) him rfl hc1 hc3 (by rw [hc2]; simp) hfresh hadd
              have hlen0 : dm.elements.len = 0 := by rw [hem]; rfl
              have hk0 : k = 0 := by rw [l1, hlen0]
              subst hk0
              have hia := (l2.steps.clean him).1
              have hse := KeepsElements.applyProperties ps da
              have hst := (does_applyProperties (C := True) ps (fun _ => hcl) da hia.ix trivial).1
              rw [happ] at hse hst
              simp only at hse hst
              obtain ⟨hi1, hm1⟩ := hst.clean hia
              obtain ⟨hl0, hr0⟩ := links_empty hem
              obtain ⟨hlc, hrc⟩ := links_congr hse
              right
              refine ⟨d1, ⟨⟨t, as, fs, x, dm, ht, hmean, ?_, l6, by rw [l7, hc2], ?_, ?_, ?_⟩, hi1, ?_, hlc (l2.links hl0), hrc (l2.ranked hl0 hr0)⟩, ?_⟩
              · unfold getElement at l5 ⊢; rw [hse]; exact l5
              · rw [← hbe]; exact l8.mono (hia.elem 0 x l5).refs hm1 hst.procMono rfl rfl
              · intro hn
                have := applyProperties_procs hn da
                rw [happ] at this
                simp only at this
                rw [this, l2.procs]
              · intro id k hk
                rw [hse] at hk
                rcases l2.index id k hk with h1 | h1
                · rw [hem] at h1; cases h1
                · rw [hbe] at h1; simpa using h1
              · rw [hse, l3, hlen0]
              · intro F rest
                rw [hrun F rest]
                congr 1
                unfold parseRest
                rw [M.run_bind, mapErr_run_ok hadd]
                simp only
                rw [M.run_bind, mapErr_run_ok happ]
                simp only
                rw [M.run_bind]
                have hne : d1.elements.items.isEmpty = false := by
                  have : d1.elements.items.length = 1 := by
                    show d1.elements.len = 1
                    rw [hse, l3, hlen0]
                  cases hi : d1.elements.items with
                  | nil => rw [hi] at this; cases this
                  | cons => rfl
                simp only [M.run_get, hne]
                rfl

theorem parse_prefix (X : Ext) (F : Nat) (ps : DocumentProperties) (hcl : ∀ p, ps.processor = some p → CleanProc p)
    {header gap : List REvent} (hh : metadataEnd ∉ header) (hg : ∀ ev ∈ gap, isStart ev = false) (tag : String) (attrs : List RAttr)
    (htag : tag ≠ "FoLiA") :
    (∀ rest, ∃ f, Document.parse X F ps (source header gap tag attrs rest) = .error f) ∨
    ∃ d1, AtBody X ps tag attrs d1 ∧ ∀ rest, Document.parse X F ps (source header gap tag attrs rest) = bodyResult (parseElements X F rest [0] d1) := by
  rcases parse_prefix_all X ps hcl hh hg tag attrs htag with h | ⟨d1, h1, h2⟩
  · exact .inl (h F)
  · exact .inr ⟨d1, h1, h2 F⟩

end Folia
