import Verif.Indent
import Verif.Parser
import Verif.Lemmas.Xml
/-! Blank text between tags makes no difference to the parser. -/
namespace Folia
open Document

/-- The text of an event is blank. -/
def Blank (s : String) : Prop := unescape s = some s ∧ notBlank s = false

/-- The first events are the second ones with blank texts put in between. `dirty` tells whether the text last read differs; it must not when a
`meta` element ends. -/
inductive Padded : Bool → List REvent → List REvent → Prop
  | nil {b} : Padded b [] []
  | reset {b as x y} : Padded false x y → Padded b (.start .folia "meta" as :: x) (.start .folia "meta" as :: y)
  | text {b s x y} : Padded false x y → Padded b (.text s :: x) (.text s :: y)
  | keep {b e x y} : (b = true → e ≠ .endTag .folia "meta") → Padded b x y → Padded b (e :: x) (e :: y)
  | blank {b s x y} : Blank s → Padded true x y → Padded b (.text s :: x) y

theorem padded_body {X : Ext} {F : Nat} {b : Bool} {x y : List REvent} (h : Padded b x y) : ∀ stack, parseElements X F x stack = parseElements X F y stack := by
  induction h with
  | nil => intro _; rfl
  | reset _ ih => intro stack; unfold parseElements; simp only [ih]
  | text _ ih => intro stack; unfold parseElements; simp only [ih]
  | @keep b e x y _ _ ih =>
    intro stack
    cases e <;> (unfold parseElements; simp only [ih])
  | @blank b s x y hs _ ih =>
    intro stack
    rw [parseElements, hs.1]
    simp only [hs.2]
    exact ih stack

/-- Two results of a loop over the metadata: the same failure, or the same document with rests that differ by blank text. -/
def PaddedRes {α : Type} : Res (α × List REvent) → Res (α × List REvent) → Prop
  | .ok (a, x), .ok (a', y) => a = a' ∧ ∃ b, Padded b x y
  | .error f, .error g => f = g
  | _, _ => False

theorem paddedRes_map {α : Type} (r : Res α) {b : Bool} {x y : List REvent} (h : Padded b x y) :
    PaddedRes (r.map fun a => (a, x)) (r.map fun a => (a, y)) := by
  cases r with
  | ok a => exact ⟨rfl, b, h⟩
  | error f => exact rfl

theorem padded_search {X : Ext} {b : Bool} {x y : List REvent} (h : Padded b x y) : PaddedRes (parseBody X x) (parseBody X y) := by
  induction h with
  | nil => exact rfl
  | reset h ih => unfold parseBody; simp [PaddedRes]
  | text h ih => unfold parseBody; exact ih
  | @keep b e x y _ h ih =>
    cases e <;> unfold parseBody <;> first | exact ih | exact rfl | skip
    split
    · exact paddedRes_map _ h
    · split
      · exact paddedRes_map _ h
      · exact rfl
  | blank hs h ih => rw [parseBody] <;> first | exact ih | nofun

theorem padded_root {d : Document} {b : Bool} {x y : List REvent} (h : Padded b x y) : PaddedRes (parseRoot d x) (parseRoot d y) := by
  induction h with
  | nil => exact rfl
  | reset h ih => unfold parseRoot; simp [PaddedRes]
  | text h ih => unfold parseRoot; exact ih
  | @keep b e x y _ h ih =>
    cases e <;> unfold parseRoot <;> first | exact ih | exact rfl | skip
    split
    · exact paddedRes_map _ h
    · exact rfl
  | blank hs h ih => rw [parseRoot] <;> first | exact ih | nofun

/-- The state with another text. -/
def withText (st : MetaSt) (t : Option String) : MetaSt := { st with text := t }

/-- A result with another text in its state. -/
def retext (t : Option String) (r : Res (Document × MetaSt)) : Res (Document × MetaSt) := r.map fun p => (p.1, withText p.2 t)

theorem metaEmpty_text (d : Document) (st : MetaSt) (t : Option String) (ns : Ns) (tag : String) (as : List RAttr) :
    metaEmpty d (withText st t) ns tag as = retext t (metaEmpty d st ns tag as) := by
  unfold metaEmpty
  simp only [show (withText st t).prov = st.prov from rfl, show (withText st t).decls = st.decls from rfl, show (withText st t).decKey = st.decKey from rfl]
  split
  · simp only [bind, Except.bind]
    cases asParseError (parseProcessor {} as) with
    | error f => rfl
    | ok p =>
      simp only
      rw [show addParsedProcessor (withText st t) p = addParsedProcessor st p from rfl]
      cases runDoc (addParsedProcessor st p) d <;> rfl
  · split
    · simp only [bind, Except.bind]
      cases forAttrs (fun k v acc => if k = "processor" then some v else acc) as none with
      | error f => rfl
      | ok pid =>
        simp only
        cases pid <;> cases st.decKey <;> rfl
    · rfl

theorem forAttrs_text {f : String → String → MetaSt → MetaSt} (t : Option String) (hf : ∀ k v st, f k v (withText st t) = withText (f k v st) t) :
    ∀ (as : List RAttr) (st : MetaSt), forAttrs f as (withText st t) = (forAttrs f as st).map (withText · t)
  | [], _ => rfl
  | .bad :: _, _ => rfl
  | .ok k v :: rest, st => by
    unfold forAttrs
    cases unescape v with
    | none => exact forAttrs_text t hf rest st
    | some v => simp only; rw [hf]; exact forAttrs_text t hf rest _

theorem metaStart_text (d : Document) (st : MetaSt) (t : Option String) (ns : Ns) (tag : String) (as : List RAttr) (hn : tag ≠ "meta") :
    metaStart d (withText st t) ns tag as = retext t (metaStart d st ns tag as) := by
  unfold metaStart
  simp only [show (withText st t).prov = st.prov from rfl, show (withText st t).decls = st.decls from rfl]
  split
  · split
    · simp only [bind, Except.bind]
      split <;> rfl
    · split
      · rfl
      · split
        · rfl
        · split
          · rw [forAttrs_text t (by intro k v st; (repeat' split) <;> rfl)]
            generalize forAttrs _ as st = r
            cases r with
            | error f => rfl
            | ok st' =>
              simp only [bind, Except.bind, Except.map, show (withText st' t).submeta = st'.submeta from rfl]
              split <;> rfl
          · try rw [if_neg hn]
            try rw [if_neg hn]
            split
            · simp only [bind, Except.bind]
              cases asParseError (parseProcessor {} as) with
              | error f => rfl
              | ok p =>
                simp only
                rw [show addParsedProcessor (withText st t) p = addParsedProcessor st p from rfl]
                cases runDoc (addParsedProcessor st p) d <;> rfl
            · split
              · simp only [bind, Except.bind]
                cases asParseError (parseDeclaration tag as) with
                | error f => rfl
                | ok p =>
                  simp only
                  cases runDoc (M.mapErr .parse (Document.addDeclaration p)) d <;> rfl
              · rfl
  · rfl

theorem metaStart_reset (d : Document) (st : MetaSt) (t : Option String) (as : List RAttr) :
    metaStart d (withText st t) .folia "meta" as = metaStart d st .folia "meta" as := by
  unfold metaStart
  rw [if_pos rfl, if_pos rfl]
  simp only [String.reduceEq, if_false, if_true]
  rw [forAttrs_text t (by intro k v st; split <;> rfl)]
  generalize forAttrs _ as st = r
  cases r <;> rfl

theorem metaEnd_text (d : Document) (st : MetaSt) (t : Option String) (ns : Ns) (tag : String) (hn : ¬ (ns = .folia ∧ tag = "meta")) :
    metaEnd d (withText st t) ns tag = ((metaEnd d st ns tag).1, withText (metaEnd d st ns tag).2 t) := by
  unfold metaEnd
  simp only [show (withText st t).prov = st.prov from rfl, show (withText st t).decls = st.decls from rfl]
  by_cases hns : ns = .folia
  · rw [if_pos hns, if_pos hns]
    have hm : tag ≠ "meta" := fun h => hn ⟨hns, h⟩
    simp only [hm, if_false]
    repeat' split
    all_goals first | rfl | skip
  · rw [if_neg hns, if_neg hns]

theorem padded_meta {b : Bool} {x y : List REvent} (h : Padded b x y) : ∀ (d : Document) (st : MetaSt) (t : Option String),
    (b = false → t = st.text) → PaddedRes (parseMeta d st x) (parseMeta d (withText st t) y) := by
  induction h with
  | nil => intros; exact rfl
  | @reset b as x y h ih =>
    intro d st t _
    rw [parseMeta, parseMeta, metaStart_reset]
    cases metaStart d st .folia "meta" as with
    | error f => exact rfl
    | ok r => exact ih r.1 r.2 r.2.text fun _ => rfl
  | @text b s x y h ih =>
    intro d st t _
    rw [parseMeta, parseMeta]
    cases unescape s with
    | none => exact rfl
    | some v => exact ih d { st with text := some v } (some v) fun _ => rfl
  | @keep b e x y he h ih =>
    intro d st t ht
    have hmono : ∀ st' : MetaSt, st'.text = st.text → b = false → t = st'.text := fun st' h1 h2 => (ht h2).trans h1.symm
    cases b with
    | false =>
      have : withText st t = st := by rw [ht rfl]; rfl
      rw [this]
      cases e with
      | start ns tag as =>
        rw [parseMeta, parseMeta]
        cases metaStart d st ns tag as with
        | error f => exact rfl
        | ok r => exact ih r.1 r.2 r.2.text fun _ => rfl
      | empty ns tag as =>
        rw [parseMeta, parseMeta]
        cases metaEmpty d st ns tag as with
        | error f => exact rfl
        | ok r => exact ih r.1 r.2 r.2.text fun _ => rfl
      | endTag ns tag =>
        rw [parseMeta, parseMeta]
        split
        · exact ⟨rfl, _, h⟩
        · exact ih _ _ (metaEnd d st ns tag).2.text fun _ => rfl
      | text s =>
        rw [parseMeta, parseMeta]
        cases unescape s with
        | none => exact rfl
        | some v => exact ih d { st with text := some v } (some v) fun _ => rfl
      | cdata s => exact ih d st st.text fun _ => rfl
      | comment s => exact ih d st st.text fun _ => rfl
      | other => exact ih d st st.text fun _ => rfl
      | error => exact rfl
    | true =>
      cases e with
      | start ns tag as =>
        rw [parseMeta, parseMeta]
        by_cases hm : tag = "meta"
        · subst hm
          by_cases hns : ns = .folia
          · subst hns
            rw [metaStart_reset]
            cases metaStart d st .folia "meta" as with
            | error f => exact rfl
            | ok r => exact ih r.1 r.2 r.2.text fun _ => rfl
          · unfold metaStart
            rw [if_neg hns, if_neg hns]
            exact rfl
        · rw [metaStart_text _ _ _ _ _ _ hm]
          cases metaStart d st ns tag as with
          | error f => exact rfl
          | ok r => exact ih r.1 r.2 t nofun
      | empty ns tag as =>
        rw [parseMeta, parseMeta, metaEmpty_text]
        cases metaEmpty d st ns tag as with
        | error f => exact rfl
        | ok r => exact ih r.1 r.2 t nofun
      | endTag ns tag =>
        rw [parseMeta, parseMeta]
        split
        · exact ⟨rfl, _, h⟩
        · rw [metaEnd_text d st t ns tag fun hh => he rfl (by rw [hh.1, hh.2])]
          exact ih _ _ t nofun
      | text s =>
        rw [parseMeta, parseMeta]
        cases unescape s with
        | none => exact rfl
        | some v => exact ih d { st with text := some v } (some v) nofun
      | cdata s => exact ih d st t nofun
      | comment s => exact ih d st t nofun
      | other => exact ih d st t nofun
      | error => exact rfl
  | @blank b s x y hs h ih =>
    intro d st t _
    rw [parseMeta, hs.1]
    exact ih d { st with text := some s } t nofun

theorem padded_parse {X : Ext} {F : Nat} {ps : DocumentProperties} {b : Bool} {x y : List REvent} (h : Padded b x y) :
    Document.parse X F ps x = Document.parse X F ps y := by
  unfold Document.parse
  simp only [bind, Except.bind]
  have h1 := padded_root (d := { autodeclare := ps.autodeclare }) h
  cases e1 : parseRoot { autodeclare := ps.autodeclare } x with
  | error f =>
    cases e2 : parseRoot { autodeclare := ps.autodeclare } y with
    | error g => rw [e1, e2] at h1; rw [show f = g from h1]
    | ok r => rw [e1, e2] at h1; exact h1.elim
  | ok r =>
    cases e2 : parseRoot { autodeclare := ps.autodeclare } y with
    | error g => rw [e1, e2] at h1; exact h1.elim
    | ok r' =>
      rw [e1, e2] at h1
      obtain ⟨q1, b1, hp1⟩ := h1
      simp only [q1]
      have h2 := padded_meta hp1 r'.1 {} none fun _ => rfl
      rw [show withText {} none = ({} : MetaSt) from rfl] at h2
      cases e3 : parseMeta r'.1 {} r.2 with
      | error f =>
        cases e4 : parseMeta r'.1 {} r'.2 with
        | error g => rw [e3, e4] at h2; rw [show f = g from h2]
        | ok r => rw [e3, e4] at h2; exact h2.elim
      | ok s =>
        cases e4 : parseMeta r'.1 {} r'.2 with
        | error g => rw [e3, e4] at h2; exact h2.elim
        | ok s' =>
          rw [e3, e4] at h2
          obtain ⟨q2, b2, hp2⟩ := h2
          simp only [q2]
          have h3 := padded_search (X := X) hp2
          cases e5 : parseBody X s.2 with
          | error f =>
            cases e6 : parseBody X s'.2 with
            | error g => rw [e5, e6] at h3; rw [show f = g from h3]
            | ok r => rw [e5, e6] at h3; exact h3.elim
          | ok u =>
            cases e6 : parseBody X s'.2 with
            | error g => rw [e5, e6] at h3; exact h3.elim
            | ok u' =>
              rw [e5, e6] at h3
              obtain ⟨q3, b3, hp3⟩ := h3
              simp only [q3]
              cases u'.1 with
              | none => rfl
              | some body =>
                simp only
                rw [show parseRest X F ps body u.2 = parseRest X F ps body u'.2 by unfold parseRest; simp only [padded_body hp3]]

/-- Checking end tags does not mind blank text. -/
theorem padded_check {b : Bool} {x y : List REvent} (h : Padded b x y) : ∀ o, Padded b (checkEnds o x) (checkEnds o y) := by
  induction h with
  | nil => intro o; cases o <;> exact .nil
  | reset h ih => intro o; rw [checkEnds, checkEnds]; exact .reset (ih _)
  | text h ih => intro o; cases o <;> exact .text (ih _)
  | @keep b e x y he h ih =>
    intro o
    cases e with
    | start ns t as => rw [checkEnds, checkEnds]; exact .keep nofun (ih _)
    | endTag ns t =>
      cases o with
      | nil => exact .keep nofun (ih _)
      | cons o os =>
        rw [checkEnds, checkEnds]
        refine .keep (fun hb => ?_) (ih _)
        split
        · exact he hb
        · nofun
    | empty ns t as => cases o <;> exact .keep nofun (ih _)
    | text s => cases o <;> exact .keep nofun (ih _)
    | cdata s => cases o <;> exact .keep nofun (ih _)
    | comment s => cases o <;> exact .keep nofun (ih _)
    | other => cases o <;> exact .keep nofun (ih _)
    | error => cases o <;> exact .keep nofun (ih _)
  | blank hs h ih => intro o; cases o <;> exact .blank hs (ih _)

/-! ### The writer -/

/-- Every `meta` element is written as a start tag, a text and an end tag. -/
inductive MetaClean : List WEvent → Prop
  | nil : MetaClean []
  | meta_ {as s rest} : MetaClean rest → MetaClean (.start "meta" as :: .text s :: .endTag "meta" :: rest)
  | step {e rest} : (∀ as, e ≠ .start "meta" as) → e ≠ .endTag "meta" → MetaClean rest → MetaClean (e :: rest)

theorem MetaClean.append {a b : List WEvent} (ha : MetaClean a) (hb : MetaClean b) : MetaClean (a ++ b) := by
  induction ha with
  | nil => exact hb
  | meta_ _ ih => exact .meta_ ih
  | step h1 h2 _ ih => exact .step h1 h2 ih

theorem blank_break (len : Nat) : Blank ("\n" ++ String.ofList (List.replicate len ' ')) := by
  have hl : ("\n" ++ String.ofList (List.replicate len ' ')).toList = '\n' :: List.replicate len ' ' := by simp
  have hu : ∀ (l : List Char), '&' ∉ l → unescapeAux l.length l = some l := by
    intro l
    induction l with
    | nil => intro _; rfl
    | cons c cs ih =>
      intro h
      have h1 : c ≠ '&' := fun h2 => h (h2 ▸ List.mem_cons_self)
      rw [List.length_cons, unescapeAux, ih fun h2 => h (List.mem_cons_of_mem _ h2)]
      intro h2; exact h1 h2
  constructor
  · unfold unescape
    rw [hu _ (by rw [hl]; simp)]
    simp
  · unfold notBlank
    rw [hl]
    simp only [List.any_cons, List.any_replicate]
    split <;> decide

theorem padded_flush {b : Bool} {p : String} {x y : List REvent} (h : Padded (if p = "" then b else false) x y) :
    Padded b ((if p = "" then [] else [.text p]) ++ x) ((if p = "" then [] else [.text p]) ++ y) := by
  by_cases hp : p = ""
  · rw [if_pos hp] at h ⊢; exact h
  · rw [if_neg hp] at h ⊢; exact .text h

/-- A tag with the line break before it. -/
theorem padded_break {b brk : Bool} {len : Nat} {p : String} (hp : brk = true → p = "") {y : List REvent} {evs : List WEvent} {e : WEvent} {r : REvent}
    (he : ∀ p evs, readBackAux p (e :: evs) = (if p = "" then [] else [.text p]) ++ r :: readBackAux "" evs)
    (h : ∀ c, Padded c (r :: readBackAux "" evs) (r :: y)) :
    Padded b (readBackAux p (breakBefore brk len ++ e :: evs)) ((if p = "" then [] else [.text p]) ++ r :: y) := by
  unfold breakBefore
  cases brk with
  | false =>
    rw [if_neg nofun, List.nil_append, he]
    exact padded_flush (h _)
  | true =>
    rw [if_pos rfl, hp rfl, if_pos rfl]
    show Padded b (readBackAux ("" ++ _) (e :: evs)) _
    rw [he, if_neg (by simp [String.empty_append])]
    exact .blank (by rw [String.empty_append]; exact blank_break len) (h _)

/-- Indentation adds nothing but blank texts, and none before the end of a `meta` element. -/
theorem padded_indent (n : Nat) {evs : List WEvent} (h : MetaClean evs) : ∀ (brk : Bool) (len : Nat) (p : String) (b : Bool), (brk = true → p = "") →
    Padded b (readBackAux p (indentFrom n brk len evs)) (readBackAux p evs) := by
  induction h with
  | nil =>
    intro brk len p b _
    show Padded b (readBackAux p []) (readBackAux p [])
    unfold readBackAux
    split
    · exact .nil
    · exact .text .nil
  | @meta_ as s rest h ih =>
    intro brk len p b hp
    rw [indentFrom, indentFrom, indentFrom]
    refine padded_break hp (fun _ _ => by rw [readBackAux]) fun c => .reset ?_
    show Padded false (readBackAux ("" ++ s) (.endTag "meta" :: _)) (readBackAux ("" ++ s) (.endTag "meta" :: rest))
    rw [readBackAux, readBackAux]
    refine padded_flush (.keep ?_ (ih _ _ _ _ fun _ => rfl))
    split <;> nofun
  | @step e rest h1 h2 h ih =>
    intro brk len p b hp
    cases e with
    | text s => exact ih _ _ _ _ nofun
    | start t as => exact padded_break hp (fun _ _ => by rw [readBackAux]) fun c => .keep nofun (ih _ _ _ _ fun _ => rfl)
    | empty t as => exact padded_break hp (fun _ _ => by rw [readBackAux]) fun c => .keep nofun (ih _ _ _ _ fun _ => rfl)
    | comment t => exact padded_break hp (fun _ _ => by rw [readBackAux]) fun c => .keep nofun (ih _ _ _ _ fun _ => rfl)
    | endTag t =>
      exact padded_break hp (fun _ _ => by rw [readBackAux]) fun c => .keep (fun _ hh => h2 (by cases hh; rfl)) (ih _ _ _ _ fun _ => rfl)

/-! ### What is written -/

theorem MetaClean.single {e : WEvent} (h1 : ∀ as, e ≠ .start "meta" as) (h2 : e ≠ .endTag "meta") : MetaClean [e] := .step h1 h2 .nil

theorem MetaClean.open {t as rest} (ht : t ≠ "meta") (h : MetaClean rest) : MetaClean (.start t as :: rest) :=
  .step (fun _ hh => ht (WEvent.start.inj hh).1) nofun h
theorem MetaClean.shut {t rest} (ht : t ≠ "meta") (h : MetaClean rest) : MetaClean (.endTag t :: rest) :=
  .step nofun (fun hh => ht (WEvent.endTag.inj hh)) h

theorem metaClean_nl : MetaClean [nl] := .single nofun nofun

theorem metaClean_metas : ∀ data : List (String × String), MetaClean (xmlMetas data)
  | [] => .nil
  | _ :: rest => .meta_ (.step nofun nofun (metaClean_metas rest))

theorem declTag_ne_meta (dec : Declaration) : declTag dec ≠ "meta" := by
  have : ∀ t : AnnotationType, t.asStr ++ "-annotation" ≠ "meta" := by
    intro t; cases t <;> decide
  exact this _

theorem asStr_ne (t : ElementType) : t.asStr ≠ "meta" := by cases t <;> decide

theorem metaClean_annotators {d : Document} : ∀ {ps : List Nat} {evs}, xmlAnnotators d ps = .ok evs → MetaClean evs
  | [], _, h => by cases h; exact .nil
  | p :: ps, _, h => by
    unfold xmlAnnotators at h
    split at h
    · obtain ⟨_, h1, rfl⟩ := map_ok h
      exact .step nofun nofun (metaClean_annotators h1)
    · cases h

theorem metaClean_declaration {d : Document} {dec : Declaration} {evs} (h : xmlDeclaration d dec = .ok evs) : MetaClean evs := by
  unfold xmlDeclaration at h
  split at h
  · cases h; exact .step nofun nofun metaClean_nl
  · obtain ⟨_, h1, rfl⟩ := map_ok h
    exact MetaClean.append (.open (declTag_ne_meta dec) (metaClean_annotators h1)) (.shut (declTag_ne_meta dec) metaClean_nl)

theorem metaClean_declarations {d : Document} : ∀ {l evs}, xmlDeclarationList d l = .ok evs → MetaClean evs
  | [], _, h => by cases h; exact .nil
  | none :: _, _, h => metaClean_declarations (l := _) (by unfold xmlDeclarationList at h; exact h)
  | some dec :: _, _, h => by
    unfold xmlDeclarationList at h
    split at h
    · cases h
    · rename_i h0
      obtain ⟨_, h1, rfl⟩ := map_ok h
      exact (metaClean_declaration h0).append (metaClean_declarations h1)

theorem metaClean_concat {α : Type} {f : α → Res (List WEvent)} (hf : ∀ a evs, f a = .ok evs → MetaClean evs) : ∀ {l evs}, concatRes f l = .ok evs → MetaClean evs
  | [], _, h => by cases h; exact .nil
  | _ :: _, _, h => by
    unfold concatRes at h
    split at h
    · cases h
    · rename_i h0
      obtain ⟨_, h1, rfl⟩ := map_ok h
      exact (hf _ _ h0).append (metaClean_concat hf h1)

theorem metaClean_processor {d : Document} : ∀ {n k evs}, xmlProcessor d n k = .ok evs → MetaClean evs
  | 0, _, _, h => by cases h
  | n + 1, k, _, h => by
    unfold xmlProcessor at h
    split at h
    · cases h; exact .nil
    · split at h
      · cases h; exact .step nofun nofun metaClean_nl
      · obtain ⟨_, h1, rfl⟩ := map_ok h
        exact MetaClean.append (.open (by decide) (metaClean_concat (fun _ _ => metaClean_processor) h1)) (.shut (by decide) metaClean_nl)

theorem metaClean_metadata {d : Document} {n : Nat} {evs} (h : xmlMetadata d n = .ok evs) : MetaClean evs := by
  unfold xmlMetadata xmlDeclarations xmlProvenance at h
  simp only [bind, Except.bind, Pure.pure, Except.pure] at h
  split at h
  · cases h
  · rename_i h1
    obtain ⟨_, h1', rfl⟩ := map_ok h1
    split at h
    · cases h
    · rename_i h2
      obtain ⟨_, h2', rfl⟩ := map_ok h2
      cases h
      have hsub : ∀ l : List (String × Metadata), MetaClean (l.flatMap fun sm => xmlMetas sm.2.data) := by
        intro l
        induction l with
        | nil => exact .nil
        | cons a l ih => exact (metaClean_metas _).append ih
      refine MetaClean.append (MetaClean.append (MetaClean.append (MetaClean.append (MetaClean.append ?_ ?_) ?_) (metaClean_metas _)) (hsub _)) ?_
      · exact .open (by decide) metaClean_nl
      · exact (MetaClean.append (.open (by decide) metaClean_nl) (metaClean_declarations h1')).append (.shut (by decide) metaClean_nl)
      · exact (MetaClean.append (.open (by decide) metaClean_nl) (metaClean_concat (fun _ _ => metaClean_processor) h2')).append (.shut (by decide) metaClean_nl)
      · exact .shut (by decide) metaClean_nl

/-- The tags on the serialiser's stack are tags of elements. -/
def TagsOk (st : List OpenTag) : Prop := ∀ o ∈ st, ∃ t : ElementType, o.1 = t.asStr

theorem metaClean_close : ∀ {n st evs st'}, TagsOk st → closeTags n st = .ok (evs, st') → MetaClean evs ∧ TagsOk st'
  | 0, _, _, _, hst, h => by cases h; exact ⟨.nil, hst⟩
  | _ + 1, [], _, _, _, h => by cases h
  | n + 1, (tag, t) :: st, _, _, hst, h => by
    unfold closeTags at h
    split at h
    · cases h
    · rename_i h0
      cases h
      obtain ⟨g1, g2⟩ := metaClean_close (fun o ho => hst o (List.mem_cons_of_mem _ ho)) h0
      obtain ⟨t', ht'⟩ := hst _ List.mem_cons_self
      refine ⟨MetaClean.append (.shut (fun hh => asStr_ne t' (ht'.symm.trans hh)) ?_) g1, g2⟩
      split
      · exact metaClean_nl
      · exact .nil

theorem metaClean_item {X : Ext} {d : Document} {mask : List Bool} {x : Data} {st st' : List OpenTag} {evs : List WEvent} (hst : TagsOk st)
    (h : xmlItem X d mask x st = .ok (evs, st')) : MetaClean evs ∧ TagsOk st' := by
  have hnl : ∀ c : Bool, MetaClean (if c = true then [nl] else []) := fun c => by
    cases c
    · exact .nil
    · exact metaClean_nl
  cases x with
  | element k =>
    unfold xmlItem at h
    simp only at h
    split at h
    · cases h; exact ⟨.nil, hst⟩
    · split at h
      · cases h
      · split at h
        · cases h; exact ⟨.step nofun nofun (hnl _), hst⟩
        · rename_i e _ _ _ _ _
          cases h
          refine ⟨.open (asStr_ne e.elementtype) (hnl _), fun o ho => ?_⟩
          rcases List.mem_cons.mp ho with rfl | ho
          · exact ⟨_, rfl⟩
          · exact hst o ho
  | text s => cases h; exact ⟨.single nofun nofun, hst⟩
  | comment s => cases h; exact ⟨.single nofun nofun, hst⟩
  | spanReference k => cases h; exact ⟨.nil, hst⟩
  | addElement e => cases h; exact ⟨.nil, hst⟩

theorem metaClean_loop {X : Ext} {d : Document} {mask : List Bool} : ∀ {is : List SelectItem} {prev : Nat} {st : List OpenTag} {evs : List WEvent}, TagsOk st →
    xmlLoop X d mask is prev st = .ok evs → MetaClean evs
  | [], _, st, _, hst, h => by
    cases h
    induction st with
    | nil => exact .nil
    | cons o st ih =>
      obtain ⟨t, ht⟩ := hst o List.mem_cons_self
      exact .shut (fun hh => asStr_ne t (ht.symm.trans hh)) (ih fun o ho => hst o (List.mem_cons_of_mem _ ho))
  | i :: is, prev, st, _, hst, h => by
    unfold xmlLoop at h
    split at h
    · cases h
    · rename_i h0
      split at h
      · cases h
      · rename_i h1
        obtain ⟨_, h2, rfl⟩ := map_ok h
        obtain ⟨g1, g2⟩ := metaClean_close hst h0
        obtain ⟨g3, g4⟩ := metaClean_item g2 h1
        exact (g1.append g3).append (metaClean_loop g4 h2)

theorem metaClean_xml {X : Ext} {d : Document} {F root : Nat} {evs : List WEvent} (h : d.xml X F root = .ok evs) : MetaClean evs := by
  unfold Document.xml xmlElements at h
  simp only [bind, Except.bind, Pure.pure, Except.pure] at h
  split at h
  · cases h
  · rename_i h1
    split at h
    · cases h
    · rename_i h2
      split at h2
      · cases h2
      · cases h
        refine MetaClean.append (MetaClean.append (MetaClean.append (.open (by decide) metaClean_nl) (metaClean_metadata h1)) (metaClean_loop (by nofun) h2)) ?_
        exact .step nofun nofun (.shut (by decide) .nil)

end Folia
