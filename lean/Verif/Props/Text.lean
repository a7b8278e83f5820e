import Verif.Lemmas.Text
import Verif.Props.Elements
import Verif.Samples
import Verif.Tree
/-! C32, C33, C34, C35, C54, C59, C60, C61: the text of elements. -/
namespace Folia
open Document

/-! ### C32 -/

/-- The requested set, the requested class and `strict` have no influence on the text. -/
theorem C32_parameters_ignored (d : Document) (retain : Bool) (F : Nat) (k : Nat) (set cls set' cls' : Nat) (strict strict' : Bool) :
    d.textByKey F k set cls strict retain = d.textByKey F k set' cls' strict' retain := by
  unfold Document.textByKey
  cases d.getElement k with
  | none => rfl
  | some e => exact textByKey_same ..

/-- The full claim is that only text content of the requested set and class is used. What holds is that the set must be declared and the
class must be known in it; what is missing is that they are used. -/
theorem C32_declared_partial {d : Document} {F k : Nat} {p : TextParameters} {s : String} (h : d.text F k p = .ok s) :
    ∃ dk c ck, d.declarationKeyById (Declaration.indexId .TEXT p.set) = some dk ∧ p.textclass = some c ∧ d.classKey dk c = .ok ck ∧
      d.textByKey F k dk ck p.strict p.retaintokenisation = .ok s := by
  unfold Document.text at h
  cases he : d.getElement k with
  | none => rw [he] at h; cases h
  | some e =>
    rw [he] at h
    simp only [elementText] at h
    cases hdk : d.declarationKeyById (Declaration.indexId .TEXT p.set) with
    | none => rw [hdk] at h; cases hs : p.set <;> simp [hs] at h
    | some dk =>
      rw [hdk] at h
      cases hc : p.textclass with
      | none => simp [hc] at h
      | some c =>
        simp only [hc] at h
        cases hck : d.classKey dk c with
        | error f => rw [hck] at h; cases h
        | ok ck =>
          rw [hck] at h
          exact ⟨dk, c, ck, rfl, rfl, hck, by unfold Document.textByKey; rw [he]; exact h⟩

/-- Two requests that only differ in set, class and strictness never give different texts. -/
theorem C32_same_text {d : Document} {F k : Nat} {p p' : TextParameters} {s s' : String} (hp : p.retaintokenisation = p'.retaintokenisation)
    (h : d.text F k p = .ok s) (h' : d.text F k p' = .ok s') : s = s' := by
  obtain ⟨_, _, _, _, _, _, h⟩ := C32_declared_partial h
  obtain ⟨_, _, _, _, _, _, h'⟩ := C32_declared_partial h'
  rw [C32_parameters_ignored d _ F k _ _ _ _ _ p'.strict, hp, h'] at h
  cases h; rfl

/-- A document with a word that has two text contents: one of the class `current` and one of the class `ocr`. -/
def Sample.twoTexts : Document := runOps Sample.F [.addElementTo 0 (((ElementData.new .word).addElement
  (((ElementData.new .textContent).setAttrib (.cls "current")).push (.text "tea"))).addElement
  (((ElementData.new .textContent).setAttrib (.cls "ocr")).push (.text "7ea")))] Sample.fresh

/-- Asking for the class `current` returns the text of the class `ocr`. -/
theorem C32_class_counterexample : Reachable Sample.X Sample.F Sample.twoTexts ∧
    (Sample.twoTexts.getElement 1).map (fun e => e.getClass Sample.twoTexts) = some (.ok (some "current")) ∧
    (Sample.twoTexts.getElement 2).map (fun e => e.getClass Sample.twoTexts) = some (.ok (some "ocr")) ∧
    Sample.twoTexts.text Sample.F 1 {} = .ok "tea" ∧ Sample.twoTexts.text Sample.F 2 {} = .ok "7ea" ∧
    Sample.twoTexts.text Sample.F 3 { textclass := some "current" } = .ok "7ea" :=
  ⟨Sample.reachable_ops _ (.new Sample.fresh_eq), by decide +kernel, by decide +kernel, by decide +kernel, by decide +kernel,
    by decide +kernel⟩

/-! ### C33 -/

/-- If the parts of an element have text together, its text is that of its parts, each separated from the next by its own delimiter. -/
theorem C33_concatenation {d : Document} {retain : Bool} {e : ElementData} (he : Speaks e) {ps : List Part} (hps : Parts d retain e.data ps)
    (hne : joined ps ≠ "") (s : String) : TextIs d retain e s ↔ s = joined ps := by
  rw [text_iff he]
  constructor
  · rintro ⟨h1, ps', h2, h3⟩
    cases hps.unique h2
    rcases h3 with h3 | ⟨h3, _⟩
    · exact h3.symm
    · exact absurd h3 hne
  · rintro rfl
    exact ⟨hne, ps, hps, .inl rfl⟩

/-- The last part comes after the delimiter of the part before it, and nothing comes after it. -/
theorem joined_snoc (q : Part) (hq : (props q.source.elementtype).textcontainer = false) : ∀ (ps : List Part) (p : Part),
    joined (ps ++ [p, q]) = joined (ps ++ [p]) ++ p.delimiter ++ q.text
  | [], p => by simp [joined, hq]
  | [r], p => by simp [joined, hq, String.append_assoc]
  | r :: r' :: ps, p => by
    have := joined_snoc q hq (r' :: ps) p
    simp only [List.cons_append] at this ⊢
    rw [joined, this, joined]
    simp only [String.append_assoc]

/-- The parts of an element are, in order, elements that its data items stand for; each has its text and its delimiter; and no such element
with text is left out. -/
theorem C33_parts {d : Document} {retain : Bool} {data : List Data} {ps : List Part} (h : Parts d retain data ps) :
    (∀ o : Data → Option ElementData, (∀ x ∈ data, StandsFor d x (o x)) → List.Sublist (ps.map fun p => some p.source) (data.map o)) ∧
    (∀ p ∈ ps, TextIs d retain p.source p.text ∧ DelimiterIs d retain p.source p.delimiter) ∧
    ∀ x ∈ data, ∀ c s, StandsFor d x (some c) → TextIs d retain c s → ∃ p ∈ ps, p.source = c := by
  induction h with
  | nil => exact ⟨fun _ _ => .slnil, by simp, by simp⟩
  | none hx _ ih =>
    refine ⟨fun o ho => .cons _ (ih.1 o fun x h => ho x (by simp [h])), ih.2.1, ?_⟩
    intro y hy c s hc hs
    rcases List.mem_cons.1 hy with rfl | hy
    · cases hx.unique hc
    · exact ih.2.2 y hy c s hc hs
  | silent hx hf _ ih =>
    refine ⟨fun o ho => .cons _ (ih.1 o fun x h => ho x (by simp [h])), ih.2.1, ?_⟩
    intro y hy c s hc hs
    rcases List.mem_cons.1 hy with rfl | hy
    · cases hx.unique hc; exact absurd hf hs.not_fails
    · exact ih.2.2 y hy c s hc hs
  | @part x xs ps c s t hx hs ht _ ih =>
    refine ⟨fun o ho => ?_, ?_, ?_⟩
    · rw [List.map_cons, List.map_cons, ← hx.unique (ho x (by simp))]
      exact .cons_cons _ (ih.1 o fun x h => ho x (by simp [h]))
    · intro p hp
      rcases List.mem_cons.1 hp with rfl | hp
      · exact ⟨hs, ht⟩
      · exact ih.2.1 p hp
    · intro y hy c' s' hc hs'
      rcases List.mem_cons.1 hy with rfl | hy
      · cases hx.unique hc; exact ⟨⟨c, s, t⟩, by simp, rfl⟩
      · obtain ⟨p, hp, h⟩ := ih.2.2 y hy c' s' hc hs'
        exact ⟨p, by simp [hp], h⟩

/-- The last element among the data. -/
def LastElement (d : Document) (data : List Data) (c : ElementData) : Prop :=
  ∃ pre k post, data = pre ++ .element k :: post ∧ d.getElement k = some c ∧ ∀ j, .element j ∈ post → d.getElement j = none

theorem lastChild_some {d : Document} : ∀ {data c}, lastChild d data = some c → LastElement d data c
  | [], _, h => by cases h
  | x :: xs, c, h => by
    unfold lastChild at h
    cases hl : lastChild d xs with
    | some c' =>
      rw [hl] at h; cases h
      obtain ⟨pre, k, post, h1, h2⟩ := lastChild_some hl
      exact ⟨x :: pre, k, post, by rw [h1]; rfl, h2⟩
    | none =>
      rw [hl] at h
      have hno : ∀ {ys : List Data}, lastChild d ys = none → ∀ j, .element j ∈ ys → d.getElement j = none := by
        intro ys
        induction ys with
        | nil => intro _ j hj; cases hj
        | cons y ys ih =>
          intro h j hj
          unfold lastChild at h
          cases hys : lastChild d ys with
          | some c => rw [hys] at h; cases h
          | none =>
            rw [hys] at h
            rcases List.mem_cons.1 hj with rfl | hj
            · exact h
            · exact ih hys j hj
      cases x with
      | element j => exact ⟨[], j, xs, rfl, h, hno hl⟩
      | _ => cases h

theorem LastElement.eq_some {d : Document} {data : List Data} {c : ElementData} (h : LastElement d data c) : lastChild d data = some c := by
  obtain ⟨pre, k, post, rfl, h2, h3⟩ := h
  have hpost : lastChild d post = none := by
    cases hl : lastChild d post with
    | none => rfl
    | some c' => obtain ⟨j, h4, h5⟩ := lastChild_mem hl; rw [h3 j h4] at h5; cases h5
  induction pre with
  | nil => simp only [List.nil_append, lastChild, hpost, h2]
  | cons x pre ih => simp only [List.cons_append, lastChild, ih]

/-- The delimiter of an element. An element whose type has a delimiter has this one, except that it has none if its type allows the
attribute `space`, this attribute says no, and the tokenisation is not to be retained. Other elements have the delimiter of their last
child, or none without children. -/
theorem C33_delimiter (d : Document) (retain : Bool) (e : ElementData) (t : String) : DelimiterIs d retain e t ↔
    (∃ td, (props e.elementtype).textdelimiter = some td ∧
      (if .SPACE ∈ (props e.elementtype).optionalAttribs ∧ retain = false ∧ e.attrib .SPACE = some (.space false) then t = "" else t = td)) ∨
    ((props e.elementtype).textdelimiter = none ∧
      ((∃ c, LastElement d e.data c ∧ DelimiterIs d retain c t) ∨ ((¬ ∃ c, LastElement d e.data c) ∧ t = ""))) := by
  cases htd : (props e.elementtype).textdelimiter with
  | some td =>
    have key : ∀ F, textDelimiter d retain (F + 1) e =
        .ok (if .SPACE ∈ (props e.elementtype).optionalAttribs ∧ retain = false ∧ e.attrib .SPACE = some (.space false) then "" else td) := by
      intro F
      have hw : wantsSpace e retain = false ↔ retain = false ∧ e.attrib .SPACE = some (.space false) := by
        unfold wantsSpace
        cases retain with
        | true => simp
        | false =>
          simp only [Bool.false_or, true_and]
          cases e.attrib .SPACE with
          | none => simp
          | some a => cases a <;> simp
      simp only [textDelimiter, htd, List.contains_iff_mem, ← hw]
      by_cases h1 : .SPACE ∈ (props e.elementtype).optionalAttribs
      · by_cases h2 : wantsSpace e retain = true <;> simp [h1, h2]
      · simp [h1]
    constructor
    · rintro ⟨F, h⟩
      refine .inl ⟨td, rfl, ?_⟩
      cases F with
      | zero => cases h
      | succ F =>
        rw [key] at h
        cases h
        split <;> rfl
    · rintro (⟨td', h1, h2⟩ | ⟨h1, _⟩)
      · cases h1
        refine ⟨1, ?_⟩
        rw [key]
        split at h2 <;> simp_all
      · cases h1
  | none =>
    constructor
    · rintro ⟨F, h⟩
      refine .inr ⟨rfl, ?_⟩
      cases F with
      | zero => cases h
      | succ F =>
        simp only [textDelimiter, htd] at h
        cases hl : lastChild d e.data with
        | some c => rw [hl] at h; exact .inl ⟨c, lastChild_some hl, F, h⟩
        | none =>
          rw [hl] at h; cases h
          refine .inr ⟨?_, rfl⟩
          rintro ⟨c, hc⟩
          rw [hc.eq_some] at hl; cases hl
    · rintro (⟨td', h1, h2⟩ | ⟨_, h⟩)
      · cases h1
      · rcases h with ⟨c, hc, F, h⟩ | ⟨h, rfl⟩
        · exact ⟨F + 1, by simp only [textDelimiter, htd, hc.eq_some]; exact h⟩
        · refine ⟨1, ?_⟩
          simp only [textDelimiter, htd]
          cases hl : lastChild d e.data with
          | none => rfl
          | some c => exact absurd ⟨c, lastChild_some hl⟩ h

/-- In terms of the method: a structure element whose structural parts have text has the joined text. -/
theorem C33_text {d : Document} {F k : Nat} {p : TextParameters} {s : String} (h : d.text F k p = .ok s) :
    ∃ e, d.getElement k = some e ∧ TextIs d p.retaintokenisation e s := by
  obtain ⟨dk, _, ck, _, _, _, h⟩ := C32_declared_partial h
  unfold Document.textByKey at h
  cases he : d.getElement k with
  | none => rw [he] at h; cases h
  | some e => rw [he] at h; exact ⟨e, rfl, dk, ck, p.strict, F, h⟩

/-! ### C34 -/

/-- If the parts of an element have no text, its text is that of its own last text content, if this is not empty. -/
theorem C34_fallback {d : Document} {retain : Bool} {e : ElementData} (he : Speaks e) {ps : List Part} (hps : Parts d retain e.data ps)
    (hj : joined ps = "") (s : String) : TextIs d retain e s ↔ s ≠ "" ∧ ∃ c, LastContent d e.data c ∧ TextIs d retain c s := by
  rw [text_iff he]
  constructor
  · rintro ⟨h1, ps', h2, h3⟩
    cases hps.unique h2
    rcases h3 with h3 | ⟨_, h3⟩
    · exact absurd (h3.symm.trans hj) h1
    · exact ⟨h1, h3⟩
  · rintro ⟨h1, h2⟩
    exact ⟨h1, ps, hps, .inr ⟨hj, h2⟩⟩

/-- If the parts of an element have text, its own text content does not matter: without it the text is the same. -/
theorem C34_content_unused {d : Document} {retain : Bool} {e e' : ElementData} (he : Speaks e) (ht : e'.elementtype = e.elementtype)
    {ps : List Part} (hps : Parts d retain e.data ps) (hps' : Parts d retain e'.data ps) (hne : joined ps ≠ "") (s : String) :
    TextIs d retain e s ↔ TextIs d retain e' s := by
  have he' : Speaks e' := ⟨by rw [ht]; exact he.plain, by rw [ht]; exact he.printable, by rw [ht]; exact he.visible⟩
  rw [C33_concatenation he hps hne, C33_concatenation he' hps' hne]

/-- The text of an element that is not a text container is never empty. -/
theorem C34_never_empty {d : Document} {retain : Bool} {e : ElementData} (he : (props e.elementtype).textcontainer = false) {s : String}
    (h : TextIs d retain e s) : s ≠ "" := by
  by_cases hp : (!(props e.elementtype).printable || (props e.elementtype).hidden) = true
  · obtain ⟨N, h⟩ := h.at
    have h := h (N + 1) (by omega)
    unfold textAt at h
    rw [textByKey] at h
    simp only [he, hp, if_true] at h
    cases h
  · simp only [Bool.not_eq_true, Bool.or_eq_false_iff, Bool.not_eq_false'] at hp
    exact ((text_iff ⟨he, hp.1, hp.2⟩ s).1 h).1

/-- An element without text in its parts and in its own text content has no text. -/
theorem C34_no_text {d : Document} {retain : Bool} {e : ElementData} (he : Speaks e) {ps : List Part} (hps : Parts d retain e.data ps)
    (hj : joined ps = "") (hc : NoContent d e.data ∨ ∃ c, LastContent d e.data c ∧ (TextFails d retain c ∨ TextIs d retain c "")) :
    TextFails d retain e := text_fails he hps hj hc

/-! ### C35 -/

/-- A type whose elements have no text. -/
def Mute (t : ElementType) : Prop := (props t).printable = false ∨ (props t).hidden = true

instance (t : ElementType) : Decidable (Mute t) := by unfold Mute; infer_instance

theorem mute_plain : ∀ t, Mute t → (props t).textcontainer = false := by
  have h : ∀ t ∈ ElementType.all, Mute t → (props t).textcontainer = false := by decide +kernel
  exact fun t => h t (ElementType.mem_all t)

/-- Asking for the text of a hidden or non-printable element gives the error for missing text. -/
theorem C35_error {d : Document} {e : ElementData} (h : Mute e.elementtype) (F k : Nat) (he : d.getElement k = some e) (set cls : Nat)
    (strict retain : Bool) : d.textByKey (F + 1) k set cls strict retain = .error (.err .noText) := by
  unfold Document.textByKey
  rw [he]
  simp only [textByKey, mute_plain _ h]
  have : (!(props e.elementtype).printable || (props e.elementtype).hidden) = true := by
    rcases h with h | h <;> simp [h]
  simp only [this, if_true]; rfl

theorem mute_fails {d : Document} {retain : Bool} {e : ElementData} (h : Mute e.elementtype) : TextFails d retain e := by
  refine ⟨0, 0, false, 1, .noText, ?_⟩
  simp only [textByKey, mute_plain _ h]
  have : (!(props e.elementtype).printable || (props e.elementtype).hidden) = true := by
    rcases h with h | h <;> simp [h]
  simp only [this, if_true]; rfl

theorem parts_without {d : Document} {retain : Bool} {k : Nat} {c : ElementData} (hc : d.getElement k = some c) (hm : Mute c.elementtype)
    (hw : c.elementtype ≠ .wordReference) (post : List Data) : ∀ (pre : List Data) (ps : List Part),
    Parts d retain (pre ++ .element k :: post) ps ↔ Parts d retain (pre ++ post) ps
  | [], ps => by
    constructor
    · intro h
      cases h with
      | none _ h => exact h
      | silent _ _ h => exact h
      | part h1 h2 _ _ =>
        cases h1 with
        | child h3 _ => rw [hc] at h3; cases h3; exact absurd (mute_fails hm) h2.not_fails
        | reference h3 h4 _ => rw [hc] at h3; cases h3; exact absurd h4 hw
    · intro h
      by_cases hp : TextPart c.elementtype
      · exact .silent (.child hc hp) (mute_fails hm) h
      · exact .none (.unrelated hc hp hw) h
  | x :: pre, ps => by
    constructor
    · intro h
      cases h with
      | none h1 h => exact .none h1 ((parts_without hc hm hw post pre _).1 h)
      | silent h1 h2 h => exact .silent h1 h2 ((parts_without hc hm hw post pre _).1 h)
      | part h1 h2 h3 h => exact .part h1 h2 h3 ((parts_without hc hm hw post pre _).1 h)
    · intro h
      cases h with
      | none h1 h => exact .none h1 ((parts_without hc hm hw post pre _).2 h)
      | silent h1 h2 h => exact .silent h1 h2 ((parts_without hc hm hw post pre _).2 h)
      | part h1 h2 h3 h => exact .part h1 h2 h3 ((parts_without hc hm hw post pre _).2 h)

theorem contentOf_without {d : Document} {k : Nat} {c : ElementData} (hc : d.getElement k = some c) (hm : c.elementtype ≠ .textContent)
    (post : List Data) : ∀ pre : List Data, contentOf d (pre ++ .element k :: post) = contentOf d (pre ++ post)
  | [] => by
    simp only [List.nil_append, contentOf, hc, hm, if_false]
    cases contentOf d post <;> rfl
  | x :: pre => by
    have := contentOf_without hc hm post pre
    cases x <;> simp only [List.cons_append, contentOf, this]

/-- A hidden or non-printable child, other than a word reference, contributes neither text nor a delimiter to the text of its parent: the
parent has the text it would have without this child. This is for parents that are no text containers; for text containers see
`C35_container_partial`. -/
theorem C35_no_contribution {d : Document} {retain : Bool} {e e' : ElementData} (he : Speaks e) {pre post : List Data} {k : Nat}
    {c : ElementData} (hd : e.data = pre ++ .element k :: post) (hc : d.getElement k = some c) (hm : Mute c.elementtype)
    (hw : c.elementtype ≠ .wordReference) (ht : e'.elementtype = e.elementtype) (hd' : e'.data = pre ++ post) (s : String) :
    TextIs d retain e s ↔ TextIs d retain e' s := by
  have he' : Speaks e' := ⟨by rw [ht]; exact he.plain, by rw [ht]; exact he.printable, by rw [ht]; exact he.visible⟩
  have htc : c.elementtype ≠ .textContent := by
    intro h; rw [h] at hm; revert hm; decide +kernel
  have hlast : ∀ x, LastContent d e.data x ↔ LastContent d e'.data x := by
    intro x
    have := contentOf_without hc htc post pre
    rw [hd, hd']
    constructor
    · intro h; exact contentOf_some (this ▸ h.eq_some)
    · intro h; exact contentOf_some (this.symm ▸ h.eq_some)
  rw [text_iff he, text_iff he']
  simp only [hlast]
  rw [hd, hd']
  simp only [parts_without hc hm hw]

/-- The text containers. A non-printable child contributes nothing to the text of a text container. What is missing is the hidden child, see
`C35_container_counterexample`. -/
theorem C35_container_partial {d : Document} {retain : Bool} {e e' : ElementData} (he : (props e.elementtype).textcontainer = true)
    {pre post : List Data} {k : Nat} {c : ElementData} (hd : e.data = pre ++ .element k :: post) (hc : d.getElement k = some c)
    (hm : (props c.elementtype).printable = false) (ht : e'.elementtype = e.elementtype) (hd' : e'.data = pre ++ post) (s : String) :
    TextIs d retain e s ↔ TextIs d retain e' s := by
  have key : ∀ (pre : List Data) (text : String), Inline d retain text (pre ++ .element k :: post) s ↔ Inline d retain text (pre ++ post) s := by
    intro pre
    induction pre with
    | nil =>
      intro text
      constructor
      · intro h
        cases h with
        | markup h1 h2 _ _ => rw [hc] at h1; cases h1; rw [hm] at h2; cases h2
        | silent _ _ h => exact h
        | missing h1 _ => rw [hc] at h1; cases h1
      · exact .silent hc hm
    | cons x pre ih =>
      intro text
      constructor
      · intro h
        cases h with
        | markup h1 h2 h3 h => exact .markup h1 h2 h3 ((ih _).1 h)
        | silent h1 h2 h => exact .silent h1 h2 ((ih _).1 h)
        | missing h1 h => exact .missing h1 ((ih _).1 h)
        | text h => exact .text ((ih _).1 h)
        | comment h => exact .comment ((ih _).1 h)
        | span h => exact .span ((ih _).1 h)
        | pending h => exact .pending ((ih _).1 h)
      · intro h
        cases h with
        | markup h1 h2 h3 h => exact .markup h1 h2 h3 ((ih _).2 h)
        | silent h1 h2 h => exact .silent h1 h2 ((ih _).2 h)
        | missing h1 h => exact .missing h1 ((ih _).2 h)
        | text h => exact .text ((ih _).2 h)
        | comment h => exact .comment ((ih _).2 h)
        | span h => exact .span ((ih _).2 h)
        | pending h => exact .pending ((ih _).2 h)
  rw [container_iff he, container_iff (by rw [ht]; exact he), hd, hd', key]

/-- A word with a hidden word inside its text content. -/
def Sample.hiddenInside : Document := runOps Sample.F
  [.addElementTo 0 (Sample.word "w1" "Hello"), .addElementTo 1 ((ElementData.new .hiddenword).withText "x")] Sample.fresh

/-- A hidden word inside a text content makes the text of the text content an error. -/
theorem C35_container_counterexample : Reachable Sample.X Sample.F Sample.hiddenInside ∧ Sample.types Sample.hiddenInside =
      [some .text, some .textContent, some .word, some .textContent, some .hiddenword] ∧
    Sample.hiddenInside.text Sample.F 1 {} = .error (.err .noText) ∧
    (runOps Sample.F [.addElementTo 0 (Sample.word "w1" "Hello")] Sample.fresh).text Sample.F 1 {} = .ok "Hello" :=
  ⟨Sample.reachable_ops _ (.new Sample.fresh_eq), by decide +kernel, by decide +kernel, by decide +kernel⟩

/-! ### C61 -/

/-- The text of a text container is exactly its inline text. -/
theorem C61_inline {d : Document} {retain : Bool} {e : ElementData} (he : (props e.elementtype).textcontainer = true) (s : String) :
    TextIs d retain e s ↔ Inline d retain "" e.data s := container_iff he s

/-- The text of a text container without markup is the concatenation of its texts. -/
theorem C61_plain {d : Document} {retain : Bool} {e : ElementData} (he : (props e.elementtype).textcontainer = true) (ss : List String)
    (hd : e.data = ss.map .text) (s : String) : TextIs d retain e s ↔ s = ss.foldl (· ++ ·) "" := by
  rw [container_iff he, hd]
  clear hd
  generalize "" = text
  induction ss generalizing text with
  | nil => constructor
           · intro h; cases h; rfl
           · rintro rfl; exact .nil
  | cons a ss ih =>
    rw [List.map_cons, List.foldl_cons, ← ih]
    constructor
    · intro h; cases h with | text h => exact h
    · exact .text

/-! ### C54 -/

theorem span_speaks : ∀ t, ElementGroup.span.contains t = true →
    (props t).textcontainer = false ∧ (props t).printable = true ∧ (props t).hidden = false := by
  have h : ∀ t ∈ ElementType.all, ElementGroup.span.contains t = true →
    (props t).textcontainer = false ∧ (props t).printable = true ∧ (props t).hidden = false := by decide +kernel
  exact fun t => h t (ElementType.mem_all t)

/-- The data consists of word references, which refer to these elements, and of items that are no part of the text. -/
inductive Refers (d : Document) : List Data → List ElementData → Prop
  | nil : Refers d [] []
  | reference {k w c xs ws} : d.getElement k = some w → w.elementtype = .wordReference → w.resolve d = .ok (some c) → Refers d xs ws →
      Refers d (.element k :: xs) (c :: ws)
  | other {x xs ws} : StandsFor d x none → Refers d xs ws → Refers d (x :: xs) ws

/-- The text of a span annotation is the text of the elements that its word references refer to, in this order, each separated from the
next by its own delimiter. What is missing: span annotations that refer to their words through span roles, see
`C54_roles_counterexample`. -/
theorem C54_span_partial {d : Document} {retain : Bool} {e : ElementData} (he : ElementGroup.span.contains e.elementtype = true)
    (ps : List Part) (hr : Refers d e.data (ps.map (·.source))) (hne : ps ≠ [])
    (hp : ∀ p ∈ ps, TextIs d retain p.source p.text ∧ DelimiterIs d retain p.source p.delimiter ∧
      (props p.source.elementtype).textcontainer = false) (s : String) : TextIs d retain e s ↔ s = joined ps := by
  have hparts : ∀ {data ws}, Refers d data ws → ∀ ps : List Part, ws = ps.map (·.source) →
      (∀ p ∈ ps, TextIs d retain p.source p.text ∧ DelimiterIs d retain p.source p.delimiter) → Parts d retain data ps := by
    intro data ws h
    induction h with
    | nil =>
      intro ps h _
      cases ps with
      | nil => exact .nil
      | cons p ps => cases h
    | @reference k w c xs ws h1 h2 h3 _ ih =>
      intro ps h hp
      cases ps with
      | nil => cases h
      | cons p ps =>
        rw [List.map_cons] at h
        injection h with h4 h5
        subst h4
        exact .part (.reference h1 h2 h3) (hp p (by simp)).1 (hp p (by simp)).2 (ih ps h5 fun q hq => hp q (by simp [hq]))
    | other h1 _ ih => exact fun ps h hp => .none h1 (ih ps h hp)
  have h := hparts hr ps rfl fun p h => ⟨(hp p h).1, (hp p h).2.1⟩
  obtain ⟨h1, h2, h3⟩ := span_speaks _ he
  refine C33_concatenation ⟨h1, h2, h3⟩ h ?_ s
  cases ps with
  | nil => exact absurd rfl hne
  | cons p ps =>
    rw [← joinedAfter_cons]
    intro h0
    exact C34_never_empty (hp p (by simp)).2.2 (hp p (by simp)).1 (String.append_eq_empty_iff.1 h0).1

/-- A dependency whose head and dependent are the two words of the sample sentence. -/
def Sample.dependency : Document := runOps Sample.F [
  .addElementTo 0 Sample.sentence,
  .addElementTo 0 (ElementData.new .dependency),
  .addElementTo 6 (ElementData.new .headspan),
  .addElementTo 7 ((ElementData.new .wordReference).setAttrib (.idref "w1")),
  .addElementTo 6 (ElementData.new .dependencyDependent),
  .addElementTo 9 ((ElementData.new .wordReference).setAttrib (.idref "w2"))] Sample.fresh

/-- The text of a dependency does not include the words that its head and its dependent refer to: it is an error. The text of its head is
that of the word. -/
theorem C54_roles_counterexample : Reachable Sample.X Sample.F Sample.dependency ∧ Sample.types Sample.dependency =
      [some .text, some .textContent, some .word, some .textContent, some .word, some .sentence, some .dependency, some .headspan,
        some .wordReference, some .dependencyDependent, some .wordReference] ∧
    Sample.dependency.text Sample.F 6 {} = .error (.err .noText) ∧ Sample.dependency.text Sample.F 7 {} = .ok "Hello" :=
  ⟨Sample.reachable_ops _ (.new Sample.fresh_eq), by decide +kernel, by decide +kernel, by decide +kernel⟩

/-! ### C59 -/

/-- Reading text ends: a measure decreases from each element to its children, and from each element to what the word references among its
children refer to. -/
def Wellfounded (d : Document) (rank : Nat → Nat) : Prop :=
  ∀ k e j w, d.getElement k = some e → .element j ∈ e.data → d.getElement j = some w → rank j < rank k ∧
    (w.elementtype = .wordReference → ∀ id t, w.idref = some id → d.elementKeyById id = some t → rank t < rank k)

/-- Asking for the text of an element returns, with a text or with an error, if no element is below itself, where an element is taken to be
also above the elements that its word references refer to. Without this condition it is false, see `C59_loop_counterexample`. -/
theorem C59_returns_partial {X : Ext} {F : Nat} {d : Document} (hr : Reachable X F d) {rank : Nat → Nat} (hw : Wellfounded d rank) {k : Nat}
    {e : ElementData} (he : d.getElement k = some e) (retain : Bool) :
    ∃ N, ∀ G ≥ N, ∀ set cls strict, (∃ s, d.textByKey G k set cls strict retain = .ok s) ∨
      ∃ x, d.textByKey G k set cls strict retain = .error (.err x) := by
  have href : ∀ k e j w, d.getElement k = some e → .element j ∈ e.data → d.getElement j = some w → w.elementtype = .wordReference →
      ∃ o, w.resolve d = .ok o ∧ ∀ c, o = some c → ∃ t, d.getElement t = some c ∧ rank t < rank k := by
    intro k e j w h1 h2 h3 h4
    unfold ElementData.resolve
    cases hid : w.idref with
    | none => exact ⟨none, rfl, nofun⟩
    | some id =>
      have hlt := (hw k e j w h1 h2 h3).2 h4 id
      obtain ⟨h5, h6⟩ := C02_index_sound hr id
      exact ⟨_, h5, fun c hc => by
        cases hk : d.elementKeyById id with
        | none => rw [hk] at hc; cases hc
        | some t => rw [hk] at hc; exact ⟨t, hc, hlt t hid hk⟩⟩
  obtain ⟨h, _⟩ := text_ends (retain := retain) rank (fun k e j w h1 h2 h3 => (hw k e j w h1 h2 h3).1) href (rank k + 1) k e (by omega) he
  rcases h with ⟨s, h⟩ | h
  · obtain ⟨N, h⟩ := h.at
    refine ⟨N, fun G hG set cls strict => .inl ⟨s, ?_⟩⟩
    unfold Document.textByKey
    rw [he]
    simp only [textAt_eq]
    exact h G hG
  · obtain ⟨N, x, h⟩ := h.at
    refine ⟨N, fun G hG set cls strict => .inr ⟨x, ?_⟩⟩
    unfold Document.textByKey
    rw [he]
    simp only [textAt_eq]
    exact h G hG

/-- A chunk with a word reference to itself. -/
def Sample.selfReference : Document := runOps Sample.F [
  .addElementTo 0 (((ElementData.new .chunk).setAttrib (.id "c1")).setAttrib (.cls "NP")),
  .addElementTo 1 ((ElementData.new .wordReference).setAttrib (.idref "c1"))] Sample.fresh

/-- The first data item, if it is an element. -/
def firstChild : List Data → Option Nat
  | .element k :: _ => some k
  | _ => none

theorem firstChild_eq {data : List Data} {k : Nat} (h : firstChild data = some k) : ∃ rest, data = .element k :: rest := by
  cases data with
  | nil => cases h
  | cons x rest => cases x <;> simp [firstChild] at h; exact ⟨rest, by rw [h]⟩

theorem self_loop {d : Document} {e w : ElementData} {k : Nat} (he : Speaks e) {rest : List Data} (hd : e.data = .element k :: rest) (hw : d.getElement k = some w)
    (ht : w.elementtype = .wordReference) (hr : w.resolve d = .ok (some e)) (retain : Bool) : ∀ n, textAt d retain n e = .error .fuel
  | 0 => rfl
  | n + 1 => by
    have ih := self_loop he hd hw ht hr retain n
    rw [textAt_speaks he, hd, (structText_some (.reference hw ht hr) rest {}).1]
    simp only [addPart, recAt, textByKey_prev, ih]

/-- Asking for the text of a chunk with a word reference to itself never returns, however much time it is given. -/
theorem C59_loop_counterexample : Reachable Sample.X Sample.F Sample.selfReference ∧
    ∀ G set cls strict retain, Sample.selfReference.textByKey G 1 set cls strict retain = .error .fuel := by
  have hr : Reachable Sample.X Sample.F Sample.selfReference := Sample.reachable_ops _ (.new Sample.fresh_eq)
  refine ⟨hr, fun G set cls strict retain => ?_⟩
  have h1 : (Sample.selfReference.getElement 1).map (fun e => (e.elementtype, firstChild e.data)) = some (.chunk, some 2) := by
    decide +kernel
  have h2 : (Sample.selfReference.getElement 2).map (fun e => (e.elementtype, e.idref)) = some (.wordReference, some "c1") := by
    decide +kernel
  have h3 : Sample.selfReference.elementKeyById "c1" = some 1 := by decide +kernel
  generalize Sample.selfReference = d at *
  cases he : d.getElement 1 with
  | none => rw [he] at h1; cases h1
  | some e =>
    cases hw : d.getElement 2 with
    | none => rw [hw] at h2; cases h2
    | some w =>
      rw [he] at h1; rw [hw] at h2
      simp only [Option.map_some, Option.some.injEq, Prod.mk.injEq] at h1 h2
      obtain ⟨h1, h4⟩ := h1
      obtain ⟨rest, hdata⟩ := firstChild_eq h4
      have hs : Speaks e := by
        constructor <;> rw [h1] <;> decide +kernel
      have hres : w.resolve d = .ok (some e) := by
        unfold ElementData.resolve
        rw [h2.2]
        have := (C02_index_sound hr "c1").1
        rw [h3] at this
        rw [← he]; exact this
      unfold Document.textByKey
      rw [he]
      simp only [textAt_eq]
      exact self_loop hs hdata hw h2.1 hres retain G

/-! ### C60 -/

/-- A sentence of two words, the second one inside a correction. -/
def Sample.corrected : Document := runOps Sample.F [.addElementTo 0 ((((ElementData.new .sentence).setAttrib (.id "s1")).addElement
  (Sample.word "w1" "Hello")).addElement ((ElementData.new .correction).addElement
    ((ElementData.new .new).addElement (Sample.word "w2" "world"))))] Sample.fresh

/-- The new word in a correction is no part of the text of the correction nor of the sentence. -/
theorem C60_new_counterexample : Reachable Sample.X Sample.F Sample.corrected ∧ Sample.types Sample.corrected =
      [some .text, some .textContent, some .word, some .textContent, some .word, some .new, some .correction, some .sentence] ∧
    Sample.corrected.text Sample.F 4 {} = .ok "world" ∧ Sample.corrected.text Sample.F 5 {} = .ok "world" ∧
    Sample.corrected.text Sample.F 6 {} = .error (.err .noText) ∧ Sample.corrected.text Sample.F 7 {} = .ok "Hello" :=
  ⟨Sample.reachable_ops _ (.new Sample.fresh_eq), by decide +kernel, by decide +kernel, by decide +kernel, by decide +kernel,
    by decide +kernel⟩

/-- In general, neither the original, the current, the new nor a suggested version inside a correction is used for the text of the
correction: they can be left out. -/
theorem C60_versions_ignored {d : Document} {k : Nat} {c : ElementData} (hc : d.getElement k = some c)
    (ht : c.elementtype = .original ∨ c.elementtype = .current ∨ c.elementtype = .new ∨ c.elementtype = .suggestion) :
    StandsFor d (.element k) none := by
  refine .unrelated hc ?_ ?_
  · rcases ht with h | h | h | h <;> rw [h] <;> decide +kernel
  · rcases ht with h | h | h | h <;> rw [h] <;> decide

/-! ### Samples -/

/-- The sample document: two words, a sentence over them and a chunk that refers to them. -/
example : Sample.doc.text Sample.F 2 {} = .ok "Hello" ∧ Sample.doc.text Sample.F 5 {} = .ok "Hello world" ∧
    Sample.doc.text Sample.F 11 {} = .ok "Hello world" ∧ Sample.doc.text Sample.F 6 {} = .error (.err .noText) := by
  decide +kernel

/-- A check of `Wellfounded`. -/
def wellfoundedCheck (d : Document) (rank : Nat → Nat) : Bool :=
  (List.range d.elements.items.length).all fun k => match d.getElement k with
    | none => true
    | some e => e.data.all fun
      | .element j => match d.getElement j with
        | none => true
        | some w => decide (rank j < rank k) && (w.elementtype != .wordReference || match w.idref with
          | none => true
          | some i => match d.elementKeyById i with
            | none => true
            | some t => decide (rank t < rank k))
      | _ => true

theorem wellfoundedCheck_sound {d : Document} {rank : Nat → Nat} (h : wellfoundedCheck d rank = true) : Wellfounded d rank := by
  intro k e j w hk hj hw
  have hlt : k < d.elements.items.length := by
    rcases Nat.lt_or_ge k d.elements.items.length with h | h
    · exact h
    · simp [getElement, Store.get, List.getElem?_eq_none h] at hk
  have h1 := List.all_eq_true.1 h k (List.mem_range.2 hlt)
  simp only [hk] at h1
  have h2 := List.all_eq_true.1 h1 _ hj
  simp only [hw, Bool.and_eq_true, decide_eq_true_eq] at h2
  refine ⟨h2.1, fun ht id t hid hkey => ?_⟩
  simpa [ht, hid, hkey] using h2.2

/-- A measure for the sample document. -/
theorem Sample.doc_wellfounded : Wellfounded Sample.doc (fun k => ([6, 0, 2, 0, 1, 5, 1, 0, 4, 0, 0, 3][k]?).getD 0) :=
  wellfoundedCheck_sound (by decide +kernel)

/-- The sentence of the sample document has two parts; the words have the delimiter of their type. -/
example : ∃ e ps, Sample.doc.getElement 5 = some e ∧ Speaks e ∧ Parts Sample.doc false e.data ps ∧ joined ps = "Hello world" := by
  have h : Sample.doc.text Sample.F 5 {} = .ok "Hello world" := by decide +kernel
  obtain ⟨e, he, ht⟩ := C33_text h
  have h1 : (Sample.doc.getElement 5).map (fun e => (e.elementtype, kids e.data)) = some (.sentence, [2, 4, 8]) := by decide +kernel
  have h2 : (Sample.doc.getElement 2).map (·.elementtype) = some .word ∧ (Sample.doc.getElement 4).map (·.elementtype) = some .word ∧
      (Sample.doc.getElement 8).map (·.elementtype) = some .chunkingLayer := by
    decide +kernel
  generalize Sample.doc = d at *
  rw [he] at h1
  simp only [Option.map_some, Option.some.injEq, Prod.mk.injEq] at h1
  have hs : Speaks e := by constructor <;> rw [h1.1] <;> decide +kernel
  obtain ⟨_, ps, hps, h3⟩ := (text_iff hs _).1 ht
  refine ⟨e, ps, he, hs, hps, ?_⟩
  rcases h3 with h3 | ⟨_, c, ⟨pre, k, post, h4, h5, h6, _⟩, _⟩
  · exact h3
  · have : k ∈ kids e.data := by rw [h4]; simp [kids]
    rw [h1.2] at this
    simp only [List.mem_cons, List.not_mem_nil, or_false] at this
    rcases this with rfl | rfl | rfl
    · rw [h5] at h2; simp [h6] at h2
    · rw [h5] at h2; simp [h6] at h2
    · rw [h5] at h2; simp [h6] at h2

/-- A word that is not followed by a space: no delimiter comes after it, unless the tokenisation is retained. -/
def Sample.glued : Document := runOps Sample.F [.addElementTo 0 (((ElementData.new .sentence).addElement
  ((Sample.word "w1" "Hello").setAttrib (.space false))).addElement (Sample.word "w2" "!"))] Sample.fresh

example : Sample.glued.text Sample.F 5 {} = .ok "Hello!" ∧ Sample.glued.text Sample.F 5 { retaintokenisation := true } = .ok "Hello !" := by
  decide +kernel

end Folia
