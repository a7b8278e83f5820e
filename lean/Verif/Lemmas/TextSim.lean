import Verif.TextView
/-! Two documents in which corresponding elements have corresponding parts give corresponding elements the same text. -/
namespace Folia

/-- The data item adds nothing to any text. -/
inductive Silent (d : Document) : Data → Prop
  | comment {s} : Silent d (.comment s)
  | span {k} : Silent d (.spanReference k)
  | pending {e} : Silent d (.addElement e)
  | missing {k} : d.getElement k = none → Silent d (.element k)

/-- Elements of this type add nothing to the text of an element that is not a text container. -/
def Inert (t : ElementType) : Prop := ¬ TextPart t ∧ t ≠ .wordReference ∧ t ≠ .textContent

/-- Elements of this type can have text. -/
def Heard (t : ElementType) : Prop := (props t).textcontainer = true ∨ ((props t).printable = true ∧ (props t).hidden = false)

/-- The data items have the same texts and corresponding elements, in the same order; `more` says that there may be other elements if they
add nothing to the text. -/
inductive TextItems (R : ElementData → ElementData → Prop) (d d' : Document) (more : Bool) : List Data → List Data → Prop
  | nil : TextItems R d d' more [] []
  | text {s xs ys} : TextItems R d d' more xs ys → TextItems R d d' more (.text s :: xs) (.text s :: ys)
  | element {k k' e e' xs ys} : d.getElement k = some e → d'.getElement k' = some e' → R e e' → TextItems R d d' more xs ys →
      TextItems R d d' more (.element k :: xs) (.element k' :: ys)
  | left {x xs ys} : Silent d x → TextItems R d d' more xs ys → TextItems R d d' more (x :: xs) ys
  | right {y xs ys} : Silent d' y → TextItems R d d' more xs ys → TextItems R d d' more xs (y :: ys)
  | inert {k e xs ys} : more = true → d'.getElement k = some e → Inert e.elementtype → TextItems R d d' more xs ys →
      TextItems R d d' more xs (.element k :: ys)

/-- Both there and corresponding, or both not there. -/
inductive BothOr (R : ElementData → ElementData → Prop) : Option ElementData → Option ElementData → Prop
  | none : BothOr R none none
  | some {e e'} : R e e' → BothOr R (some e) (some e')

/-- Elements that correspond by `R` have the same type and spacing, and take their delimiter from corresponding elements. -/
structure DelimSim (R : ElementData → ElementData → Prop) (d d' : Document) : Prop where
  type : ∀ {e e'}, R e e' → e'.elementtype = e.elementtype
  space : ∀ {e e'}, R e e' → e'.attrib .SPACE = e.attrib .SPACE
  last : ∀ {e e'}, R e e' → (props e.elementtype).textdelimiter = none → BothOr R (lastChild d e.data) (lastChild d' e'.data)

/-- Elements that correspond by `R` have the same type, and if they can have text, the same delimiter, the same texts and corresponding parts. -/
structure TextSim (R : ElementData → ElementData → Prop) (d d' : Document) : Prop where
  type : ∀ {e e'}, R e e' → e'.elementtype = e.elementtype
  delim : ∀ {e e'}, R e e' → Heard e.elementtype → ∀ retain n, textDelimiter d' retain n e' = textDelimiter d retain n e
  items : ∀ {e e'}, R e e' → Heard e.elementtype → ∃ more, TextItems R d d' more e.data e'.data ∧ (more = true → (props e.elementtype).textcontainer = false)
  refs : ∀ {e e'}, R e e' → e.elementtype = .wordReference → ∃ o o', e.resolve d = .ok o ∧ e'.resolve d' = .ok o' ∧ BothOr R o o'

section
variable {R : ElementData → ElementData → Prop} {d d' : Document}

theorem Silent.lastChild {x : Data} {xs : List Data} (h : Silent d x) : lastChild d (x :: xs) = lastChild d xs := by
  simp only [Folia.lastChild]
  cases Folia.lastChild d xs with
  | some e => rfl
  | none => cases h <;> simp_all

theorem Silent.container {rec : ElementData → Res String} {x : Data} {xs : List Data} {t : String} (h : Silent d x) :
    containerText d rec (x :: xs) t = containerText d rec xs t := by
  cases h with
  | missing hk => simp only [containerText, hk]
  | comment => simp only [containerText]
  | span => simp only [containerText]
  | pending => simp only [containerText]

theorem Silent.struct {rec : ElementData → Option String → Res String} {delim : ElementData → Res String} {x : Data} {xs : List Data} {acc : TextAcc}
    (h : Silent d x) : structText d rec delim (x :: xs) acc = structText d rec delim xs acc := by
  cases h with
  | missing hk => simp only [structText, hk]
  | comment => simp only [structText]
  | span => simp only [structText]
  | pending => simp only [structText]

theorem TextItems.lastChild {xs ys : List Data} (h : TextItems R d d' false xs ys) : BothOr R (lastChild d xs) (lastChild d' ys) := by
  induction h with
  | nil => exact .none
  | text _ ih =>
    simp only [Folia.lastChild]
    revert ih
    generalize Folia.lastChild d _ = a
    generalize Folia.lastChild d' _ = b
    intro ih
    cases ih with
    | none => exact .none
    | some h => exact .some h
  | element h1 h2 hr _ ih =>
    simp only [Folia.lastChild]
    revert ih
    generalize Folia.lastChild d _ = a
    generalize Folia.lastChild d' _ = b
    intro ih
    cases ih with
    | none => simp only [h1, h2]; exact .some hr
    | some h => exact .some h
  | left hs _ ih => rw [hs.lastChild]; exact ih
  | right hs _ ih => rw [hs.lastChild]; exact ih
  | inert hm => cases hm

theorem DelimSim.delimiter (hs : DelimSim R d d') (retain : Bool) : ∀ n {e e'}, R e e' → textDelimiter d' retain n e' = textDelimiter d retain n e
  | 0, _, _, _ => rfl
  | n + 1, e, e', h => by
    have hw : wantsSpace e' retain = wantsSpace e retain := by simp only [wantsSpace, hs.space h]
    simp only [textDelimiter, hs.type h, hw]
    cases ht : (props e.elementtype).textdelimiter with
    | some td => rfl
    | none =>
      have hl := hs.last h ht
      revert hl
      generalize lastChild d e.data = a
      generalize lastChild d' e'.data = b
      intro hl
      cases hl with
      | none => rfl
      | some hr => simp only [hs.delimiter retain n hr]

/-- Only elements of certain types have text. -/
theorem heard_of_text {set cls : Nat} {retain strict : Bool} {n : Nat} {e : ElementData} {prev : Option String} {s : String}
    (h : textByKey d set cls retain strict n e prev = .ok s) : Heard e.elementtype := by
  cases n with
  | zero => cases h
  | succ n =>
    simp only [textByKey] at h
    split at h
    · exact .inl (by assumption)
    · split at h
      · cases h
      · rename_i h1
        simp only [Bool.or_eq_true, Bool.not_eq_true', not_or, Bool.not_eq_false, Bool.not_eq_true] at h1
        exact .inr h1

theorem TextItems.container {more : Bool} (hm : more = false) (hs : TextSim R d d') {rec rec' : ElementData → Res String} (hrec : ∀ {e e'}, R e e' → rec' e' = rec e) {xs ys : List Data}
    (h : TextItems R d d' more xs ys) : ∀ t, containerText d' rec' ys t = containerText d rec xs t := by
  induction h with
  | nil => exact fun _ => rfl
  | text _ ih => intro t; simp only [containerText, ih]
  | element h1 h2 hr _ ih => intro t; simp only [containerText, h1, h2, hs.type hr, hrec hr, ih]
  | left hx _ ih => intro t; rw [hx.container]; exact ih t
  | right hx _ ih => intro t; rw [hx.container]; exact ih t
  | inert h1 => rw [hm] at h1; cases h1

/-- The accumulators have the same text and delimiter, and corresponding text contents. -/
structure AccSim (R : ElementData → ElementData → Prop) (a b : TextAcc) : Prop where
  text : b.text = a.text
  delimiter : b.delimiter = a.delimiter
  content : BothOr R a.content b.content

/-- The same error, or corresponding accumulators. -/
inductive ResSim (R : ElementData → ElementData → Prop) : Res TextAcc → Res TextAcc → Prop
  | error {f} : ResSim R (.error f) (.error f)
  | ok {a b} : AccSim R a b → ResSim R (.ok a) (.ok b)

theorem addPart_sim {rec rec' : ElementData → Option String → Res String} {delim delim' : ElementData → Res String}
    (hrec : ∀ {e e'} p, R e e' → rec' e' p = rec e p) (hdel : ∀ {e e' p s}, R e e' → rec e p = .ok s → delim' e' = delim e) {c c' : ElementData} (hc : R c c') {a b : TextAcc}
    (hab : AccSim R a b) : ResSim R (addPart rec delim c a) (addPart rec' delim' c' b) := by
  simp only [addPart, hrec _ hc, hab.delimiter]
  cases hp : rec c (some a.delimiter) with
  | ok part =>
    simp only [hdel hc hp]
    cases delim c with
    | ok s => exact .ok ⟨by simp only [hab.text], rfl, hab.content⟩
    | error f =>
      cases f with
      | err k => exact .ok ⟨by simp only [hab.text], rfl, hab.content⟩
      | _ => exact .error
  | error f =>
    cases f with
    | err k => exact .ok hab
    | _ => exact .error

theorem TextItems.struct {more : Bool} (hs : TextSim R d d') {rec rec' : ElementData → Option String → Res String} {delim delim' : ElementData → Res String}
    (hrec : ∀ {e e'} p, R e e' → rec' e' p = rec e p) (hdel : ∀ {e e' p s}, R e e' → rec e p = .ok s → delim' e' = delim e) {xs ys : List Data} (h : TextItems R d d' more xs ys) :
    ∀ {a b}, AccSim R a b → ResSim R (structText d rec delim xs a) (structText d' rec' delim' ys b) := by
  have hstep : ∀ {c c' a b} {xs ys : List Data}, R c c' → AccSim R a b → (∀ {a b}, AccSim R a b → ResSim R (structText d rec delim xs a) (structText d' rec' delim' ys b)) →
      ResSim R (match addPart rec delim c a with | .ok acc' => structText d rec delim xs acc' | .error f => .error f)
        (match addPart rec' delim' c' b with | .ok acc' => structText d' rec' delim' ys acc' | .error f => .error f) := by
    intro c c' a b xs ys hc hab ih
    have h := addPart_sim (rec := rec) (rec' := rec') (delim := delim) (delim' := delim') hrec hdel hc hab
    revert h
    generalize addPart rec delim c a = x
    generalize addPart rec' delim' c' b = y
    intro h
    cases h with
    | error => exact .error
    | ok h => exact ih h
  induction h with
  | nil => exact fun hab => .ok hab
  | text _ ih => intro a b hab; simp only [structText]; exact ih hab
  | @element k k' e e' xs ys h1 h2 hr _ ih =>
    intro a b hab
    simp only [structText, h1, h2, hs.type hr]
    by_cases hp : (ElementGroup.structural.contains e.elementtype || e.elementtype == .correction || ElementGroup.span.contains e.elementtype) = true
    · rw [if_pos hp, if_pos hp]
      exact hstep hr hab ih
    · rw [if_neg hp, if_neg hp]
      by_cases hw : e.elementtype = .wordReference
      · rw [if_pos hw, if_pos hw]
        obtain ⟨o, o', e1, e2, ho⟩ := hs.refs hr hw
        rw [e1, e2]
        cases ho with
        | none => exact ih hab
        | some ho => exact hstep ho hab ih
      · rw [if_neg hw, if_neg hw]
        by_cases ht : e.elementtype = .textContent
        · rw [if_pos ht, if_pos ht]
          exact ih ⟨hab.text, hab.delimiter, .some hr⟩
        · rw [if_neg ht, if_neg ht]
          exact ih hab
  | left hx _ ih => intro a b hab; rw [hx.struct]; exact ih hab
  | right hx _ ih => intro a b hab; rw [hx.struct]; exact ih hab
  | @inert k e xs ys _ hk hi _ ih =>
    intro a b hab
    obtain ⟨h1, h2, h3⟩ := hi
    have hp : ¬ (ElementGroup.structural.contains e.elementtype || e.elementtype == .correction || ElementGroup.span.contains e.elementtype) = true := by
      intro h
      simp only [Bool.or_eq_true, beq_iff_eq] at h
      exact h1 (or_assoc.mp h)
    have : structText d' rec' delim' (.element k :: ys) b = structText d' rec' delim' ys b := by
      simp only [structText, hk]
      rw [if_neg hp, if_neg h2, if_neg h3]
    rw [this]
    exact ih hab

theorem finish_sim {rec rec' : ElementData → Option String → Res String} (hrec : ∀ {e e'} p, R e e' → rec' e' p = rec e p) {a b : TextAcc} (hab : AccSim R a b)
    (prev : Option String) : finishText rec' b prev = finishText rec a prev := by
  obtain ⟨at', ad, ac⟩ := a
  obtain ⟨bt, bd, bc⟩ := b
  obtain ⟨h1, h2, h3⟩ := hab
  simp only at h1 h2 h3
  subst h1
  cases h3 with
  | none => rfl
  | some h => simp only [finishText, hrec _ h]

/-- Corresponding elements have the same text. -/
theorem TextSim.text (hs : TextSim R d d') (set cls set' cls' : Nat) (retain : Bool) : ∀ n strict {e e'} prev, R e e' →
    textByKey d' set' cls' retain strict n e' prev = textByKey d set cls retain strict n e prev
  | 0, _, _, _, _, _ => rfl
  | n + 1, strict, e, e', prev, h => by
    simp only [textByKey, hs.type h]
    have ih := fun strict {e e'} prev (h : R e e') => hs.text set cls set' cls' retain n strict prev h
    by_cases ht : (props e.elementtype).textcontainer = true
    · rw [if_pos ht, if_pos ht]
      obtain ⟨more, hi, hm⟩ := hs.items h (.inl ht)
      exact hi.container (by cases more with | false => rfl | true => rw [ht] at hm; cases hm rfl) hs (fun h => ih strict none h) ""
    · rw [if_neg ht, if_neg ht]
      by_cases hp : (!(props e.elementtype).printable || (props e.elementtype).hidden) = true
      · rw [if_pos hp, if_pos hp]
      · rw [if_neg hp, if_neg hp]
        have hh : Heard e.elementtype := by
          simp only [Bool.or_eq_true, Bool.not_eq_true', not_or, Bool.not_eq_false, Bool.not_eq_true] at hp
          exact .inr hp
        obtain ⟨more, hi, _⟩ := hs.items h hh
        have h' := hi.struct hs (rec := fun c p => textByKey d set cls retain false n c p) (rec' := fun c p => textByKey d' set' cls' retain false n c p)
          (delim := fun c => textDelimiter d retain n c) (delim' := fun c => textDelimiter d' retain n c) (fun p h => ih false p h)
          (fun h hp => hs.delim h (heard_of_text hp) retain n) (a := {}) (b := {}) ⟨rfl, rfl, .none⟩
        revert h'
        generalize structText d _ _ e.data {} = x
        generalize structText d' _ _ e'.data {} = y
        intro h'
        cases h' with
        | error => rfl
        | ok h' => exact finish_sim (R := R) (fun p h => ih false p h) h' prev
end
end Folia
