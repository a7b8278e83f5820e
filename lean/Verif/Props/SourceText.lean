import Verif.Props.Text
import Verif.Props.Parser
import Verif.Props.SafeParse
import Verif.Props.Safe
import Verif.Lemmas.AcceptRest
import Verif.Lemmas.TextRound
/-! The text of a tokenised file is a function of the file. -/
namespace Folia
open Document

/-! ### What a source says -/

mutual
/-- What a text container says: its texts one after the other, with what its markup says in between. -/
def inlineOf : ElementData → String
  | ⟨_, _, data, _, _⟩ => inlineText "" data
/-- The text after reading the data, beginning with `text`. Markup comes after the delimiter of its type if there is text before it. -/
def inlineText : String → List Data → String
  | text, [] => text
  | text, .text s :: rest => inlineText (text ++ s) rest
  | text, .addElement e :: rest => if (props e.elementtype).printable then
      inlineText ((if text = "" then "" else text ++ (props e.elementtype).textdelimiter.getD "") ++ inlineOf e) rest
    else inlineText text rest
  | text, .comment _ :: rest => inlineText text rest
  | text, .element _ :: rest => inlineText text rest
  | text, .spanReference _ :: rest => inlineText text rest
end

/-- The data of the last text content. -/
def lastText : List Data → Option (List Data)
  | [] => none
  | .addElement ⟨t, _, data, _, _⟩ :: rest => match lastText rest with
    | some c => some c
    | none => if t = .textContent then some data else none
  | _ :: rest => lastText rest

mutual
/-- What comes after an element when another one follows: the delimiter of its type, or nothing if the file says `space="no"`. An element
of a type without delimiter is followed by what follows its last child. -/
def spacing (retain : Bool) : ElementData → String
  | ⟨t, as, data, key, p⟩ => match (props t).textdelimiter with
    | some td => if .SPACE ∈ (props t).optionalAttribs ∧ retain = false ∧ (ElementData.mk t as data key p).attrib .SPACE = some (.space false) then "" else td
    | none => (lastSpacing retain data).getD ""
/-- What comes after the last child, if there is one. -/
def lastSpacing (retain : Bool) : List Data → Option String
  | [] => none
  | .addElement e :: rest => match lastSpacing retain rest with
    | some s => some s
    | none => some (spacing retain e)
  | .text _ :: rest => lastSpacing retain rest
  | .comment _ :: rest => lastSpacing retain rest
  | .element _ :: rest => lastSpacing retain rest
  | .spanReference _ :: rest => lastSpacing retain rest
end

/-- Texts one after the other, each followed by its own spacing except the last. -/
def glue : List (String × String) → String
  | [] => ""
  | [p] => p.1
  | p :: q :: ps => p.1 ++ p.2 ++ glue (q :: ps)

mutual
/-- What an element with such a source says, empty if nothing: what its parts say, or else what its last text content says. -/
def utter (retain : Bool) : ElementData → String
  | ⟨t, _, data, _, _⟩ =>
    if (props t).printable = false ∨ (props t).hidden = true then ""
    else if glue (utterParts retain data) = "" then ((lastText data).map (inlineText "")).getD ""
    else glue (utterParts retain data)
/-- What the parts say that say anything, with their spacing. -/
def utterParts (retain : Bool) : List Data → List (String × String)
  | [] => []
  | .addElement e :: rest => if TextPart e.elementtype ∧ utter retain e ≠ "" then (utter retain e, spacing retain e) :: utterParts retain rest
      else utterParts retain rest
  | .text _ :: rest => utterParts retain rest
  | .comment _ :: rest => utterParts retain rest
  | .element _ :: rest => utterParts retain rest
  | .spanReference _ :: rest => utterParts retain rest
end

mutual
/-- Markup, or something without text. -/
def Markup : ElementData → Prop
  | ⟨t, _, data, _, _⟩ => (props t).printable = true → (props t).textcontainer = true ∧ MarkedUp data
/-- Below these data there is only markup, and elements that have no text. -/
def MarkedUp : List Data → Prop
  | [] => True
  | .addElement e :: rest => Markup e ∧ MarkedUp rest
  | .text _ :: rest => MarkedUp rest
  | .comment _ :: rest => MarkedUp rest
  | .element _ :: rest => MarkedUp rest
  | .spanReference _ :: rest => MarkedUp rest
end

mutual
/-- A child in a tokenised source: a part of the text that is tokenised itself, a text content with only markup, or any other annotation
except a word reference. -/
def TokenisedChild : ElementData → Prop
  | ⟨t, _, data, _, _⟩ => (TextPart t → Tokenised data) ∧ (t = .textContent → MarkedUp data) ∧ t ≠ .wordReference
/-- The data of an element in a tokenised source. -/
def Tokenised : List Data → Prop
  | [] => True
  | .addElement e :: rest => TokenisedChild e ∧ Tokenised rest
  | .text _ :: rest => Tokenised rest
  | .comment _ :: rest => Tokenised rest
  | .element _ :: rest => Tokenised rest
  | .spanReference _ :: rest => Tokenised rest
end

/-! ### Proof -/

theorem glue_joined : ∀ ps : List Part, (∀ p ∈ ps, (props p.source.elementtype).textcontainer = false) →
    joined ps = glue (ps.map fun p => (p.text, p.delimiter))
  | [], _ => rfl
  | [_], _ => rfl
  | p :: q :: ps, h => by
    have ih := glue_joined (q :: ps) (fun r hr => h r (by simp [hr]))
    simp only [joined, List.map_cons, glue, h q (by simp), Bool.false_eq_true, if_false] at ih ⊢
    rw [ih]

theorem find_filter {p f : Attribute → Bool} (hf : ∀ a, p a = false → f a = false) : ∀ as : List Attribute, (as.filter p).find? f = as.find? f
  | [] => rfl
  | a :: as => by
    by_cases ha : p a = true
    · rw [List.filter_cons_of_pos ha, List.find?_cons, List.find?_cons, find_filter hf as]
    · rw [List.filter_cons_of_neg ha, List.find?_cons, hf a (by simpa using ha), find_filter hf as]

theorem layer_no_space : ∀ t, ElementGroup.layer.contains t = true → .SPACE ∉ (props t).optionalAttribs := by
  have h : ∀ t ∈ ElementType.all, ElementGroup.layer.contains t = true → .SPACE ∉ (props t).optionalAttribs := by decide +kernel
  exact fun t => h t (ElementType.mem_all t)

theorem readsBack_space {d0 d : Document} {x b : ElementData} (h : ReadsBack d0 d x b) (hp : .SPACE ∈ (props b.elementtype).optionalAttribs) :
    x.attrib .SPACE = b.attrib .SPACE := by
  rcases h.others with h1 | ⟨h1, _⟩
  · unfold ElementData.attrib
    rw [← find_filter (p := (!·.decodable)) (by intro a ha; cases a <;> first | rfl | cases ha) x.attribs,
      ← find_filter (p := (!·.encodable)) (by intro a ha; cases a <;> first | rfl | cases ha) b.attribs, h1]
  · exact absurd hp (layer_no_space _ h1)

theorem lastElement_ownItems {d : Document} : ∀ {ys : List Data} {c}, LastElement d (ownItems ys) c → LastElement d ys c
  | [], _, h => h
  | y :: ys, c, h => by
    by_cases hy : ∃ k, y = .spanReference k
    · obtain ⟨k, rfl⟩ := hy
      obtain ⟨pre, j, post, h1, h2⟩ := lastElement_ownItems (ys := ys) h
      exact ⟨.spanReference k :: pre, j, post, by rw [h1]; rfl, h2⟩
    · have hown : ownItems (y :: ys) = y :: ownItems ys := by
        cases y <;> first | rfl | exact absurd ⟨_, rfl⟩ hy
      rw [hown] at h
      obtain ⟨pre, j, post, h1, h2, h3⟩ := h
      cases pre with
      | nil =>
        simp only [List.nil_append, List.cons.injEq] at h1
        obtain ⟨rfl, h1⟩ := h1
        refine ⟨[], j, ys, rfl, h2, fun i hi => h3 i ?_⟩
        rw [← h1]
        exact List.mem_filter.2 ⟨hi, rfl⟩
      | cons z pre =>
        simp only [List.cons_append, List.cons.injEq] at h1
        obtain ⟨rfl, h1⟩ := h1
        obtain ⟨pre', i, post', g1, g2⟩ := lastElement_ownItems (ys := ys) (c := c) ⟨pre, j, post, h1, h2, h3⟩
        exact ⟨y :: pre', i, post', by rw [g1]; rfl, g2⟩

theorem lastElement_cons {d : Document} {x : Data} {ys : List Data} {c : ElementData} (h : LastElement d ys c) : LastElement d (x :: ys) c := by
  obtain ⟨pre, j, post, h1, h2⟩ := h
  exact ⟨x :: pre, j, post, by rw [h1]; rfl, h2⟩

mutual
/-- What follows an element is what follows it in its source. -/
theorem spacing_stored {d0 d : Document} {lo : Nat} {retain : Bool} : ∀ (b : ElementData) {par : Option Nat} {k : Nat} {x : ElementData},
    Stored lo d0 d par k b → d.getElement k = some x → DelimiterIs d retain x (spacing retain b)
  | ⟨t, as, data, key, p⟩, par, k, x, h, hx => by
    obtain ⟨x', h1, h2, h3, h4, h5⟩ := h
    rw [hx] at h2
    cases h2
    have htype : x.elementtype = t := h4.type
    rw [C33_delimiter, htype, spacing]
    cases htd : (props t).textdelimiter with
    | some td =>
      refine .inl ⟨td, rfl, ?_⟩
      by_cases hsp : .SPACE ∈ (props t).optionalAttribs
      · rw [readsBack_space h4 hsp]
        simp only
        split <;> rfl
      · simp only [hsp, false_and, if_false]
    | none =>
      refine .inr ⟨rfl, ?_⟩
      have ih := lastSpacing_stored (retain := retain) data h5
      cases hl : lastSpacing retain data with
      | some s =>
        obtain ⟨c, c1, c2⟩ := ih.1 s hl
        exact .inl ⟨c, lastElement_ownItems c1, c2⟩
      | none =>
        refine .inr ⟨?_, rfl⟩
        rintro ⟨c, pre, j, post, g1, _⟩
        have : (.element j : Data) ∈ ownItems x.data := List.mem_filter.2 ⟨by rw [g1]; simp, rfl⟩
        exact ih.2 hl j this
/-- What follows the last child. -/
theorem lastSpacing_stored {d0 d : Document} {lo : Nat} {retain : Bool} : ∀ (data : List Data) {par : Option Nat} {ys : List Data}, StoredItems lo d0 d par ys data →
    (∀ s, lastSpacing retain data = some s → ∃ c, LastElement d ys c ∧ DelimiterIs d retain c s) ∧ (lastSpacing retain data = none → ∀ j, (.element j : Data) ∉ ys)
  | [], par, ys, h => by
    simp only [StoredItems] at h
    subst h
    exact ⟨fun s h => by simp [lastSpacing] at h, fun _ j h => by cases h⟩
  | .text s :: rest, par, ys, h => by
    obtain ⟨ys', rfl, h⟩ := h
    obtain ⟨i1, i2⟩ := lastSpacing_stored (retain := retain) rest h
    simp only [lastSpacing]
    refine ⟨fun s hs => ?_, fun hn j hj => i2 hn j (by simpa using hj)⟩
    obtain ⟨c, c1, c2⟩ := i1 s hs
    exact ⟨c, lastElement_cons c1, c2⟩
  | .comment s :: rest, par, ys, h => by
    obtain ⟨ys', rfl, h⟩ := h
    obtain ⟨i1, i2⟩ := lastSpacing_stored (retain := retain) rest h
    simp only [lastSpacing]
    refine ⟨fun s hs => ?_, fun hn j hj => i2 hn j (by simpa using hj)⟩
    obtain ⟨c, c1, c2⟩ := i1 s hs
    exact ⟨c, lastElement_cons c1, c2⟩
  | .element s :: rest, par, ys, h => h.elim
  | .spanReference s :: rest, par, ys, h => h.elim
  | .addElement e :: rest, par, ys, h => by
    obtain ⟨k, ys', rfl, hst, h⟩ := h
    obtain ⟨i1, i2⟩ := lastSpacing_stored (retain := retain) rest h
    have hx : ∃ x, d.getElement k = some x := by
      obtain ⟨t, as, data, key, p⟩ := e
      obtain ⟨x, _, hx, _⟩ := hst
      exact ⟨x, hx⟩
    obtain ⟨x, hx⟩ := hx
    have he := spacing_stored (retain := retain) e hst hx
    simp only [lastSpacing]
    cases hl : lastSpacing retain rest with
    | some s =>
      obtain ⟨c, c1, c2⟩ := i1 s hl
      refine ⟨fun s' hs => ?_, fun hn => by cases hn⟩
      cases hs
      exact ⟨c, lastElement_cons c1, c2⟩
    | none =>
      refine ⟨fun s' hs => ?_, fun hn => by cases hn⟩
      cases hs
      exact ⟨x, ⟨[], k, ys', rfl, hx, fun j hj => absurd hj (i2 hl j)⟩, he⟩
end

theorem parts_ownItems {d : Document} {retain : Bool} : ∀ {ys : List Data} {ps}, Parts d retain (ownItems ys) ps → Parts d retain ys ps
  | [], _, h => h
  | .spanReference _ :: ys, _, h => .none .span (parts_ownItems (ys := ys) h)
  | .text _ :: ys, _, h => by
    cases h with
    | none h1 h2 => exact .none h1 (parts_ownItems h2)
    | silent h1 h2 h3 => exact .silent h1 h2 (parts_ownItems h3)
    | part h1 h2 h3 h4 => exact .part h1 h2 h3 (parts_ownItems h4)
  | .comment _ :: ys, _, h => by
    cases h with
    | none h1 h2 => exact .none h1 (parts_ownItems h2)
    | silent h1 h2 h3 => exact .silent h1 h2 (parts_ownItems h3)
    | part h1 h2 h3 h4 => exact .part h1 h2 h3 (parts_ownItems h4)
  | .element _ :: ys, _, h => by
    cases h with
    | none h1 h2 => exact .none h1 (parts_ownItems h2)
    | silent h1 h2 h3 => exact .silent h1 h2 (parts_ownItems h3)
    | part h1 h2 h3 h4 => exact .part h1 h2 h3 (parts_ownItems h4)
  | .addElement _ :: ys, _, h => by
    cases h with
    | none h1 h2 => exact .none h1 (parts_ownItems h2)
    | silent h1 h2 h3 => exact .silent h1 h2 (parts_ownItems h3)
    | part h1 h2 h3 h4 => exact .part h1 h2 h3 (parts_ownItems h4)

theorem contentOf_ownItems (d : Document) : ∀ ys : List Data, contentOf d (ownItems ys) = contentOf d ys
  | [] => rfl
  | .spanReference _ :: ys => contentOf_ownItems d ys
  | .text _ :: ys => contentOf_ownItems d ys
  | .comment _ :: ys => contentOf_ownItems d ys
  | .addElement _ :: ys => contentOf_ownItems d ys
  | .element k :: ys => by
    show contentOf d (.element k :: ownItems ys) = _
    simp only [contentOf, contentOf_ownItems d ys]

theorem inline_ownItems {d : Document} {retain : Bool} : ∀ {ys : List Data} {text s}, Inline d retain text (ownItems ys) s → Inline d retain text ys s
  | [], _, _, h => h
  | .spanReference _ :: ys, _, _, h => .span (inline_ownItems (ys := ys) h)
  | .text _ :: ys, _, _, h => by cases h with | text h => exact .text (inline_ownItems h)
  | .comment _ :: ys, _, _, h => by cases h with | comment h => exact .comment (inline_ownItems h)
  | .addElement _ :: ys, _, _, h => by cases h with | pending h => exact .pending (inline_ownItems h)
  | .element _ :: ys, _, _, h => by
    cases h with
    | markup h1 h2 h3 h4 => exact .markup h1 h2 h3 (inline_ownItems h4)
    | silent h1 h2 h3 => exact .silent h1 h2 (inline_ownItems h3)
    | missing h1 h2 => exact .missing h1 (inline_ownItems h2)

mutual
/-- Markup says what its source says. -/
theorem markup_stored {d0 d : Document} {lo : Nat} {retain : Bool} : ∀ (b : ElementData) {par : Option Nat} {k : Nat} {x : ElementData},
    (props b.elementtype).textcontainer = true → MarkedUp b.data → Stored lo d0 d par k b → d.getElement k = some x → TextIs d retain x (inlineOf b)
  | ⟨t, as, data, key, p⟩, par, k, x, hc, hm, h, hx => by
    obtain ⟨x', h1, h2, h3, h4, h5⟩ := h
    rw [hx] at h2
    cases h2
    have htype : x.elementtype = t := h4.type
    rw [container_iff (by rw [htype]; exact hc), inlineOf]
    exact inline_ownItems (inline_stored data "" hm h5)
/-- The inline text is what the source says. -/
theorem inline_stored {d0 d : Document} {lo : Nat} {retain : Bool} : ∀ (data : List Data) {par : Option Nat} {ys : List Data} (text : String), MarkedUp data →
    StoredItems lo d0 d par ys data → Inline d retain text ys (inlineText text data)
  | [], par, ys, text, hb, h => by
    simp only [StoredItems] at h
    subst h
    exact .nil
  | .text s :: rest, par, ys, text, hb, h => by
    obtain ⟨ys', rfl, h⟩ := h
    exact .text (inline_stored rest (text ++ s) hb h)
  | .comment s :: rest, par, ys, text, hb, h => by
    obtain ⟨ys', rfl, h⟩ := h
    exact .comment (inline_stored rest text hb h)
  | .element s :: rest, par, ys, text, hb, h => h.elim
  | .spanReference s :: rest, par, ys, text, hb, h => h.elim
  | .addElement e :: rest, par, ys, text, hb, h => by
    obtain ⟨k, ys', rfl, hst, h⟩ := h
    simp only [MarkedUp] at hb
    have hx : ∃ x, d.getElement k = some x ∧ x.elementtype = e.elementtype := by
      obtain ⟨t, as, data, key, p⟩ := e
      obtain ⟨x, _, hx, _, hr, _⟩ := hst
      exact ⟨x, hx, hr.type⟩
    obtain ⟨x, hx, htype⟩ := hx
    rw [inlineText]
    by_cases hp : (props e.elementtype).printable = true
    · rw [if_pos hp]
      have hm : (props e.elementtype).textcontainer = true ∧ MarkedUp e.data := by
        obtain ⟨t, as, data, key, p⟩ := e
        have := hb.1
        simp only [Markup] at this
        exact this hp
      have he := markup_stored (retain := retain) e hm.1 hm.2 hst hx
      refine .markup hx (by rw [htype]; exact hp) he ?_
      rw [htype]
      have ih := inline_stored (retain := retain) rest ((if text = "" then "" else text ++ (props e.elementtype).textdelimiter.getD "") ++ inlineOf e) hb.2 h
      revert ih
      cases (props e.elementtype).textdelimiter <;> simp
    · rw [if_neg hp]
      exact .silent hx (by rw [htype]; simpa using hp) (inline_stored rest text hb.2 h)
end

theorem textContent_container : (props .textContent).textcontainer = true := by decide +kernel

/-- The last text content is what the last text content of the source says. -/
theorem content_stored {d0 d : Document} {lo : Nat} {par : Option Nat} {retain : Bool} : ∀ {data ys : List Data}, Tokenised data → StoredItems lo d0 d par ys data →
    match lastText data with
    | none => contentOf d ys = none
    | some c => ∃ x, contentOf d ys = some x ∧ TextIs d retain x (inlineText "" c)
  | [], ys, _, h => by
    simp only [StoredItems] at h
    subst h; rfl
  | .text s :: rest, ys, ht, h => by
    obtain ⟨ys', rfl, h⟩ := h
    have := content_stored (retain := retain) (data := rest) (ys := ys') ht h
    simpa only [lastText, contentOf] using this
  | .comment s :: rest, ys, ht, h => by
    obtain ⟨ys', rfl, h⟩ := h
    have := content_stored (retain := retain) (data := rest) (ys := ys') ht h
    simpa only [lastText, contentOf] using this
  | .element s :: rest, ys, ht, h => h.elim
  | .spanReference s :: rest, ys, ht, h => h.elim
  | .addElement ⟨t, as, data, key, p⟩ :: rest, ys, ht, h => by
    obtain ⟨k, ys', rfl, ⟨x, h1, h2, h3, h4, h5⟩, h⟩ := h
    simp only [Tokenised, TokenisedChild] at ht
    have ih := content_stored (retain := retain) (data := rest) ht.2 h
    simp only [lastText, contentOf]
    cases hl : lastText rest with
    | some c =>
      rw [hl] at ih
      obtain ⟨y, i1, i2⟩ := ih
      exact ⟨y, by rw [i1], i2⟩
    | none =>
      rw [hl] at ih
      simp only at ih
      simp only [ih, h2]
      have htype : x.elementtype = t := h4.type
      by_cases hc : t = .textContent
      · subst hc
        simp only [if_true, htype]
        refine ⟨x, rfl, ?_⟩
        rw [container_iff (by rw [htype]; exact textContent_container)]
        exact inline_ownItems (inline_stored data "" (ht.1.2.1 rfl) h5)
      · simp only [htype, hc, if_false]

/-- The element has the text `s`, or no text if `s` is empty. -/
def Says (d : Document) (retain : Bool) (x : ElementData) (s : String) : Prop :=
  (s = "" → TextFails d retain x) ∧ (s ≠ "" → TextIs d retain x s)

/-- The text of an element whose parts and text content are known. -/
theorem text_of_parts {d : Document} {retain : Bool} {x : ElementData} (hs : Speaks x) {data : List Data} {ps : List Part} (hps : Parts d retain x.data ps)
    (hg : joined ps = glue (utterParts retain data))
    (hc : match lastText data with
      | none => contentOf d x.data = none
      | some c => ∃ y, contentOf d x.data = some y ∧ TextIs d retain y (inlineText "" c)) (t as key p)
    (ht : x.elementtype = t) : Says d retain x (utter retain ⟨t, as, data, key, p⟩) := by
  rw [utter]
  rw [if_neg (by rintro (h | h)
                 · rw [← ht, hs.printable] at h; cases h
                 · rw [← ht, hs.visible] at h; cases h)]
  by_cases hj : glue (utterParts retain data) = ""
  · rw [if_pos hj]
    cases hl : lastText data with
    | none =>
      rw [hl] at hc
      exact ⟨fun _ => C34_no_text hs hps (hg.trans hj) (.inl (contentOf_none hc)), fun h => absurd rfl h⟩
    | some c =>
      rw [hl] at hc
      obtain ⟨y, h1, h2⟩ := hc
      simp only [Option.map_some, Option.getD_some]
      refine ⟨fun he => ?_, fun he => (C34_fallback hs hps (hg.trans hj) _).2 ⟨he, y, contentOf_some h1, h2⟩⟩
      rw [he] at h2
      exact C34_no_text hs hps (hg.trans hj) (.inr ⟨y, contentOf_some h1, .inr h2⟩)
  · rw [if_neg hj]
    exact ⟨fun h => absurd h hj, fun _ => (C33_concatenation hs hps (by rwa [hg]) _).2 hg.symm⟩

mutual
/-- A part of the text says what its source says. -/
theorem part_stored {d0 d : Document} {lo : Nat} {retain : Bool} : ∀ (b : ElementData) {par : Option Nat} {k : Nat}, TextPart b.elementtype → TokenisedChild b →
    Stored lo d0 d par k b → ∃ x, d.getElement k = some x ∧ x.elementtype = b.elementtype ∧ DelimiterIs d retain x (spacing retain b) ∧
      Says d retain x (utter retain b)
  | ⟨t, as, data, key, p⟩, par, k, hp, ht, h => by
    obtain ⟨x, h1, h2, h3, h4, h5⟩ := h
    have htype : x.elementtype = t := h4.type
    refine ⟨x, h2, htype, spacing_stored _ ⟨x, h1, h2, h3, h4, h5⟩ h2, ?_⟩
    simp only [TokenisedChild] at ht
    have htok := ht.1 hp
    by_cases hm : Mute t
    · have : utter retain ⟨t, as, data, key, p⟩ = "" := by rw [utter]; exact if_pos hm
      rw [this]
      exact ⟨fun _ => mute_fails (by rw [htype]; exact hm), fun h => absurd rfl h⟩
    have hs : Speaks x := ⟨part_no_container _ (by rw [htype]; exact hp), by rw [htype]; exact by simpa using fun h => hm (.inl h),
      by rw [htype]; exact by simpa using fun h => hm (.inr h)⟩
    obtain ⟨ps, p1, p2⟩ := parts_stored (retain := retain) data htok h5
    have hc := content_stored (retain := retain) htok h5
    simp only [contentOf_ownItems] at hc
    exact text_of_parts hs (parts_ownItems p1) p2.2 hc t as key p htype
/-- The parts of the text of an element are what the parts of its source say. -/
theorem parts_stored {d0 d : Document} {lo : Nat} {retain : Bool} : ∀ (data : List Data) {par : Option Nat} {ys : List Data}, Tokenised data →
    StoredItems lo d0 d par ys data → ∃ ps, Parts d retain ys ps ∧
      (∀ p ∈ ps, (props p.source.elementtype).textcontainer = false) ∧ joined ps = glue (utterParts retain data) := by
  intro data par ys ht h
  obtain ⟨ps, h1, h2, h3⟩ := parts_stored' (retain := retain) data ht h
  exact ⟨ps, h1, h2, by rw [glue_joined ps h2, h3]⟩
/-- See `parts_stored`. -/
theorem parts_stored' {d0 d : Document} {lo : Nat} {retain : Bool} : ∀ (data : List Data) {par : Option Nat} {ys : List Data}, Tokenised data →
    StoredItems lo d0 d par ys data → ∃ ps, Parts d retain ys ps ∧
      (∀ p ∈ ps, (props p.source.elementtype).textcontainer = false) ∧ (ps.map fun p => (p.text, p.delimiter)) = utterParts retain data
  | [], par, ys, ht, h => by
    simp only [StoredItems] at h
    subst h; exact ⟨[], .nil, by simp, rfl⟩
  | .text s :: rest, par, ys, ht, h => by
    obtain ⟨ys', rfl, h⟩ := h
    obtain ⟨ps, h1, h2, h3⟩ := parts_stored' (retain := retain) rest ht h
    exact ⟨ps, .none .text h1, h2, h3⟩
  | .comment s :: rest, par, ys, ht, h => by
    obtain ⟨ys', rfl, h⟩ := h
    obtain ⟨ps, h1, h2, h3⟩ := parts_stored' (retain := retain) rest ht h
    exact ⟨ps, .none .comment h1, h2, h3⟩
  | .element s :: rest, par, ys, ht, h => h.elim
  | .spanReference s :: rest, par, ys, ht, h => h.elim
  | .addElement e :: rest, par, ys, ht, h => by
    obtain ⟨k, ys', rfl, hst, h⟩ := h
    simp only [Tokenised] at ht
    obtain ⟨ps, h1, h2, h3⟩ := parts_stored' (retain := retain) rest ht.2 h
    by_cases hp : TextPart e.elementtype
    · obtain ⟨x, x1, x2, x3, x4⟩ := part_stored (retain := retain) e hp ht.1 hst
      have hsf : StandsFor d (.element k) (some x) := .child x1 (by rw [x2]; exact hp)
      by_cases hu : utter retain e = ""
      · exact ⟨ps, .silent hsf (x4.1 hu) h1, h2, by simp [utterParts, hu, h3]⟩
      · refine ⟨⟨x, utter retain e, spacing retain e⟩ :: ps, .part hsf (x4.2 hu) x3 h1, ?_, by simp [utterParts, hu, hp, h3]⟩
        intro q hq
        rcases List.mem_cons.1 hq with rfl | hq
        · exact part_no_container _ (by rw [x2]; exact hp)
        · exact h2 q hq
    · refine ⟨ps, .none ?_ h1, h2, by simp [utterParts, hp, h3]⟩
      obtain ⟨t, as, data, key, p⟩ := e
      obtain ⟨x, _, g2, _, g4, _⟩ := hst
      have htype : x.elementtype = t := g4.type
      simp only [TokenisedChild] at ht
      exact .unrelated g2 (by rw [htype]; exact hp) (by rw [htype]; exact ht.1.2.2)
end

/-! ### C91 -/

/-- Asking with enough fuel. -/
theorem says_ends {d : Document} {retain : Bool} {x : ElementData} {s : String} (h : Says d retain x s) :
    ∃ N, ∀ G, N ≤ G → ∀ set cls strict, (s = "" → ∃ k, textByKey d set cls retain strict G x none = .error (.err k)) ∧
      (s ≠ "" → textByKey d set cls retain strict G x none = .ok s) := by
  by_cases hs : s = ""
  · obtain ⟨N, k, h⟩ := (h.1 hs).at
    exact ⟨N, fun G hG set cls strict => ⟨fun _ => ⟨k, by rw [textAt_eq]; exact h G hG⟩, fun h => absurd hs h⟩⟩
  · obtain ⟨N, h⟩ := (h.2 hs).at
    exact ⟨N, fun G hG set cls strict => ⟨fun h => absurd h hs, fun _ => by rw [textAt_eq]; exact h G hG⟩⟩

/-- The text of a tokenised file is what the file says. -/
theorem C91_text_partial {X : Ext} {F : Nat} {ps : DocumentProperties} (hcl : ∀ p, ps.processor = some p → CleanProc p)
    {header gap : List REvent} (hh : metadataEnd ∉ header) (hg : ∀ ev ∈ gap, isStart ev = false) {tag tag' : String} {attrs : List RAttr}
    (htag : tag ≠ "FoLiA") {nodes : List XNode} (hid : (attrIds attrs ++ XNode.idsList nodes).Nodup) {rest : List REvent} {d : Document}
    (h : Document.parse X F ps (source header gap tag attrs (XNode.eventsList nodes ++ .endTag .folia tag' :: rest)) = .ok d) :
    ∃ b x, bodyTypeOf tag = some b.elementtype ∧ XNode.meaningList X nodes = some b.data ∧ d.getElement 0 = some x ∧ (Tokenised b.data → ∀ retain,
      (utter retain b = "" → TextFails d retain x) ∧ (utter retain b ≠ "" → TextIs d retain x (utter retain b)) ∧
      ∃ N, ∀ G, N ≤ G → ∀ p dk c ck, p.retaintokenisation = retain → d.declarationKeyById (Declaration.indexId .TEXT p.set) = some dk →
        p.textclass = some c → d.classKey dk c = .ok ck →
        (utter retain b = "" → ∃ k, d.text G 0 p = .error (.err k)) ∧ (utter retain b ≠ "" → d.text G 0 p = .ok (utter retain b))) := by
  obtain ⟨t, as, fs, data, x, b1, b2, b3, b4, b5, ⟨d0, _, b6⟩, b7, _⟩ := C42_tree hcl hh hg htag hid h
  refine ⟨⟨t, as, data, none, none⟩, x, b1, b3, b4, fun htok retain => ?_⟩
  have htype : x.elementtype = t := b6.type
  have hs : Speaks x := by
    have : t = .text ∨ t = .speech := by
      unfold bodyTypeOf at b1
      split at b1
      · exact .inl (Option.some.inj b1).symm
      · split at b1
        · exact .inr (Option.some.inj b1).symm
        · cases b1
    rcases this with rfl | rfl <;>
      exact ⟨by rw [htype]; decide +kernel, by rw [htype]; decide +kernel, by rw [htype]; decide +kernel⟩
  obtain ⟨ps, p1, _, p2⟩ := parts_stored (retain := retain) data htok b7
  have hc := content_stored (retain := retain) htok b7
  simp only [contentOf_ownItems] at hc
  have hx := text_of_parts hs (parts_ownItems p1) p2 hc t as none none htype
  refine ⟨hx.1, hx.2, ?_⟩
  obtain ⟨N, hN⟩ := says_ends hx
  refine ⟨N, fun G hG p dk c ck hret hd hcl hck => ?_⟩
  have := hN G hG dk ck p.strict
  simp only [Document.text, b4, elementText, hd, hcl, hck, hret]
  exact this

mutual
theorem stored_of_materialised {d0 d : Document} : ∀ (b : ElementData) {par : Option Nat} {k : Nat}, Materialised d0 d par k b → Stored 0 d0 d par k b
  | ⟨t, as, data, key, p⟩, par, k, h => by
    obtain ⟨x, ys, refs, h1, h2, h3, h4, h5, h6, h7⟩ := h
    obtain ⟨g1, g2⟩ := storedItems_of_materialised data h7
    refine ⟨x, Nat.zero_le _, h2, h3, h4, ?_⟩
    have hr : ∀ refs : List Nat, ownItems (List.map .spanReference refs) = [] := by
      intro refs
      induction refs with
      | nil => rfl
      | cons r refs ih => exact ih
    have : ownItems x.data = ys := by
      rw [h5]
      show List.filter _ _ = _
      rw [List.filter_append]
      show ownItems ys ++ ownItems _ = _
      rw [g2, hr refs, List.append_nil]
    rw [this]
    exact g1
theorem storedItems_of_materialised {d0 d : Document} : ∀ (data : List Data) {par : Option Nat} {ys : List Data}, MaterialisedItems d0 d par ys data →
    StoredItems 0 d0 d par ys data ∧ ownItems ys = ys
  | [], par, ys, h => by
    simp only [MaterialisedItems] at h
    subst h
    exact ⟨rfl, rfl⟩
  | .text s :: rest, par, ys, h => by
    obtain ⟨ys', rfl, h⟩ := h
    obtain ⟨g1, g2⟩ := storedItems_of_materialised rest h
    exact ⟨⟨ys', rfl, g1⟩, congrArg _ g2⟩
  | .comment s :: rest, par, ys, h => by
    obtain ⟨ys', rfl, h⟩ := h
    obtain ⟨g1, g2⟩ := storedItems_of_materialised rest h
    exact ⟨⟨ys', rfl, g1⟩, congrArg _ g2⟩
  | .element s :: rest, par, ys, h => h.elim
  | .spanReference s :: rest, par, ys, h => h.elim
  | .addElement e :: rest, par, ys, h => by
    obtain ⟨k, ys', rfl, hst, h⟩ := h
    obtain ⟨g1, g2⟩ := storedItems_of_materialised rest h
    exact ⟨⟨k, ys', rfl, stored_of_materialised e hst, g1⟩, congrArg _ g2⟩
end

/-- The text of an element that was added is what its builder says. -/
theorem C91_added_partial {X : Ext} {F : Nat} {d d' : Document} (hr : CleanReachable X F d) {p k : Nat} {e : ElementData}
    (hp : (d.getElement p).isSome) (hn : d.NewBuilder e) (h : addElementTo F p e d = (.ok k, d')) (ht : TextPart e.elementtype) (htok : TokenisedChild e)
    (retain : Bool) : ∃ x, d'.getElement k = some x ∧ DelimiterIs d' retain x (spacing retain e) ∧
      (utter retain e = "" → TextFails d' retain x) ∧ (utter retain e ≠ "" → TextIs d' retain x (utter retain e)) := by
  obtain ⟨x, h1, _, h2, h3⟩ := part_stored (retain := retain) e ht htok (stored_of_materialised e (C18_builder_tree hr hp hn h).tree)
  exact ⟨x, h1, h2, h3⟩

mutual
/-- `Markup` can be decided. -/
def decMarkup : ∀ b, Decidable (Markup b)
  | ⟨_, _, data, _, _⟩ => have := decMarkedUp data; inferInstanceAs (Decidable (_ → _ ∧ MarkedUp data))
/-- `MarkedUp` can be decided. -/
def decMarkedUp : ∀ data, Decidable (MarkedUp data)
  | [] => .isTrue trivial
  | .addElement e :: rest => have := decMarkup e; have := decMarkedUp rest; inferInstanceAs (Decidable (Markup e ∧ MarkedUp rest))
  | .text _ :: rest => decMarkedUp rest
  | .comment _ :: rest => decMarkedUp rest
  | .element _ :: rest => decMarkedUp rest
  | .spanReference _ :: rest => decMarkedUp rest
end
mutual
/-- `TokenisedChild` can be decided. -/
def decTokenisedChild : ∀ b, Decidable (TokenisedChild b)
  | ⟨t, _, data, _, _⟩ =>
    have := decMarkedUp data
    have := decTokenised data
    inferInstanceAs (Decidable ((TextPart t → Tokenised data) ∧ (t = .textContent → MarkedUp data) ∧ t ≠ .wordReference))
/-- `Tokenised` can be decided. -/
def decTokenised : ∀ data, Decidable (Tokenised data)
  | [] => .isTrue trivial
  | .addElement e :: rest => have := decTokenisedChild e; have := decTokenised rest; inferInstanceAs (Decidable (TokenisedChild e ∧ Tokenised rest))
  | .text _ :: rest => decTokenised rest
  | .comment _ :: rest => decTokenised rest
  | .element _ :: rest => decTokenised rest
  | .spanReference _ :: rest => decTokenised rest
end
instance (data : List Data) : Decidable (Tokenised data) := decTokenised data
instance (b : ElementData) : Decidable (TokenisedChild b) := decTokenisedChild b

/-- A paragraph with a sentence of three words with text and one without, with markup and a word that no space follows, and a text content
that is not used. -/
def Sample.talk : XNode := .elem "p" [] [.elem "s" [.ok "xml:id" "s1"] [
    .elem "w" [.ok "space" "no"] [.elem "t" [] [.text "Hel", .elem "t-style" [] [.text "lo"]]],
    .elem "w" [] [.elem "t" [] [.text ","], .elem "pos" [.ok "class" "LET"] []],
    .elem "w" [] [.elem "t" [] [.text "Tim"], .comment "or", .elem "t" [] [.text "Tom"]], .empty "w" []],
  .elem "t" [] [.text "something else"]]

/-- What it is read as. -/
def Sample.talkDoc : Document := Sample.value (Document.parse Sample.X Sample.F {} (Sample.around (XNode.eventsList [Sample.talk])))

/-- The hypotheses are met, and the text is what one reads. -/
example : Document.parse Sample.X Sample.F {} (Sample.around (XNode.eventsList [Sample.talk])) = .ok Sample.talkDoc ∧
    ∃ N, ∀ G, N ≤ G → Sample.talkDoc.text G 0 {} = .ok "Hello, Tom" ∧ Sample.talkDoc.text G 0 { retaintokenisation := true } = .ok "Hello , Tom" := by
  have hd : Document.parse Sample.X Sample.F {} (Sample.around (XNode.eventsList [Sample.talk])) = .ok Sample.talkDoc := Sample.value_eq (by decide +kernel)
  refine ⟨hd, ?_⟩
  obtain ⟨⟨t, as, data, key, p⟩, x, h1, h2, _, h3⟩ := C91_text_partial (ps := {}) (fun _ hp => nomatch hp) (nodes := [Sample.talk])
    (attrs := [.ok "xml:id" "t"]) (header := Sample.header) (gap := []) (tag := "text") (tag' := "text") (rest := [.endTag .folia "FoLiA"])
    (by decide) (by decide) (by decide) (by decide) hd
  cases h1
  have htok : (XNode.meaningList Sample.X [Sample.talk]).map (fun data => decide (Tokenised data)) = some true := by decide +kernel
  have hu : ∀ retain, (XNode.meaningList Sample.X [Sample.talk]).map (fun data => utter retain ⟨.text, as, data, key, p⟩) =
      some (if retain then "Hello , Tom" else "Hello, Tom") := by
    intro retain
    have : ∀ retain, (XNode.meaningList Sample.X [Sample.talk]).map (fun data => utter retain ⟨.text, [], data, none, none⟩) =
      some (if retain then "Hello , Tom" else "Hello, Tom") := by decide +kernel
    simpa only [utter] using this retain
  rw [h2] at htok
  have h3 := h3 (of_decide_eq_true (Option.some.inj htok))
  obtain ⟨_, _, N, hN⟩ := h3 false
  obtain ⟨_, _, N', hN'⟩ := h3 true
  have hu0 := hu false
  have hu1 := hu true
  simp only [h2, Option.map_some, Option.some.injEq, if_true, Bool.false_eq_true, if_false] at hu0 hu1
  have hdk : Sample.talkDoc.declarationKeyById (Declaration.indexId .TEXT ({} : TextParameters).set) = some 1 := by decide +kernel
  have hck : Sample.talkDoc.classKey 1 "current" = .ok 0 := by decide +kernel
  refine ⟨max N N', fun G hG => ⟨?_, ?_⟩⟩
  · have := (hN G (by omega) {} 1 "current" 0 rfl hdk rfl hck).2 (by rw [hu0]; decide)
    rwa [hu0] at this
  · have := (hN' G (by omega) { retaintokenisation := true } 1 "current" 0 rfl hdk rfl hck).2 (by rw [hu1]; decide)
    rwa [hu1] at this

/-- A sentence of two words, as a builder. -/
def Sample.saying : ElementData := (((ElementData.new .sentence).addElement ((ElementData.new .word).addElement ((ElementData.new .textContent).push (.text "Hello")))).addElement
  ((ElementData.new .word).addElement ((ElementData.new .textContent).push (.text "world"))))

/-- The hypotheses of `C91_added_partial` are met. -/
example : CleanReachable Sample.X Sample.F Sample.doc ∧ (Sample.doc.getElement 0).isSome ∧ Sample.doc.NewBuilder Sample.saying ∧
    (addElementTo Sample.F 0 Sample.saying Sample.doc).1 = .ok 16 ∧ TextPart Sample.saying.elementtype ∧ TokenisedChild Sample.saying ∧
    utter false Sample.saying = "Hello world" :=
  ⟨Sample.doc_clean, by decide +kernel, by decide +kernel, by decide +kernel, by decide +kernel, by decide +kernel, by decide +kernel⟩

/-! ### C92 -/

/-- Leaving out the text class does not mean the class "current": the call panics, in every document that declares the set. -/
theorem C92_class_panics {d : Document} {G k dk : Nat} {e : ElementData} (he : d.getElement k = some e) {p : TextParameters} (hp : p.textclass = none)
    (hd : d.declarationKeyById (Declaration.indexId .TEXT p.set) = some dk) : d.text G k p = .error .panic ∧ elementText d G e p = .error .panic := by
  have : elementText d G e p = .error .panic := by simp only [elementText, hd, hp]
  exact ⟨by simp only [Document.text, he, this], this⟩

/-- Leaving out the set does not mean the default text set: the call panics unless text is declared without a set. -/
theorem C92_set_panics {d : Document} {G k : Nat} {e : ElementData} (he : d.getElement k = some e) {p : TextParameters} (hp : p.set = none)
    (hd : d.declarationKeyById (Declaration.indexId .TEXT none) = none) : d.text G k p = .error .panic ∧ elementText d G e p = .error .panic := by
  have : elementText d G e p = .error .panic := by simp only [elementText, hp, hd]
  exact ⟨by simp only [Document.text, he, this], this⟩

/-- These are the only ways to make the call panic. -/
theorem C92_only {X : Ext} {F : Nat} {d : Document} (hr : Reachable X F d) {G k : Nat} {p : TextParameters} (h : d.text G k p = .error .panic) :
    p.textclass = none ∧ (d.declarationKeyById (Declaration.indexId .TEXT p.set)).isSome ∨
      p.set = none ∧ d.declarationKeyById (Declaration.indexId .TEXT none) = none := by
  have hres : ∀ e : ElementData, ∃ o, e.resolve d = .ok o := fun e => (C69_resolve_partial hr e).1
  unfold Document.text at h
  split at h
  · unfold elementText at h
    split at h
    · rename_i dk hdk
      split at h
      · rename_i hc
        exact .inl ⟨hc, by rw [hdk]; rfl⟩
      · split at h
        · exact absurd h (textByKey_safe d hres _ _ _ _ _ _ _)
        · rename_i f hf
          exact absurd h (hf ▸ classKey_safe d dk _ : NoPanic (.error f : Res Nat)).of_error
    · rename_i hdk
      split at h
      · cases h
      · rename_i hs
        exact .inr ⟨hs, by rw [← hs]; exact hdk⟩
  · cases h

/-- A file with text: the defaults give its text, leaving them out panics. -/
theorem C92_counterexample : Document.parse Sample.X Sample.F {} (Sample.around (XNode.eventsList [Sample.talk])) = .ok Sample.talkDoc ∧
    Sample.talkDoc.text Sample.F 0 {} = .ok "Hello, Tom" ∧ Sample.talkDoc.text Sample.F 0 { textclass := none } = .error .panic ∧
    Sample.talkDoc.text Sample.F 0 { set := none } = .error .panic :=
  ⟨Sample.value_eq (by decide +kernel), by decide +kernel, Sample.panics_eq (by decide +kernel), Sample.panics_eq (by decide +kernel)⟩

end Folia
