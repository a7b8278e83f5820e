import Verif.TextView
import Verif.Props.Tables
/-! Lemmas on text extraction. -/
namespace Folia

/-- `r'` is what `r` is, unless `r` ran out of fuel. -/
def Fuelled {α : Type} (r r' : Res α) : Prop := r = .error .fuel ∨ r' = r

theorem Fuelled.rfl {α : Type} {r : Res α} : Fuelled r r := .inr (by rfl)

theorem textDelimiter_next (d : Document) (retain : Bool) : ∀ n e, Fuelled (textDelimiter d retain n e) (textDelimiter d retain (n + 1) e)
  | 0, _ => .inl rfl
  | n + 1, e => by
    rw [textDelimiter, textDelimiter]
    cases (props e.elementtype).textdelimiter with
    | some td => exact .rfl
    | none => cases lastChild d e.data with
      | none => exact .rfl
      | some c => exact textDelimiter_next d retain n c

theorem containerText_next {d : Document} {rec rec' : ElementData → Res String} (h : ∀ c, Fuelled (rec c) (rec' c)) :
    ∀ data text, Fuelled (containerText d rec data text) (containerText d rec' data text)
  | [], _ => .rfl
  | .text s :: rest, text => containerText_next h rest (text ++ s)
  | .element k :: rest, text => by
    rw [containerText, containerText]
    cases d.getElement k with
    | none => exact containerText_next h rest text
    | some c =>
      by_cases hp : (props c.elementtype).printable
      · simp only [hp, if_true]
        rcases h c with h' | h'
        · rw [h']; exact .inl rfl
        · rw [h']
          cases rec c with
          | error f => exact .rfl
          | ok part => exact containerText_next h rest _
      · simp only [hp]; exact containerText_next h rest text
  | .comment _ :: rest, text => containerText_next h rest text
  | .spanReference _ :: rest, text => containerText_next h rest text
  | .addElement _ :: rest, text => containerText_next h rest text

theorem addPart_next {rec rec' : ElementData → Option String → Res String} {delim delim' : ElementData → Res String}
    (h : ∀ c p, Fuelled (rec c p) (rec' c p)) (hd : ∀ c, Fuelled (delim c) (delim' c)) (c : ElementData) (acc : TextAcc) :
    Fuelled (addPart rec delim c acc) (addPart rec' delim' c acc) := by
  unfold addPart
  rcases h c (some acc.delimiter) with h' | h'
  · rw [h']; exact .inl rfl
  · rw [h']
    cases rec c (some acc.delimiter) with
    | error f => cases f <;> exact .rfl
    | ok part => rcases hd c with h'' | h'' <;> rw [h'']
                 · exact .inl rfl
                 · exact .rfl

theorem structText_next {d : Document} {rec rec' : ElementData → Option String → Res String} {delim delim' : ElementData → Res String}
    (h : ∀ c p, Fuelled (rec c p) (rec' c p)) (hd : ∀ c, Fuelled (delim c) (delim' c)) :
    ∀ data acc, Fuelled (structText d rec delim data acc) (structText d rec' delim' data acc)
  | [], _ => .rfl
  | .text _ :: rest, acc => structText_next h hd rest acc
  | .comment _ :: rest, acc => structText_next h hd rest acc
  | .spanReference _ :: rest, acc => structText_next h hd rest acc
  | .addElement _ :: rest, acc => structText_next h hd rest acc
  | .element k :: rest, acc => by
    have hadd : ∀ c, Fuelled
        (match addPart rec delim c acc with
          | .ok acc' => structText d rec delim rest acc'
          | .error f => .error f)
        (match addPart rec' delim' c acc with
          | .ok acc' => structText d rec' delim' rest acc'
          | .error f => .error f) := by
      intro c
      rcases addPart_next h hd c acc with h' | h'
      · rw [h']; exact .inl rfl
      · rw [h']
        cases addPart rec delim c acc with
        | error f => exact .rfl
        | ok acc' => exact structText_next h hd rest acc'
    rw [structText, structText]
    cases d.getElement k with
    | none => exact structText_next h hd rest acc
    | some c =>
      dsimp only
      split
      · exact hadd c
      · split
        · cases c.resolve d with
          | error f => exact .rfl
          | ok o => cases o with
            | none => exact structText_next h hd rest acc
            | some t => exact hadd t
        · split
          · exact structText_next h hd rest _
          · exact structText_next h hd rest acc

theorem finishText_next {rec rec' : ElementData → Option String → Res String} (h : ∀ c p, Fuelled (rec c p) (rec' c p)) (acc : TextAcc)
    (prev : Option String) : Fuelled (finishText rec acc prev) (finishText rec' acc prev) := by
  unfold finishText
  cases acc.content with
  | none => exact .rfl
  | some c =>
    dsimp only
    by_cases hp : acc.text.isEmpty = true
    · simp only [hp, if_true]
      rcases h c none with h' | h'
      · rw [h']; exact .inl rfl
      · rw [h']; exact .rfl
    · simp only [hp]; exact .rfl

theorem textByKey_next (d : Document) (set cls : Nat) (retain : Bool) : ∀ n strict e prev,
    Fuelled (textByKey d set cls retain strict n e prev) (textByKey d set cls retain strict (n + 1) e prev)
  | 0, _, _, _ => .inl rfl
  | n + 1, strict, e, prev => by
    rw [textByKey, textByKey]
    split
    · exact containerText_next (fun c => textByKey_next d set cls retain n strict c none) _ _
    · split
      · exact .rfl
      · rcases structText_next (d := d) (fun c p => textByKey_next d set cls retain n false c p) (fun c => textDelimiter_next d retain n c)
          e.data {} with h' | h'
        · rw [h']; exact .inl rfl
        · rw [h']
          cases structText d (fun c p => textByKey d set cls retain false n c p) (fun c => textDelimiter d retain n c) e.data {} with
          | error f => exact .rfl
          | ok acc => exact finishText_next (fun c p => textByKey_next d set cls retain n false c p) acc prev

theorem fuelled_mono {α : Type} {f : Nat → Res α} (h : ∀ n, Fuelled (f n) (f (n + 1))) {n : Nat} {r : Res α} (hr : f n = r)
    (hne : r ≠ .error .fuel) {m : Nat} (hm : n ≤ m) : f m = r := by
  induction hm with
  | refl => exact hr
  | @step m _ ih => rcases h m with h' | h'
                    · exact absurd (ih ▸ h') hne
                    · rw [h', ih]

/-- The arguments `set`, `textclass` and `strict` do not matter. -/
theorem textByKey_same (d : Document) (set cls set' cls' : Nat) (retain : Bool) : ∀ n strict strict' e prev,
    textByKey d set cls retain strict n e prev = textByKey d set' cls' retain strict' n e prev
  | 0, _, _, _, _ => rfl
  | n + 1, strict, strict', e, prev => by
    have h1 : (fun c => textByKey d set cls retain strict n c none) = fun c => textByKey d set' cls' retain strict' n c none :=
      funext fun c => textByKey_same d set cls set' cls' retain n strict strict' c none
    have h2 : (fun c p => textByKey d set cls retain false n c p) = fun c p => textByKey d set' cls' retain false n c p :=
      funext fun c => funext fun p => textByKey_same d set cls set' cls' retain n false false c p
    rw [textByKey, textByKey, h1, h2]

/-- The text of an element, with the irrelevant arguments fixed. -/
abbrev textAt (d : Document) (retain : Bool) (n : Nat) (e : ElementData) : Res String := textByKey d 0 0 retain false n e none

theorem textAt_eq (d : Document) (set cls : Nat) (retain strict : Bool) (n : Nat) (e : ElementData) :
    textByKey d set cls retain strict n e none = textAt d retain n e := textByKey_same ..

theorem TextIs.at {d : Document} {retain : Bool} {e : ElementData} {s : String} (h : TextIs d retain e s) :
    ∃ N, ∀ n ≥ N, textAt d retain n e = .ok s := by
  obtain ⟨set, cls, strict, F, h⟩ := h
  rw [textAt_eq] at h
  exact ⟨F, fun n hn => fuelled_mono (fun n => textByKey_next d 0 0 retain n false e none) h nofun hn⟩

theorem TextFails.at {d : Document} {retain : Bool} {e : ElementData} (h : TextFails d retain e) :
    ∃ N k, ∀ n ≥ N, textAt d retain n e = .error (.err k) := by
  obtain ⟨set, cls, strict, F, k, h⟩ := h
  rw [textAt_eq] at h
  exact ⟨F, k, fun n hn => fuelled_mono (fun n => textByKey_next d 0 0 retain n false e none) h nofun hn⟩

theorem DelimiterIs.at {d : Document} {retain : Bool} {e : ElementData} {s : String} (h : DelimiterIs d retain e s) :
    ∃ N, ∀ n ≥ N, textDelimiter d retain n e = .ok s := by
  obtain ⟨F, h⟩ := h
  exact ⟨F, fun n hn => fuelled_mono (fun n => textDelimiter_next d retain n e) h nofun hn⟩

theorem textDelimiter_ok (d : Document) (retain : Bool) : ∀ n e, textDelimiter d retain n e = .error .fuel ∨
    ∃ s, textDelimiter d retain n e = .ok s
  | 0, _ => .inl rfl
  | n + 1, e => by
    rw [textDelimiter]
    cases (props e.elementtype).textdelimiter with
    | some td =>
      dsimp only
      split
      · split <;> exact .inr ⟨_, rfl⟩
      · exact .inr ⟨_, rfl⟩
    | none => cases lastChild d e.data with
      | none => exact .inr ⟨_, rfl⟩
      | some c => exact textDelimiter_ok d retain n c

/-- A previous delimiter only matters for elements that are not text containers; there it comes first. -/
theorem textByKey_prev (d : Document) (retain : Bool) (n : Nat) (e : ElementData) (p : String) :
    textByKey d 0 0 retain false n e (some p) =
      match textAt d retain n e with
      | .ok s => .ok ((if (props e.elementtype).textcontainer then "" else p) ++ s)
      | .error f => .error f := by
  cases n with
  | zero => rfl
  | succ n =>
    unfold textAt
    rw [textByKey, textByKey]
    by_cases hc : (props e.elementtype).textcontainer = true
    · simp only [hc, if_true, String.empty_append]
      generalize containerText _ _ _ _ = r
      cases r <;> rfl
    · simp only [hc]
      by_cases hp : (!(props e.elementtype).printable || (props e.elementtype).hidden) = true
      · simp only [hp, if_true]; rfl
      · simp only [hp]
        generalize structText _ _ _ _ _ = r
        cases r with
        | error f => rfl
        | ok acc =>
          have hend : ∀ text : String, (if text.isEmpty = true then (.error (.err .noText) : Res String) else .ok (p ++ text)) =
              match (if text.isEmpty = true then (.error (.err .noText) : Res String) else .ok text) with
              | .ok s => .ok (p ++ s)
              | .error f => .error f := by
            intro text; by_cases ht : text.isEmpty = true <;> simp only [ht, if_true] <;> rfl
          simp only [finishText]
          cases acc.content with
          | none => exact hend _
          | some c =>
            dsimp only
            by_cases ht : acc.text.isEmpty = true
            · simp only [ht, if_true]
              cases textByKey d 0 0 retain false n c none with
              | ok t => exact hend t
              | error f => cases f with
                | err k => exact hend acc.text
                | panic => rfl
                | fuel => rfl
            · simp only [ht]; exact hend _

/-- Parts after a delimiter. -/
def joinedAfter : String → List Part → String
  | _, [] => ""
  | p, q :: ps => (if (props q.source.elementtype).textcontainer then "" else p) ++ q.text ++ joinedAfter q.delimiter ps

theorem joinedAfter_cons (q : Part) : ∀ ps, q.text ++ joinedAfter q.delimiter ps = joined (q :: ps)
  | [] => by simp [joinedAfter, joined]
  | r :: ps => by
    rw [joined, joinedAfter, ← joinedAfter_cons r ps]
    simp only [String.append_assoc]

theorem joined_eq (ps : List Part) : joinedAfter "" ps = joined ps := by
  cases ps with
  | nil => rfl
  | cons q ps => rw [joinedAfter, ite_self, String.empty_append, joinedAfter_cons]

/-- The delimiter after some parts. -/
def delimiterAfter : String → List Part → String
  | p, [] => p
  | _, q :: ps => delimiterAfter q.delimiter ps

/-- The last text content. -/
def contentOf (d : Document) : List Data → Option ElementData
  | [] => none
  | .element k :: rest => match contentOf d rest with
    | some c => some c
    | none => match d.getElement k with
      | some c => if c.elementtype = .textContent then some c else none
      | none => none
  | _ :: rest => contentOf d rest

theorem contentOf_none {d : Document} : ∀ {data}, contentOf d data = none → NoContent d data
  | [], _ => by intro j c h; cases h
  | .text _ :: rest, h => by
    intro j c hj; rcases List.mem_cons.1 hj with hj | hj
    · cases hj
    · exact contentOf_none (data := rest) h j c hj
  | .comment _ :: rest, h => by
    intro j c hj; rcases List.mem_cons.1 hj with hj | hj
    · cases hj
    · exact contentOf_none (data := rest) h j c hj
  | .spanReference _ :: rest, h => by
    intro j c hj; rcases List.mem_cons.1 hj with hj | hj
    · cases hj
    · exact contentOf_none (data := rest) h j c hj
  | .addElement _ :: rest, h => by
    intro j c hj; rcases List.mem_cons.1 hj with hj | hj
    · cases hj
    · exact contentOf_none (data := rest) h j c hj
  | .element k :: rest, h => by
    unfold contentOf at h
    cases hr : contentOf d rest with
    | some c => rw [hr] at h; cases h
    | none =>
      rw [hr] at h
      intro j c hj hc
      rcases List.mem_cons.1 hj with hj | hj
      · cases hj
        simp only [hc] at h
        intro ht
        simp [ht] at h
      · exact contentOf_none hr j c hj hc

theorem contentOf_some {d : Document} : ∀ {data c}, contentOf d data = some c → LastContent d data c
  | [], _, h => by cases h
  | .text s :: rest, c, h => by
    obtain ⟨pre, k, post, h1, h2⟩ := contentOf_some (data := rest) h
    exact ⟨.text s :: pre, k, post, by rw [h1]; rfl, h2⟩
  | .comment s :: rest, c, h => by
    obtain ⟨pre, k, post, h1, h2⟩ := contentOf_some (data := rest) h
    exact ⟨.comment s :: pre, k, post, by rw [h1]; rfl, h2⟩
  | .spanReference s :: rest, c, h => by
    obtain ⟨pre, k, post, h1, h2⟩ := contentOf_some (data := rest) h
    exact ⟨.spanReference s :: pre, k, post, by rw [h1]; rfl, h2⟩
  | .addElement s :: rest, c, h => by
    obtain ⟨pre, k, post, h1, h2⟩ := contentOf_some (data := rest) h
    exact ⟨.addElement s :: pre, k, post, by rw [h1]; rfl, h2⟩
  | .element k :: rest, c, h => by
    unfold contentOf at h
    cases hr : contentOf d rest with
    | some c' =>
      rw [hr] at h; cases h
      obtain ⟨pre, j, post, h1, h2⟩ := contentOf_some hr
      exact ⟨.element k :: pre, j, post, by rw [h1]; rfl, h2⟩
    | none =>
      rw [hr] at h
      cases hk : d.getElement k with
      | none => simp [hk] at h
      | some c' =>
        simp only [hk] at h
        by_cases ht : c'.elementtype = .textContent
        · simp only [ht, if_true] at h; cases h
          exact ⟨[], k, rest, rfl, hk, ht, contentOf_none hr⟩
        · simp [ht] at h

theorem LastContent.eq_some {d : Document} {data : List Data} {c : ElementData} (h : LastContent d data c) : contentOf d data = some c := by
  have hinv : ∀ c', contentOf d data = some c' → c' = c := by
    intro c' h'
    obtain ⟨pre, k, post, h1, h2, h3, h4⟩ := h
    obtain ⟨pre', k', post', h1', h2', h3', h4'⟩ := contentOf_some h'
    rw [h1] at h1'
    rcases List.append_eq_append_iff.1 h1' with ⟨m, hm, hm'⟩ | ⟨m, hm, hm'⟩
    · cases m with
      | nil => simp at hm'; obtain ⟨rfl, _⟩ := hm'; rw [h2] at h2'; cases h2'; rfl
      | cons x m =>
        simp at hm'
        exact absurd h3' (h4 k' c' (by rw [hm'.2]; simp) h2')
    · cases m with
      | nil => simp at hm'; obtain ⟨rfl, _⟩ := hm'; rw [h2] at h2'; cases h2'; rfl
      | cons x m =>
        simp at hm'
        exact absurd h3 (h4' k c (by rw [hm'.2]; simp) h2)
  cases hc : contentOf d data with
  | some c' => rw [hinv c' hc]
  | none =>
    obtain ⟨pre, k, post, h1, h2, h3, h4⟩ := h
    exact absurd h3 (contentOf_none hc k c (by rw [h1]; simp) h2)

theorem NoContent.eq_none {d : Document} {data : List Data} (h : NoContent d data) : contentOf d data = none := by
  cases hc : contentOf d data with
  | none => rfl
  | some c =>
    obtain ⟨pre, k, post, h1, h2, h3, _⟩ := contentOf_some hc
    exact absurd h3 (h k c (by rw [h1]; simp) h2)

theorem textPart_iff (t : ElementType) :
    (ElementGroup.structural.contains t || t == .correction || ElementGroup.span.contains t) = true ↔ TextPart t := by
  simp [TextPart, or_assoc]

theorem wordReference_no_part : ¬ TextPart .wordReference := by decide +kernel

theorem textContent_no_part : ¬ TextPart .textContent := by decide +kernel

theorem part_no_container : ∀ t, TextPart t → (props t).textcontainer = false := by
  have h : ∀ t ∈ ElementType.all, TextPart t → (props t).textcontainer = false := by decide +kernel
  exact fun t => h t (ElementType.mem_all t)

theorem empty_isEmpty : "".isEmpty = true := rfl

/-- The recursive calls of the structural branch. -/
abbrev recAt (d : Document) (retain : Bool) (n : Nat) : ElementData → Option String → Res String :=
  fun c p => textByKey d 0 0 retain false n c p

/-- See `recAt`. -/
abbrev delimAt (d : Document) (retain : Bool) (n : Nat) : ElementData → Res String := fun c => textDelimiter d retain n c

theorem addPart_ok {d : Document} {retain : Bool} {n : Nat} {c : ElementData} {acc acc' : TextAcc}
    (h : addPart (recAt d retain n) (delimAt d retain n) c acc = .ok acc') :
    (TextFails d retain c ∧ acc' = acc) ∨ ∃ s t, TextIs d retain c s ∧ DelimiterIs d retain c t ∧
      acc' = { acc with text := acc.text ++ ((if (props c.elementtype).textcontainer then "" else acc.delimiter) ++ s), delimiter := t } := by
  unfold addPart at h
  simp only [recAt, textByKey_prev] at h
  cases ht : textAt d retain n c with
  | error f =>
    rw [ht] at h
    cases f with
    | err k => simp only [Except.ok.injEq] at h; exact .inl ⟨⟨0, 0, false, n, k, ht⟩, h.symm⟩
    | panic => simp at h
    | fuel => simp at h
  | ok s =>
    rw [ht] at h
    simp only at h
    rcases textDelimiter_ok d retain n c with hd | ⟨t, hd⟩
    · simp [delimAt, hd] at h
    · simp only [delimAt, hd, Except.ok.injEq] at h
      exact .inr ⟨s, t, ⟨0, 0, false, n, ht⟩, ⟨n, hd⟩, h.symm⟩

theorem structText_ok {d : Document} {retain : Bool} {n : Nat} : ∀ {data acc acc'},
    structText d (recAt d retain n) (delimAt d retain n) data acc = .ok acc' → ∃ ps, Parts d retain data ps ∧
      acc'.text = acc.text ++ joinedAfter acc.delimiter ps ∧ acc'.content = (contentOf d data).or acc.content
  | [], acc, acc', h => by
    simp only [structText, Except.ok.injEq] at h
    exact ⟨[], .nil, by simp [joinedAfter, h], by simp [contentOf, h]⟩
  | .text _ :: rest, acc, acc', h => by
    obtain ⟨ps, h1, h2⟩ := structText_ok (data := rest) h
    exact ⟨ps, .none .text h1, h2⟩
  | .comment _ :: rest, acc, acc', h => by
    obtain ⟨ps, h1, h2⟩ := structText_ok (data := rest) h
    exact ⟨ps, .none .comment h1, h2⟩
  | .spanReference _ :: rest, acc, acc', h => by
    obtain ⟨ps, h1, h2⟩ := structText_ok (data := rest) h
    exact ⟨ps, .none .span h1, h2⟩
  | .addElement _ :: rest, acc, acc', h => by
    obtain ⟨ps, h1, h2⟩ := structText_ok (data := rest) h
    exact ⟨ps, .none .pending h1, h2⟩
  | .element k :: rest, acc, acc', h => by
    unfold structText at h
    cases hk : d.getElement k with
    | none =>
      simp only [hk] at h
      obtain ⟨ps, h1, h2, h3⟩ := structText_ok (data := rest) h
      refine ⟨ps, .none (.missing hk) h1, h2, ?_⟩
      rw [h3, contentOf, hk]; cases contentOf d rest <;> rfl
    | some c =>
      simp only [hk] at h
      have hadd : ∀ {t}, StandsFor d (.element k) (some t) → c.elementtype ≠ .textContent →
          (match addPart (recAt d retain n) (delimAt d retain n) t acc with
          | .ok acc' => structText d (recAt d retain n) (delimAt d retain n) rest acc'
          | .error f => .error f) = .ok acc' → ∃ ps, Parts d retain (.element k :: rest) ps ∧
            acc'.text = acc.text ++ joinedAfter acc.delimiter ps ∧ acc'.content = (contentOf d (.element k :: rest)).or acc.content := by
        intro t ht htc h
        cases ha : addPart (recAt d retain n) (delimAt d retain n) t acc with
        | error f => rw [ha] at h; cases h
        | ok acc₁ =>
          rw [ha] at h
          obtain ⟨ps, h1, h2, h3⟩ := structText_ok (data := rest) h
          have hc : contentOf d (.element k :: rest) = contentOf d rest := by
            rw [contentOf, hk]; simp only [htc, if_false]; cases contentOf d rest <;> rfl
          rw [hc]
          rcases addPart_ok ha with ⟨hf, rfl⟩ | ⟨s, t', h4, h5, rfl⟩
          · exact ⟨ps, .silent ht hf h1, h2, h3⟩
          · refine ⟨⟨t, s, t'⟩ :: ps, .part ht h4 h5 h1, ?_, h3⟩
            rw [h2, joinedAfter]; simp only [String.append_assoc]
      by_cases hp : (ElementGroup.structural.contains c.elementtype || c.elementtype == .correction ||
          ElementGroup.span.contains c.elementtype) = true
      · simp only [hp, if_true] at h
        rw [textPart_iff] at hp
        exact hadd (.child hk hp) (fun h => textContent_no_part (h ▸ hp)) h
      · simp only [hp] at h
        rw [textPart_iff] at hp
        by_cases hw : c.elementtype = .wordReference
        · simp only [hw, if_true] at h
          cases hr : c.resolve d with
          | error f => rw [hr] at h; cases h
          | ok o => cases o with
            | some t =>
              rw [hr] at h
              exact hadd (.reference hk hw hr) (by rw [hw]; decide) h
            | none =>
              rw [hr] at h
              obtain ⟨ps, h1, h2, h3⟩ := structText_ok (data := rest) h
              refine ⟨ps, .none (.reference hk hw hr) h1, h2, ?_⟩
              rw [h3, contentOf, hk]; simp [hw]; cases contentOf d rest <;> rfl
        · simp only [hw, if_false] at h
          by_cases ht : c.elementtype = .textContent
          · simp only [ht, if_true] at h
            obtain ⟨ps, h1, h2, h3⟩ := structText_ok (data := rest) h
            refine ⟨ps, .none (.unrelated hk hp hw) h1, h2, ?_⟩
            rw [h3, contentOf, hk]; simp only [ht, if_true]; cases contentOf d rest <;> rfl
          · simp only [ht, if_false] at h
            obtain ⟨ps, h1, h2, h3⟩ := structText_ok (data := rest) h
            refine ⟨ps, .none (.unrelated hk hp hw) h1, h2, ?_⟩
            rw [h3, contentOf, hk]; simp only [ht, if_false]; cases contentOf d rest <;> rfl

/-- The result of the structural branch for known parts. -/
def accOf (d : Document) (data : List Data) (ps : List Part) (acc : TextAcc) : TextAcc :=
  { text := acc.text ++ joinedAfter acc.delimiter ps, delimiter := delimiterAfter acc.delimiter ps,
    content := (contentOf d data).or acc.content }

theorem addPart_silent {d : Document} {retain : Bool} {n : Nat} {c : ElementData} {k : ErrKind} (h : textAt d retain n c = .error (.err k))
    (acc : TextAcc) : addPart (recAt d retain n) (delimAt d retain n) c acc = .ok acc := by
  unfold addPart
  simp only [recAt, textByKey_prev, h]

theorem addPart_part {d : Document} {retain : Bool} {n : Nat} {c : ElementData} {s t : String} (h : textAt d retain n c = .ok s)
    (hd : textDelimiter d retain n c = .ok t) (acc : TextAcc) : addPart (recAt d retain n) (delimAt d retain n) c acc =
      .ok { acc with text := acc.text ++ ((if (props c.elementtype).textcontainer then "" else acc.delimiter) ++ s), delimiter := t } := by
  unfold addPart
  simp only [recAt, textByKey_prev, h, delimAt, hd]

/-- What the loop does with an item that stands for nothing. -/
theorem structText_none {d : Document} {rec : ElementData → Option String → Res String} {delim : ElementData → Res String} {x : Data}
    (h : StandsFor d x none) (rest : List Data) (acc : TextAcc) :
    structText d rec delim (x :: rest) acc = structText d rec delim rest { acc with content := (contentOf d [x]).or acc.content } := by
  cases h with
  | @reference k c _ hk hw hr =>
    have hc : contentOf d [.element k] = none := by simp [contentOf, hk, hw]
    rw [hc, structText, hk]
    simp only [hw, if_true, hr]
    rfl
  | @unrelated k c hk hp hw =>
    rw [structText, hk]
    have : (ElementGroup.structural.contains c.elementtype || c.elementtype == .correction ||
        ElementGroup.span.contains c.elementtype) ≠ true := by rw [Ne, textPart_iff]; exact hp
    simp only [this, hw, if_false]
    by_cases ht : c.elementtype = .textContent
    · have hc : contentOf d [.element k] = some c := by simp [contentOf, hk, ht]
      rw [hc]; simp only [ht, if_true]; rfl
    · have hc : contentOf d [.element k] = none := by simp [contentOf, hk, ht]
      rw [hc]; simp only [ht, if_false]; rfl
  | @missing k hk =>
    have hc : contentOf d [.element k] = none := by simp [contentOf, hk]
    rw [hc, structText, hk]; rfl
  | text => rfl
  | comment => rfl
  | span => rfl
  | pending => rfl

/-- What the loop does with an item that stands for an element. -/
theorem structText_some {d : Document} {rec : ElementData → Option String → Res String} {delim : ElementData → Res String} {x : Data}
    {t : ElementData} (h : StandsFor d x (some t)) (rest : List Data) (acc : TextAcc) :
    structText d rec delim (x :: rest) acc = (match addPart rec delim t acc with
      | .ok acc' => structText d rec delim rest acc'
      | .error f => .error f) ∧ contentOf d [x] = none := by
  cases h with
  | @child k _ hk hp =>
    have ht : t.elementtype ≠ .textContent := fun h => textContent_no_part (h ▸ hp)
    refine ⟨?_, by simp [contentOf, hk, ht]⟩
    rw [structText, hk]
    simp only [(textPart_iff _).2 hp, if_true]
    cases addPart rec delim t acc <;> rfl
  | @reference k c _ hk hw hr =>
    refine ⟨?_, by simp [contentOf, hk, hw]⟩
    rw [structText, hk]
    simp only [hw, if_true, hr]
    rfl

theorem contentOf_cons (d : Document) (x : Data) (rest : List Data) (o : Option ElementData) :
    (contentOf d rest).or ((contentOf d [x]).or o) = (contentOf d (x :: rest)).or o := by
  cases x with
  | element k =>
    simp only [contentOf]
    cases contentOf d rest <;> rfl
  | _ => simp [contentOf]

theorem Parts.run {d : Document} {retain : Bool} {data : List Data} {ps : List Part} (h : Parts d retain data ps) :
    ∃ N, ∀ n ≥ N, ∀ acc, structText d (recAt d retain n) (delimAt d retain n) data acc = .ok (accOf d data ps acc) := by
  induction h with
  | nil => exact ⟨0, fun n _ acc => by simp [structText, accOf, joinedAfter, delimiterAfter, contentOf]⟩
  | @none x xs ps hx _ ih =>
    obtain ⟨N, ih⟩ := ih
    refine ⟨N, fun n hn acc => ?_⟩
    rw [structText_none hx, ih n hn]
    simp only [accOf, contentOf_cons]
  | @silent x xs ps c hx hf _ ih =>
    obtain ⟨N, ih⟩ := ih
    obtain ⟨N', k, hf⟩ := hf.at
    refine ⟨max N N', fun n hn acc => ?_⟩
    obtain ⟨h1, h2⟩ := structText_some (rec := recAt d retain n) (delim := delimAt d retain n) hx xs acc
    rw [h1, addPart_silent (hf n (by omega))]
    simp only
    rw [ih n (by omega)]
    have := contentOf_cons d x xs acc.content
    rw [h2] at this
    simp only [accOf, ← this, Option.none_or]
  | @part x xs ps c s t hx hs ht _ ih =>
    obtain ⟨N, ih⟩ := ih
    obtain ⟨N', hs⟩ := hs.at
    obtain ⟨N'', ht⟩ := ht.at
    refine ⟨max N (max N' N''), fun n hn acc => ?_⟩
    obtain ⟨h1, h2⟩ := structText_some (rec := recAt d retain n) (delim := delimAt d retain n) hx xs acc
    rw [h1, addPart_part (hs n (by omega)) (ht n (by omega))]
    simp only
    rw [ih n (by omega)]
    have := contentOf_cons d x xs acc.content
    rw [h2] at this
    simp only [accOf, ← this, Option.none_or, joinedAfter, delimiterAfter, String.append_assoc]

theorem textAt_speaks {d : Document} {retain : Bool} {e : ElementData} (he : Speaks e) (n : Nat) :
    textAt d retain (n + 1) e = match structText d (recAt d retain n) (delimAt d retain n) e.data {} with
      | .error f => .error f
      | .ok acc => finishText (recAt d retain n) acc none := by
  unfold textAt
  rw [textByKey]
  simp only [he.plain, he.printable, he.visible]
  rfl

theorem finishText_ok {d : Document} {retain : Bool} {n : Nat} {acc : TextAcc} {s : String}
    (h : finishText (recAt d retain n) acc none = .ok s) :
    s ≠ "" ∧ (acc.text = s ∨ acc.text = "" ∧ ∃ c, acc.content = some c ∧ TextIs d retain c s) := by
  unfold finishText at h
  cases hc : acc.content with
  | none =>
    simp only [hc] at h
    by_cases ht : acc.text = "" <;> simp_all
  | some c =>
    simp only [hc] at h
    by_cases ht : acc.text = ""
    · simp only [ht, empty_isEmpty, if_true] at h
      cases hr : recAt d retain n c none with
      | error f => rw [hr] at h; cases f <;> simp_all
      | ok t =>
        rw [hr] at h
        by_cases ht' : t = "" <;> simp_all
        exact ⟨0, 0, false, n, hr⟩
    · simp_all

/-- The text of an element is exactly the text of its parts, or if that is empty, its own last text content. -/
theorem text_iff {d : Document} {retain : Bool} {e : ElementData} (he : Speaks e) (s : String) :
    TextIs d retain e s ↔ s ≠ "" ∧ ∃ ps, Parts d retain e.data ps ∧
      (joined ps = s ∨ joined ps = "" ∧ ∃ c, LastContent d e.data c ∧ TextIs d retain c s) := by
  constructor
  · intro h
    obtain ⟨N, h⟩ := h.at
    have h := h (N + 1) (by omega)
    rw [textAt_speaks he] at h
    cases hs : structText d (recAt d retain N) (delimAt d retain N) e.data {} with
    | error f => rw [hs] at h; cases h
    | ok acc =>
      rw [hs] at h
      obtain ⟨ps, h1, h2, h3⟩ := structText_ok hs
      obtain ⟨h4, h5⟩ := finishText_ok h
      simp only [String.empty_append, joined_eq, Option.or_none] at h2 h3
      refine ⟨h4, ps, h1, ?_⟩
      rw [h2, h3] at h5
      rcases h5 with h5 | ⟨h5, c, h6, h7⟩
      · exact .inl h5
      · exact .inr ⟨h5, c, contentOf_some h6, h7⟩
  · rintro ⟨hne, ps, hps, h⟩
    obtain ⟨N, hrun⟩ := hps.run
    rcases h with h | ⟨h, c, hc, ht⟩
    · refine ⟨0, 0, false, N + 1, ?_⟩
      rw [textAt_eq, textAt_speaks he, hrun N (by omega)]
      simp only [finishText, accOf, joined_eq, String.empty_append, h, Option.or_none]
      cases contentOf d e.data <;> simp [hne]
    · obtain ⟨N', ht⟩ := ht.at
      refine ⟨0, 0, false, max N N' + 1, ?_⟩
      rw [textAt_eq, textAt_speaks he, hrun _ (by omega)]
      have := ht (max N N') (by omega)
      simp only [finishText, accOf, joined_eq, String.empty_append, h, Option.or_none, hc.eq_some, empty_isEmpty, if_true, recAt]
      rw [show textByKey d 0 0 retain false (max N N') c none = .ok s from this]
      simp [hne]

/-- An element has no text if its parts and its own text content have none. -/
theorem text_fails {d : Document} {retain : Bool} {e : ElementData} (he : Speaks e) {ps : List Part} (hps : Parts d retain e.data ps)
    (hj : joined ps = "") (hc : NoContent d e.data ∨ ∃ c, LastContent d e.data c ∧ (TextFails d retain c ∨ TextIs d retain c "")) :
    TextFails d retain e := by
  obtain ⟨N, hrun⟩ := hps.run
  rcases hc with hc | ⟨c, hc, ht⟩
  · refine ⟨0, 0, false, N + 1, .noText, ?_⟩
    rw [textAt_eq, textAt_speaks he, hrun N (by omega)]
    simp [finishText, accOf, joined_eq, hj, hc.eq_none]
  · rcases ht with ht | ht
    · obtain ⟨N', k, ht⟩ := ht.at
      refine ⟨0, 0, false, max N N' + 1, .noText, ?_⟩
      rw [textAt_eq, textAt_speaks he, hrun _ (by omega)]
      have := ht (max N N') (by omega)
      simp only [finishText, accOf, joined_eq, String.empty_append, hj, Option.or_none, hc.eq_some, empty_isEmpty, if_true, recAt]
      rw [show textByKey d 0 0 retain false (max N N') c none = .error (.err k) from this]
      simp
    · obtain ⟨N', ht⟩ := ht.at
      refine ⟨0, 0, false, max N N' + 1, .noText, ?_⟩
      rw [textAt_eq, textAt_speaks he, hrun _ (by omega)]
      have := ht (max N N') (by omega)
      simp only [finishText, accOf, joined_eq, String.empty_append, hj, Option.or_none, hc.eq_some, empty_isEmpty, if_true, recAt]
      rw [show textByKey d 0 0 retain false (max N N') c none = .ok "" from this]
      simp

theorem TextIs.unique {d : Document} {retain : Bool} {e : ElementData} {s t : String} (h : TextIs d retain e s) (h' : TextIs d retain e t) :
    s = t := by
  obtain ⟨N, h⟩ := h.at
  obtain ⟨N', h'⟩ := h'.at
  have h1 := h (max N N') (by omega)
  rw [h' (max N N') (by omega)] at h1
  cases h1; rfl

theorem TextIs.not_fails {d : Document} {retain : Bool} {e : ElementData} {s : String} (h : TextIs d retain e s) : ¬ TextFails d retain e := by
  intro h'
  obtain ⟨N, h⟩ := h.at
  obtain ⟨N', k, h'⟩ := h'.at
  have h1 := h (max N N') (by omega)
  rw [h' (max N N') (by omega)] at h1
  cases h1

theorem DelimiterIs.unique {d : Document} {retain : Bool} {e : ElementData} {s t : String} (h : DelimiterIs d retain e s)
    (h' : DelimiterIs d retain e t) : s = t := by
  obtain ⟨N, h⟩ := h.at
  obtain ⟨N', h'⟩ := h'.at
  have h1 := h (max N N') (by omega)
  rw [h' (max N N') (by omega)] at h1
  cases h1; rfl

theorem StandsFor.unique {d : Document} {x : Data} {o o' : Option ElementData} (h : StandsFor d x o) (h' : StandsFor d x o') : o = o' := by
  cases h with
  | child h1 h2 => cases h' with
    | child h3 h4 => rw [h1] at h3; exact h3
    | reference h3 h4 h5 => rw [h1] at h3; cases h3; rw [h4] at h2; exact absurd h2 wordReference_no_part
    | unrelated h3 h4 h5 => rw [h1] at h3; cases h3; exact absurd h2 h4
    | missing h3 => rw [h1] at h3; cases h3
  | reference h1 h2 h5 => cases h' with
    | child h3 h4 => rw [h1] at h3; cases h3; rw [h2] at h4; exact absurd h4 wordReference_no_part
    | reference h3 h4 h6 => rw [h1] at h3; cases h3; rw [h5] at h6; cases h6; rfl
    | unrelated h3 h4 h6 => rw [h1] at h3; cases h3; exact absurd h2 h6
    | missing h3 => rw [h1] at h3; cases h3
  | unrelated h1 h2 h5 => cases h' with
    | child h3 h4 => rw [h1] at h3; cases h3; exact absurd h4 h2
    | reference h3 h4 h6 => rw [h1] at h3; cases h3; exact absurd h4 h5
    | unrelated => rfl
    | missing => rfl
  | missing h1 => cases h' with
    | child h3 h4 => rw [h1] at h3; cases h3
    | reference h3 h4 h6 => rw [h1] at h3; cases h3
    | unrelated => rfl
    | missing => rfl
  | text => cases h'; rfl
  | comment => cases h'; rfl
  | span => cases h'; rfl
  | pending => cases h'; rfl

theorem Parts.unique {d : Document} {retain : Bool} {data : List Data} {ps ps' : List Part} (h : Parts d retain data ps)
    (h' : Parts d retain data ps') : ps = ps' := by
  induction h generalizing ps' with
  | nil => cases h'; rfl
  | none hx _ ih => cases h' with
    | none _ h2 => exact ih h2
    | silent h1 _ _ => cases hx.unique h1
    | part h1 _ _ _ => cases hx.unique h1
  | silent hx hf _ ih => cases h' with
    | none h1 h2 => cases hx.unique h1
    | silent _ _ h2 => exact ih h2
    | part h1 h2 _ _ => cases hx.unique h1; exact absurd hf h2.not_fails
  | part hx hs ht _ ih => cases h' with
    | none h1 h2 => cases hx.unique h1
    | silent h1 h2 _ => cases hx.unique h1; exact absurd h2 hs.not_fails
    | part h1 h2 h3 h4 => cases hx.unique h1; rw [hs.unique h2, ht.unique h3, ih h4]

/-! ### Text containers -/

theorem containerText_ok {d : Document} {retain : Bool} {n : Nat} : ∀ {data text s},
    containerText d (fun c => textByKey d 0 0 retain false n c none) data text = .ok s → Inline d retain text data s
  | [], text, s, h => by simp only [containerText, Except.ok.injEq] at h; rw [h]; exact .nil
  | .text _ :: rest, text, s, h => .text (containerText_ok (data := rest) h)
  | .comment _ :: rest, text, s, h => .comment (containerText_ok (data := rest) h)
  | .spanReference _ :: rest, text, s, h => .span (containerText_ok (data := rest) h)
  | .addElement _ :: rest, text, s, h => .pending (containerText_ok (data := rest) h)
  | .element k :: rest, text, s, h => by
    unfold containerText at h
    cases hk : d.getElement k with
    | none => rw [hk] at h; exact .missing hk (containerText_ok (data := rest) h)
    | some c =>
      simp only [hk] at h
      by_cases hp : (props c.elementtype).printable = true
      · simp only [hp, if_true] at h
        cases hr : textByKey d 0 0 retain false n c none with
        | error f => rw [hr] at h; cases h
        | ok part =>
          rw [hr] at h
          refine .markup hk hp ⟨0, 0, false, n, hr⟩ ?_
          have := containerText_ok (data := rest) h
          by_cases ht : text = ""
          · simpa [ht] using this
          · simp only [String.isEmpty_iff, ht, if_false] at this ⊢
            cases htd : (props c.elementtype).textdelimiter <;> simpa [htd] using this
      · simp only [hp] at h
        exact .silent hk (by simpa using hp) (containerText_ok (data := rest) h)

theorem Inline.run {d : Document} {retain : Bool} {text s : String} {data : List Data} (h : Inline d retain text data s) :
    ∃ N, ∀ n ≥ N, containerText d (fun c => textByKey d 0 0 retain false n c none) data text = .ok s := by
  induction h with
  | nil => exact ⟨0, fun n _ => rfl⟩
  | text _ ih => exact ih
  | comment _ ih => exact ih
  | span _ ih => exact ih
  | pending _ ih => exact ih
  | missing hk _ ih =>
    obtain ⟨N, ih⟩ := ih
    exact ⟨N, fun n hn => by rw [containerText, hk]; exact ih n hn⟩
  | silent hk hp _ ih =>
    obtain ⟨N, ih⟩ := ih
    exact ⟨N, fun n hn => by rw [containerText, hk]; simp only [hp]; exact ih n hn⟩
  | @markup text k c part rest s hk hp ht _ ih =>
    obtain ⟨N, ih⟩ := ih
    obtain ⟨N', ht⟩ := ht.at
    refine ⟨max N N', fun n hn => ?_⟩
    rw [containerText, hk]
    simp only [hp, if_true]
    rw [show textByKey d 0 0 retain false n c none = .ok part from ht n (by omega)]
    have := ih n (by omega)
    by_cases ht : text = ""
    · simpa [ht] using this
    · simp only [String.isEmpty_iff, ht, if_false] at this ⊢
      cases htd : (props c.elementtype).textdelimiter <;> simpa [htd] using this

theorem textAt_container {d : Document} {retain : Bool} {e : ElementData} (he : (props e.elementtype).textcontainer = true) (n : Nat) :
    textAt d retain (n + 1) e = containerText d (fun c => textByKey d 0 0 retain false n c none) e.data "" := by
  unfold textAt
  rw [textByKey]
  simp only [he, if_true]

theorem container_iff {d : Document} {retain : Bool} {e : ElementData} (he : (props e.elementtype).textcontainer = true) (s : String) :
    TextIs d retain e s ↔ Inline d retain "" e.data s := by
  constructor
  · intro h
    obtain ⟨N, h⟩ := h.at
    have h := h (N + 1) (by omega)
    rw [textAt_container he] at h
    exact containerText_ok h
  · intro h
    obtain ⟨N, h⟩ := h.run
    exact ⟨0, 0, false, N + 1, by rw [textAt_eq, textAt_container he, h N (by omega)]⟩

/-! ### Termination -/

/-- Reading the text of a container ends if reading the text of its children does. -/
theorem containerText_ends {d : Document} {retain : Bool} : ∀ {data},
    (∀ j c, .element j ∈ data → d.getElement j = some c → (∃ s, TextIs d retain c s) ∨ TextFails d retain c) → ∀ text,
    ∃ N, (∃ s, ∀ n ≥ N, containerText d (fun c => textByKey d 0 0 retain false n c none) data text = .ok s) ∨
      ∃ k, ∀ n ≥ N, containerText d (fun c => textByKey d 0 0 retain false n c none) data text = .error (.err k)
  | [], _, text => ⟨0, .inl ⟨text, fun _ _ => rfl⟩⟩
  | .text s :: rest, h, text => containerText_ends (data := rest) (fun j c hj => h j c (by simp [hj])) (text ++ s)
  | .comment _ :: rest, h, text => containerText_ends (data := rest) (fun j c hj => h j c (by simp [hj])) text
  | .spanReference _ :: rest, h, text => containerText_ends (data := rest) (fun j c hj => h j c (by simp [hj])) text
  | .addElement _ :: rest, h, text => containerText_ends (data := rest) (fun j c hj => h j c (by simp [hj])) text
  | .element k :: rest, h, text => by
    have ih := containerText_ends (data := rest) (fun j c hj => h j c (by simp [hj]))
    simp only [containerText]
    cases hk : d.getElement k with
    | none => exact ih text
    | some c =>
      dsimp only
      by_cases hp : (props c.elementtype).printable = true
      · simp only [hp, if_true]
        rcases h k c (by simp) hk with ⟨s, hs⟩ | hf
        · obtain ⟨N, hs⟩ := hs.at
          generalize (if text.isEmpty = true then text else match (props c.elementtype).textdelimiter with
            | some td => text ++ td
            | none => text) = text'
          obtain ⟨N', ih⟩ := ih (text' ++ s)
          have hs' : ∀ n ≥ max N N', textByKey d 0 0 retain false n c none = .ok s := fun n hn => hs n (by omega)
          refine ⟨max N N', ?_⟩
          rcases ih with ⟨s', ih⟩ | ⟨k', ih⟩
          · exact .inl ⟨s', fun n hn => by rw [hs' n hn]; exact ih n (by omega)⟩
          · exact .inr ⟨k', fun n hn => by rw [hs' n hn]; exact ih n (by omega)⟩
        · obtain ⟨N, k', hf⟩ := hf.at
          exact ⟨N, .inr ⟨k', fun n hn => by
            rw [show textByKey d 0 0 retain false n c none = .error (.err k') from hf n hn]⟩⟩
      · simp only [hp]; exact ih text

theorem lastChild_mem {d : Document} : ∀ {data c}, lastChild d data = some c → ∃ j, .element j ∈ data ∧ d.getElement j = some c
  | [], _, h => by cases h
  | x :: xs, c, h => by
    unfold lastChild at h
    cases hl : lastChild d xs with
    | some c' =>
      rw [hl] at h; cases h
      obtain ⟨j, h1, h2⟩ := lastChild_mem hl
      exact ⟨j, by simp [h1], h2⟩
    | none =>
      rw [hl] at h
      cases x with
      | element j => exact ⟨j, by simp, h⟩
      | _ => cases h

/-- Everything below an element, and everything its word references lead to, is finite: there is a measure that decreases from an element
to its children, and from an element to what a word reference among its children refers to. -/
theorem text_ends {d : Document} {retain : Bool} (rank : Nat → Nat)
    (hchild : ∀ k e j w, d.getElement k = some e → .element j ∈ e.data → d.getElement j = some w → rank j < rank k)
    (href : ∀ k e j w, d.getElement k = some e → .element j ∈ e.data → d.getElement j = some w → w.elementtype = .wordReference →
      ∃ o, w.resolve d = .ok o ∧ ∀ c, o = some c → ∃ t, d.getElement t = some c ∧ rank t < rank k) :
    ∀ m k e, rank k < m → d.getElement k = some e → ((∃ s, TextIs d retain e s) ∨ TextFails d retain e) ∧ ∃ t, DelimiterIs d retain e t
  | 0, _, _, h, _ => absurd h (by omega)
  | m + 1, k, e, hm, he => by
    have ih := text_ends (retain := retain) rank hchild href m
    refine ⟨?_, ?_⟩
    · by_cases hc : (props e.elementtype).textcontainer = true
      · obtain ⟨N, h⟩ := containerText_ends (d := d) (retain := retain) (data := e.data) (fun j c hj hjc =>
          (ih j c (by have := hchild k e j c he hj hjc; omega) hjc).1) ""
        rcases h with ⟨s, h⟩ | ⟨k', h⟩
        · exact .inl ⟨s, 0, 0, false, N + 1, by rw [textAt_eq, textAt_container hc, h N (by omega)]⟩
        · exact .inr ⟨0, 0, false, N + 1, k', by rw [textAt_eq, textAt_container hc, h N (by omega)]⟩
      · by_cases hp : (!(props e.elementtype).printable || (props e.elementtype).hidden) = true
        · exact .inr ⟨0, 0, false, 1, .noText, by rw [textByKey]; simp only [hc, hp, if_true]; rfl⟩
        · have hs : Speaks e := by
            simp only [Bool.not_eq_true, Bool.or_eq_false_iff, Bool.not_eq_false'] at hc hp
            exact ⟨hc, hp.1, hp.2⟩
          have hparts : ∀ data, (∀ x ∈ data, x ∈ e.data) → ∃ ps, Parts d retain data ps := by
            intro data
            induction data with
            | nil => exact fun _ => ⟨[], .nil⟩
            | cons x xs ih' =>
              intro hx
              obtain ⟨ps, hps⟩ := ih' fun y hy => hx y (by simp [hy])
              have hfor : ∃ o, StandsFor d x o ∧ ∀ c, o = some c → ∃ t, d.getElement t = some c ∧ rank t < rank k := by
                cases x with
                | text s => exact ⟨none, .text, nofun⟩
                | comment s => exact ⟨none, .comment, nofun⟩
                | spanReference s => exact ⟨none, .span, nofun⟩
                | addElement s => exact ⟨none, .pending, nofun⟩
                | element j =>
                  have hj := hx (.element j) (by simp)
                  cases hjc : d.getElement j with
                  | none => exact ⟨none, .missing hjc, nofun⟩
                  | some c =>
                    by_cases hp : TextPart c.elementtype
                    · exact ⟨some c, .child hjc hp, fun c' h => by cases h; exact ⟨j, hjc, hchild k e j c he hj hjc⟩⟩
                    · by_cases hw : c.elementtype = .wordReference
                      · obtain ⟨o, ho, h⟩ := href k e j c he hj hjc hw
                        exact ⟨o, .reference hjc hw ho, h⟩
                      · exact ⟨none, .unrelated hjc hp hw, nofun⟩
              obtain ⟨o, ho, hr⟩ := hfor
              cases o with
              | none => exact ⟨ps, .none ho hps⟩
              | some c =>
                obtain ⟨t, ht, hlt⟩ := hr c rfl
                obtain ⟨h1, t', h2⟩ := ih t c (by omega) ht
                rcases h1 with ⟨s, h1⟩ | h1
                · exact ⟨_, .part ho h1 h2 hps⟩
                · exact ⟨ps, .silent ho h1 hps⟩
          obtain ⟨ps, hps⟩ := hparts e.data fun _ h => h
          by_cases hj : joined ps = ""
          · cases hcon : contentOf d e.data with
            | none => exact .inr (text_fails hs hps hj (.inl (contentOf_none hcon)))
            | some c =>
              have hl := contentOf_some hcon
              have hl' := hl
              obtain ⟨pre, j, post, h1, h2, h3, _⟩ := hl'
              have hjm : .element j ∈ e.data := by rw [h1]; simp
              rcases (ih j c (by have := hchild k e j c he hjm h2; omega) h2).1 with ⟨s, h4⟩ | h4
              · by_cases hse : s = ""
                · exact .inr (text_fails hs hps hj (.inr ⟨c, hl, .inr (hse ▸ h4)⟩))
                · exact .inl ⟨s, (text_iff hs s).2 ⟨hse, ps, hps, .inr ⟨hj, c, hl, h4⟩⟩⟩
              · exact .inr (text_fails hs hps hj (.inr ⟨c, hl, .inl h4⟩))
          · exact .inl ⟨_, (text_iff hs _).2 ⟨hj, ps, hps, .inl rfl⟩⟩
    · cases htd : (props e.elementtype).textdelimiter with
      | some td =>
        by_cases h1 : (props e.elementtype).optionalAttribs.contains .SPACE = true
        · by_cases h2 : wantsSpace e retain = true
          · exact ⟨td, 1, by simp only [textDelimiter, htd, h1, h2, if_true]⟩
          · exact ⟨"", 1, by simp only [textDelimiter, htd, h1, h2, if_true]; rfl⟩
        · exact ⟨td, 1, by simp only [textDelimiter, htd, h1]; rfl⟩
      | none =>
        cases hl : lastChild d e.data with
        | none => exact ⟨"", 1, by simp only [textDelimiter, htd, hl]⟩
        | some c =>
          obtain ⟨j, hj, hjc⟩ := lastChild_mem hl
          obtain ⟨_, t, F, h⟩ := ih j c (by have := hchild k e j c he hj hjc; omega) hjc
          exact ⟨t, F + 1, by simp only [textDelimiter, htd, hl]; exact h⟩

end Folia
