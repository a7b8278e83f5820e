import Verif.Chars
import Verif.Props.Escape
/-! The reader inverts the writer, character by character. -/
namespace Folia

/-- Characters of the tags that are written. -/
def tagChar (c : Char) : Bool := c.isAlphanum || c == '-' || c == '_'
/-- Characters of the names of attributes that are written. -/
def keyChar (c : Char) : Bool := tagChar c || c == ':' || c == '.'

/-- Names of tags that are written. -/
def TagName (s : String) : Prop := s.toList ≠ [] ∧ ∀ c ∈ s.toList, tagChar c = true
/-- Names of attributes that are written. -/
def KeyName (s : String) : Prop := s.toList ≠ [] ∧ ∀ c ∈ s.toList, keyChar c = true
/-- Values without markup. -/
def Plain (s : String) : Prop := ∀ c ∈ s.toList, c ≠ '<' ∧ c ≠ '>' ∧ c ≠ '"' ∧ c ≠ '\''

/-- Attributes that can be read back. -/
def TidyAttrs (as : List (String × String)) : Prop := ∀ a ∈ as, KeyName a.1 ∧ Plain a.2

/-- Events that can be read back. -/
def Tidy : WEvent → Prop
  | .start t as => TagName t ∧ TidyAttrs as
  | .empty t as => TagName t ∧ TidyAttrs as
  | .endTag t => TagName t
  | .text s => Plain s
  | .comment s => Plain s

theorem keyChar_ne {c : Char} (h : keyChar c = true) : xmlSpace c = false ∧ c ≠ '>' ∧ c ≠ '"' ∧ c ≠ '\'' ∧ c ≠ '=' ∧ c ≠ '/' ∧ c ≠ '<' ∧ c ≠ '!' ∧ c ≠ '?' := by
  have key : ∀ x : Char, keyChar x = false → c ≠ x := fun x hx hc => by rw [hc, hx] at h; cases h
  refine ⟨?_, key _ (by decide), key _ (by decide), key _ (by decide), key _ (by decide), key _ (by decide), key _ (by decide), key _ (by decide), key _ (by decide)⟩
  simp only [xmlSpace, Bool.or_eq_false_iff, beq_eq_false_iff_ne]
  exact ⟨⟨⟨key _ (by decide), key _ (by decide)⟩, key _ (by decide)⟩, key _ (by decide)⟩

theorem keyChar_of_tagChar {c : Char} (h : tagChar c = true) : keyChar c = true := by simp [keyChar, h]

theorem tagChar_colon {c : Char} (h : tagChar c = true) : c ≠ ':' := by
  rintro rfl; revert h; decide

theorem upTo_found {x : Char} {b : List Char} : ∀ {a : List Char}, (∀ c ∈ a, c ≠ x) → upTo x (a ++ x :: b) = some (a, b)
  | [], _ => by simp [upTo]
  | c :: a, h => by
    rw [List.cons_append, upTo, if_neg (h c (by simp)), upTo_found fun c hc => h c (by simp [hc])]
    rfl

theorem upTo_none {x : Char} : ∀ {a : List Char}, (∀ c ∈ a, c ≠ x) → upTo x a = none
  | [], _ => rfl
  | c :: a, h => by
    rw [upTo, if_neg (h c (by simp)), upTo_none fun c hc => h c (by simp [hc])]
    rfl

theorem tagEnd_outside {r : List Char} : ∀ {a : List Char}, (∀ c ∈ a, c ≠ '>' ∧ c ≠ '"' ∧ c ≠ '\'') →
    tagEnd none (a ++ r) = (tagEnd none r).map fun (x, y) => (a ++ x, y)
  | [], _ => by rw [List.nil_append]; cases tagEnd none r <;> rfl
  | c :: a, h => by
    obtain ⟨h1, h2, h3⟩ := h c (by simp)
    rw [List.cons_append, tagEnd, if_neg h1, if_neg (by simp [h2, h3]), tagEnd_outside fun c hc => h c (by simp [hc])]
    cases tagEnd none r <;> rfl

theorem tagEnd_inside {r : List Char} : ∀ {a : List Char}, (∀ c ∈ a, c ≠ '"') →
    tagEnd (some '"') (a ++ '"' :: r) = (tagEnd none r).map fun (x, y) => (a ++ '"' :: x, y)
  | [], _ => by
    rw [List.nil_append, tagEnd, if_pos rfl]
    rfl
  | c :: a, h => by
    rw [List.cons_append, tagEnd, if_neg (h c (by simp)), tagEnd_inside fun c hc => h c (by simp [hc])]
    cases tagEnd none r <;> rfl

theorem tagEnd_attr {a : String × String} (h : KeyName a.1 ∧ Plain a.2) (r : List Char) :
    tagEnd none (attrChars a ++ r) = (tagEnd none r).map fun (x, y) => (attrChars a ++ x, y) := by
  have h1 : attrChars a ++ r = (' ' :: (a.1.toList ++ ['='])) ++ '"' :: (a.2.toList ++ '"' :: r) := by simp [attrChars]
  rw [h1, tagEnd_outside, tagEnd, if_neg (by decide), if_pos (.inl rfl), tagEnd_inside]
  · cases tagEnd none r <;> simp [attrChars]
  · exact fun c hc => (h.2 c hc).2.2.1
  · intro c hc
    simp only [List.mem_cons, List.mem_append, List.not_mem_nil, or_false] at hc
    rcases hc with rfl | hc | rfl
    · decide
    · have := keyChar_ne (h.1.2 c hc)
      exact ⟨this.2.1, this.2.2.1, this.2.2.2.1⟩
    · decide

theorem tagEnd_attrs (r : List Char) : ∀ {as : List (String × String)}, TidyAttrs as →
    tagEnd none (as.flatMap attrChars ++ r) = (tagEnd none r).map fun (x, y) => (as.flatMap attrChars ++ x, y)
  | [], _ => by
    simp only [List.flatMap_nil, List.nil_append]
    cases tagEnd none r <;> rfl
  | a :: as, h => by
    rw [List.flatMap_cons, List.append_assoc, tagEnd_attr (h a (by simp)), tagEnd_attrs r fun a ha => h a (by simp [ha])]
    cases tagEnd none r <;> simp

theorem dropWhile_none {p : Char → Bool} {a r : List Char} (hne : a ≠ []) (h : ∀ c ∈ a, p c = false) : (a ++ r).dropWhile p = a ++ r := by
  cases a with
  | nil => exact absurd rfl hne
  | cons c a => rw [List.cons_append, List.dropWhile_cons_of_neg (by simp [h c])]

theorem trimRight_none {a : List Char} (h : ∀ c ∈ a, xmlSpace c = false) : trimRight a = a := by
  unfold trimRight
  cases ha : a.reverse with
  | nil => simp [List.reverse_eq_nil_iff.mp ha]
  | cons c r =>
    have hc : c ∈ a := by rw [← List.mem_reverse, ha]; simp
    rw [List.dropWhile_cons_of_neg (by simp [h c hc]), ← ha, List.reverse_reverse]

theorem scanAttrs_written : ∀ {as : List (String × String)} {n : Nat} (seen : List String), TidyAttrs as → as.length ≤ n →
    scanAttrs n seen (as.flatMap attrChars) = readAttrs seen as
  | [], 0, _, _, _ => rfl
  | [], _ + 1, _, _, _ => rfl
  | _ :: _, 0, _, _, h => by simp at h
  | a :: as, n + 1, seen, h, hn => by
    obtain ⟨⟨h1, h2⟩, h3⟩ := h a (by simp)
    have e1 : (List.flatMap attrChars (a :: as)).dropWhile xmlSpace = a.1.toList ++ '=' :: '"' :: (a.2.toList ++ '"' :: as.flatMap attrChars) := by
      rw [List.flatMap_cons, attrChars, List.cons_append, List.dropWhile_cons_of_pos (by decide)]
      simp only [List.append_assoc, List.cons_append, List.nil_append]
      exact dropWhile_none h1 fun c hc => (keyChar_ne (h2 c hc)).1
    rw [scanAttrs, e1]
    have e2 := upTo_found (x := '=') (b := '"' :: (a.2.toList ++ '"' :: as.flatMap attrChars)) fun c hc => (keyChar_ne (h2 c hc)).2.2.2.2.1
    split
    · rename_i h0; simp at h0
    · rw [e2]
      simp only
      rw [List.dropWhile_cons_of_neg (by decide)]
      simp only [true_or, if_true]
      rw [upTo_found fun c hc => (h3 c hc).2.2.1]
      simp only
      rw [trimRight_none fun c hc => (keyChar_ne (h2 c hc)).1, String.ofList_toList, String.ofList_toList,
        scanAttrs_written _ (fun a ha => h a (by simp [ha])) (by simpa using hn)]
      rfl

theorem takeWhile_tag {t : List Char} (ht : ∀ c ∈ t, tagChar c = true) (as : List (String × String)) :
    (t ++ as.flatMap attrChars).takeWhile (!xmlSpace ·) = t ∧ (t ++ as.flatMap attrChars).dropWhile (!xmlSpace ·) = as.flatMap attrChars := by
  have hp : ∀ c ∈ t, (!xmlSpace c) = true := fun c hc => by rw [(keyChar_ne (keyChar_of_tagChar (ht c hc))).1]; rfl
  rw [List.takeWhile_append_of_pos hp, List.dropWhile_append_of_pos hp]
  cases as with
  | nil => simp
  | cons a as =>
    rw [List.flatMap_cons, attrChars, List.cons_append, List.takeWhile_cons_of_neg (by decide), List.dropWhile_cons_of_neg (by decide)]
    simp

theorem attrs_length : ∀ as : List (String × String), as.length ≤ (as.flatMap attrChars).length
  | [] => by simp
  | a :: as => by
    have := attrs_length as
    simp only [List.flatMap_cons, List.length_append, List.length_cons, attrChars]
    omega

theorem scanTag_start {t : String} {as : List (String × String)} (ht : TagName t) (ha : TidyAttrs as) :
    scanTag (t.toList ++ as.flatMap attrChars) = .start t (readAttrs [] as) := by
  have hlast : ∀ r, (t.toList ++ as.flatMap attrChars).reverse ≠ '/' :: r := by
    intro r hr
    rcases List.eq_nil_or_concat as with rfl | ⟨as', a, rfl⟩
    · have : '/' ∈ t.toList := by
        rw [← List.mem_reverse]
        simp only [List.flatMap_nil, List.append_nil] at hr
        rw [hr]; simp
      exact (keyChar_ne (keyChar_of_tagChar (ht.2 _ this))).2.2.2.2.2.1 rfl
    · rw [List.concat_eq_append, List.flatMap_append, List.flatMap_singleton] at hr
      have : attrChars a = (' ' :: (a.1.toList ++ ('=' :: '"' :: a.2.toList))) ++ ['"'] := by simp [attrChars]
      rw [this, ← List.append_assoc, ← List.append_assoc, List.reverse_append] at hr
      simp only [List.reverse_cons, List.reverse_nil, List.nil_append, List.cons_append, List.cons.injEq] at hr
      exact absurd hr.1 (by decide)
  unfold scanTag
  obtain ⟨h1, h2⟩ := takeWhile_tag ht.2 as
  split
  · rename_i r hr; exact absurd hr (hlast r)
  · simp only [h1, h2, String.ofList_toList]
    rw [scanAttrs_written _ ha]
    rw [List.length_append]
    have := attrs_length as
    omega

theorem scanTag_empty {t : String} {as : List (String × String)} (ht : TagName t) (ha : TidyAttrs as) :
    scanTag (t.toList ++ (as.flatMap attrChars ++ ['/'])) = .empty t (readAttrs [] as) := by
  unfold scanTag
  obtain ⟨h1, h2⟩ := takeWhile_tag ht.2 as
  have hr : (t.toList ++ (as.flatMap attrChars ++ ['/'])).reverse = '/' :: (t.toList ++ as.flatMap attrChars).reverse := by simp
  rw [hr]
  simp only [List.reverse_reverse, h1, h2, String.ofList_toList]
  rw [scanAttrs_written _ ha]
  rw [List.length_append]
  have := attrs_length as
  omega

theorem commentEnd_written {r : List Char} : ∀ {a : List Char}, (∀ c ∈ a, c ≠ '>') → commentEnd (a ++ '-' :: '-' :: '>' :: r) = some (a, r)
  | [], _ => rfl
  | c :: a, h => by
    have ih := commentEnd_written (r := r) (a := a) fun c hc => h c (by simp [hc])
    rw [List.cons_append, commentEnd.eq_2, ih]
    · rfl
    · intro rest h1 h2
      cases a with
      | nil => simp at h2
      | cons x a => cases a with
        | nil => simp at h2
        | cons y a =>
          simp only [List.cons_append, List.cons.injEq] at h2
          exact h y (by simp) h2.2.1

/-- A piece of XML without its namespace. -/
def forgetNs : REvent → Tok
  | .start _ t as => .start t as
  | .empty _ t as => .empty t as
  | .endTag _ t => .endTag t
  | .text s => .text s
  | .cdata s => .cdata s
  | .comment s => .comment s
  | .other => .other
  | .error => .error

theorem scanOne_open {c : Char} {cs : List Char} (hc : tagChar c = true) :
    scanOne ('<' :: c :: cs) = (tagEnd none (c :: cs)).map fun (a, rest) => (scanTag a, rest) := by
  obtain ⟨_, _, _, _, _, h1, _, h2, h3⟩ := keyChar_ne (keyChar_of_tagChar hc)
  unfold scanOne
  split
  · rename_i h; simp only [List.cons.injEq] at h; exact absurd h.2.1 h1
  · rename_i h; simp only [List.cons.injEq] at h; exact absurd h.2.1 h2
  · rename_i h; simp only [List.cons.injEq] at h; exact absurd h.2.1 h3
  · rename_i h; simp only [List.cons.injEq, true_and] at h; rw [← h]
  · rename_i h; exact absurd rfl (h (c :: cs))

theorem tagEnd_tag {t : String} (ht : TagName t) (r : List Char) : tagEnd none (t.toList ++ r) = (tagEnd none r).map fun (x, y) => (t.toList ++ x, y) :=
  tagEnd_outside fun c hc => by
    have := keyChar_ne (keyChar_of_tagChar (ht.2 c hc))
    exact ⟨this.2.1, this.2.2.1, this.2.2.2.1⟩

theorem scanOne_start {t : String} {as : List (String × String)} (ht : TagName t) (ha : TidyAttrs as) (rest : List Char) :
    scanOne ((WEvent.start t as).chars ++ rest) = some (.start t (readAttrs [] as), rest) := by
  obtain ⟨hne, hc⟩ := ht
  have h1 : tagEnd none (t.toList ++ (as.flatMap attrChars ++ '>' :: rest)) = some (t.toList ++ as.flatMap attrChars, rest) := by
    rw [tagEnd_tag ⟨hne, hc⟩, tagEnd_attrs _ ha]
    simp [tagEnd]
  have h2 : (WEvent.start t as).chars ++ rest = '<' :: (t.toList ++ (as.flatMap attrChars ++ '>' :: rest)) := by simp [WEvent.chars]
  rw [h2]
  cases hl : t.toList with
  | nil => exact absurd hl hne
  | cons c cs =>
    rw [List.cons_append, scanOne_open (hc c (by rw [hl]; simp)), ← List.cons_append, ← hl, h1]
    simp [scanTag_start ⟨hne, hc⟩ ha]

theorem scanOne_empty {t : String} {as : List (String × String)} (ht : TagName t) (ha : TidyAttrs as) (rest : List Char) :
    scanOne ((WEvent.empty t as).chars ++ rest) = some (.empty t (readAttrs [] as), rest) := by
  obtain ⟨hne, hc⟩ := ht
  have h1 : tagEnd none (t.toList ++ (as.flatMap attrChars ++ '/' :: '>' :: rest)) = some (t.toList ++ (as.flatMap attrChars ++ ['/']), rest) := by
    rw [tagEnd_tag ⟨hne, hc⟩, tagEnd_attrs _ ha]
    simp [tagEnd]
  have h2 : (WEvent.empty t as).chars ++ rest = '<' :: (t.toList ++ (as.flatMap attrChars ++ '/' :: '>' :: rest)) := by simp [WEvent.chars]
  rw [h2]
  cases hl : t.toList with
  | nil => exact absurd hl hne
  | cons c cs =>
    rw [List.cons_append, scanOne_open (hc c (by rw [hl]; simp)), ← List.cons_append, ← hl, h1]
    simp [scanTag_empty ⟨hne, hc⟩ ha]

theorem scanOne_end {t : String} (ht : TagName t) (rest : List Char) : scanOne ((WEvent.endTag t).chars ++ rest) = some (.endTag t, rest) := by
  have hk := fun c hc => keyChar_ne (keyChar_of_tagChar (ht.2 c hc))
  have h2 : (WEvent.endTag t).chars ++ rest = '<' :: '/' :: (t.toList ++ '>' :: rest) := by simp [WEvent.chars]
  rw [h2, scanOne, upTo_found fun c hc => (hk c hc).2.1]
  simp [trimRight_none fun c hc => (hk c hc).1]

theorem scanOne_comment {s : String} (hs : Plain s) (rest : List Char) : scanOne ((WEvent.comment s).chars ++ rest) = some (.comment s, rest) := by
  have h2 : (WEvent.comment s).chars ++ rest = '<' :: '!' :: '-' :: '-' :: (s.toList ++ '-' :: '-' :: '>' :: rest) := by simp [WEvent.chars]
  rw [h2, scanOne, scanBang, commentEnd_written fun c hc => (hs c hc).2.1]
  simp

/-- Text is followed by nothing or by a tag. -/
def TagNext (cs : List Char) : Prop := cs = [] ∨ ∃ r, cs = '<' :: r

theorem scanOne_text {a r : List Char} (hne : a ≠ []) (ha : ∀ c ∈ a, c ≠ '<') (hr : TagNext r) : scanOne (a ++ r) = some (.text (String.ofList a), r) := by
  have hp : ∀ c ∈ a, (c != '<') = true := fun c hc => by simpa using ha c hc
  have h1 : (a ++ r).takeWhile (· != '<') = a ∧ (a ++ r).dropWhile (· != '<') = r := by
    rw [List.takeWhile_append_of_pos hp, List.dropWhile_append_of_pos hp]
    rcases hr with rfl | ⟨r, rfl⟩
    · simp
    · rw [List.takeWhile_cons_of_neg (by decide), List.dropWhile_cons_of_neg (by decide)]; simp
  cases a with
  | nil => exact absurd rfl hne
  | cons c a =>
    have hc := ha c (by simp)
    rw [List.cons_append] at h1 ⊢
    unfold scanOne
    split
    · rename_i h; simp only [List.cons.injEq] at h; exact absurd h.1 hc
    · rename_i h; simp only [List.cons.injEq] at h; exact absurd h.1 hc
    · rename_i h; simp only [List.cons.injEq] at h; exact absurd h.1 hc
    · rename_i h; simp only [List.cons.injEq] at h; exact absurd h.1 hc
    · rw [h1.1, h1.2]

theorem scan_step {n : Nat} {cs rest : List Char} {t : Tok} (hne : cs ≠ []) (h : scanOne cs = some (t, rest)) (hn : cs.length ≤ n + 1) :
    scan (n + 1) cs = t :: scan n rest := by
  cases cs with
  | nil => exact absurd rfl hne
  | cons c cs => rw [scan, h]

theorem scan_text {n : Nat} {p : String} {r : List Char} (hp : Plain p) (hr : TagNext r) (hn : p.toList.length + r.length ≤ n) :
    ∃ m, r.length ≤ m ∧ scan n (p.toList ++ r) = (if p = "" then [] else [.text p]) ++ scan m r := by
  by_cases h : p = ""
  · subst h
    exact ⟨n, by simpa using hn, by simp⟩
  · have hne : p.toList ≠ [] := fun h' => h (String.toList_eq_nil_iff.mp h')
    have hpos : 0 < p.toList.length := List.length_pos_iff.mpr hne
    obtain ⟨n, rfl⟩ : ∃ m, n = m + 1 := ⟨n - 1, by omega⟩
    refine ⟨n, by omega, ?_⟩
    rw [scan_step (by simp [hne]) (scanOne_text hne (fun c hc => (hp c hc).1) hr) (by simpa using hn), if_neg h, String.ofList_toList]
    rfl

theorem plain_append {s t : String} (hs : Plain s) (ht : Plain t) : Plain (s ++ t) := by
  intro c hc
  rw [String.toList_append, List.mem_append] at hc
  exact hc.elim (hs c) (ht c)

theorem chars_tag {ev : WEvent} (h : ∀ s, ev ≠ .text s) : ∃ c r, ev.chars = '<' :: c :: r := by
  cases ev with
  | text s => exact absurd rfl (h s)
  | start t as =>
    cases hl : t.toList ++ (as.flatMap attrChars ++ ['>']) with
    | nil => simp at hl
    | cons c r => exact ⟨c, r, by rw [WEvent.chars, hl]⟩
  | empty t as =>
    cases hl : t.toList ++ (as.flatMap attrChars ++ ['/', '>']) with
    | nil => simp at hl
    | cons c r => exact ⟨c, r, by rw [WEvent.chars, hl]⟩
  | endTag t => exact ⟨_, _, rfl⟩
  | comment s => exact ⟨_, _, rfl⟩

/-- The characters that are written are cut into the pieces that were written. -/
theorem scan_written : ∀ (evs : List WEvent) (p : String) (n : Nat), Plain p → (∀ ev ∈ evs, Tidy ev) → p.toList.length + (render evs).length ≤ n →
    scan n (p.toList ++ render evs) = (readBackAux p evs).map forgetNs
  | [], p, n, hp, _, hn => by
    obtain ⟨m, _, h⟩ := scan_text (r := []) hp (.inl rfl) (by simpa [render] using hn)
    have h0 : scan m [] = [] := by cases m <;> rfl
    rw [render, List.flatMap_nil, h, h0, readBackAux]
    split <;> rfl
  | ev :: evs, p, n, hp, ht, hn => by
    have htl : ∀ e ∈ evs, Tidy e := fun e he => ht e (by simp [he])
    have hr : render (ev :: evs) = ev.chars ++ render evs := List.flatMap_cons
    have hev := ht ev (by simp)
    rw [hr] at hn ⊢
    by_cases htx : ∃ s, ev = .text s
    · obtain ⟨s, rfl⟩ := htx
      have := scan_written evs (p ++ s) n (plain_append hp hev) htl (by
        rw [String.toList_append, List.length_append]
        simp only [WEvent.chars, List.length_append] at hn
        omega)
      rw [readBackAux, ← this, String.toList_append, WEvent.chars, List.append_assoc]
    · have hnt : ∀ s, ev ≠ .text s := fun s h => htx ⟨s, h⟩
      obtain ⟨c, r, hc⟩ := chars_tag hnt
      obtain ⟨m, hm, h⟩ := scan_text (r := ev.chars ++ render evs) hp (.inr ⟨c :: r ++ render evs, by rw [hc]; rfl⟩) hn
      rw [h]
      have hlen : 2 ≤ ev.chars.length := by rw [hc]; simp
      rw [List.length_append] at hm
      obtain ⟨m, rfl⟩ : ∃ k, m = k + 1 := ⟨m - 1, by omega⟩
      have key : ∀ t, scanOne (ev.chars ++ render evs) = some (t, render evs) →
          scan (m + 1) (ev.chars ++ render evs) = t :: (readBackAux "" evs).map forgetNs := by
        intro t ht'
        rw [hc] at ht' ⊢
        rw [List.cons_append, List.cons_append] at ht' ⊢
        rw [scan, ht']
        simp only
        have := scan_written evs "" m (by intro c hc; simp at hc) htl (by simp; omega)
        rw [← this]
        rfl
      have hpre : (if p = "" then [] else [Tok.text p]) = List.map forgetNs (if p = "" then [] else [REvent.text p]) := by split <;> rfl
      cases ev with
      | text s => exact absurd rfl (hnt s)
      | start t as => rw [key _ (scanOne_start hev.1 hev.2 _), hpre, readBackAux, List.map_append]; rfl
      | empty t as => rw [key _ (scanOne_empty hev.1 hev.2 _), hpre, readBackAux, List.map_append]; rfl
      | endTag t => rw [key _ (scanOne_end hev _), hpre, readBackAux, List.map_append]; rfl
      | comment s => rw [key _ (scanOne_comment hev _), hpre, readBackAux, List.map_append]; rfl

end Folia
