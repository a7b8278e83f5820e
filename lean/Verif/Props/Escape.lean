import Verif.Parser
import Verif.Serialiser
/-! Escaping: C38 (the statements about strings; those about whole documents are in `Props/RoundTrip.lean`). -/
namespace Folia

theorem escapeChar_other (c : Char) (h1 : c ≠ '<') (h2 : c ≠ '>') (h3 : c ≠ '\'') (h4 : c ≠ '&') (h5 : c ≠ '"') :
    escapeChar c = [c] := by
  unfold escapeChar
  split <;> simp_all

theorem unescapeAux_plain (n : Nat) (c : Char) (cs : List Char) (h : c ≠ '&') :
    unescapeAux (n + 1) (c :: cs) = (unescapeAux n cs).map (c :: ·) := by
  conv => lhs; unfold unescapeAux
  split
  · simp_all
  · simp_all
  · simp_all
  · rename_i heq1 heq2
    simp only [List.cons.injEq] at heq2
    obtain ⟨rfl, rfl⟩ := heq2
    cases heq1
    cases unescapeAux n cs <;> rfl

theorem unescapeAux_entity (n : Nat) (name : List Char) (c : Char) (rest : List Char) (hn : entityEnd (name ++ ';' :: rest) = some (name, rest))
    (he : entity name = some c) : unescapeAux (n + 1) ('&' :: (name ++ ';' :: rest)) = (unescapeAux n rest).map (c :: ·) := by
  conv => lhs; unfold unescapeAux
  simp only [hn, he]
  cases unescapeAux n rest <;> rfl

theorem unescapeAux_escape (l : List Char) (n : Nat) (h : (l.flatMap escapeChar).length ≤ n) :
    unescapeAux n (l.flatMap escapeChar) = some l := by
  induction l generalizing n with
  | nil => unfold unescapeAux; rfl
  | cons c cs ih =>
    have ent : ∀ name : List Char, escapeChar c = '&' :: (name ++ [';']) → entity name = some c →
        (∀ rest, entityEnd (name ++ ';' :: rest) = some (name, rest)) →
        unescapeAux n ((c :: cs).flatMap escapeChar) = some (c :: cs) := by
      intro name hesc hent hend
      simp only [List.flatMap_cons, hesc] at h ⊢
      obtain ⟨n, rfl⟩ : ∃ m, n = m + 1 := ⟨n - 1, by simp at h; omega⟩
      have := unescapeAux_entity n name c (cs.flatMap escapeChar) (hend _) hent
      simp only [List.cons_append, List.append_assoc, List.nil_append] at this ⊢
      rw [this, ih n (by simp at h ⊢; omega)]
      rfl
    by_cases h1 : c = '<'
    · subst h1; exact ent ['l', 't'] rfl rfl (fun _ => rfl)
    by_cases h2 : c = '>'
    · subst h2; exact ent ['g', 't'] rfl rfl (fun _ => rfl)
    by_cases h3 : c = '\''
    · subst h3; exact ent ['a', 'p', 'o', 's'] rfl rfl (fun _ => rfl)
    by_cases h4 : c = '&'
    · subst h4; exact ent ['a', 'm', 'p'] rfl rfl (fun _ => rfl)
    by_cases h5 : c = '"'
    · subst h5; exact ent ['q', 'u', 'o', 't'] rfl rfl (fun _ => rfl)
    have hesc := escapeChar_other c h1 h2 h3 h4 h5
    simp only [List.flatMap_cons, hesc] at h ⊢
    obtain ⟨n, rfl⟩ : ∃ m, n = m + 1 := ⟨n - 1, by simp at h; omega⟩
    simp only [List.cons_append, List.nil_append]
    rw [unescapeAux_plain n c _ h4, ih n (by simp at h ⊢; omega)]
    rfl

/-- C38: text and attribute values are read back unchanged: unescaping what was escaped gives the original string. -/
theorem C38_unescape_escape (s : String) : unescape (escape s) = some s := by
  rw [unescape, escape, String.toList_ofList, unescapeAux_escape _ _ (Nat.le_refl _), Option.map_some, String.ofList_toList]

/-- C38: different strings are written differently. -/
theorem C38_escape_injective (s t : String) (h : escape s = escape t) : s = t := by
  have := C38_unescape_escape s
  rw [h, C38_unescape_escape t] at this
  exact (Option.some.inj this).symm

/-- C38: no string can introduce markup: the written form has no `<`, `>` or quote, so it cannot open or close a tag, an attribute value
or a comment. -/
theorem C38_no_markup (s : String) (c : Char) (h : c ∈ (escape s).toList) : c ≠ '<' ∧ c ≠ '>' ∧ c ≠ '"' ∧ c ≠ '\'' := by
  simp only [escape, String.toList_ofList, List.mem_flatMap] at h
  obtain ⟨a, _, ha⟩ := h
  unfold escapeChar at ha
  split at ha
  all_goals simp only [List.mem_cons, List.not_mem_nil, or_false] at ha
  all_goals (try (rcases ha with rfl | rfl | rfl | rfl | rfl | rfl <;> decide))
  all_goals (try (rcases ha with rfl | rfl | rfl | rfl | rfl <;> decide))
  all_goals (try (rcases ha with rfl | rfl | rfl | rfl <;> decide))
  subst ha
  refine ⟨?_, ?_, ?_, ?_⟩ <;> (rintro rfl; simp_all)

/-- C38: comments are written escaped but read back as they stand, so a comment with a special character does not survive. The reader
yields `escape s` and the parser stores it as it is (see `C38_comment_counterexample` for whole documents). -/
theorem C38_comment_text_counterexample : ∃ s : String, ∀ r, readBack [.comment (escape s)] = [.comment r] → r ≠ s :=
  ⟨"a<b", by intro r h; simp only [readBack, readBackAux] at h; revert h; simp; rintro rfl; decide +kernel⟩

/-- C38: comments without special characters survive. -/
theorem C38_comment_partial (s : String) (h : ∀ c ∈ s.toList, c ≠ '<' ∧ c ≠ '>' ∧ c ≠ '\'' ∧ c ≠ '&' ∧ c ≠ '"') :
    readBack [.comment (escape s)] = [.comment s] := by
  have : s.toList.flatMap escapeChar = s.toList := by
    have : ∀ l : List Char, (∀ c ∈ l, c ≠ '<' ∧ c ≠ '>' ∧ c ≠ '\'' ∧ c ≠ '&' ∧ c ≠ '"') → l.flatMap escapeChar = l := by
      intro l
      induction l with
      | nil => intro _; rfl
      | cons c cs ih =>
        intro hl
        obtain ⟨h1, h2, h3, h4, h5⟩ := hl c (by simp)
        rw [List.flatMap_cons, escapeChar_other c h1 h2 h3 h4 h5, ih (fun x hx => hl x (by simp [hx]))]
        rfl
    exact this _ h
  simp [readBack, readBackAux, escape, this]

example : escape "a<b & \"c\"" = "a&lt;b &amp; &quot;c&quot;" ∧ unescape "a&lt;b &amp; &#x41;" = some "a<b & A" ∧
    unescape "a & b" = none := by decide +kernel

end Folia
