import Verif.Lemmas.SafeParse
import Verif.Lemmas.Prefix
import Verif.Props.Safe
/-! C86: parsing does not panic. -/
namespace Folia
open Document

/-- Below the body of a document, identifiers are used once and features are not directly in elements without annotation type. The document is split as the
parser does it: at the end of the metadata, then at the next start tag. -/
def WellPlaced (X : Ext) (evs : List REvent) : Prop := ∀ header gap tag attrs rest e cs, evs = source header gap tag attrs rest → (∀ ev ∈ gap, isStart ev = false) →
  parseElementTag X tag attrs = .ok (e, cs) → TagsPlaced X rest [e.elementtype] e.id.toList

/-- Parsing does not panic, whatever the tags, text and metadata are, in whatever order, nested properly or not, complete or not: it gives a document or an error.
Missing for the full claim: malformed attributes, see `C86_malformed_counterexample`, attributes with malformed references, see `C86_escape_counterexample`,
features below elements without annotation type, see `C86_feature_counterexample`, identifiers that are used twice. -/
theorem C86_parse_partial (X : Ext) (F : Nat) (ps : DocumentProperties) (hps : ∀ p, ps.processor = some p → CleanProc p) (evs : List REvent) (hs : SoundTags evs)
    (hp : WellPlaced X evs) : Document.parse X F ps evs ≠ .error .panic := by
  unfold Document.parse
  refine NoPanic.bind (parseRoot_safe hs _) fun ⟨d1, evs1⟩ h1 => ?_
  obtain ⟨pre1, as1, he1, _⟩ := parseRoot_found h1
  simp only at he1
  have hs1 : SoundTags evs1 := fun ns tag as h => hs ns tag as (by rw [he1]; exact h.imp (fun h => by simp [h]) fun h => by simp [h])
  refine NoPanic.bind (parseMeta_safe hs1 _ _) fun ⟨d2, evs2⟩ h2 => ?_
  obtain ⟨pre2, he2, _⟩ := parseMeta_found h2
  simp only at he2
  have hs2 : SoundTags evs2 := fun ns tag as h => hs1 ns tag as (by rw [he2]; exact h.imp (fun h => by simp [h]) fun h => by simp [h])
  refine NoPanic.bind (parseBody_safe hs2) fun ⟨body, evs3⟩ h3 => ?_
  cases body with
  | none => exact .err _
  | some b =>
    obtain ⟨gap, tag, as, cs, he3, hg, ht, hf⟩ := parseBody_tag h3
    have hs3 : SoundTags evs3 := fun ns tag as h => hs2 ns tag as (by rw [he3]; exact h.imp (fun h => by simp [h]) fun h => by simp [h])
    have hsame := parseRoot_same h1
    have hi1 : CInv d1 := (Steps.clean (.trans (SameStores.steps (C := True) (d := {}) (d' := { autodeclare := ps.autodeclare }) ⟨rfl, rfl, rfl, rfl, rfl⟩) hsame.steps) cinv_empty).1
    have hi2 : CInv d2 := (Steps.clean (parseMeta_steps (C := True) evs1 hi1.ix h2) hi1).1
    have hel : d2.elements = {} := by rw [parseMeta_elements _ h2]; exact hsame.1
    have hpl := hp (pre1 ++ .start .folia "FoLiA" as1 :: pre2) gap tag as evs3 b cs (by rw [he1, he2, he3]; simp [source]) hg ht
    obtain ⟨h4, _⟩ := fine_parseRest (X := X) (F := F) hps (parseBody_clean h3) hf hs3 hpl d2 hi2 hel
    simp only
    refine NoPanic.bind ?_ fun _ _ => .ok _
    unfold runDoc
    rcases hm : parseRest X F ps b evs3 d2 with ⟨f | a, d'⟩
    · rw [hm] at h4; exact h4.of_error
    · exact .ok _

/-- A document with the given content of the body. -/
def Sample.around (content : List REvent) : List REvent :=
  source Sample.header [] "text" [.ok "xml:id" "t"] (content ++ [.endTag .folia "text", .endTag .folia "FoLiA"])

/-- A malformed attribute makes the parser panic. -/
theorem C86_malformed_counterexample : Document.parse Sample.X Sample.F {} (Sample.around [.empty .folia "s" [.bad]]) = .error .panic :=
  Sample.panics_eq (by decide +kernel)

/-- So does a malformed reference, in an attribute of the root. -/
theorem C86_escape_counterexample : Document.parse Sample.X Sample.F {} [.start .folia "FoLiA" [.ok "xml:id" "&x"]] = .error .panic :=
  Sample.panics_eq (by decide +kernel)

/-- So does a feature directly in the body. -/
theorem C86_feature_counterexample :
    Document.parse Sample.X Sample.F {} (Sample.around [.empty .folia "feat" [.ok "subset" "gender", .ok "class" "f"]]) = .error .panic :=
  Sample.panics_eq (by decide +kernel)

/-- So does an identifier that is used twice, if there is a feature in the second element: the feature is put in the first. -/
theorem C86_twice_counterexample : Document.parse Sample.X Sample.F {} (Sample.around [.start .folia "w" [.ok "xml:id" "t"],
    .empty .folia "feat" [.ok "subset" "gender", .ok "class" "f"], .endTag .folia "w"]) = .error .panic :=
  Sample.panics_eq (by decide +kernel)

/-- `SoundTags` as a check. -/
def Sample.sound (evs : List REvent) : Bool := evs.all fun
  | .start _ _ as | .empty _ _ as => as.all fun
    | .ok _ v => (unescape v).isSome
    | .bad => false
  | _ => true

theorem Sample.sound_eq {evs : List REvent} (h : Sample.sound evs = true) : SoundTags evs := by
  intro ns tag as ht a ha
  have hall : (as.all fun
    | .ok _ v => (unescape v).isSome
    | .bad => false) = true := by
    rcases ht with ht | ht
    · exact List.all_eq_true.mp h _ ht
    · exact List.all_eq_true.mp h _ ht
  have h := List.all_eq_true.mp hall _ ha
  cases a with
  | ok k v => obtain ⟨u, hu⟩ := Option.isSome_iff_exists.mp h; exact ⟨k, v, u, rfl, hu⟩
  | bad => cases h

/-- `TagPlaced` as a check. -/
def Sample.tagPlaced (ts : List ElementType) (seen : List String) (e : ElementData) : Bool :=
  e.id.all (!seen.contains ·) && (e.elementtype != .feature || ts.head?.all (·.annotationtype.isSome))

theorem Sample.tagPlaced_eq {ts : List ElementType} {seen : List String} {e : ElementData} (h : Sample.tagPlaced ts seen e = true) : TagPlaced ts seen e := by
  simp only [Sample.tagPlaced, Bool.and_eq_true, Bool.or_eq_true] at h
  refine ⟨fun i hi => ?_, fun hf t ht => ?_⟩
  · have := h.1; rw [hi] at this; simpa using this
  · rcases h.2 with h | h
    · simp [hf] at h
    · rw [ht] at h; simpa using h

/-- `TagsPlaced` as a check. -/
def Sample.placed (X : Ext) : List REvent → List ElementType → List String → Bool
  | [], _, _ => true
  | .start .folia tag as :: rest, ts, seen => match parseElementTag X tag as with
    | .ok (e, _) => Sample.tagPlaced ts seen e && Sample.placed X rest (e.elementtype :: ts) (e.id.toList ++ seen)
    | .error _ => true
  | .empty .folia tag as :: rest, ts, seen => match parseElementTag X tag as with
    | .ok (e, _) => Sample.tagPlaced ts seen e && Sample.placed X rest ts (e.id.toList ++ seen)
    | .error _ => true
  | .endTag .folia _ :: rest, ts, seen => Sample.placed X rest ts.tail seen
  | _ :: rest, ts, seen => Sample.placed X rest ts seen

theorem Sample.placed_eq {X : Ext} : ∀ {evs : List REvent} {ts : List ElementType} {seen : List String}, Sample.placed X evs ts seen = true → TagsPlaced X evs ts seen := by
  intro evs ts seen
  fun_induction Sample.placed X evs ts seen <;> intro h <;> simp_all [TagsPlaced, Sample.tagPlaced_eq]

/-- A document is placed well if its body is, and its metadata ends once. -/
theorem WellPlaced.of_source {X : Ext} {header gap : List REvent} {tag : String} {attrs : List RAttr} {rest : List REvent} (hh : metadataEnd ∉ header)
    (hg : ∀ ev ∈ gap, isStart ev = false) (hgm : metadataEnd ∉ gap) (hr : metadataEnd ∉ rest)
    (hb : ∀ e cs, parseElementTag X tag attrs = .ok (e, cs) → TagsPlaced X rest [e.elementtype] e.id.toList) : WellPlaced X (source header gap tag attrs rest) := by
  have key : ∀ {a b c d : List REvent}, a ++ metadataEnd :: b = c ++ metadataEnd :: d → metadataEnd ∉ a → metadataEnd ∉ b → b = d := by
    intro a b c d h ha hb
    rcases List.append_eq_append_iff.mp h with ⟨m, h1, h2⟩ | ⟨m, h1, h2⟩
    · cases m with
      | nil => simpa using h2
      | cons x m => simp only [List.cons_append, List.cons.injEq] at h2; exact absurd (by rw [h2.2]; simp) hb
    · cases m with
      | nil => simpa using h2.symm
      | cons x m => simp only [List.cons_append, List.cons.injEq] at h2; exact absurd (by rw [h1, ← h2.1]; simp) ha
  have next : ∀ {g g' : List REvent} {t t' : String} {as as' : List RAttr} {r r' : List REvent}, (∀ ev ∈ g, isStart ev = false) → (∀ ev ∈ g', isStart ev = false) →
      g ++ .start .folia t as :: r = g' ++ .start .folia t' as' :: r' → t = t' ∧ as = as' ∧ r = r' := by
    intro g
    induction g with
    | nil =>
      intro g' t t' as as' r r' _ hg' h
      cases g' with
      | nil => simpa [and_assoc] using h
      | cons x g' =>
        simp only [List.nil_append, List.cons_append, List.cons.injEq] at h
        have := hg' x (List.mem_cons_self ..)
        rw [← h.1] at this
        cases this
    | cons x g ih =>
      intro g' t t' as as' r r' hg hg' h
      cases g' with
      | nil =>
        simp only [List.nil_append, List.cons_append, List.cons.injEq] at h
        have := hg x (List.mem_cons_self ..)
        rw [h.1] at this
        cases this
      | cons y g' =>
        simp only [List.cons_append, List.cons.injEq] at h
        exact ih (fun e he => hg e (List.mem_cons_of_mem _ he)) (fun e he => hg' e (List.mem_cons_of_mem _ he)) h.2
  intro header' gap' tag' attrs' rest' e cs he hg' ht
  unfold source at he
  rw [List.append_assoc, List.append_assoc, List.cons_append, List.cons_append] at he
  have h1 := key he hh (by simp only [List.mem_append, List.mem_cons, not_or]; exact ⟨hgm, nofun, hr⟩)
  obtain ⟨rfl, rfl, rfl⟩ := next hg hg' h1
  exact hb e cs ht

theorem Sample.placed_body {X : Ext} {tag : String} {attrs : List RAttr} {rest : List REvent} (h : (match parseElementTag X tag attrs with
    | .ok (e, _) => Sample.placed X rest [e.elementtype] e.id.toList
    | .error _ => true) = true) : ∀ e cs, parseElementTag X tag attrs = .ok (e, cs) → TagsPlaced X rest [e.elementtype] e.id.toList := by
  intro e cs he
  rw [he] at h
  exact Sample.placed_eq h

/-- A word with a part of speech that has a feature, then an unknown tag that is not closed and the end of the input. -/
def Sample.broken : List REvent := source Sample.header [.text "\n"] "text" [.ok "xml:id" "t"] [.start .folia "w" [.ok "xml:id" "w"],
  .start .folia "pos" [.ok "class" "N"], .empty .folia "feat" [.ok "subset" "gender", .ok "class" "f"], .endTag .folia "pos", .start .folia "unknown" []]

/-- The hypotheses of `C86_parse_partial` are met, also by documents that cannot be read. -/
example : (SoundTags Sample.broken ∧ WellPlaced Sample.X Sample.broken ∧ (Document.parse Sample.X Sample.F {} Sample.broken).toOption.isNone = true) ∧
    SoundTags Sample.xml ∧ WellPlaced Sample.X Sample.xml ∧ Document.parse Sample.X Sample.F {} Sample.xml = .ok Sample.parsed := by
  refine ⟨⟨Sample.sound_eq (by decide +kernel), WellPlaced.of_source (by decide +kernel) (by decide +kernel) (by decide +kernel) (by decide +kernel)
    (Sample.placed_body (by decide +kernel)), by decide +kernel⟩, Sample.sound_eq (by decide +kernel), WellPlaced.of_source (by decide +kernel) (by decide +kernel)
    (by decide +kernel) (by decide +kernel) (Sample.placed_body (by decide +kernel)), Sample.parsed_eq⟩

end Folia
