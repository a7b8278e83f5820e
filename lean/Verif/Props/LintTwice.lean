import Verif.Props.Tools
import Verif.Props.RoundStable
/-! C90: linting a linted file. -/
namespace Folia
open Document

/-- The events without text that is only white space, where an empty tag counts as a start tag and an end tag. -/
def gist : List WEvent → List WEvent
  | [] => []
  | .text s :: es => if blank s then gist es else .text s :: gist es
  | .empty t as :: es => .start t as :: .endTag t :: gist es
  | .start t as :: es => .start t as :: gist es
  | .endTag t :: es => .endTag t :: gist es
  | .comment s :: es => .comment s :: gist es

theorem gist_squeeze : ∀ evs : List WEvent, gist (squeeze evs) = gist evs
  | [] => rfl
  | ev :: evs => by
    have ih := gist_squeeze evs
    cases ev with
    | text s =>
      rw [squeeze, gist]
      split
      · rename_i h
        subst h
        rw [if_pos (by decide), ih]
      · rw [gist, ih]
    | _ => simp [squeeze, gist, ih]

theorem gist_break (b : Bool) (l : Nat) (evs : List WEvent) : gist (breakBefore b l ++ evs) = gist evs := by
  cases b with
  | false => rfl
  | true =>
    have : blank ("\n" ++ String.ofList (List.replicate l ' ')) = true := by simp [blank, isWs]
    simp [breakBefore, lineBreak, gist, this]

theorem gist_indentFrom (n : Nat) : ∀ (evs : List WEvent) (brk : Bool) (len : Nat), gist (indentFrom n brk len evs) = gist evs
  | [], _, _ => rfl
  | ev :: evs, brk, len => by
    cases ev <;> simp [indentFrom, gist_break, gist, gist_indentFrom n evs]

theorem gist_indented (n : Nat) (evs : List WEvent) : gist (indented n evs) = gist evs := by
  cases n with
  | zero => rfl
  | succ n => exact gist_indentFrom _ evs _ _

/-- Linting the output of the linter succeeds, and gives the same tags with the same attributes, the same texts and the same comments in the same
order, apart from white space between tags and the two ways to write an element without content.

Missing for the full claim: what `C70_accepted_partial` and `C64_stable_partial` say about the document that is read. -/
theorem C90_twice_partial {X : Ext} {F : Nat} {header gap : List REvent} (hh : metadataEnd ∉ header) (hg : ∀ ev ∈ gap, isStart ev = false)
    {tag tag' : String} {attrs : List RAttr} (htag : tag ≠ "FoLiA") {nodes : List XNode} (hid : (attrIds attrs ++ XNode.idsList nodes).Nodup)
    {rest : List REvent} {evs : List REvent} (hevs : evs = source header gap tag attrs (XNode.eventsList nodes ++ .endTag .folia tag' :: rest))
    (hp : (sourceProcIds evs).Nodup) {d : Document} (h : Document.parse X F {} evs = .ok d)
    (hu : NoDates d) (hfit : DeclarationsFit {} d) (hs : Settled {} d) {e : ElementData} {items : List Item} (hb : Below d 0 e items) (hne : items ≠ [])
    (ht : e.elementtype = .text ∨ e.elementtype = .speech) (hl : LegibleIn (.node 0 e items))
    (hw : ∀ e', InTree e' (.node 0 e items) → Rewritable X d e' ∧ Repeatable d e') (hread : Readable [] [] (.node 0 e items))
    (hn : (d.metadata.data.map (·.1)).Nodup) (hv : ∀ kv ∈ d.metadata.data, kv.2 ≠ "") (hsub : d.submetadata = []) :
    ∃ N out d', ∀ G F', N ≤ G → N ≤ F' → lint X F G evs = .ok out ∧ Document.parse X F' {} (checkEnds [] (readBack out)) = .ok d' ∧
      (RoomLeft d' → ∃ N', ∀ G', N' ≤ G' → ∃ out', lint X F' G' (checkEnds [] (readBack out)) = .ok out' ∧ gist out' = gist out) := by
  have hcons : Consistent X F d := by
    have h' := h
    rw [hevs] at h'
    obtain ⟨_, _, _, _, x, _, _, _, h4, _, _, _, _, h9, h10⟩ := C42_tree (ps := {}) (fun _ hp => nomatch hp) hh hg htag hid h'
    exact ⟨.parse (ps := {}) (fun _ hp => nomatch hp) h, ⟨h9, h10⟩, ⟨x, h4⟩, C73_forest_partial (.parse (ps := {}) hp (fun _ hp => nomatch hp) h)⟩
  obtain ⟨N1, plain, hx⟩ := C70_written hcons
  obtain ⟨N2, d', hacc⟩ := C70_accepted_partial (ps := {}) hcons hu rfl hfit (hx N1 (Nat.le_refl _)) hb hne ht hl (fun e' he' => (hw e' he').1.printable) hread
  refine ⟨max N1 N2, indented 4 plain, d', fun G F' hG hF => ?_⟩
  have hG1 : N1 ≤ G := by omega
  have hsame : Document.parse X F' {} (checkEnds [] (readBack (indented 4 plain))) = .ok d' := by
    rw [C65_same_document (n := 4) (hx G hG1) (by rw [xmlIndented, hx G hG1]; rfl), hacc F' (by omega)]
  refine ⟨by unfold lint; rw [h]; simp only [bind, Except.bind, xmlIndented, hx G hG1, Except.map], hsame, fun hroom => ?_⟩
  obtain ⟨N3, hN3⟩ := C64_stable_partial (ps := {}) hcons rfl (hx N1 (Nat.le_refl _)) (hacc N2 (Nat.le_refl _)) hb hl hw hroom hs hn hv hsub
  refine ⟨N3, fun G' hG' => ?_⟩
  obtain ⟨evs', h1, h2⟩ := hN3 G' hG'
  refine ⟨indented 4 evs', ?_, ?_⟩
  · unfold lint
    rw [hsame]
    simp only [bind, Except.bind, xmlIndented, h1, Except.map]
  · rw [gist_indented, gist_indented, ← gist_squeeze evs', h2, gist_squeeze]

/-- A header with declarations for texts, words, sentences and parts of speech, all by one processor. -/
def Sample.settledHeader : List REvent := [.start .folia "FoLiA" [.ok "xml:id" "doc", .ok "version" "2.4.0"], .start .folia "metadata" [],
  .start .folia "annotations" [],
  .start .folia "text-annotation" [.ok "set" DEFAULT_TEXT_SET], .empty .folia "annotator" [.ok "processor" "p1"], .endTag .folia "text-annotation",
  .start .folia "token-annotation" [.ok "set" "tok"], .empty .folia "annotator" [.ok "processor" "p1"], .endTag .folia "token-annotation",
  .start .folia "pos-annotation" [.ok "set" "brown"], .empty .folia "annotator" [.ok "processor" "p1"], .endTag .folia "pos-annotation",
  .endTag .folia "annotations", .start .folia "provenance" [],
  .empty .folia "processor" [.ok "xml:id" "p1", .ok "name" "tagger"], .endTag .folia "provenance"]

/-- A word with text, a comment and a part-of-speech tag. -/
def Sample.settledNode : XNode := .elem "w" [.ok "xml:id" "w1", .ok "class" "WORD"] [.elem "t" [] [.text "Tom &amp; Jerry"],
  .comment " tagged ", .elem "pos" [.ok "class" "N"] [.empty "feat" [.ok "subset" "number", .ok "class" "sing"]]]

/-- A source with that word. -/
def Sample.settledXml : List REvent := source Sample.settledHeader [] "text" [.ok "xml:id" "doc.text"]
  (XNode.eventsList [Sample.settledNode] ++ [.endTag .folia "text", .endTag .folia "FoLiA"])

/-- What the parser makes of it. -/
def Sample.settledDoc : Document := Sample.value (Document.parse Sample.X Sample.F {} Sample.settledXml)

/-- The hypotheses are met by this source. -/
example : metadataEnd ∉ Sample.settledHeader ∧ (attrIds [.ok "xml:id" "doc.text"] ++ XNode.idsList [Sample.settledNode]).Nodup ∧
    (sourceProcIds Sample.settledXml).Nodup ∧ Document.parse Sample.X Sample.F {} Sample.settledXml = .ok Sample.settledDoc ∧ NoDates Sample.settledDoc ∧
    DeclarationsFit {} Sample.settledDoc ∧ Settled {} Sample.settledDoc ∧ (∃ d', Rereads Sample.X Sample.F {} Sample.settledDoc d' ∧ RoomLeft d') ∧
    (Sample.settledDoc.metadata.data.map (·.1)).Nodup ∧ (∀ kv ∈ Sample.settledDoc.metadata.data, kv.2 ≠ "") ∧ Sample.settledDoc.submetadata = [] ∧
    ∃ e items, Below Sample.settledDoc 0 e items ∧ items ≠ [] ∧ (e.elementtype = .text ∨ e.elementtype = .speech) ∧ LegibleIn (.node 0 e items) ∧
      (∀ e', InTree e' (.node 0 e items) → Rewritable Sample.X Sample.settledDoc e' ∧ Repeatable Sample.settledDoc e') ∧ Readable [] [] (.node 0 e items) := by
  refine ⟨by decide, by decide, by decide +kernel, Sample.value_eq (by decide +kernel), noDates_of_check (by decide +kernel),
    by unfold DeclarationsFit; decide +kernel, settled_sound (by decide +kernel),
    ⟨Sample.value (Sample.reread Sample.settledDoc), Sample.reread_spec (Sample.value_eq (by decide +kernel)), roomLeft_sound (by decide +kernel)⟩,
    by decide +kernel, by decide +kernel, by decide +kernel, ?_⟩
  obtain ⟨e, items, h1, h2, h3⟩ := bodyOk_sound (X := Sample.X) (d := Sample.settledDoc) (n := 20) (by decide +kernel)
  obtain ⟨h4, h5, h6⟩ := bodyReadable_sound (n := 20) (by decide +kernel) h1
  exact ⟨e, items, h1, h5, h6, h2, fun e' he' => ⟨h3 e' he', repeatable_sound (X := Sample.X) (creditable_sound (bodyAll_sound (n := 20) (by decide +kernel) h1 e' he'))
    (bodyAll_sound (n := 20) (by decide +kernel) h1 e' he')⟩, h4⟩

/-- A source with an empty body is accepted and written; the linter rejects what it has written. -/
theorem C90_empty_counterexample : ∃ out, lint Sample.X Sample.F 100 (Sample.around []) = .ok out ∧
    ∀ G, lint Sample.X Sample.F G (checkEnds [] (readBack out)) = .error (.err .parse) := by
  obtain ⟨d, hd⟩ : ∃ d, d = Sample.value (Document.parse Sample.X Sample.F {} (Sample.around [])) := ⟨_, rfl⟩
  have h1 : Document.parse Sample.X Sample.F {} (Sample.around []) = .ok d := by rw [hd]; exact Sample.value_eq (by decide +kernel)
  obtain ⟨evs, he⟩ : ∃ evs, evs = Sample.value (d.xml Sample.X 100 0) := ⟨_, rfl⟩
  have h2 : d.xml Sample.X 100 0 = .ok evs := by rw [he]; exact Sample.value_eq (by rw [hd]; decide +kernel)
  have h3 : Document.parse Sample.X Sample.F {} (checkEnds [] (readBack evs)) = .error (.err .parse) := Sample.parseError_eq (by rw [he, hd]; decide +kernel)
  refine ⟨indented 4 evs, by unfold lint; rw [h1]; simp only [bind, Except.bind, xmlIndented, h2, Except.map], fun G => ?_⟩
  unfold lint
  rw [C65_same_document (n := 4) h2 (by rw [xmlIndented, h2]; rfl), h3]
  rfl

end Folia
