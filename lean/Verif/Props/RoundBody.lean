import Verif.Lemmas.BodyChecks
import Verif.Lemmas.RoundRefs
import Verif.Props.RoundTrip
/-! C45: the body survives writing and reading. -/
namespace Folia
open Document

/-- The body comes back: the same elements, texts and comments in the same order and nesting, and nothing else; each element with the same
type, identifier, class, subset and other attributes.

Missing for the full claim: sets and processors, for which see below. The document must be legible: text directly follows a tag or a comment,
is not blank, and comments need no escaping. A layer must have no attributes of its own, unless something declared is written for it. A feature
must have both subset and class. The result was accepted. -/
theorem C45_tree_partial {X : Ext} {F F' : Nat} {ps : DocumentProperties} {d d' : Document} (hr : Consistent X F d) (hps : ps.processor = none)
    (h : Rereads X F' ps d d') {e : ElementData} {items : List Item} (hb : Below d 0 e items) (hl : LegibleIn (.node 0 e items))
    (hw : ∀ e', InTree e' (.node 0 e items) → Rewritable X d e') (hroom : RoomLeft d') :
    Matches (SameContent d d') d' none 0 (.node 0 e items) ∧ d'.elements.len = nodeCount (.node 0 e items) := by
  obtain ⟨G, evs, hxml, h⟩ := h
  obtain ⟨ts, d2, e1, items1, B, h1, _, _, _, _, _, _, _, h9, h10, h11, _, h13, _⟩ := round_tree hr.clean hr.forest hr.body hr.prov hxml hps h (by
    intro e1 items1 hb1
    obtain ⟨rfl, rfl⟩ := below_unique hb hb1
    exact ⟨hl, fun e' he' => (hw e' he').printable⟩)
  obtain ⟨rfl, rfl⟩ := below_unique hb h1
  refine ⟨h13 _ fun e' he' k x data hx hrb => ?_, by rw [h11, nodeCount_keys]⟩
  obtain ⟨ke, hke⟩ := inTree_live hb he'
  have hci := hr.clean.cinv
  exact same_content (hci.elem ke e' hke).refs (h9.elem k x hx).refs ((cleanReachable_reachable hr.clean).encoded ke e' hke) (hw e' he') hroom (h10 e' he') hrb

example : Consistent Sample.X Sample.F Sample.doc ∧ NoDates Sample.doc ∧ ∃ d', Rereads Sample.X Sample.F {} Sample.doc d' ∧ RoomLeft d' ∧
    ∃ e items, Below Sample.doc 0 e items ∧ LegibleIn (.node 0 e items) ∧ ∀ e', InTree e' (.node 0 e items) → Rewritable Sample.X Sample.doc e' :=
  ⟨Sample.doc_consistent, Sample.doc_nodates, Sample.value (Sample.reread Sample.doc), Sample.reread_spec (Sample.value_eq (by decide +kernel)),
    roomLeft_sound (by decide +kernel), bodyOk_sound (n := 20) (by decide +kernel)⟩

/-- The body comes back with sets and processors as well, for elements whose type has sets and that are not layers.

Missing for the full claim, in addition to what `C45_tree_partial` says: every declaration must have processors that are reachable from the
provenance chain, and one without set must be the only one of its type. What the parser declares by itself must be declared. Elements that
have a declaration must have a processor, and something declared must be written for them. A feature must be below an
element whose type has only one declaration, and have no processor. -/
theorem C45_credit_partial {X : Ext} {F F' : Nat} {ps : DocumentProperties} {d d' : Document} (hr : Consistent X F d) (hps : ps.processor = none)
    (h : Rereads X F' ps d d') {e : ElementData} {items : List Item} (hb : Below d 0 e items) (hl : LegibleIn (.node 0 e items))
    (hw : ∀ e', InTree e' (.node 0 e items) → Rewritable X d e' ∧ Creditable X d e') (hroom : RoomLeft d') (hs : Settled ps d) :
    Matches (fun e' x => SameContent d d' e' x ∧ SameCredit d d' e' x) d' none 0 (.node 0 e items) ∧ d'.elements.len = nodeCount (.node 0 e items) := by
  obtain ⟨G, evs, hxml, h⟩ := h
  obtain ⟨ts, d2, e1, items1, B, h1, _, hty, hts, hm, _, _, hi2, h9, h10, h11, _, h13, h14, _⟩ := round_tree hr.clean hr.forest hr.body hr.prov hxml hps h (by
    intro e1 items1 hb1
    obtain ⟨rfl, rfl⟩ := below_unique hb hb1
    exact ⟨hl, fun e' he' => (hw e' he').1.printable⟩)
  obtain ⟨rfl, rfl⟩ := below_unique hb h1
  have hci := hr.clean.cinv
  have henc := (cleanReachable_reachable hr.clean).encoded
  have hpin : Pinned d2 d' := by
    refine h14 (fun ts hts' => ?_) ?_ ?_
    · obtain ⟨k, dec, q1, q2, q3⟩ := hs.preset ts hts'
      obtain ⟨j, hj⟩ := decl_forth hm (fun k dec h => (hs.kept k dec h).1) q1
      exact ⟨j, _, by rw [← q2, ← q3]; exact hj⟩
    · exact asks_back hm hs (hci.elem 0 e hb.1).refs (henc 0 e hb.1) (hw e .here).2.feature (h10 e .here) (by rintro c' ⟨⟩) _
    · exact asksItems_back hm hs hci henc hr.forest.links items 0 e hb.1 (fun c hc => (hr.forest.links.agree 0 c).mp ⟨e, hb.1, by rw [hb.2.1]; exact hc⟩) hb.2.2
        fun i hi e' he' => ⟨(hw e' (.inner hi he')).2.feature, h10 e' (.inner hi he')⟩
  refine ⟨h13 _ fun e' he' k x data hx hrb => ?_, by rw [h11, nodeCount_keys]⟩
  obtain ⟨ke, hke⟩ := inTree_live hb he'
  have hce := (hci.elem ke e' hke).refs
  have hcx := (h9.elem k x hx).refs
  exact ⟨same_content hce hcx (henc ke e' hke) (hw e' he').1 hroom (h10 e' he') hrb, same_credit hm hi2.procs hts hs hce hcx hx (henc ke e' hke) (hw e' he').2 (h10 e' he') hpin hrb⟩

/-- A builder with attributes. -/
def Sample.el (t : ElementType) (as : List Attribute) : ElementData := as.foldl ElementData.setAttrib (.new t)

/-- A word with text, a lemma with a feature, part-of-speech annotations from two sets by two processors, and a chunk. -/
def Sample.creditOps : List Op := [
  .addProcessor (.node { id := "p1", name := "tokeniser" } []),
  .addProcessor (.node { id := "p2", name := "tagger" } [.node { id := "p3", name := "module" } []]),
  .addElementTo 0 ((Sample.el .sentence [.id "s1"]).addElement
    (((Sample.el .word [.id "w1", .set "tok", .cls "WORD", .processor "p1"]).addElement
      ((Sample.el .textContent [.set DEFAULT_TEXT_SET, .cls "current", .processor "p1"]).push (.text "Hello & bye"))).addElement
      (Sample.el .lemmaAnnotation [.set "lemmas", .cls "hello", .processor "p3"]))),
  .annotate 3 (Sample.el .posAnnotation [.set "brown", .cls "UH", .processor "p1"]),
  .annotate 3 (Sample.el .posAnnotation [.set "brown", .cls "NN", .processor "p2"]),
  .annotate 3 (Sample.el .posAnnotation [.set "ud", .cls "INTJ", .processor "p2"]),
  .addElementTo 2 (Sample.el .feature [.subset "kind", .cls "formal"]),
  .annotateSpan ((Sample.el .chunk [.set "chunks", .cls "NP", .processor "p2"]).withSpan ["w1"])]

/-- The document that results. -/
def Sample.creditDoc : Document := runOps Sample.F Sample.creditOps Sample.fresh

/-- The hypotheses of `C45_credit_partial` are met by a document with several declarations and processors. -/
example : Consistent Sample.X Sample.F Sample.creditDoc ∧ NoDates Sample.creditDoc ∧ Settled {} Sample.creditDoc ∧
    ∃ d', Rereads Sample.X Sample.F {} Sample.creditDoc d' ∧ RoomLeft d' ∧
    ∃ e items, Below Sample.creditDoc 0 e items ∧ LegibleIn (.node 0 e items) ∧
      ∀ e', InTree e' (.node 0 e items) → Rewritable Sample.X Sample.creditDoc e' ∧ Creditable Sample.X Sample.creditDoc e' := by
  refine ⟨Sample.consistent (by decide +kernel), noDates_of_check (by decide +kernel), settled_sound (by decide +kernel),
    Sample.value (Sample.reread Sample.creditDoc), Sample.reread_spec (Sample.value_eq (by decide +kernel)), roomLeft_sound (by decide +kernel), ?_⟩
  obtain ⟨e, items, h1, h2, h3⟩ := bodyOk_sound (X := Sample.X) (d := Sample.creditDoc) (n := 20) (by decide +kernel)
  exact ⟨e, items, h1, h2, fun e' he' => ⟨h3 e' he', creditable_sound (bodyAll_sound (n := 20) (by decide +kernel) h1 e' he')⟩⟩

/-- Sets can change: if a declaration has no processors it is not written, and neither is the set of its annotations. -/
theorem C45_set_counterexample : ∃ d d', Consistent Sample.X Sample.F d ∧ NoDates d ∧ Rereads Sample.X Sample.F {} d d' ∧
    (d.getElement 11).map (fun e => (e.elementtype, e.getClass d, e.getSet d)) = some (.chunk, .ok (some "NP"), .ok (some "chunks")) ∧
    (d'.getElement 9).map (fun e => (e.elementtype, e.getClass d', e.getSet d')) = some (.chunk, .ok (some "NP"), .ok none) :=
  ⟨Sample.doc, Sample.value (Sample.reread Sample.doc), Sample.doc_consistent, Sample.doc_nodates, Sample.reread_spec (Sample.value_eq (by decide +kernel)),
    by decide +kernel, by decide +kernel⟩

/-- A document with an empty body is written, and the result is rejected. -/
theorem C45_empty_counterexample : ∃ d evs, Consistent Sample.X Sample.F d ∧ NoDates d ∧ d.xml Sample.X 100 0 = .ok evs ∧
    Document.parse Sample.X Sample.F {} (checkEnds [] (readBack evs)) = .error (.err .parse) :=
  ⟨runOps Sample.F [] Sample.fresh, Sample.value (Sample.fresh.xml Sample.X 100 0), Sample.consistent (by decide +kernel), noDates_of_check (by decide +kernel),
    Sample.value_eq (by decide +kernel), Sample.parseError_eq (by decide +kernel)⟩

/-- A paragraph that starts with text, and with a comment. -/
def Sample.direct (x : Data) : List Op := [.addElementTo 0 (((ElementData.new .paragraph).setAttrib (.id "p")).push x)]

/-- The first data item of an element is the given text. -/
def Sample.startsText (s : String) (e : ElementData) : Bool := match e.data with
  | .text s' :: _ => decide (s' = s)
  | _ => false

/-- The first data item of an element is the given comment. -/
def Sample.startsComment (s : String) (e : ElementData) : Bool := match e.data with
  | .comment s' :: _ => decide (s' = s)
  | _ => false

/-- Text that directly starts a structural element comes back with a line feed in front. -/
theorem C45_text_counterexample : ∃ d d', Consistent Sample.X Sample.F d ∧ NoDates d ∧ Rereads Sample.X Sample.F {} d d' ∧
    (d.getElement 1).map (fun e => (e.elementtype, Sample.startsText "abc" e)) = some (.paragraph, true) ∧
    (d'.getElement 1).map (fun e => (e.elementtype, Sample.startsText "\nabc" e)) = some (.paragraph, true) := by
  let d := runOps Sample.F (Sample.direct (.text "abc")) Sample.fresh
  exact ⟨d, Sample.value (Sample.reread d), Sample.consistent (by decide +kernel), noDates_of_check (by decide +kernel), Sample.reread_spec (Sample.value_eq (by decide +kernel)),
    by decide +kernel, by decide +kernel⟩

/-- A comment with an ampersand comes back with an entity in its place. -/
theorem C45_comment_counterexample : ∃ d d', Consistent Sample.X Sample.F d ∧ NoDates d ∧ Rereads Sample.X Sample.F {} d d' ∧
    (d.getElement 1).map (fun e => (e.elementtype, Sample.startsComment "a & b" e)) = some (.paragraph, true) ∧
    (d'.getElement 1).map (fun e => (e.elementtype, Sample.startsComment "a &amp; b" e)) = some (.paragraph, true) := by
  let d := runOps Sample.F (Sample.direct (.comment "a & b")) Sample.fresh
  exact ⟨d, Sample.value (Sample.reread d), Sample.consistent (by decide +kernel), noDates_of_check (by decide +kernel), Sample.reread_spec (Sample.value_eq (by decide +kernel)),
    by decide +kernel, by decide +kernel⟩

/-- A chunking layer with an identifier and a set, and a chunk in it. -/
def Sample.layered : List Op := Sample.ops.take 2 ++ [.addElementTo 5 ((((ElementData.new .chunkingLayer).setAttrib (.id "l1")).setAttrib (.set "chunks")).addElement
  ((((ElementData.new .chunk).setAttrib (.set "chunks")).setAttrib (.cls "NP")).withSpan ["w1"]))]

/-- A layer whose set is the only one of its type loses its identifier. -/
theorem C45_layer_counterexample : ∃ d d', Consistent Sample.X Sample.F d ∧ NoDates d ∧ Rereads Sample.X Sample.F {} d d' ∧
    (d.getElement 8).map (fun e => (e.elementtype, e.id)) = some (.chunkingLayer, some "l1") ∧
    (d'.getElement 6).map (fun e => (e.elementtype, e.id)) = some (.chunkingLayer, none) ∧ d'.elementKeyById "l1" = some 6 := by
  let d := runOps Sample.F Sample.layered Sample.fresh
  exact ⟨d, Sample.value (Sample.reread d), Sample.consistent (by decide +kernel), noDates_of_check (by decide +kernel), Sample.reread_spec (Sample.value_eq (by decide +kernel)),
    by decide +kernel, by decide +kernel, by decide +kernel⟩

end Folia
