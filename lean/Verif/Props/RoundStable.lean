import Verif.Lemmas.RoundStable
import Verif.Props.RoundBody
/-! C64: a document that was written and read is written in the same way again. -/
namespace Folia
open Document

/-- A document that was written and read back is written as the same file again, apart from line feeds between the tags and from the two ways
to write an element without content: the same tags with the same attributes, the same texts and the same comments, in the same order.

Missing for the full claim: what `C45_credit_partial` and `C48_simple_partial` say about the document; see the counterexamples there and below. Elements with
a declaration must have a processor, unless the declaration has just one. For a layer without declaration, there must not be several
declarations of its type. -/
theorem C64_stable_partial {X : Ext} {F F' : Nat} {ps : DocumentProperties} {d d' : Document} (hr : Consistent X F d) (hps : ps.processor = none)
    {G : Nat} {evs : List WEvent} (hxml : d.xml X G 0 = .ok evs) (h : Document.parse X F' ps (checkEnds [] (readBack evs)) = .ok d')
    {e : ElementData} {items : List Item} (hb : Below d 0 e items) (hl : LegibleIn (.node 0 e items))
    (hw : ∀ e', InTree e' (.node 0 e items) → Rewritable X d e' ∧ Repeatable d e') (hroom : RoomLeft d') (hs : Settled ps d)
    (hn : (d.metadata.data.map (·.1)).Nodup) (hv : ∀ kv ∈ d.metadata.data, kv.2 ≠ "") (hsub : d.submetadata = []) :
    ∃ N, ∀ G', N ≤ G' → ∃ evs', d'.xml X G' 0 = .ok evs' ∧ squeeze evs' = squeeze evs := by
  obtain ⟨g1, g2, g3⟩ := C48_simple_partial hr hps ⟨G, evs, hxml, h⟩ hn hv hsub
  obtain ⟨ts, d2, e1, items1, B, h1, _, hty, hts, hm, hhead, hmono, hi2, h9, h10, h11, _, h13, h14, hfor⟩ :=
    round_tree hr.clean hr.forest hr.body hr.prov hxml hps h (by
      intro e1 items1 hb1
      obtain ⟨rfl, rfl⟩ := below_unique hb hb1
      exact ⟨hl, fun e' he' => (hw e' he').1.printable⟩)
  obtain ⟨rfl, rfl⟩ := below_unique hb h1
  have hci := hr.clean.cinv
  have henc := (cleanReachable_reachable hr.clean).encoded
  have hpin : Pinned d2 d' := by
    refine h14 (fun ts hts' => ?_) ?_ ?_
    · obtain ⟨k, dec, q1, q2, q3⟩ := hs.preset ts hts'
      obtain ⟨j, hj⟩ := decl_forth hm (fun k dec h => (hs.kept k dec h).1) q1
      exact ⟨j, _, by rw [← q2, ← q3]; exact hj⟩
    · exact asks_back hm hs (hci.elem 0 e hb.1).refs (henc 0 e hb.1) (hw e .here).2.feature (h10 e .here) (by rintro c' ⟨⟩) _
    · exact asksItems_back hm hs hci henc hr.forest.links items 0 e hb.1 (fun c hc => (hr.forest.links.agree 0 c).mp ⟨e, hb.1, by rw [hb.2.1]; exact hc⟩) hb.2.2
        fun i hi e' he' => ⟨(hw e' (.inner hi he')).2.feature, h10 e' (.inner hi he')⟩
  -- the parts of the output
  obtain ⟨m, tail, hmeta, hevs⟩ := xml_parts hxml
  obtain ⟨A, hA, e2, items2, hb2, htail⟩ := body_written hr.clean hr.forest hr.body hxml hmeta hevs
  obtain ⟨rfl, rfl⟩ := below_unique hb hb2
  have hr' : CleanReachable X F' d' := .parse (by rw [hps]; nofun) h
  have hbody' : d'.Live 0 := by
    have := h13 (fun _ _ => True) fun _ _ _ _ _ _ _ => trivial
    simp only [Matches] at this
    obtain ⟨x, hx, _⟩ := this
    exact ⟨x, hx⟩
  obtain ⟨A', hA', x, its, hx, N, hN⟩ := C36_document hr' hfor hbody'
  -- the body
  have hmatch := h13 (fun e' x => A' x = A e' ∧ x.elementtype = e'.elementtype) fun e' he' k x data hx hrb => by
    obtain ⟨ke, hke⟩ := inTree_live hb he'
    have hce := (hci.elem ke e' hke).refs
    have hcx := (h9.elem k x hx).refs
    have hsame := same_content hce hcx (henc ke e' hke) (hw e' he').1 hroom (h10 e' he') hrb
    exact ⟨attrsAre_unique (hA' k x hx) (attrs_stable hm hi2.procs hts hs hci (cleanReachable_reachable hr.clean).declsExact hce hcx (henc ke e' hke) (hw e' he').2
      (h10 e' he') hpin (hw e' he').1 hrb hsame (hA ke e' hke)), hsame.type⟩
  have hflat := flat_match (.node 0 e items) none 0 x its hmatch hx
  -- the metadata
  have hch : d'.chain = d2.chain := by rw [hhead]
  obtain ⟨N1, hN1⟩ := metadata_stable hts (by rw [hch]; exact stored_of_same (by rw [hhead]) hm.stored)
    (declarations_stable hm hi2.procs hts hs hci h9 hmono hpin) g1 g2 hmeta
  refine ⟨max N N1, fun G' hG => ⟨_, hN G' (by omega) m (hN1 G' (by omega)), ?_⟩⟩
  rw [hevs, htail, g3]
  simp only [squeeze_append, squeeze_item, hflat, wattr, nl, List.append_assoc]

/-- The hypotheses of `C64_stable_partial` are met by a document with several declarations and processors. -/
example : Consistent Sample.X Sample.F Sample.creditDoc ∧ NoDates Sample.creditDoc ∧ Settled {} Sample.creditDoc ∧
    (∃ d', Rereads Sample.X Sample.F {} Sample.creditDoc d' ∧ RoomLeft d') ∧
    (Sample.creditDoc.metadata.data.map (·.1)).Nodup ∧ (∀ kv ∈ Sample.creditDoc.metadata.data, kv.2 ≠ "") ∧ Sample.creditDoc.submetadata = [] ∧
    ∃ e items, Below Sample.creditDoc 0 e items ∧ LegibleIn (.node 0 e items) ∧
      ∀ e', InTree e' (.node 0 e items) → Rewritable Sample.X Sample.creditDoc e' ∧ Repeatable Sample.creditDoc e' := by
  refine ⟨Sample.consistent (by decide +kernel), noDates_of_check (by decide +kernel), settled_sound (by decide +kernel),
    ⟨Sample.value (Sample.reread Sample.creditDoc), Sample.reread_spec (Sample.value_eq (by decide +kernel)), roomLeft_sound (by decide +kernel)⟩,
    by decide +kernel, by decide +kernel, by decide +kernel, ?_⟩
  obtain ⟨e, items, h1, h2, h3⟩ := bodyOk_sound (X := Sample.X) (d := Sample.creditDoc) (n := 20) (by decide +kernel)
  exact ⟨e, items, h1, h2, fun e' he' => ⟨h3 e' he', repeatable_sound (X := Sample.X) (creditable_sound (bodyAll_sound (n := 20) (by decide +kernel) h1 e' he'))
    (bodyAll_sound (n := 20) (by decide +kernel) h1 e' he')⟩⟩

/-- What is written for the document, and what is written after reading that. -/
def Sample.twice (d : Document) : Res (List WEvent × List WEvent) := do
  let evs ← d.xml Sample.X 100 0
  let d' ← Document.parse Sample.X Sample.F {} (checkEnds [] (readBack evs))
  return (evs, ← d'.xml Sample.X 100 0)

theorem Sample.twice_spec {d : Document} {r : List WEvent × List WEvent} (h : Sample.twice d = .ok r) :
    ∃ d', d.xml Sample.X 100 0 = .ok r.1 ∧ Document.parse Sample.X Sample.F {} (checkEnds [] (readBack r.1)) = .ok d' ∧ d'.xml Sample.X 100 0 = .ok r.2 := by
  unfold Sample.twice at h
  simp only [bind, Except.bind, Pure.pure, Except.pure] at h
  cases h1 : d.xml Sample.X 100 0 with
  | error f => rw [h1] at h; cases h
  | ok evs =>
    rw [h1] at h
    simp only at h
    cases h2 : Document.parse Sample.X Sample.F {} (checkEnds [] (readBack evs)) with
    | error f => rw [h2] at h; cases h
    | ok d' =>
      rw [h2] at h
      simp only at h
      cases h3 : d'.xml Sample.X 100 0 with
      | error f => rw [h3] at h; cases h
      | ok evs' =>
        rw [h3] at h
        cases h
        exact ⟨d', rfl, h2, h3⟩

/-- Not every document is written in the same way again: a declaration without processors is lost. -/
theorem C64_counterexample : ∃ d d' evs evs', Consistent Sample.X Sample.F d ∧ NoDates d ∧ d.xml Sample.X 100 0 = .ok evs ∧
    Document.parse Sample.X Sample.F {} (checkEnds [] (readBack evs)) = .ok d' ∧ d'.xml Sample.X 100 0 = .ok evs' ∧ squeeze evs' ≠ squeeze evs := by
  obtain ⟨d', h1, h2, h3⟩ := Sample.twice_spec (d := Sample.doc) (r := Sample.value (Sample.twice Sample.doc)) (Sample.value_eq (by decide +kernel))
  exact ⟨Sample.doc, d', _, _, Sample.doc_consistent, Sample.doc_nodates, h1, h2, h3, by decide +kernel⟩

end Folia
