import Verif.Lemmas.MetaBack
/-! Reading back the metadata section as a whole, in a new document. -/
namespace Folia
open Document

theorem storedDecls_length : ∀ (kept : List Declaration) (n : Nat), (storedDecls n kept).length = kept.length
  | [], _ => rfl
  | _ :: rest, n => by simp [storedDecls, storedDecls_length rest]

/-- A document without metadata. -/
structure BlankMeta (d : Document) : Prop where
  procs : d.processors = {}
  chain : d.chain = []
  decls : d.declarations = {}
  info : d.metadata = {}

theorem xmlDeclarations_items {d : Document} {evs : List WEvent} (h : xmlDeclarations d = .ok evs) : ∃ decs, xmlDeclarationList d d.declarations.items = .ok decs ∧
    evs = [.start "annotations" [], nl] ++ decs ++ [.endTag "annotations", nl] := by
  unfold xmlDeclarations at h
  cases h1 : xmlDeclarationList d d.declarations.items with
  | error e => rw [h1] at h; cases h
  | ok decs => rw [h1] at h; cases h; exact ⟨decs, rfl, rfl⟩

theorem getProcessor_of_same {d d' : Document} (h : d'.processors = d.processors) (k : Nat) : d'.getProcessor k = d.getProcessor k := by
  unfold Document.getProcessor; rw [h]

theorem stored_of_same {d d' : Document} (h : d'.processors = d.processors) {lo : Nat} {par : Option Nat} {ks : List Nat} {ts : List ProcTree}
    (hs : ProcsStored lo d par ks ts) : ProcsStored lo d' par ks ts :=
  procsStored_mono (Nat.le_refl _) (fun j x _ hx => by rw [getProcessor_of_same h]; exact hx) _ _ _ hs

theorem wRun_metadata {d d1 : Document} {F : Nat} {ts : List ProcTree} {m : List WEvent} (hb : BlankMeta d1) (hx : DeclsExact d)
    (hlen : (keptDecls d.declarations.items).length ≤ cap16) (hts : (procIdsList ts).Nodup) (hsz : procSizeList ts ≤ cap16) (hu : UndatedList ts)
    (hp : concatRes (xmlProcessor d F) d.chain = .ok (procsXml ts)) (h : xmlMetadata d F = .ok m) :
    ∃ inner d2 st pend, m = inner ++ [.endTag "metadata", nl] ∧ wRun (d1, {}, "\n") inner = .ok (d2, st, pend) ∧ Calm pend ∧ MetaBack d d1 d2 ts := by
  unfold xmlMetadata at h
  simp only [bind, Except.bind, Pure.pure, Except.pure] at h
  cases hd0 : xmlDeclarations d with
  | error e => rw [hd0] at h; cases h
  | ok decs0 =>
  cases hpv : xmlProvenance d F with
  | error e => rw [hd0, hpv] at h; cases h
  | ok prov =>
  rw [hd0, hpv] at h
  cases h
  obtain ⟨decs, hd, rfl⟩ := xmlDeclarations_items hd0
  simp only [xmlProvenance, hp, Except.map] at hpv
  cases hpv
  let D : List (String × String) := d.metadata.data ++ d.submetadata.flatMap fun sm => sm.2.data
  -- the start tag
  obtain ⟨tx1, e1⟩ := wStep_metadata d1 {} "\n" calm_nl d.metadata.metadatatype d.metadata.src
  rw [hb.info] at e1
  simp only [Option.or_none] at e1
  let da : Document := { d1 with metadata := { metadatatype := d.metadata.metadatatype, src := d.metadata.src } }
  obtain ⟨tx2, e2⟩ := wStep_annotations da { text := tx1 } "\n" calm_nl
  -- the declarations
  have hda : da.declarations = {} := hb.decls
  obtain ⟨s, tx3, p3, e3, c3, hi, hxs⟩ := wRun_decls (d := d) d.declarations.items decs da { text := tx2, decls := true } "\n" hd calm_nl rfl rfl
    (by show da.declarations.Exact _; rw [hda]; exact Store.Exact.empty) (keptDecls_pairwise _ (declsExact_pairwise hx))
    (by intro j a hj; unfold Document.getDeclaration at hj; rw [hda] at hj; simp [Store.get] at hj)
    (by rw [hda]; simpa [Store.len] using hlen)
  rw [hda] at hi e3
  simp only [Store.len, List.length_nil, List.nil_append] at hi e3
  let db : Document := { da with declarations := s }
  obtain ⟨tx4, e4⟩ := wStep_annotations_end db { text := tx3, decls := true, annotators := newAnnots d 0 (keptDecls d.declarations.items) } p3 c3
  obtain ⟨tx5, e5⟩ := wStep_provenance db { text := tx4, annotators := newAnnots d 0 (keptDecls d.declarations.items) } "\n" calm_nl
  -- the processors
  have hpr : db.processors = {} := hb.procs
  obtain ⟨dc, ks, ec, hc⟩ := addProcessors_added (ts := bareTrees ts) (d := db) (bareTrees_spec 0 db ts none []).2.2.2
    (by rw [(bareTrees_spec 0 db ts none []).2.1]
        refine ⟨hts, fun id _ => ?_⟩
        unfold Document.processorKeyById
        rw [hpr]
        rfl)
    (by rw [(bareTrees_spec 0 db ts none []).2.2.1, hpr]; simpa [Store.len] using hsz)
  obtain ⟨tx6, p6, e6, c6⟩ := wRun_chain ts db dc { text := tx5, prov := true, annotators := newAnnots d 0 (keptDecls d.declarations.items) } "\n" hu calm_nl rfl rfl ec
  obtain ⟨tx7, e7⟩ := wStep_provenance_end dc { text := tx6, prov := true, annotators := newAnnots d 0 (keptDecls d.declarations.items) } p6 c6
  have hdcd : dc.declarations = s := by rw [hc.same]
  obtain ⟨s2, a1, a2, a3, a4⟩ := assignAnnotators_spec (newAnnots d 0 (keptDecls d.declarations.items)) dc (by show dc.declarations.Exact _; rw [hdcd]; exact hxs)
  rw [a1] at e7
  -- the keys and values
  obtain ⟨tx8, mid, p8, e8, c8⟩ := wRun_metas D { dc with declarations := s2 }
    { text := tx7, annotators := newAnnots d 0 (keptDecls d.declarations.items) } "\n" calm_nl rfl
  have hdcm : dc.metadata = { metadatatype := d.metadata.metadatatype, src := d.metadata.src } := by rw [hc.same]
  refine ⟨[.start "metadata" (wattrOpt "type" d.metadata.metadatatype ++ wattrOpt "src" d.metadata.src), nl] ++
      ([.start "annotations" [], nl] ++ decs ++ [.endTag "annotations", nl]) ++ ([.start "provenance" [], nl] ++ procsXml ts ++ [.endTag "provenance", nl]) ++ xmlMetas D,
    { dc with declarations := s2, metadata := { dc.metadata with data := insertValues dc.metadata.data D } },
    { text := tx8, metaId := mid, annotators := newAnnots d 0 (keptDecls d.declarations.items) }, p8, ?_, ?_, c8, ?_⟩
  · simp only [D, xmlMetas_append, xmlMetas_sub, List.append_assoc]
  · simp only [List.append_assoc, List.cons_append, List.nil_append]
    rw [wRun_cons e1, wRun_cons (s' := (da, { text := tx1 }, "\n")) rfl, wRun_cons e2, wRun_cons (s' := (da, { text := tx2, decls := true }, "\n")) rfl, wRun_append e3, wRun_cons e4,
      wRun_cons (s' := (db, { text := tx4, annotators := newAnnots d 0 (keptDecls d.declarations.items) }, "\n")) rfl, wRun_cons e5,
      wRun_cons (s' := (db, { text := tx5, prov := true, annotators := newAnnots d 0 (keptDecls d.declarations.items) }, "\n")) rfl, wRun_append e6, wRun_cons e7,
      wRun_cons (s' := ({ dc with declarations := s2 }, { text := tx7, annotators := newAnnots d 0 (keptDecls d.declarations.items) }, "\n")) rfl]
    exact e8
  · have hchain : dc.chain = ks := by rw [hc.same]; simp [db, da, hb.chain]
    refine ⟨?_, ?_, ?_, fun j => ?_, ?_, a3, ?_, ?_, ?_⟩
    · rw [hc.same]
    · show ProcsStored 0 _ none dc.chain ts
      rw [hchain]
      apply stored_of_same (d := dc) (by rfl)
      have := (bareTrees_spec 0 dc ts none ks).1.mp
      apply this
      have hst := hc.stored
      rw [hpr] at hst
      exact hst
    · have hnone : ∀ k, db.getProcessor k = none := fun k => by unfold Document.getProcessor; rw [hpr]; rfl
      have hl := hc.links ⟨fun p c => ⟨fun ⟨x, hx, _⟩ => by (rw [hnone] at hx; cases hx), fun ⟨x, hx, _⟩ => by (rw [hnone] at hx; cases hx)⟩,
        fun p x hx => by (rw [hnone] at hx; cases hx), fun _ => 0, fun p c ⟨x, hx, _⟩ => by (rw [hnone] at hx; cases hx)⟩
      exact ⟨hl.agree, hl.once, hl.height⟩
    · show s2.get j = _
      rw [a4 j]
      unfold Document.getDeclaration
      rw [hdcd]
      unfold Store.get
      rw [hi, storedDecls_get]
      rw [annotated_new]
      simp only [Nat.not_lt_zero, if_false, Nat.sub_zero, Nat.zero_add]
      cases (keptDecls d.declarations.items)[j]? with
      | none => rfl
      | some dec => rfl
    · show s2.items.length = _
      rw [a2, hdcd, hi, storedDecls_length]
    · simp only [hdcm]
    · simp only [hdcm]
    · simp only [hdcm, D]

/-! ### Whole documents -/

theorem checkEnds_pend (opened : List (Ns × String)) (pend : String) (evs : List REvent) :
    checkEnds opened ((if pend = "" then [] else [.text pend]) ++ evs) = (if pend = "" then [] else [.text pend]) ++ checkEnds opened evs := by
  split
  · rfl
  · cases opened <;> rfl

/-- Well nested events pass the check of the end tags. -/
theorem checkEnds_readBackAux : ∀ (evs : List WEvent) (st st' : List String) (pend : String), nesting st evs = some st' →
    checkEnds (st.map fun t => (.folia, t)) (readBackAux pend evs) = readBackAux pend evs
  | [], st, st', pend, _ => by
    simp only [readBackAux]
    split
    · cases st <;> rfl
    · cases st <;> rfl
  | .text s :: rest, st, st', pend, h => by
    simp only [readBackAux]
    exact checkEnds_readBackAux rest st st' (pend ++ s) (by cases st <;> exact h)
  | .start t as :: rest, st, st', pend, h => by
    simp only [readBackAux, checkEnds_pend, checkEnds]
    have := checkEnds_readBackAux rest (t :: st) st' "" (by cases st <;> exact h)
    rw [List.map_cons] at this
    rw [this]
  | .empty t as :: rest, st, st', pend, h => by
    simp only [readBackAux, checkEnds_pend]
    have := checkEnds_readBackAux rest st st' "" (by cases st <;> exact h)
    cases st with
    | nil => simp only [List.map_nil, checkEnds] at this ⊢; rw [this]
    | cons a st => simp only [List.map_cons, checkEnds] at this ⊢; rw [this]
  | .comment s :: rest, st, st', pend, h => by
    simp only [readBackAux, checkEnds_pend]
    have := checkEnds_readBackAux rest st st' "" (by cases st <;> exact h)
    cases st with
    | nil => simp only [List.map_nil, checkEnds] at this ⊢; rw [this]
    | cons a st => simp only [List.map_cons, checkEnds] at this ⊢; rw [this]
  | .endTag t :: rest, [], st', pend, h => by simp [nesting] at h
  | .endTag t :: rest, a :: st, st', pend, h => by
    simp only [nesting] at h
    split at h
    · rename_i ht
      subst ht
      simp only [readBackAux, checkEnds_pend, List.map_cons, checkEnds, if_pos]
      rw [checkEnds_readBackAux rest st st' "" h]
    · cases h

theorem xml_parts {X : Ext} {d : Document} {G : Nat} {evs : List WEvent} (h : d.xml X G 0 = .ok evs) : ∃ m body, xmlMetadata d G = .ok m ∧
    evs = [.start "FoLiA" [wattr "xmlns" NSFOLIA, wattr "xmlns:xlink" NSXLINK, wattr "xml:id" d.id, wattr "version" FOLIAVERSION,
            wattr "generator" GENERATOR], nl] ++ m ++ body := by
  unfold Document.xml at h
  simp only [bind, Except.bind, Pure.pure, Except.pure] at h
  cases h1 : xmlMetadata d G with
  | error f => rw [h1] at h; cases h
  | ok m =>
    rw [h1] at h
    simp only at h
    cases h2 : xmlElements X d G 0 with
    | error f => rw [h2] at h; cases h
    | ok body =>
      rw [h2] at h
      cases h
      exact ⟨m, body ++ [nl, .endTag "FoLiA"], rfl, by simp only [List.append_assoc]⟩

theorem parseRoot_written (d0 : Document) (d : Document) (rest : List WEvent) :
    parseRoot d0 (readBack ([.start "FoLiA" [wattr "xmlns" NSFOLIA, wattr "xmlns:xlink" NSXLINK, wattr "xml:id" d.id, wattr "version" FOLIAVERSION,
            wattr "generator" GENERATOR], nl] ++ rest)) = .ok ({ d0 with id := d.id, version := FOLIAVERSION }, readBackAux "\n" rest) := by
  show parseRoot d0 (readBackAux "" _) = _
  simp only [List.cons_append, List.nil_append, readBackAux, nl, if_pos]
  have hn : readAttrs [] [wattr "xmlns" NSFOLIA, wattr "xmlns:xlink" NSXLINK, wattr "xml:id" d.id, wattr "version" FOLIAVERSION, wattr "generator" GENERATOR] =
      [.ok "xmlns" (escape NSFOLIA), .ok "xmlns:xlink" (escape NSXLINK), .ok "xml:id" (escape d.id), .ok "version" (escape FOLIAVERSION), .ok "generator" (escape GENERATOR)] := by
    simp [wattr, readAttrs]
  rw [hn]
  simp only [parseRoot, rootAttrs, C38_unescape_escape]
  simp [Except.map]

/-- What remains to be read after the metadata, and from what document. -/
theorem parse_metadata {X : Ext} {F : Nat} {ps : DocumentProperties} {d d' : Document} {G : Nat} {ts : List ProcTree} {evs : List WEvent} (hx : DeclsExact d)
    (hlen : (keptDecls d.declarations.items).length ≤ cap16) (hts : (procIdsList ts).Nodup) (hsz : procSizeList ts ≤ cap16) (hu : UndatedList ts)
    (hp : concatRes (xmlProcessor d G) d.chain = .ok (procsXml ts)) (hxml : d.xml X G 0 = .ok evs) (hnest : nesting [] evs = some [])
    (hend : ∀ m, xmlMetadata d G = .ok (m ++ [.endTag "metadata", nl]) → ∀ t, .endTag t ∈ m → t ≠ "metadata")
    (h : Document.parse X F ps (checkEnds [] (readBack evs)) = .ok d') :
    ∃ d2 body rest, MetaBack d { autodeclare := ps.autodeclare, id := d.id, version := FOLIAVERSION } d2 ts ∧ CInv d2 ∧
      (CleanAttribs body.attribs ∧ body.data = [] ∧ body.parent = none) ∧ runDoc (parseRest X F ps body rest) d2 = .ok ((), d') ∧
      ∃ m tail, xmlMetadata d G = .ok m ∧ evs = [.start "FoLiA" [wattr "xmlns" NSFOLIA, wattr "xmlns:xlink" NSXLINK, wattr "xml:id" d.id,
          wattr "version" FOLIAVERSION, wattr "generator" GENERATOR], nl] ++ m ++ tail ∧ parseBody X (readBackAux "\n" tail) = .ok (some body, rest) := by
  have hce := checkEnds_readBackAux evs [] [] "" hnest
  rw [List.map_nil] at hce
  unfold readBack at h
  rw [hce] at h
  obtain ⟨m, tail, hm, rfl⟩ := xml_parts hxml
  obtain ⟨inner, d2, st, pend, rfl, hw, hcp, hmb⟩ := wRun_metadata
    (d1 := { autodeclare := ps.autodeclare, id := d.id, version := FOLIAVERSION }) ⟨rfl, rfl, rfl, rfl⟩ hx hlen hts hsz hu hp hm
  have h1 := parseRoot_written { autodeclare := ps.autodeclare } d (inner ++ [.endTag "metadata", nl] ++ tail)
  rw [← List.append_assoc] at h1
  unfold Document.parse at h
  unfold readBack at h1
  rw [h1] at h
  simp only [bind, Except.bind, pure, Except.pure] at h
  have h2 := parseMeta_wRun inner _ _ _ _ _ _ (hend _ hm) hw ([.endTag "metadata", nl] ++ tail)
  rw [← List.append_assoc] at h2
  rw [h2] at h
  have h3 : ∃ evs', parseMeta d2 st (readBackAux pend ([.endTag "metadata", nl] ++ tail)) = .ok (d2, evs') ∧ evs' = readBackAux "\n" tail := by
    simp only [List.cons_append, List.nil_append, readBackAux]
    obtain ⟨tx, hf⟩ := flush_calm hcp st
    rw [parseMeta_flush hf]
    exact ⟨_, by simp only [parseMeta]; rfl, by simp only [nl, readBackAux]; rfl⟩
  obtain ⟨evs', h3, hevs'⟩ := h3
  rw [h3] at h
  simp only at h
  cases h4 : parseBody X evs' with
  | error f => rw [h4] at h; cases h
  | ok r =>
    obtain ⟨ob, rest⟩ := r
    rw [h4] at h
    cases ob with
    | none => cases h
    | some body =>
      simp only at h
      cases h5 : runDoc (parseRest X F ps body rest) d2 with
      | error f => rw [h5] at h; cases h
      | ok r =>
        obtain ⟨u, d3⟩ := r
        rw [h5] at h
        cases h
        refine ⟨d2, body, rest, hmb, ?_, parseBody_clean h4, h5, _, tail, hm, rfl, by rw [← hevs']; exact h4⟩
        have hc : CInv { autodeclare := ps.autodeclare, id := d.id, version := FOLIAVERSION } := Prim.cinv (d := {}) (.admin rfl rfl rfl rfl rfl) cinv_empty
        rw [h3] at h2
        exact ((parseMeta_steps (C := True) _ hc.ix h2).clean hc).1

end Folia
