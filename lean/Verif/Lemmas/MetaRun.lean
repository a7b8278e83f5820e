import Verif.Parser
import Verif.Serialiser
import Verif.Props.Escape
import Verif.Lemmas.Provenance
import Verif.Lemmas.Build
/-! Reading back the metadata section. -/
namespace Folia
open Document

/-- The state of the metadata loop between written events: the document, the local variables and the text read so far. -/
abbrev WSt := Document × MetaSt × String

/-- The text event before a tag. -/
def flushText (st : MetaSt) (pend : String) : Res MetaSt :=
  if pend = "" then .ok st else match unescape pend with
    | some t => .ok { st with text := some t }
    | none => .error (.err .xml)

/-- What the metadata loop does with a written event. -/
def wStep : WSt → WEvent → Res WSt
  | (d, st, pend), .text s => .ok (d, st, pend ++ s)
  | (d, st, pend), .start t as => (flushText st pend).bind fun st => (metaStart d st .folia t (readAttrs [] as)).map fun r => (r.1, r.2, "")
  | (d, st, pend), .empty t as => (flushText st pend).bind fun st => (metaEmpty d st .folia t (readAttrs [] as)).map fun r => (r.1, r.2, "")
  | (d, st, pend), .endTag t => (flushText st pend).map fun st => ((metaEnd d st .folia t).1, (metaEnd d st .folia t).2, "")
  | (d, st, pend), .comment _ => (flushText st pend).map fun st => (d, st, "")

/-- A sequence of written events. -/
def wRun : WSt → List WEvent → Res WSt
  | s, [] => .ok s
  | s, ev :: evs => (wStep s ev).bind fun s => wRun s evs

theorem wRun_append {s s' : WSt} : ∀ {a b : List WEvent}, wRun s a = .ok s' → wRun s (a ++ b) = wRun s' b
  | [], b, h => by cases h; rfl
  | ev :: a, b, h => by
    simp only [wRun, List.cons_append] at h ⊢
    cases h1 : wStep s ev with
    | error e => rw [h1] at h; cases h
    | ok s1 => rw [h1] at h; exact wRun_append (s := s1) h

theorem wRun_cons {s s' : WSt} {ev : WEvent} {evs : List WEvent} (h : wStep s ev = .ok s') : wRun s (ev :: evs) = wRun s' evs := by
  simp only [wRun, h]; rfl

theorem parseMeta_flush {d : Document} {st st' : MetaSt} {pend : String} (h : flushText st pend = .ok st') (rest : List REvent) :
    parseMeta d st ((if pend = "" then [] else [.text pend]) ++ rest) = parseMeta d st' rest := by
  unfold flushText at h
  split at h
  · rename_i hp; cases h; rw [if_pos hp]; rfl
  · rename_i hp
    rw [if_neg hp]
    cases hu : unescape pend with
    | none => rw [hu] at h; cases h
    | some t =>
      rw [hu] at h
      cases h
      simp only [List.singleton_append, parseMeta, hu]

/-- The metadata loop on what the writer wrote. -/
theorem parseMeta_wRun : ∀ (evs : List WEvent) (d d' : Document) (st st' : MetaSt) (pend pend' : String), (∀ t, .endTag t ∈ evs → t ≠ "metadata") →
    wRun (d, st, pend) evs = .ok (d', st', pend') → ∀ rest, parseMeta d st (readBackAux pend (evs ++ rest)) = parseMeta d' st' (readBackAux pend' rest)
  | [], d, d', st, st', pend, pend', _, h, rest => by cases h; rfl
  | ev :: evs, d, d', st, st', pend, pend', hm, h, rest => by
    simp only [wRun] at h
    have ih := fun d1 st1 p1 h => parseMeta_wRun evs d1 d' st1 st' p1 pend' (fun t ht => hm t (List.mem_cons_of_mem _ ht)) h rest
    cases h1 : wStep (d, st, pend) ev with
    | error e => rw [h1] at h; cases h
    | ok s =>
      rw [h1] at h
      obtain ⟨d1, st1, p1⟩ := s
      have h : wRun (d1, st1, p1) evs = .ok (d', st', pend') := h
      rw [List.cons_append]
      cases ev with
      | text s =>
        cases h1
        simp only [readBackAux]
        exact ih _ _ _ h
      | start t as =>
        simp only [wStep] at h1
        cases hf : flushText st pend with
        | error e => rw [hf] at h1; cases h1
        | ok st0 =>
          rw [hf] at h1
          simp only [Except.bind] at h1
          cases hs : metaStart d st0 .folia t (readAttrs [] as) with
          | error e => rw [hs] at h1; cases h1
          | ok r =>
            rw [hs] at h1
            cases h1
            simp only [readBackAux]
            rw [parseMeta_flush hf]
            simp only [parseMeta, hs]
            exact ih _ _ _ h
      | empty t as =>
        simp only [wStep] at h1
        cases hf : flushText st pend with
        | error e => rw [hf] at h1; cases h1
        | ok st0 =>
          rw [hf] at h1
          simp only [Except.bind] at h1
          cases hs : metaEmpty d st0 .folia t (readAttrs [] as) with
          | error e => rw [hs] at h1; cases h1
          | ok r =>
            rw [hs] at h1
            cases h1
            simp only [readBackAux]
            rw [parseMeta_flush hf]
            simp only [parseMeta, hs]
            exact ih _ _ _ h
      | endTag t =>
        simp only [wStep] at h1
        cases hf : flushText st pend with
        | error e => rw [hf] at h1; cases h1
        | ok st0 =>
          rw [hf] at h1
          cases h1
          simp only [readBackAux]
          rw [parseMeta_flush hf]
          simp only [parseMeta]
          rw [if_neg (fun hc => hm t (List.mem_cons_self ..) hc.2)]
          exact ih _ _ _ h
      | comment s =>
        simp only [wStep] at h1
        cases hf : flushText st pend with
        | error e => rw [hf] at h1; cases h1
        | ok st0 =>
          rw [hf] at h1
          cases h1
          simp only [readBackAux]
          rw [parseMeta_flush hf]
          simp only [parseMeta]
          exact ih _ _ _ h

/-- Text that can be unescaped. -/
def Calm (pend : String) : Prop := pend = "" ∨ ∃ t, unescape pend = some t

theorem calm_empty : Calm "" := Or.inl rfl
theorem calm_nl : Calm "\n" := Or.inr ⟨"\n", by decide +kernel⟩

theorem flush_calm {pend : String} (h : Calm pend) (st : MetaSt) : ∃ tx, flushText st pend = .ok { st with text := tx } := by
  unfold flushText
  rcases h with rfl | ⟨t, ht⟩
  · exact ⟨st.text, by simp⟩
  · split
    · exact ⟨st.text, rfl⟩
    · rw [ht]; exact ⟨_, rfl⟩

/-! ### Attributes -/

theorem readAttrs_distinct : ∀ (as : List (String × String)) (seen : List String), (as.map (·.1)).Nodup → (∀ a ∈ as, a.1 ∉ seen) →
    readAttrs seen as = as.map fun a => .ok a.1 a.2
  | [], _, _, _ => rfl
  | (k, v) :: rest, seen, hn, hs => by
    rw [List.map_cons, List.nodup_cons] at hn
    simp only [readAttrs, List.map_cons]
    rw [if_neg (hs (k, v) (List.mem_cons_self ..)), readAttrs_distinct rest (k :: seen) hn.2]
    intro a ha
    rw [List.mem_cons, not_or]
    refine ⟨?_, hs a (List.mem_cons_of_mem _ ha)⟩
    rintro rfl
    exact hn.1 (List.mem_map.mpr ⟨a, ha, rfl⟩)

theorem readAttrs_nodup {as : List (String × String)} (h : (as.map (·.1)).Nodup) : readAttrs [] as = as.map fun a => .ok a.1 a.2 :=
  readAttrs_distinct as [] h fun _ _ => List.not_mem_nil

theorem forAttrs_append {σ : Type} (f : String → String → σ → σ) : ∀ (a b : List RAttr) (s s' : σ), forAttrs f a s = .ok s' →
    forAttrs f (a ++ b) s = forAttrs f b s'
  | [], b, s, s', h => by cases h; rfl
  | .bad :: _, _, _, _, h => by cases h
  | .ok k v :: rest, b, s, s', h => by
    simp only [forAttrs, List.cons_append] at h ⊢
    cases hu : unescape v with
    | none => rw [hu] at h; exact forAttrs_append f rest b s s' h
    | some x => rw [hu] at h; exact forAttrs_append f rest b _ s' h

theorem forAttrs_opt {σ : Type} (f : String → String → σ → σ) (k : String) (o : Option String) (s : σ) :
    forAttrs f ((wattrOpt k o).map fun a => .ok a.1 a.2) s = .ok (match o with | some v => f k v s | none => s) := by
  cases o with
  | none => rfl
  | some v => simp [wattrOpt, wattr, forAttrs, C38_unescape_escape]

/-! ### Processors -/

theorem parseProcessor_append : ∀ (a b : List RAttr) (p p' : Processor), parseProcessor p a = .ok p' → parseProcessor p (a ++ b) = parseProcessor p' b
  | [], b, p, p', h => by cases h; rfl
  | .bad :: rest, b, p, p', h => by
    simp only [parseProcessor, List.cons_append] at h ⊢
    exact parseProcessor_append rest b p p' h
  | .ok k v :: rest, b, p, p', h => by
    simp only [parseProcessor, List.cons_append] at h ⊢
    cases hu : unescape v with
    | none => rw [hu] at h; cases h
    | some x =>
      rw [hu] at h
      simp only at h ⊢
      cases ha : procAttr p k x with
      | none => rw [ha] at h; cases h
      | some q => rw [ha] at h; exact parseProcessor_append rest b q p' h

theorem parseProcessor_attr {p q : Processor} {k v : String} (h : procAttr p k v = some q) : parseProcessor p [.ok k (escape v)] = .ok q := by
  simp only [parseProcessor, C38_unescape_escape, h]

theorem parseProcessor_nonempty {p : Processor} {k v : String} (f : String → Processor) (h : procAttr p k v = some (f v)) (he : f "" = p) :
    parseProcessor p ((wattrNonempty k v).map fun a => .ok a.1 a.2) = .ok (f v) := by
  unfold wattrNonempty
  split
  · rename_i hv
    have : v = "" := by simpa using hv
    subst this
    rw [he]; rfl
  · exact parseProcessor_attr h

/-- A processor as the parser makes it. -/
def bareProc (p : Processor) : Processor := { p with processors := [], parent := none, key := none }

theorem procType_roundtrip (t : ProcessorType) : ProcessorType.fromStr t.asStr = some t := by cases t <;> decide +kernel

theorem procAttrs_nodup (p : Processor) : ((procAttrs p).map (·.1)).Nodup := by
  have hs : ((procAttrs p).map (·.1)).Sublist ["xml:id", "name", "type", "version", "folia_version", "document_version", "command", "host", "user",
      "begindatetime", "enddatetime", "src", "format", "resourcelink"] := by
    have h1 : ∀ k v, ((wattrNonempty k v).map (·.1)).Sublist [k] := by
      intro k v; unfold wattrNonempty; split <;> simp [wattr]
    have h2 : ∀ k v, ((wattrOpt k v).map (·.1)).Sublist [k] := by
      intro k v; cases v <;> simp [wattrOpt, wattr]
    unfold procAttrs
    simp only [List.map_append]
    exact ((((((((((((List.Sublist.refl ["xml:id", "name", "type"]).append (h1 _ _)).append (h1 _ _)).append (h1 _ _)).append (h1 _ _)).append (h1 _ _)).append
      (h1 _ _)).append (h2 _ _)).append (h2 _ _)).append (h1 _ _)).append (h1 _ _)).append (h1 _ _))
  exact hs.nodup (by decide +kernel)

theorem parseProcessor_written {p : Processor} (hb : p.begindatetime = none) (he : p.enddatetime = none) :
    parseProcessor {} (readAttrs [] (procAttrs p)) = .ok (bareProc p) := by
  rw [readAttrs_nodup (procAttrs_nodup p)]
  obtain ⟨id, name, ty, ver, fv, dv, cmd, host, user, bd, ed, procs, src, fmt, rl, par, key⟩ := p
  simp only at hb he
  subst hb he
  unfold procAttrs
  simp only [List.map_append]
  simp only [List.append_assoc]
  rw [parseProcessor_append _ _ _ { id, name, processortype := ty }]
  rotate_left
  · simp only [List.map_cons, List.map_nil, wattr, parseProcessor, C38_unescape_escape]
    simp [procAttr, procType_roundtrip]
  rw [parseProcessor_append _ _ _ _ (parseProcessor_nonempty (fun v => { id, name, processortype := ty, version := v }) (by simp [procAttr]) rfl)]
  rw [parseProcessor_append _ _ _ _ (parseProcessor_nonempty (fun v => { id, name, processortype := ty, version := ver, foliaVersion := v }) (by simp [procAttr]) rfl)]
  rw [parseProcessor_append _ _ _ _ (parseProcessor_nonempty (fun v => { id, name, processortype := ty, version := ver, foliaVersion := fv, documentVersion := v }) (by simp [procAttr]) rfl)]
  rw [parseProcessor_append _ _ _ _ (parseProcessor_nonempty (fun v => { id, name, processortype := ty, version := ver, foliaVersion := fv, documentVersion := dv, command := v }) (by simp [procAttr]) rfl)]
  rw [parseProcessor_append _ _ _ _ (parseProcessor_nonempty (fun v => { id, name, processortype := ty, version := ver, foliaVersion := fv, documentVersion := dv, command := cmd, host := v }) (by simp [procAttr]) rfl)]
  rw [parseProcessor_append _ _ _ _ (parseProcessor_nonempty (fun v => { id, name, processortype := ty, version := ver, foliaVersion := fv, documentVersion := dv, command := cmd, host, user := v }) (by simp [procAttr]) rfl)]
  simp only [Option.map_none, wattrOpt, List.map_nil, List.nil_append]
  rw [parseProcessor_append _ _ _ _ (parseProcessor_nonempty (fun v => { id, name, processortype := ty, version := ver, foliaVersion := fv, documentVersion := dv, command := cmd, host, user, src := v }) (by simp [procAttr]) rfl)]
  rw [parseProcessor_append _ _ _ _ (parseProcessor_nonempty (fun v => { id, name, processortype := ty, version := ver, foliaVersion := fv, documentVersion := dv, command := cmd, host, user, src, format := v }) (by simp [procAttr]) rfl)]
  rw [parseProcessor_nonempty (fun v => { id, name, processortype := ty, version := ver, foliaVersion := fv, documentVersion := dv, command := cmd, host, user, src, format := fmt, resourcelink := v }) (by simp [procAttr]) rfl]
  rfl

mutual
/-- A tree of processors as the parser makes it. -/
def bareTree : ProcTree → ProcTree
  | .node p ts => .node (bareProc p) (bareTrees ts)
/-- See `bareTree`. -/
def bareTrees : List ProcTree → List ProcTree
  | [] => []
  | t :: ts => bareTree t :: bareTrees ts
end

mutual
/-- No processor of the tree has a date and time. -/
def Undated : ProcTree → Prop
  | .node p ts => (p.begindatetime = none ∧ p.enddatetime = none) ∧ UndatedList ts
/-- See `Undated`. -/
def UndatedList : List ProcTree → Prop
  | [] => True
  | t :: ts => Undated t ∧ UndatedList ts
end

theorem addSub_split {parent k : Nat} {p : Processor} {ts : List ProcTree} {d d' : Document} (h : addSubprocessor parent (.node p ts) d = (.ok k, d')) :
    ∃ d2, addSubprocessor parent (.node p []) d = (.ok k, d2) ∧ addSubprocessors k ts d2 = (.ok (), d') := by
  simp only [addSubprocessor] at h ⊢
  obtain ⟨k', d1, h1, h⟩ := bind_ok h
  obtain ⟨_, d2, h2, h⟩ := bind_ok h
  obtain ⟨_, d3, h3, h⟩ := bind_ok h
  cases h
  refine ⟨d2, ?_, h3⟩
  rw [M.run_bind, h1]
  simp only
  rw [M.run_bind, h2]
  rfl

theorem addProc_split {k : Nat} {p : Processor} {ts : List ProcTree} {d d' : Document} (h : addProcessor (.node p ts) d = (.ok k, d')) :
    ∃ d2, addProcessor (.node p []) d = (.ok k, d2) ∧ addSubprocessors k ts d2 = (.ok (), d') := by
  simp only [addProcessor] at h ⊢
  obtain ⟨k', d1, h1, h⟩ := bind_ok h
  obtain ⟨_, d2, h2, h⟩ := bind_ok h
  obtain ⟨_, d3, h3, h⟩ := bind_ok h
  cases h
  refine ⟨d2, ?_, h3⟩
  rw [M.run_bind, h1]
  simp only
  rw [M.run_bind, h2]
  rfl

theorem mapErr_run {σ α : Type} {k : ErrKind} {m : M σ α} {s s' : σ} {a : α} (h : m s = (.ok a, s')) : M.mapErr k m s = (.ok a, s') := by
  unfold M.mapErr; rw [h]

theorem runDoc_ok {α : Type} {m : M Document α} {d d' : Document} {a : α} (h : m d = (.ok a, d')) : runDoc m d = .ok (a, d') := by
  unfold runDoc; rw [h]

/-- The tags of a processor. -/
theorem wStep_proc_empty {d d' : Document} {st : MetaSt} {pend : String} {p : Processor} {k : Nat} (hc : Calm pend) (hprov : st.prov = true)
    (hb : p.begindatetime = none) (he : p.enddatetime = none) (h : addParsedProcessor st (bareProc p) d = (.ok k, d')) :
    ∃ tx, wStep (d, st, pend) (.empty "processor" (procAttrs p)) = .ok (d', { st with text := tx }, "") := by
  obtain ⟨tx, hf⟩ := flush_calm hc st
  refine ⟨tx, ?_⟩
  have h' : addParsedProcessor { st with text := tx } (bareProc p) d = (.ok k, d') := h
  simp only [wStep, hf, Except.bind]
  unfold metaEmpty
  rw [if_pos ⟨rfl, rfl, hprov⟩, parseProcessor_written hb he]
  simp only [asParseError, bind, Except.bind, runDoc_ok h']
  rfl

theorem wStep_proc_start {d d' : Document} {st : MetaSt} {pend : String} {p : Processor} {k : Nat} (hc : Calm pend) (hprov : st.prov = true)
    (hb : p.begindatetime = none) (he : p.enddatetime = none) (h : addParsedProcessor st (bareProc p) d = (.ok k, d')) :
    ∃ tx, wStep (d, st, pend) (.start "processor" (procAttrs p)) = .ok (d', { st with text := tx, procStack := k :: st.procStack }, "") := by
  obtain ⟨tx, hf⟩ := flush_calm hc st
  refine ⟨tx, ?_⟩
  have h' : addParsedProcessor { st with text := tx } (bareProc p) d = (.ok k, d') := h
  simp only [wStep, hf, Except.bind]
  unfold metaStart
  rw [if_pos rfl, if_neg (by decide), if_neg (by decide), if_neg (by decide), if_neg (by decide), if_neg (by decide), if_pos ⟨rfl, hprov⟩,
    parseProcessor_written hb he]
  simp only [asParseError, bind, Except.bind, runDoc_ok h']
  rfl

theorem wStep_proc_end {d : Document} {st : MetaSt} {pend : String} (hc : Calm pend) (hprov : st.prov = true) :
    ∃ tx, wStep (d, st, pend) (.endTag "processor") = .ok (d, { st with text := tx, procStack := st.procStack.tail }, "") := by
  obtain ⟨tx, hf⟩ := flush_calm hc st
  refine ⟨tx, ?_⟩
  simp only [wStep, hf, Except.map]
  unfold metaEnd
  rw [if_pos rfl, if_neg (by decide), if_neg (by decide), if_neg (by decide), if_pos ⟨rfl, hprov⟩]

mutual
theorem wRun_sub : ∀ (t : ProcTree) (d d' : Document) (st : MetaSt) (pend : String) (parent k : Nat) (below : List Nat), Undated t → Calm pend →
    st.prov = true → st.procStack = parent :: below → addSubprocessor parent (bareTree t) d = (.ok k, d') →
    ∃ tx, wRun (d, st, pend) (procXml t) = .ok (d', { st with text := tx }, "\n")
  | .node p ts, d, d', st, pend, parent, k, below, hu, hc, hprov, hst, h => by
    simp only [Undated] at hu
    simp only [bareTree] at h
    obtain ⟨d2, h1, h2⟩ := addSub_split h
    have h3 : addParsedProcessor st (bareProc p) d = (.ok k, d2) := by
      unfold addParsedProcessor
      rw [hst]
      exact mapErr_run h1
    cases ts with
    | nil =>
      simp only [bareTrees, addSubprocessors] at h2
      cases h2
      obtain ⟨tx, h4⟩ := wStep_proc_empty hc hprov hu.1.1 hu.1.2 h3
      refine ⟨tx, ?_⟩
      simp only [procXml]
      rw [wRun_cons h4]
      rfl
    | cons t ts =>
      obtain ⟨tx, h4⟩ := wStep_proc_start hc hprov hu.1.1 hu.1.2 h3
      obtain ⟨tx2, pend2, h5, hc2⟩ := wRun_subs (t :: ts) d2 d' { st with text := tx, procStack := k :: st.procStack } "" k st.procStack hu.2 calm_empty hprov rfl h2
      obtain ⟨tx3, h6⟩ := wStep_proc_end (d := d') (st := { st with text := tx2, procStack := k :: st.procStack }) (pend := pend2) hc2 hprov
      refine ⟨tx3, ?_⟩
      simp only [procXml]
      rw [List.cons_append, wRun_cons h4, wRun_append h5, wRun_cons h6]
      rfl
theorem wRun_subs : ∀ (ts : List ProcTree) (d d' : Document) (st : MetaSt) (pend : String) (parent : Nat) (below : List Nat), UndatedList ts → Calm pend →
    st.prov = true → st.procStack = parent :: below → addSubprocessors parent (bareTrees ts) d = (.ok (), d') →
    ∃ tx pend', wRun (d, st, pend) (procsXml ts) = .ok (d', { st with text := tx }, pend') ∧ Calm pend'
  | [], d, d', st, pend, parent, below, _, hc, _, _, h => by
    simp only [bareTrees, addSubprocessors] at h
    cases h
    exact ⟨st.text, pend, by simp only [procsXml, wRun], hc⟩
  | t :: ts, d, d', st, pend, parent, below, hu, hc, hprov, hst, h => by
    simp only [UndatedList] at hu
    simp only [bareTrees, addSubprocessors] at h
    obtain ⟨k, d1, h1, h⟩ := bind_ok h
    obtain ⟨tx, h2⟩ := wRun_sub t d d1 st pend parent k below hu.1 hc hprov hst h1
    obtain ⟨tx2, pend2, h3, hc2⟩ := wRun_subs ts d1 d' { st with text := tx } "\n" parent below hu.2 calm_nl hprov hst h
    refine ⟨tx2, pend2, ?_, hc2⟩
    simp only [procsXml]
    rw [wRun_append h2, h3]
end

/-- Adding trees to the chain one after the other. -/
def addProcessors : List ProcTree → M Document Unit
  | [] => pure ()
  | t :: ts => do
    let _ ← addProcessor t
    addProcessors ts

theorem wRun_top (t : ProcTree) (d d' : Document) (st : MetaSt) (pend : String) (k : Nat) (hu : Undated t) (hc : Calm pend) (hprov : st.prov = true)
    (hst : st.procStack = []) (h : addProcessor (bareTree t) d = (.ok k, d')) : ∃ tx, wRun (d, st, pend) (procXml t) = .ok (d', { st with text := tx }, "\n") := by
  obtain ⟨p, ts⟩ := t
  simp only [Undated] at hu
  simp only [bareTree] at h
  obtain ⟨d2, h1, h2⟩ := addProc_split h
  have h3 : addParsedProcessor st (bareProc p) d = (.ok k, d2) := by
    unfold addParsedProcessor
    rw [hst]
    exact mapErr_run h1
  cases ts with
  | nil =>
    simp only [bareTrees, addSubprocessors] at h2
    cases h2
    obtain ⟨tx, h4⟩ := wStep_proc_empty hc hprov hu.1.1 hu.1.2 h3
    refine ⟨tx, ?_⟩
    simp only [procXml]
    rw [wRun_cons h4]
    rfl
  | cons t ts =>
    obtain ⟨tx, h4⟩ := wStep_proc_start hc hprov hu.1.1 hu.1.2 h3
    obtain ⟨tx2, pend2, h5, hc2⟩ := wRun_subs (t :: ts) d2 d' { st with text := tx, procStack := k :: st.procStack } "" k st.procStack hu.2 calm_empty hprov rfl h2
    obtain ⟨tx3, h6⟩ := wStep_proc_end (d := d') (st := { st with text := tx2, procStack := k :: st.procStack }) (pend := pend2) hc2 hprov
    refine ⟨tx3, ?_⟩
    simp only [procXml]
    rw [List.cons_append, wRun_cons h4, wRun_append h5, wRun_cons h6]
    rfl

theorem wRun_chain : ∀ (ts : List ProcTree) (d d' : Document) (st : MetaSt) (pend : String), UndatedList ts → Calm pend → st.prov = true → st.procStack = [] →
    addProcessors (bareTrees ts) d = (.ok (), d') → ∃ tx pend', wRun (d, st, pend) (procsXml ts) = .ok (d', { st with text := tx }, pend') ∧ Calm pend'
  | [], d, d', st, pend, _, hc, _, _, h => by
    simp only [bareTrees, addProcessors] at h
    cases h
    exact ⟨st.text, pend, by simp only [procsXml, wRun], hc⟩
  | t :: ts, d, d', st, pend, hu, hc, hprov, hst, h => by
    simp only [UndatedList] at hu
    simp only [bareTrees, addProcessors] at h
    obtain ⟨k, d1, h1, h⟩ := bind_ok h
    obtain ⟨tx, h2⟩ := wRun_top t d d1 st pend k hu.1 hc hprov hst h1
    obtain ⟨tx2, pend2, h3, hc2⟩ := wRun_chain ts d1 d' { st with text := tx } "\n" hu.2 calm_nl hprov hst h
    refine ⟨tx2, pend2, ?_, hc2⟩
    simp only [procsXml]
    rw [wRun_append h2, h3]

end Folia
