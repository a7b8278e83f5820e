import Verif.Lemmas.MetaWhole
import Verif.Lemmas.Digits
/-! Processors with dates cannot be read. -/
namespace Folia
open Document

/-! ### The format of the dates -/

theorem takeDigits_sub : ∀ (n : Nat) (cs : List Char), ∀ c ∈ (takeDigits n cs).2, c ∈ cs
  | 0, cs, c, h => h
  | n + 1, [], c, h => h
  | n + 1, x :: cs, c, h => by
    simp only [takeDigits] at h
    split at h
    · exact List.mem_cons_of_mem _ (takeDigits_sub n cs c h)
    · exact h

theorem scanNumber_sub {n m : Nat} {cs r : List Char} (h : scanNumber n cs = some (m, r)) : ∀ c ∈ r, c ∈ cs := by
  unfold scanNumber at h
  have hs := takeDigits_sub n cs
  split at h
  · cases h
  · rename_i ds rest _ heq
    rw [heq] at hs
    simp only at h
    split at h
    · cases h; exact hs
    · cases h

theorem dropWs_sub (cs : List Char) : ∀ c ∈ cs.dropWhile isWs, c ∈ cs := fun _ h => (List.dropWhile_suffix _).subset h

theorem scanned_sub {n : Nat} {cs r : List Char} {g : DTFields} (k : Nat → DTFields)
    (h : ((scanNumber n (cs.dropWhile isWs)).map fun (x : Nat × List Char) => (k x.1, x.2)) = some (g, r)) : ∀ c ∈ r, c ∈ cs := by
  cases hs : scanNumber n (cs.dropWhile isWs) with
  | none => rw [hs] at h; cases h
  | some x =>
    rw [hs] at h
    cases h
    exact fun c hc => dropWs_sub cs c (scanNumber_sub hs c hc)

theorem parseItem_sub {f g : DTFields} {cs r : List Char} {i : DTItem} (h : parseItem f cs i = some (g, r)) : ∀ c ∈ r, c ∈ cs := by
  cases i with
  | lit s =>
    simp only [parseItem] at h
    split at h
    · cases h; exact fun c hc => List.mem_of_mem_drop hc
    · cases h
  | year =>
    simp only [parseItem] at h
    have hd := dropWs_sub cs
    split at h
    · rename_i r' heq
      rw [heq] at hd
      cases hs : scanNumber r'.length r' with
      | none => rw [hs] at h; cases h
      | some x => rw [hs] at h; cases h; exact fun c hc => hd c (List.mem_cons_of_mem _ (scanNumber_sub hs c hc))
    · rename_i r' heq
      rw [heq] at hd
      cases hs : scanNumber r'.length r' with
      | none => rw [hs] at h; cases h
      | some x => rw [hs] at h; cases h; exact fun c hc => hd c (List.mem_cons_of_mem _ (scanNumber_sub hs c hc))
    · exact scanned_sub (fun n => { f with year := n }) h
  | month => exact scanned_sub (fun n => { f with month := n }) h
  | day => exact scanned_sub (fun n => { f with day := n }) h
  | hour => exact scanned_sub (fun n => { f with hour := n }) h
  | minute => exact scanned_sub (fun n => { f with minute := n }) h
  | second => exact scanned_sub (fun n => { f with second := n }) h

/-- A literal of the format occurs in the input. -/
theorem parseItems_lit : ∀ (is : List DTItem) (f g : DTFields) (cs r s : List Char), parseItems f cs is = some (g, r) → .lit s ∈ is → ∀ c ∈ s, c ∈ cs
  | i :: is, f, g, cs, r, s, h, hm => by
    simp only [parseItems] at h
    cases h1 : parseItem f cs i with
    | none => rw [h1] at h; cases h
    | some x =>
      obtain ⟨f1, cs1⟩ := x
      rw [h1] at h
      intro c hc
      rcases List.mem_cons.mp hm with rfl | hm
      · simp only [parseItem] at h1
        split at h1
        · rename_i hp
          exact (List.isPrefixOf_iff_prefix.mp hp).subset hc
        · cases h1
      · exact parseItem_sub h1 c (parseItems_lit is f1 g cs1 r s h hm c hc)

theorem padNat_noDollar (w n : Nat) : '$' ∉ padNat w n := fun h => absurd (padNat_isDigit h) (by decide)

theorem format_noDollar (dt : DateTime) : '$' ∉ dt.format := by
  have hy : '$' ∉ fmtYear dt.year := by
    unfold fmtYear
    split
    · exact padNat_noDollar _ _
    · split
      · simp [padNat_noDollar]
      · simp [padNat_noDollar]
  simp [DateTime.format, hy, padNat_noDollar]

/-- No date is read with the format in which the parser reads those of processors. -/
theorem parse_dollar (dt : DateTime) : DateTime.parse fmtDollarS dt.format = none := by
  unfold DateTime.parse
  cases h : parseItems {} dt.format fmtDollarS with
  | none => rfl
  | some x =>
    exact absurd (parseItems_lit _ _ x.1 _ x.2 [':', '$', 'S'] h (by simp [fmtDollarS]) '$' (by simp)) (format_noDollar dt)

/-! ### Processors -/

theorem parseProcessor_mem (as : List RAttr) (p' : Processor) (k v : String) (hm : .ok k v ∈ as) : ∀ p, parseProcessor p as = .ok p' →
    ∃ w q r, unescape v = some w ∧ procAttr q k w = some r := by
  induction as with
  | nil => cases hm
  | cons a as ih =>
    intro p h
    cases a with
    | bad =>
      rcases List.mem_cons.mp hm with hm | hm
      · cases hm
      · exact ih hm p h
    | ok k' v' =>
      simp only [parseProcessor] at h
      cases hu : unescape v' with
      | none => rw [hu] at h; cases h
      | some w =>
        rw [hu] at h
        simp only at h
        cases hp : procAttr p k' w with
        | none => rw [hp] at h; cases h
        | some q =>
          rw [hp] at h
          rcases List.mem_cons.mp hm with hm | hm
          · obtain ⟨rfl, rfl⟩ := RAttr.ok.inj hm
            exact ⟨w, p, q, hu, hp⟩
          · exact ih hm q h

theorem wattrOpt_mem {k v : String} {o : Option String} (h : o = some v) : (k, escape v) ∈ wattrOpt k o := by
  subst h; simp [wattrOpt, wattr]

theorem parseProcessor_undated {p q : Processor} (h : parseProcessor {} (readAttrs [] (procAttrs p)) = .ok q) :
    p.begindatetime = none ∧ p.enddatetime = none := by
  rw [readAttrs_nodup (procAttrs_nodup p)] at h
  have key : ∀ (k : String) (o : Option DateTime), (k = "begindatetime" ∨ k = "enddatetime") →
      (∀ a ∈ wattrOpt k (o.map fun dt => String.ofList dt.format), a ∈ procAttrs p) → o = none := by
    intro k o hk hin
    cases o with
    | none => rfl
    | some dt =>
      exfalso
      have hm := hin _ (wattrOpt_mem rfl)
      obtain ⟨w, q', r, hu, hp⟩ := parseProcessor_mem _ _ k (escape (String.ofList dt.format)) (List.mem_map.mpr ⟨_, hm, rfl⟩) _ h
      rw [C38_unescape_escape] at hu
      cases hu
      rcases hk with rfl | rfl
      · simp [procAttr, parse_dollar] at hp
      · simp [procAttr, parse_dollar] at hp
  refine ⟨key "begindatetime" _ (.inl rfl) fun a ha => ?_, key "enddatetime" _ (.inr rfl) fun a ha => ?_⟩
  · unfold procAttrs; simp only [List.mem_append]; simp [ha]
  · unfold procAttrs; simp only [List.mem_append]; simp [ha]

theorem flushText_prov {st st' : MetaSt} {pend : String} (h : flushText st pend = .ok st') : st'.prov = st.prov := by
  unfold flushText at h
  split at h
  · cases h; rfl
  · split at h
    · cases h; rfl
    · cases h

theorem asParseError_ok' {α : Type} {r : Res α} {a : α} (h : asParseError r = .ok a) : r = .ok a := by
  unfold asParseError at h
  cases r with
  | ok x => exact h
  | error e => cases e <;> cases h

/-- A processor that is read has no dates. -/
theorem wStep_proc {d : Document} {st : MetaSt} {pend : String} {p : Processor} {s : WSt} (hp : st.prov = true)
    (h : wStep (d, st, pend) (.start "processor" (procAttrs p)) = .ok s ∨ wStep (d, st, pend) (.empty "processor" (procAttrs p)) = .ok s) :
    (p.begindatetime = none ∧ p.enddatetime = none) ∧ s.2.1.prov = true := by
  simp only [wStep] at h
  cases hf : flushText st pend with
  | error e => rw [hf] at h; rcases h with h | h <;> cases h
  | ok st0 =>
    have hp0 : st0.prov = true := (flushText_prov hf).trans hp
    rw [hf] at h
    simp only [Except.bind] at h
    rcases h with h | h
    · simp [metaStart, hp0, bind, Except.bind, pure, Except.pure] at h
      cases h1 : asParseError (parseProcessor {} (readAttrs [] (procAttrs p))) with
      | error e => rw [h1] at h; cases h
      | ok q =>
        refine ⟨parseProcessor_undated (asParseError_ok' h1), ?_⟩
        rw [h1] at h
        simp only at h
        cases h2 : runDoc (addParsedProcessor st0 q) d with
        | error e => rw [h2] at h; cases h
        | ok r => rw [h2] at h; cases h; rfl
    · simp [metaEmpty, hp0, bind, Except.bind, pure, Except.pure] at h
      cases h1 : asParseError (parseProcessor {} (readAttrs [] (procAttrs p))) with
      | error e => rw [h1] at h; cases h
      | ok q =>
        refine ⟨parseProcessor_undated (asParseError_ok' h1), ?_⟩
        rw [h1] at h
        simp only at h
        cases h2 : runDoc (addParsedProcessor st0 q) d with
        | error e => rw [h2] at h; cases h
        | ok r => rw [h2] at h; cases h; exact hp0

theorem wStep_proc_close {s s' : WSt} (hp : s.2.1.prov = true) (h : wStep s (.endTag "processor") = .ok s') : s'.2.1.prov = true := by
  obtain ⟨d, st, pend⟩ := s
  simp only [wStep] at h
  cases hf : flushText st pend with
  | error e => rw [hf] at h; cases h
  | ok st0 =>
    have hp0 : st0.prov = true := (flushText_prov hf).trans hp
    rw [hf] at h
    cases h
    simp [metaEnd, hp0]

theorem wStep_nl {s s' : WSt} (h : wStep s nl = .ok s') : s'.2.1 = s.2.1 := by
  obtain ⟨d, st, pend⟩ := s
  cases h; rfl

theorem wRun_split {s s' : WSt} : ∀ {a b : List WEvent}, wRun s (a ++ b) = .ok s' → ∃ s1, wRun s a = .ok s1 ∧ wRun s1 b = .ok s'
  | [], b, h => ⟨s, rfl, h⟩
  | ev :: a, b, h => by
    simp only [wRun, List.cons_append] at h ⊢
    cases h1 : wStep s ev with
    | error e => rw [h1] at h; cases h
    | ok s1 => rw [h1] at h; exact wRun_split (s := s1) h

theorem wRun_first {s s' : WSt} {ev : WEvent} {evs : List WEvent} (h : wRun s (ev :: evs) = .ok s') : ∃ s1, wStep s ev = .ok s1 ∧ wRun s1 evs = .ok s' := by
  simp only [wRun] at h
  cases h1 : wStep s ev with
  | error e => rw [h1] at h; cases h
  | ok s1 => rw [h1] at h; exact ⟨s1, rfl, h⟩

mutual
/-- Processors that are read have no dates. -/
theorem wRun_undated : ∀ (t : ProcTree) (s s' : WSt), s.2.1.prov = true → wRun s (procXml t) = .ok s' → Undated t ∧ s'.2.1.prov = true
  | .node p [], s, s', hp, h => by
    simp only [procXml] at h
    obtain ⟨s1, h1, h⟩ := wRun_first h
    obtain ⟨s2, h2, h⟩ := wRun_first h
    cases h
    obtain ⟨hu, hp1⟩ := wStep_proc (s := s1) (d := s.1) (st := s.2.1) (pend := s.2.2) hp (.inr h1)
    simp only [Undated, UndatedList]
    exact ⟨⟨hu, trivial⟩, by rw [wStep_nl h2]; exact hp1⟩
  | .node p (t :: ts), s, s', hp, h => by
    simp only [procXml] at h
    obtain ⟨s1, h1, h⟩ := wRun_first h
    obtain ⟨s2, h2, h⟩ := wRun_split h
    obtain ⟨s3, h3, h⟩ := wRun_first h
    obtain ⟨s4, h4, h⟩ := wRun_first h
    cases h
    obtain ⟨hu, hp1⟩ := wStep_proc (s := s1) (d := s.1) (st := s.2.1) (pend := s.2.2) hp (.inl h1)
    simp only [procsXml] at h2
    obtain ⟨s5, h5, h6⟩ := wRun_split h2
    obtain ⟨hu1, hp5⟩ := wRun_undated t s1 s5 hp1 h5
    obtain ⟨hu2, hp2⟩ := wRun_undatedList ts s5 s2 hp5 h6
    simp only [Undated, UndatedList]
    exact ⟨⟨hu, hu1, hu2⟩, by rw [wStep_nl h4]; exact wStep_proc_close hp2 h3⟩
/-- See `wRun_undated`. -/
theorem wRun_undatedList : ∀ (ts : List ProcTree) (s s' : WSt), s.2.1.prov = true → wRun s (procsXml ts) = .ok s' → UndatedList ts ∧ s'.2.1.prov = true
  | [], s, s', hp, h => by
    simp only [procsXml] at h
    cases h
    simp only [UndatedList]
    exact ⟨trivial, hp⟩
  | t :: ts, s, s', hp, h => by
    simp only [procsXml] at h
    obtain ⟨s1, h1, h2⟩ := wRun_split h
    obtain ⟨hu1, hp1⟩ := wRun_undated t s s1 hp h1
    obtain ⟨hu2, hp2⟩ := wRun_undatedList ts s1 s' hp1 h2
    simp only [UndatedList]
    exact ⟨⟨hu1, hu2⟩, hp2⟩
end

/-! ### The metadata loop -/

theorem parseMeta_flush_error {d : Document} {st : MetaSt} {pend : String} {e : Fault} (h : flushText st pend = .error e) (rest : List REvent) :
    ∃ f, parseMeta d st ((if pend = "" then [] else [.text pend]) ++ rest) = .error f := by
  unfold flushText at h
  split at h
  · cases h
  · rename_i hp
    rw [if_neg hp]
    cases hu : unescape pend with
    | none => exact ⟨.err .xml, by simp only [List.singleton_append, parseMeta, hu]⟩
    | some t => rw [hu] at h; cases h

/-- Metadata that are read were read event by event. -/
theorem wRun_parseMeta : ∀ (evs : List WEvent) (d : Document) (st : MetaSt) (pend : String) (rest : List WEvent) (r : Document × List REvent),
    (∀ t, .endTag t ∈ evs → t ≠ "metadata") → parseMeta d st (readBackAux pend (evs ++ rest)) = .ok r → ∃ s, wRun (d, st, pend) evs = .ok s
  | [], d, st, pend, rest, r, _, _ => ⟨_, rfl⟩
  | ev :: evs, d, st, pend, rest, r, hm, h => by
    have ih := fun d1 st1 p1 h => wRun_parseMeta evs d1 st1 p1 rest r (fun t ht => hm t (List.mem_cons_of_mem _ ht)) h
    cases h1 : wStep (d, st, pend) ev with
    | ok s =>
      obtain ⟨d1, st1, p1⟩ := s
      have := parseMeta_wRun [ev] d d1 st st1 pend p1 (fun t ht => hm t (by rw [List.mem_singleton.mp ht]; exact List.mem_cons_self ..))
        (by simp only [wRun, h1]; rfl) (evs ++ rest)
      rw [List.singleton_append, ← List.cons_append] at this
      rw [this] at h
      obtain ⟨s, hs⟩ := ih _ _ _ h
      exact ⟨s, by rw [wRun_cons h1]; exact hs⟩
    | error e =>
      exfalso
      rw [List.cons_append] at h
      cases ev with
      | text s => cases h1
      | start t as =>
        simp only [wStep] at h1
        simp only [readBackAux] at h
        cases hf : flushText st pend with
        | error e =>
          obtain ⟨f, hf'⟩ := parseMeta_flush_error hf (.start .folia t (readAttrs [] as) :: readBackAux "" (evs ++ rest))
          rw [hf'] at h; cases h
        | ok st0 =>
          rw [hf] at h1
          rw [parseMeta_flush hf] at h
          simp only [Except.bind] at h1
          simp only [parseMeta] at h
          cases hs : metaStart d st0 .folia t (readAttrs [] as) with
          | error e => rw [hs] at h; cases h
          | ok r => rw [hs] at h1; cases h1
      | empty t as =>
        simp only [wStep] at h1
        simp only [readBackAux] at h
        cases hf : flushText st pend with
        | error e =>
          obtain ⟨f, hf'⟩ := parseMeta_flush_error hf (.empty .folia t (readAttrs [] as) :: readBackAux "" (evs ++ rest))
          rw [hf'] at h; cases h
        | ok st0 =>
          rw [hf] at h1
          rw [parseMeta_flush hf] at h
          simp only [Except.bind] at h1
          simp only [parseMeta] at h
          cases hs : metaEmpty d st0 .folia t (readAttrs [] as) with
          | error e => rw [hs] at h; cases h
          | ok r => rw [hs] at h1; cases h1
      | endTag t =>
        simp only [wStep] at h1
        simp only [readBackAux] at h
        cases hf : flushText st pend with
        | error e =>
          obtain ⟨f, hf'⟩ := parseMeta_flush_error hf (.endTag .folia t :: readBackAux "" (evs ++ rest))
          rw [hf'] at h; cases h
        | ok st0 => rw [hf] at h1; cases h1
      | comment c =>
        simp only [wStep] at h1
        simp only [readBackAux] at h
        cases hf : flushText st pend with
        | error e =>
          obtain ⟨f, hf'⟩ := parseMeta_flush_error hf (.comment c :: readBackAux "" (evs ++ rest))
          rw [hf'] at h; cases h
        | ok st0 => rw [hf] at h1; cases h1

/-- Reading the start of the provenance. -/
theorem wStep_prov {s s' : WSt} (h : wStep s (.start "provenance" []) = .ok s') : s'.2.1.prov = true := by
  obtain ⟨d, st, pend⟩ := s
  simp only [wStep] at h
  cases hf : flushText st pend with
  | error e => rw [hf] at h; cases h
  | ok st0 =>
    rw [hf] at h
    simp [Except.bind, metaStart, pure, Except.pure, Except.map] at h
    rw [← h]

/-- A document that is read back has no dated processors in its chain. -/
theorem reread_undated {X : Ext} {F : Nat} {ps : DocumentProperties} {d d' : Document} {G : Nat} {ts : List ProcTree} {evs : List WEvent}
    (hp : concatRes (xmlProcessor d G) d.chain = .ok (procsXml ts)) (hxml : d.xml X G 0 = .ok evs) (hnest : nesting [] evs = some [])
    (hend : ∀ m, xmlMetadata d G = .ok (m ++ [.endTag "metadata", nl]) → ∀ t, .endTag t ∈ m → t ≠ "metadata")
    (h : Document.parse X F ps (checkEnds [] (readBack evs)) = .ok d') : UndatedList ts := by
  have hce := checkEnds_readBackAux evs [] [] "" hnest
  rw [List.map_nil] at hce
  unfold readBack at h
  rw [hce] at h
  obtain ⟨m, tail, hm, rfl⟩ := xml_parts hxml
  have hm' := hm
  unfold xmlMetadata at hm'
  simp only [bind, Except.bind, Pure.pure, Except.pure] at hm'
  cases hd0 : xmlDeclarations d with
  | error e => rw [hd0] at hm'; cases hm'
  | ok decs =>
    simp only [hd0, xmlProvenance, hp, Except.map] at hm'
    cases hm'
    have hno := hend _ hm
    generalize hin : [WEvent.start "metadata" (wattrOpt "type" d.metadata.metadatatype ++ wattrOpt "src" d.metadata.src), nl] ++ decs ++
      ([.start "provenance" [], nl] ++ procsXml ts ++ [.endTag "provenance", nl]) ++ xmlMetas d.metadata.data ++ d.submetadata.flatMap (fun sm => xmlMetas sm.2.data) = inner at h hno
    have h1 := parseRoot_written { autodeclare := ps.autodeclare } d ((inner ++ [.endTag "metadata", nl]) ++ tail)
    unfold Document.parse at h
    unfold readBack at h1
    rw [← List.append_assoc] at h1
    rw [h1] at h
    simp only [bind, Except.bind, pure, Except.pure] at h
    rw [List.append_assoc inner] at h
    cases h2 : parseMeta { autodeclare := ps.autodeclare, id := d.id, version := FOLIAVERSION } {} (readBackAux "\n" (inner ++ ([.endTag "metadata", nl] ++ tail))) with
    | error e => rw [h2] at h; cases h
    | ok r =>
      obtain ⟨s, hs⟩ := wRun_parseMeta inner _ _ _ _ _ hno h2
      rw [← hin] at hs
      simp only [List.append_assoc] at hs
      rw [← List.append_assoc [_, _] decs] at hs
      obtain ⟨s1, _, hs⟩ := wRun_split hs
      obtain ⟨s2, h3, hs⟩ := wRun_first hs
      obtain ⟨s3, h4, hs⟩ := wRun_first hs
      obtain ⟨s4, h5, _⟩ := wRun_split (a := procsXml ts) hs
      refine (wRun_undatedList ts s3 s4 ?_ h5).1
      rw [wStep_nl h4]
      exact wStep_prov h3

end Folia
