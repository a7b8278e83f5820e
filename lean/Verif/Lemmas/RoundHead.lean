import Verif.Lemmas.Dated
import Verif.Props.Provenance
/-! What a document has in front of its body after it has been written and read back. -/
namespace Folia
open Document

/-! ### No end of the metadata within the metadata -/

/-- The end of the metadata does not occur. -/
def NoMetaEnd (evs : List WEvent) : Prop := ∀ t, .endTag t ∈ evs → t ≠ "metadata"

theorem NoMetaEnd.append {a b : List WEvent} (ha : NoMetaEnd a) (hb : NoMetaEnd b) : NoMetaEnd (a ++ b) := fun t h =>
  (List.mem_append.mp h).elim (ha t) (hb t)
theorem NoMetaEnd.nil : NoMetaEnd [] := fun _ h => nomatch h
theorem NoMetaEnd.cons {e : WEvent} {b : List WEvent} (ha : ∀ t, e = .endTag t → t ≠ "metadata") (hb : NoMetaEnd b) : NoMetaEnd (e :: b) := fun t h =>
  (List.mem_cons.mp h).elim (fun h => ha t h.symm) (hb t)

theorem declarations_noEnd {d : Document} : ∀ (items : List (Option Declaration)) (evs : List WEvent), xmlDeclarationList d items = .ok evs → NoMetaEnd evs
  | [], evs, h => by cases h; exact .nil
  | none :: rest, evs, h => declarations_noEnd rest evs h
  | some dec :: rest, evs, h => by
    simp only [xmlDeclarationList] at h
    have hann : ∀ (ps : List Nat) (evs : List WEvent), xmlAnnotators d ps = .ok evs → NoMetaEnd evs := by
      intro ps
      induction ps with
      | nil => intro evs h; cases h; exact .nil
      | cons p ps ih =>
        intro evs h
        simp only [xmlAnnotators] at h
        cases hp : d.getProcessor p with
        | none => rw [hp] at h; cases h
        | some x =>
          rw [hp] at h
          simp only at h
          cases h2 : xmlAnnotators d ps with
          | error e => rw [h2] at h; cases h
          | ok evs2 =>
            rw [h2] at h
            cases h
            exact .cons nofun (ih _ h2)
    cases h1 : xmlDeclaration d dec with
    | error e => rw [h1] at h; cases h
    | ok evs1 =>
      rw [h1] at h
      simp only at h
      cases h2 : xmlDeclarationList d rest with
      | error e => rw [h2] at h; cases h
      | ok evs2 =>
        rw [h2] at h
        cases h
        refine .append ?_ (declarations_noEnd rest evs2 h2)
        unfold xmlDeclaration at h1
        split at h1
        · cases h1; exact .cons nofun (.cons nofun .nil)
        · cases h3 : xmlAnnotators d dec.processors with
          | error e => rw [h3] at h1; cases h1
          | ok evs3 =>
            rw [h3] at h1
            cases h1
            refine .cons nofun (.append (hann _ _ h3) (.cons ?_ (.cons nofun .nil)))
            rintro t ⟨⟩ ht
            exact declTag_ne dec (by rw [ht]; decide)

mutual
theorem procXml_noEnd : ∀ t : ProcTree, NoMetaEnd (procXml t)
  | .node p [] => by simp only [procXml]; exact .cons nofun (.cons nofun .nil)
  | .node p (t :: ts) => by
    simp only [procXml]
    refine .cons nofun (.append ?_ (.cons (by rintro t ⟨⟩; decide) (.cons nofun .nil)))
    simp only [procsXml]
    exact .append (procXml_noEnd t) (procsXml_noEnd ts)
theorem procsXml_noEnd : ∀ ts : List ProcTree, NoMetaEnd (procsXml ts)
  | [] => by simp only [procsXml]; exact .nil
  | t :: ts => by simp only [procsXml]; exact .append (procXml_noEnd t) (procsXml_noEnd ts)
end

theorem metas_noEnd : ∀ data : List (String × String), NoMetaEnd (xmlMetas data)
  | [] => by simp only [xmlMetas, List.flatMap_nil]; exact .nil
  | (k, v) :: rest => by
    rw [show (k, v) :: rest = [(k, v)] ++ rest from rfl, xmlMetas_append]
    refine .append ?_ (metas_noEnd rest)
    simp only [xmlMetas, List.flatMap_cons, List.flatMap_nil, List.append_nil]
    exact .cons nofun (.cons nofun (.cons (by rintro t ⟨⟩; decide) (.cons nofun .nil)))

theorem metadata_noEnd {d : Document} {G : Nat} {ts : List ProcTree} {m : List WEvent} (hp : concatRes (xmlProcessor d G) d.chain = .ok (procsXml ts))
    (h : xmlMetadata d G = .ok (m ++ [.endTag "metadata", nl])) : NoMetaEnd m := by
  unfold xmlMetadata at h
  simp only [bind, Except.bind, Pure.pure, Except.pure] at h
  cases hd0 : xmlDeclarations d with
  | error e => rw [hd0] at h; cases h
  | ok decs0 =>
  simp only [hd0, xmlProvenance, hp, Except.map] at h
  obtain ⟨decs, hd, rfl⟩ := xmlDeclarations_items hd0
  have := List.append_cancel_right (Except.ok.inj h)
  rw [← this, xmlMetas_sub]
  refine .append (.append (.append (.append (.cons nofun (.cons nofun .nil)) ?_) ?_) (metas_noEnd _)) (metas_noEnd _)
  · exact .append (.append (.cons nofun (.cons nofun .nil)) (declarations_noEnd _ _ hd)) (.cons (by rintro t ⟨⟩; decide) (.cons nofun .nil))
  · exact .append (.append (.cons nofun (.cons nofun .nil)) (procsXml_noEnd _)) (.cons (by rintro t ⟨⟩; decide) (.cons nofun .nil))

/-! ### Undated processors -/

/-- Neither the processor nor those below it have dates. -/
def UndatedBelow (d : Document) (k : Nat) : Prop := ∀ p x, d.ProcOver k p → d.getProcessor p = some x → x.begindatetime = none ∧ x.enddatetime = none

mutual
theorem undated_stored {lo : Nat} {d : Document} : ∀ (t : ProcTree) (par : Option Nat) (k : Nat), UndatedBelow d k → ProcStored lo d par k t → Undated t
  | .node p ts, par, k, hu, h => by
    simp only [ProcStored] at h
    obtain ⟨subs, _, h1, h2⟩ := h
    simp only [Undated]
    have h3 := hu _ _ (.here k) h1
    exact ⟨⟨h3.1, h3.2⟩, undatedList_stored ts _ _ (fun c hc q x hq => hu q x (.step ⟨_, h1, hc⟩ hq)) h2⟩
theorem undatedList_stored {lo : Nat} {d : Document} : ∀ (ts : List ProcTree) (par : Option Nat) (ks : List Nat), (∀ k ∈ ks, UndatedBelow d k) →
    ProcsStored lo d par ks ts → UndatedList ts
  | [], _, _, _, _ => by simp only [UndatedList]
  | t :: ts, par, ks, hu, h => by
    simp only [ProcsStored] at h
    obtain ⟨c, cs, rfl, h1, h2⟩ := h
    simp only [UndatedList]
    exact ⟨undated_stored t _ _ (hu c (List.mem_cons_self ..)) h1, undatedList_stored ts _ _ (fun k hk => hu k (List.mem_cons_of_mem _ hk)) h2⟩
end

mutual
theorem stored_undated {lo : Nat} {d : Document} : ∀ (t : ProcTree) (par : Option Nat) (k : Nat), Undated t → ProcStored lo d par k t → UndatedBelow d k
  | .node p ts, par, k, hu, h => by
    simp only [ProcStored] at h
    obtain ⟨subs, _, h1, h2⟩ := h
    simp only [Undated] at hu
    intro q x hq hx
    cases hq with
    | here => rw [h1] at hx; cases hx; exact hu.1
    | step hl hq =>
      obtain ⟨y, hy, hc⟩ := hl
      rw [h1] at hy
      cases hy
      exact storedList_undated ts _ _ hu.2 h2 _ hc q x hq hx
theorem storedList_undated {lo : Nat} {d : Document} : ∀ (ts : List ProcTree) (par : Option Nat) (ks : List Nat), UndatedList ts →
    ProcsStored lo d par ks ts → ∀ k ∈ ks, UndatedBelow d k
  | [], _, ks, _, h => by
    simp only [ProcsStored] at h
    subst h
    exact fun _ hk => nomatch hk
  | t :: ts, par, ks, hu, h => by
    simp only [ProcsStored] at h
    obtain ⟨c, cs, rfl, h1, h2⟩ := h
    simp only [UndatedList] at hu
    intro k hk
    rcases List.mem_cons.mp hk with rfl | hk
    · exact stored_undated t _ _ hu.1 h1
    · exact storedList_undated ts _ _ hu.2 h2 k hk
end

/-! ### Fuel -/

theorem concatRes_next {α : Type} {f g : α → Res (List WEvent)} (h : ∀ a, Fuelled (f a) (g a)) : ∀ l : List α, Fuelled (concatRes f l) (concatRes g l)
  | [] => .rfl
  | a :: as => by
    simp only [concatRes]
    rcases h a with h1 | h1
    · left; rw [h1]
    · rw [h1]
      cases f a with
      | error e => exact .rfl
      | ok evs =>
        rcases concatRes_next h as with h2 | h2
        · left; simp only [h2]; rfl
        · right; simp only [h2]

theorem xmlProcessor_next (d : Document) : ∀ n k, Fuelled (xmlProcessor d n k) (xmlProcessor d (n + 1) k)
  | 0, k => .inl rfl
  | n + 1, k => by
    unfold xmlProcessor
    cases d.getProcessor k with
    | none => exact .rfl
    | some p =>
      simp only
      cases p.processors with
      | nil => exact .rfl
      | cons a as =>
        simp only
        rcases concatRes_next (xmlProcessor_next d n) (a :: as) with h | h
        · left; rw [h]; rfl
        · right; rw [h]

/-! ### The head of the document that is read back -/

/-- The provenance as it was written. -/
theorem written_procs {X : Ext} {F : Nat} {d : Document} {G : Nat} {evs : List WEvent} (hr : CleanReachable X F d) (hp : d.ProvForest)
    (hxml : d.xml X G 0 = .ok evs) : ∃ ts, ProcsStored 0 d none d.chain ts ∧ concatRes (xmlProcessor d G) d.chain = .ok (procsXml ts) := by
  obtain ⟨ts, hts, _, _⟩ := C50_written hr hp
  have hwr : ∃ N, ∀ G, N ≤ G → concatRes (xmlProcessor d G) d.chain = .ok (procsXml ts) := xmlProcessors_tree ts d.chain none 0 hts
  obtain ⟨N2, hN2⟩ := hwr
  -- more fuel gives the same output
  have hpm : concatRes (xmlProcessor d G) d.chain = .ok (procsXml ts) := by
    obtain ⟨m, _, hm, _⟩ := xml_parts hxml
    unfold xmlMetadata at hm
    simp only [bind, Except.bind] at hm
    cases hd0 : xmlDeclarations d with
    | error e => rw [hd0] at hm; cases hm
    | ok decs0 =>
      rw [hd0] at hm
      simp only [xmlProvenance] at hm
      cases hc : concatRes (xmlProcessor d G) d.chain with
      | error e => rw [hc] at hm; cases hm
      | ok r =>
        have := fuelled_mono (f := fun n => concatRes (xmlProcessor d n) d.chain) (fun n => concatRes_next (xmlProcessor_next d n) _) hc (by simp)
          (Nat.le_max_left G N2)
        rw [hN2 _ (Nat.le_max_right G N2)] at this
        exact this.symm
  exact ⟨ts, hts, hpm⟩

/-- A document that is read back has no dates. -/
theorem round_undated {X : Ext} {F F' : Nat} {ps : DocumentProperties} {d d' : Document} {G : Nat} {evs : List WEvent} (hr : CleanReachable X F d) (hf : d.Forest)
    (hb : d.Live 0) (hp : d.ProvForest) (hxml : d.xml X G 0 = .ok evs) (h : Document.parse X F' ps (checkEnds [] (readBack evs)) = .ok d') :
    ∃ ts, ProcsStored 0 d none d.chain ts ∧ UndatedList ts := by
  obtain ⟨ts, hts, hpm⟩ := written_procs hr hp hxml
  exact ⟨ts, hts, reread_undated hpm hxml (C36_document_nested hr hf hb hxml) (fun m hm => metadata_noEnd hpm hm) h⟩

theorem round_parts {X : Ext} {F F' : Nat} {ps : DocumentProperties} {d d' : Document} {G : Nat} {evs : List WEvent} (hr : CleanReachable X F d) (hf : d.Forest)
    (hb : d.Live 0) (hp : d.ProvForest)
    (hxml : d.xml X G 0 = .ok evs) (hps : ps.processor = none) (h : Document.parse X F' ps (checkEnds [] (readBack evs)) = .ok d') :
    ∃ ts d2, ProcsStored 0 d none d.chain ts ∧ MetaBack d { autodeclare := ps.autodeclare, id := d.id, version := FOLIAVERSION } d2 ts ∧
      SameHead d2 d' ∧ DeclMono d2 d' ∧ ProcsExact d2 ∧ CInv d2 ∧ ∃ body rest m tail, runDoc (parseRest X F' ps body rest) d2 = .ok ((), d') ∧
      xmlMetadata d G = .ok m ∧ evs = [.start "FoLiA" [wattr "xmlns" NSFOLIA, wattr "xmlns:xlink" NSXLINK, wattr "xml:id" d.id,
          wattr "version" FOLIAVERSION, wattr "generator" GENERATOR], nl] ++ m ++ tail ∧ parseBody X (readBackAux "\n" tail) = .ok (some body, rest) := by
  obtain ⟨ts, hts, hpm⟩ := written_procs hr hp hxml
  obtain ⟨hids, hsz⟩ := forest_fresh hr hp hts
  have hx : DeclsExact d := hr.cinv.decls.exact
  have hlen : (keptDecls d.declarations.items).length ≤ cap16 := Nat.le_trans (keptDecls_length _) hr.caps.decls
  have hund : UndatedList ts := reread_undated hpm hxml (C36_document_nested hr hf hb hxml) (fun m hm => metadata_noEnd hpm hm) h
  obtain ⟨d2, body, rest, h1, hc2, hb2, h2, m, tail, hm', htail, hbody⟩ := parse_metadata hx hlen hids hsz hund hpm hxml (C36_document_nested hr hf hb hxml)
    (fun m hm => metadata_noEnd hpm hm) h
  refine ⟨ts, d2, hts, h1, ?_, ?_, hc2.procs, hc2, body, rest, m, tail, h2, hm', htail, hbody⟩
  · have hk := KeepsHead.parseRest X F' hps body rest d2
    unfold runDoc at h2
    rcases hm : parseRest X F' ps body rest d2 with ⟨f | u, d3⟩
    · rw [hm] at h2; cases h2
    · rw [hm] at h2 hk; cases h2; exact hk
  · exact ((runDoc_steps (C := True) (does_parseRest X F' ps (by intro _ p hp; rw [hps] at hp; cases hp) body hb2 _) hc2.ix h2).1.clean hc2).2

theorem round_head {X : Ext} {F F' : Nat} {ps : DocumentProperties} {d d' : Document} {G : Nat} {evs : List WEvent} (hr : CleanReachable X F d) (hf : d.Forest)
    (hb : d.Live 0) (hp : d.ProvForest)
    (hxml : d.xml X G 0 = .ok evs) (hps : ps.processor = none) (h : Document.parse X F' ps (checkEnds [] (readBack evs)) = .ok d') :
    ∃ ts d2, ProcsStored 0 d none d.chain ts ∧ MetaBack d { autodeclare := ps.autodeclare, id := d.id, version := FOLIAVERSION } d2 ts ∧
      SameHead d2 d' ∧ DeclMono d2 d' ∧ ProcsExact d2 := by
  obtain ⟨ts, d2, h1, h2, h3, h4, h5, _⟩ := round_parts hr hf hb hp hxml hps h
  exact ⟨ts, d2, h1, h2, h3, h4, h5⟩

end Folia
