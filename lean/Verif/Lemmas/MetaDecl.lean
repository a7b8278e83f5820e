import Verif.Lemmas.MetaRun
import Verif.Lemmas.Decl
import Verif.Props.Tables
/-! Reading back the declarations. -/
namespace Folia
open Document

theorem declTag_parse (dec : Declaration) : getDeclarationType (declTag dec) = .ok dec.annotationtype := by
  have h : ∀ t ∈ AnnotationType.all, getDeclarationType (t.asStr ++ "-annotation") = .ok t := by decide +kernel
  exact h _ (AnnotationType.mem_all _)

theorem declTag_ne (dec : Declaration) : declTag dec ∉ ["metadata", "annotations", "provenance", "submetadata", "meta", "processor", "annotator"] := by
  have h : ∀ t ∈ AnnotationType.all, t.asStr ++ "-annotation" ∉ ["metadata", "annotations", "provenance", "submetadata", "meta", "processor", "annotator"] := by
    decide +kernel
  exact h _ (AnnotationType.mem_all _)

/-- A declaration as the parser makes it from its tag. -/
def bareDecl (dec : Declaration) : Declaration := Declaration.new dec.annotationtype dec.set dec.alias dec.format

theorem declAttrs_nodup (dec : Declaration) : ((declAttrs dec).map (·.1)).Nodup := by
  have h2 : ∀ k v, ((wattrOpt k v).map (·.1)).Sublist [k] := by
    intro k v; cases v <;> simp [wattrOpt, wattr]
  have hs : ((declAttrs dec).map (·.1)).Sublist ["set", "alias", "format"] := by
    unfold declAttrs
    simp only [List.map_append]
    exact ((h2 _ _).append (h2 _ _)).append (h2 _ _)
  exact hs.nodup (by decide +kernel)

theorem parseDeclaration_written (dec : Declaration) : parseDeclaration (declTag dec) (readAttrs [] (declAttrs dec)) = .ok (bareDecl dec) := by
  rw [readAttrs_nodup (declAttrs_nodup dec)]
  unfold parseDeclaration
  rw [declTag_parse]
  simp only [bind, Except.bind]
  unfold declAttrs
  simp only [List.map_append, List.append_assoc]
  rw [forAttrs_append _ _ _ _ _ (forAttrs_opt _ "set" dec.set _), forAttrs_append _ _ _ _ _ (forAttrs_opt _ "alias" dec.alias _),
    forAttrs_opt _ "format" dec.format _]
  unfold bareDecl Declaration.new
  cases dec.set <;> cases dec.alias <;> cases dec.format <;> rfl

/-- Identifiers of processors. -/
def procNames (d : Document) (ps : List Nat) : List String := ps.filterMap fun p => (d.getProcessor p).map (·.id)

theorem wRun_annotators {d : Document} : ∀ (ps : List Nat) (evs : List WEvent) (d1 : Document) (st : MetaSt) (pend : String) (dk : Nat),
    xmlAnnotators d ps = .ok evs → Calm pend → st.decls = true → st.decKey = some dk →
    ∃ tx pend', wRun (d1, st, pend) evs = .ok (d1, { st with text := tx, annotators := st.annotators ++ (procNames d ps).map fun id => (dk, id) }, pend') ∧
      Calm pend'
  | [], evs, d1, st, pend, dk, h, hc, hd, hk => by
    cases h
    exact ⟨st.text, pend, by simp [procNames, wRun], hc⟩
  | p :: ps, evs, d1, st, pend, dk, h, hc, hd, hk => by
    simp only [xmlAnnotators] at h
    cases hp : d.getProcessor p with
    | none => rw [hp] at h; cases h
    | some proc =>
      rw [hp] at h
      simp only at h
      cases ht : xmlAnnotators d ps with
      | error e => rw [ht] at h; cases h
      | ok evs' =>
        rw [ht] at h
        cases h
        obtain ⟨tx, hf⟩ := flush_calm hc st
        have h1 : wStep (d1, st, pend) (.empty "annotator" [wattr "processor" proc.id]) =
            .ok (d1, { st with text := tx, annotators := st.annotators ++ [(dk, proc.id)] }, "") := by
          simp only [wStep, hf, Except.bind]
          unfold metaEmpty
          rw [if_neg (fun h => absurd h.2.1 (by decide)), if_pos ⟨rfl, rfl, hd⟩]
          simp [wattr, readAttrs, forAttrs, C38_unescape_escape, bind, Except.bind, hk, pure, Except.pure, Except.map]
        obtain ⟨tx2, pend2, h2, hc2⟩ := wRun_annotators ps evs' d1 { st with text := tx, annotators := st.annotators ++ [(dk, proc.id)] } "" dk ht calm_empty hd hk
        refine ⟨tx2, pend2, ?_, hc2⟩
        rw [wRun_cons h1, h2]
        simp [procNames, hp]

/-- Adding a declaration for a new type and set. -/
theorem addDeclaration_fresh {d : Document} {dec : Declaration} (hx : DeclsExact d)
    (hn : ∀ j a, d.getDeclaration j = some a → ¬ (a.annotationtype = dec.annotationtype ∧ a.set = dec.set)) (hcap : d.declarations.len < cap16) :
    ∃ st, addDeclaration dec d = (.ok d.declarations.len, { d with declarations := st }) ∧ st.items = d.declarations.items ++ [some { dec with key := some d.declarations.len }] ∧
      st.Exact Declaration.key := by
  have hex := hx.add cap16 dec (fun _ _ => rfl) (fun _ _ => rfl)
  rcases Store.add_spec cap16 d.declarations dec with ⟨id, k, h1, h2, _⟩ | ⟨_, h1⟩ | ⟨_, _, s', heq, hi, _, _⟩
  · exfalso
    obtain ⟨a, ha, hid⟩ := (hx.index id k).mp h2
    have h1 : some (Declaration.indexId dec.annotationtype dec.set) = some id := h1
    have hid : some (Declaration.indexId a.annotationtype a.set) = some id := hid
    rw [← h1] at hid
    exact hn k a ha (Declaration.indexId_inj (Option.some.inj hid))
  · exfalso
    have : d.declarations.len = d.declarations.items.length := rfl
    omega
  · refine ⟨s', ?_, hi, by rw [heq] at hex; exact hex⟩
    unfold addDeclaration onDeclarations
    dsimp only
    rw [heq]
    rfl

/-- The declarations that are written with a start tag. -/
def keptDecls : List (Option Declaration) → List Declaration
  | [] => []
  | none :: rest => keptDecls rest
  | some dec :: rest => if dec.processors = [] then keptDecls rest else dec :: keptDecls rest

/-- The declarations as the parser stores them. -/
def storedDecls : Nat → List Declaration → List (Option Declaration)
  | _, [] => []
  | n, dec :: rest => some { bareDecl dec with key := some n } :: storedDecls (n + 1) rest

/-- The annotators as the parser collects them. -/
def newAnnots (d : Document) : Nat → List Declaration → List (Nat × String)
  | _, [] => []
  | n, dec :: rest => (procNames d dec.processors).map (fun id => (n, id)) ++ newAnnots d (n + 1) rest

/-- Two declarations for the same type and set. -/
def SameDecl (a b : Declaration) : Prop := a.annotationtype = b.annotationtype ∧ a.set = b.set

theorem wStep_decl_empty {d : Document} {st : MetaSt} {pend : String} (dec : Declaration) (hc : Calm pend) :
    ∃ tx, wStep (d, st, pend) (.empty (declTag dec) (declAttrs dec)) = .ok (d, { st with text := tx }, "") := by
  obtain ⟨tx, hf⟩ := flush_calm hc st
  have hn := declTag_ne dec
  refine ⟨tx, ?_⟩
  simp only [wStep, hf, Except.bind]
  unfold metaEmpty
  rw [if_neg (fun h => hn (by rw [h.2.1]; decide)), if_neg (fun h => hn (by rw [h.2.1]; decide))]
  rfl

theorem wStep_decl_start {d d' : Document} {st : MetaSt} {pend : String} {k : Nat} (dec : Declaration) (hc : Calm pend) (hd : st.decls = true)
    (h : addDeclaration (bareDecl dec) d = (.ok k, d')) :
    ∃ tx, wStep (d, st, pend) (.start (declTag dec) (declAttrs dec)) = .ok (d', { st with text := tx, decKey := some k }, "") := by
  obtain ⟨tx, hf⟩ := flush_calm hc st
  have hn := declTag_ne dec
  refine ⟨tx, ?_⟩
  simp only [wStep, hf, Except.bind]
  unfold metaStart
  rw [if_pos rfl, if_neg (fun h => hn (by rw [h]; decide)), if_neg (fun h => hn (by rw [h]; decide)), if_neg (fun h => hn (by rw [h]; decide)),
    if_neg (fun h => hn (by rw [h]; decide)), if_neg (fun h => hn (by rw [h]; decide)), if_neg (fun h => hn (by rw [h.1]; decide)), if_pos hd,
    parseDeclaration_written]
  simp only [asParseError, bind, Except.bind, runDoc_ok (mapErr_run h)]
  rfl

theorem wStep_decl_end {d : Document} {st : MetaSt} {pend : String} (dec : Declaration) (hc : Calm pend) (hd : st.decls = true) :
    ∃ tx, wStep (d, st, pend) (.endTag (declTag dec)) = .ok (d, { st with text := tx, decKey := none }, "") := by
  obtain ⟨tx, hf⟩ := flush_calm hc st
  have hn := declTag_ne dec
  refine ⟨tx, ?_⟩
  simp only [wStep, hf, Except.map]
  unfold metaEnd
  rw [if_pos rfl, if_neg (fun h => hn (by rw [h]; decide)), if_neg (fun h => hn (by rw [h]; decide)), if_neg (fun h => hn (by rw [h]; decide)),
    if_neg (fun h => hn (by rw [h.1]; decide)), if_neg (fun h => hn (by rw [h]; decide)), if_neg (fun h => hn (by rw [h.1]; decide)), if_pos hd]

theorem wRun_decls {d : Document} : ∀ (items : List (Option Declaration)) (evs : List WEvent) (d1 : Document) (st : MetaSt) (pend : String),
    xmlDeclarationList d items = .ok evs → Calm pend → st.decls = true → st.decKey = none → DeclsExact d1 →
    (keptDecls items).Pairwise (fun a b => ¬ SameDecl a b) → (∀ j a, d1.getDeclaration j = some a → ∀ b ∈ keptDecls items, ¬ SameDecl a b) →
    d1.declarations.len + (keptDecls items).length ≤ cap16 →
    ∃ s tx pend', wRun (d1, st, pend) evs = .ok ({ d1 with declarations := s }, { st with
        text := tx, annotators := st.annotators ++ newAnnots d d1.declarations.len (keptDecls items) }, pend') ∧ Calm pend' ∧
      s.items = d1.declarations.items ++ storedDecls d1.declarations.len (keptDecls items) ∧ s.Exact Declaration.key
  | [], evs, d1, st, pend, h, hc, _, _, hx, _, _, _ => by
    cases h
    exact ⟨d1.declarations, st.text, pend, by simp [wRun, keptDecls, newAnnots], hc, by simp [keptDecls, storedDecls], hx⟩
  | none :: rest, evs, d1, st, pend, h, hc, hd, hk, hx, hpw, hdis, hcap => by
    simp only [xmlDeclarationList] at h
    exact wRun_decls rest evs d1 st pend h hc hd hk hx hpw hdis hcap
  | some dec :: rest, evs, d1, st, pend, h, hc, hd, hk, hx, hpw, hdis, hcap => by
    simp only [xmlDeclarationList] at h
    cases h1 : xmlDeclaration d dec with
    | error e => rw [h1] at h; cases h
    | ok evs1 =>
      rw [h1] at h
      simp only at h
      cases h2 : xmlDeclarationList d rest with
      | error e => rw [h2] at h; cases h
      | ok evs2 =>
        rw [h2] at h
        cases h
        unfold xmlDeclaration at h1
        cases hp : dec.processors with
        | nil =>
          rw [hp] at h1
          cases h1
          have hkd : keptDecls (some dec :: rest) = keptDecls rest := by simp [keptDecls, hp]
          rw [hkd] at hpw hdis hcap ⊢
          obtain ⟨tx, h3⟩ := wStep_decl_empty (d := d1) (st := st) dec hc
          obtain ⟨s, tx2, pend2, h4, hc2, hr⟩ := wRun_decls rest evs2 d1 { st with text := tx } "\n" h2 calm_nl hd hk hx hpw hdis hcap
          refine ⟨s, tx2, pend2, ?_, hc2, hr⟩
          show wRun _ (.empty (declTag dec) (declAttrs dec) :: nl :: evs2) = _
          rw [wRun_cons h3]
          exact h4
        | cons p ps =>
          rw [hp] at h1
          simp only at h1
          cases h3 : xmlAnnotators d (p :: ps) with
          | error e => rw [h3] at h1; cases h1
          | ok evs3 =>
            rw [h3] at h1
            cases h1
            have hkd : keptDecls (some dec :: rest) = dec :: keptDecls rest := by simp [keptDecls, hp]
            rw [hkd] at hpw hdis hcap ⊢
            rw [List.length_cons] at hcap
            obtain ⟨s1, ha, hi1, hx1⟩ := addDeclaration_fresh (dec := bareDecl dec) hx
              (fun j a hj hs => hdis j a hj dec (List.mem_cons_self ..) hs) (by omega)
            obtain ⟨tx1, e1⟩ := wStep_decl_start (st := st) dec hc hd ha
            obtain ⟨tx2, pend2, e2, hc2⟩ := wRun_annotators (p :: ps) evs3 { d1 with declarations := s1 }
              { st with text := tx1, decKey := some d1.declarations.len } "" d1.declarations.len h3 calm_empty hd rfl
            obtain ⟨tx3, e3⟩ := wStep_decl_end (d := { d1 with declarations := s1 }) (pend := pend2)
              (st := { st with
                text := tx2, decKey := some d1.declarations.len, annotators := st.annotators ++ (procNames d (p :: ps)).map fun id => (d1.declarations.len, id) }) dec hc2 hd
            have hlen : s1.len = d1.declarations.len + 1 := by
              show s1.items.length = d1.declarations.items.length + 1
              rw [hi1]; simp
            obtain ⟨s, tx4, pend4, e4, hc4, hi4, hx4⟩ := wRun_decls rest evs2 { d1 with declarations := s1 }
              { st with text := tx3, decKey := none, annotators := st.annotators ++ (procNames d (p :: ps)).map fun id => (d1.declarations.len, id) }
              "\n" h2 calm_nl hd rfl hx1 (List.pairwise_cons.mp hpw).2 (by
                intro j a hj b hb
                have hj : s1.items[j]? = some (some a) := Store.get_eq_some.mp hj
                rw [hi1, List.getElem?_append] at hj
                split at hj
                · exact hdis j a (Store.get_eq_some.mpr hj) b (List.mem_cons_of_mem _ hb)
                · rw [List.getElem?_singleton] at hj
                  split at hj
                  · cases hj
                    exact (List.pairwise_cons.mp hpw).1 b hb
                  · cases hj) (by
                show s1.len + _ ≤ _
                omega)
            refine ⟨s, tx4, pend4, ?_, hc4, ?_, hx4⟩
            · simp only [List.cons_append, List.append_assoc]
              rw [wRun_cons e1, wRun_append e2, wRun_cons e3]
              have e5 : wRun ({ d1 with declarations := s1 }, { st with text := tx3, decKey := none, annotators := st.annotators ++ (procNames d (p :: ps)).map fun id => (d1.declarations.len, id) }, "") (nl :: evs2) =
                wRun ({ d1 with declarations := s1 }, { st with text := tx3, decKey := none, annotators := st.annotators ++ (procNames d (p :: ps)).map fun id => (d1.declarations.len, id) }, "\n") evs2 := rfl
              rw [List.nil_append, e5, e4]
              simp only [newAnnots, hp, List.append_assoc, hlen, hk]
            · rw [hi4]
              show s1.items ++ storedDecls s1.len _ = _
              rw [hi1, hlen]
              simp only [storedDecls, List.append_assoc, List.singleton_append]

end Folia
