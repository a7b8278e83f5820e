import Verif.Lemmas.MetaDecl
import Verif.Props.Serialise
import Verif.Lemmas.Caps
import Verif.Lemmas.Head
/-! Reading back the metadata section as a whole. -/
namespace Folia
open Document

/-! ### Keys and values -/

theorem escape_ne_empty {v : String} (h : v ≠ "") : escape v ≠ "" := by
  intro he
  have h1 := C38_unescape_escape v
  rw [he] at h1
  have h2 : unescape "" = some "" := by decide +kernel
  rw [h2] at h1
  exact h (Option.some.inj h1).symm

/-- Inserting the pairs with a value, one after the other. -/
def insertValues (m : List (String × String)) (data : List (String × String)) : List (String × String) :=
  (data.filter fun kv => kv.2 ≠ "").foldl (fun m kv => mapInsert m kv.1 kv.2) m

theorem wRun_meta (k v : String) (d : Document) (st : MetaSt) (pend : String) (hc : Calm pend) (hs : st.submeta = none) :
    ∃ tx mid, wRun (d, st, pend) [.start "meta" [wattr "id" k], .text (escape v), .endTag "meta", nl] =
      .ok ({ d with metadata := { d.metadata with data := insertValues d.metadata.data [(k, v)] } }, { st with text := tx, metaId := mid }, "\n") := by
  obtain ⟨tx, hf⟩ := flush_calm hc st
  have h1 : wStep (d, st, pend) (.start "meta" [wattr "id" k]) = .ok (d, { st with text := none, metaId := some k }, "") := by
    simp only [wStep, hf, Except.bind]
    unfold metaStart
    rw [if_pos rfl, if_neg (by decide), if_neg (by decide), if_neg (by decide), if_neg (by decide), if_pos rfl]
    simp [wattr, readAttrs, forAttrs, C38_unescape_escape, bind, Except.bind, pure, Except.pure, Except.map]
  rw [wRun_cons h1]
  have h2 : wStep (d, { st with text := none, metaId := some k }, "") (.text (escape v)) = .ok (d, { st with text := none, metaId := some k }, escape v) := by
    simp [wStep]
  rw [wRun_cons h2]
  by_cases hv : v = ""
  · subst hv
    refine ⟨none, some k, ?_⟩
    have he : escape "" = "" := by decide +kernel
    rw [he]
    have h3 : wStep (d, { st with text := none, metaId := some k }, "") (.endTag "meta") = .ok (d, { st with text := none, metaId := some k }, "") := by
      simp only [wStep, flushText, if_pos, Except.map]
      unfold metaEnd
      rw [if_pos rfl, if_neg (by decide), if_neg (by decide), if_neg (by decide), if_neg (fun h => absurd h.1 (by decide)), if_pos rfl]
      rfl
    rw [wRun_cons h3]
    rfl
  · refine ⟨some v, some k, ?_⟩
    have h3 : wStep (d, { st with text := none, metaId := some k }, escape v) (.endTag "meta") =
        .ok ({ d with metadata := { d.metadata with data := mapInsert d.metadata.data k v } }, { st with text := some v, metaId := some k }, "") := by
      simp only [wStep, flushText, if_neg (escape_ne_empty hv), C38_unescape_escape, Except.map]
      unfold metaEnd
      rw [if_pos rfl, if_neg (by decide), if_neg (by decide), if_neg (by decide), if_neg (fun h => absurd h.1 (by decide)), if_pos rfl]
      simp only [metaValue, hs]
    rw [wRun_cons h3]
    simp [insertValues, hv, wRun, wStep, nl, Except.bind]

theorem insertValues_append (m a b : List (String × String)) : insertValues m (a ++ b) = insertValues (insertValues m a) b := by
  simp [insertValues]

theorem wRun_metas : ∀ (data : List (String × String)) (d : Document) (st : MetaSt) (pend : String), Calm pend → st.submeta = none →
    ∃ tx mid pend', wRun (d, st, pend) (xmlMetas data) =
      .ok ({ d with metadata := { d.metadata with data := insertValues d.metadata.data data } }, { st with text := tx, metaId := mid }, pend') ∧ Calm pend'
  | [], d, st, pend, hc, _ => ⟨st.text, st.metaId, pend, by simp [xmlMetas, wRun, insertValues], hc⟩
  | (k, v) :: rest, d, st, pend, hc, hs => by
    obtain ⟨tx, mid, h1⟩ := wRun_meta k v d st pend hc hs
    obtain ⟨tx2, mid2, pend2, h2, hc2⟩ := wRun_metas rest { d with metadata := { d.metadata with data := insertValues d.metadata.data [(k, v)] } }
      { st with text := tx, metaId := mid } "\n" calm_nl hs
    refine ⟨tx2, mid2, pend2, ?_, hc2⟩
    have : xmlMetas ((k, v) :: rest) = [.start "meta" [wattr "id" k], .text (escape v), .endTag "meta", nl] ++ xmlMetas rest := by
      simp [xmlMetas]
    rw [this, wRun_append h1, h2]
    simp only [← insertValues_append, List.singleton_append]

theorem xmlMetas_append (a b : List (String × String)) : xmlMetas (a ++ b) = xmlMetas a ++ xmlMetas b := by simp [xmlMetas]

theorem xmlMetas_sub (sm : List (String × Metadata)) : sm.flatMap (fun sm => xmlMetas sm.2.data) = xmlMetas (sm.flatMap fun sm => sm.2.data) := by
  induction sm with
  | nil => rfl
  | cons a rest ih => rw [List.flatMap_cons, List.flatMap_cons, xmlMetas_append, ih]

/-! ### Sections -/

theorem wStep_metadata (d : Document) (st : MetaSt) (pend : String) (hc : Calm pend) (ty src : Option String) :
    ∃ tx, wStep (d, st, pend) (.start "metadata" (wattrOpt "type" ty ++ wattrOpt "src" src)) =
      .ok ({ d with metadata := { d.metadata with metadatatype := ty.or d.metadata.metadatatype, src := src.or d.metadata.src } }, { st with text := tx }, "") := by
  obtain ⟨tx, hf⟩ := flush_calm hc st
  refine ⟨tx, ?_⟩
  simp only [wStep, hf, Except.bind]
  unfold metaStart
  have hnd : ((wattrOpt "type" ty ++ wattrOpt "src" src).map (·.1)).Nodup := by
    have hs : ((wattrOpt "type" ty ++ wattrOpt "src" src).map (·.1)).Sublist ["type", "src"] := by
      rw [List.map_append]
      exact (wattrOpt_names "type" ty).append (wattrOpt_names "src" src)
    exact hs.nodup (by decide)
  rw [if_pos rfl, if_pos rfl, readAttrs_nodup hnd, List.map_append, forAttrs_append _ _ _ _ _ (forAttrs_opt _ "type" ty _), forAttrs_opt]
  cases ty <;> cases src <;> rfl

theorem wStep_annotations (d : Document) (st : MetaSt) (pend : String) (hc : Calm pend) :
    ∃ tx, wStep (d, st, pend) (.start "annotations" []) = .ok (d, { st with text := tx, decls := true }, "") := by
  obtain ⟨tx, hf⟩ := flush_calm hc st
  exact ⟨tx, by simp only [wStep, hf, Except.bind]; unfold metaStart; rw [if_pos rfl, if_neg (by decide), if_pos rfl]; rfl⟩

theorem wStep_annotations_end (d : Document) (st : MetaSt) (pend : String) (hc : Calm pend) :
    ∃ tx, wStep (d, st, pend) (.endTag "annotations") = .ok (d, { st with text := tx, decls := false }, "") := by
  obtain ⟨tx, hf⟩ := flush_calm hc st
  exact ⟨tx, by simp only [wStep, hf, Except.map]; unfold metaEnd; rw [if_pos rfl, if_neg (by decide), if_pos rfl]⟩

theorem wStep_provenance (d : Document) (st : MetaSt) (pend : String) (hc : Calm pend) :
    ∃ tx, wStep (d, st, pend) (.start "provenance" []) = .ok (d, { st with text := tx, prov := true }, "") := by
  obtain ⟨tx, hf⟩ := flush_calm hc st
  exact ⟨tx, by simp only [wStep, hf, Except.bind]; unfold metaStart; rw [if_pos rfl, if_neg (by decide), if_neg (by decide), if_pos rfl]; rfl⟩

theorem wStep_provenance_end (d : Document) (st : MetaSt) (pend : String) (hc : Calm pend) :
    ∃ tx, wStep (d, st, pend) (.endTag "provenance") = .ok (assignAnnotators d st.annotators, { st with text := tx, prov := false }, "") := by
  obtain ⟨tx, hf⟩ := flush_calm hc st
  exact ⟨tx, by simp only [wStep, hf, Except.map]; unfold metaEnd; rw [if_pos rfl, if_neg (by decide), if_neg (by decide), if_pos rfl]⟩

/-! ### Annotators -/

/-- The processors that the annotators name for a declaration. -/
def annotated (d : Document) (A : List (Nat × String)) (j : Nat) : List Nat := A.filterMap fun a => if a.1 = j then d.processorKeyById a.2 else none

theorem assignAnnotators_spec : ∀ (A : List (Nat × String)) (d : Document), DeclsExact d →
    ∃ s, assignAnnotators d A = { d with declarations := s } ∧ s.items.length = d.declarations.items.length ∧ s.Exact Declaration.key ∧
      ∀ j, s.get j = (d.getDeclaration j).map fun dec => { dec with processors := dec.processors ++ annotated d A j }
  | [], d, hx => by
    refine ⟨d.declarations, rfl, rfl, hx, fun j => ?_⟩
    simp only [annotated, List.filterMap_nil, List.append_nil]
    exact (Option.map_id' ..).symm
  | (dk, pid) :: rest, d, hx => by
    cases hp : d.processorKeyById pid with
    | none =>
      obtain ⟨s, h1, h2, h3, h4⟩ := assignAnnotators_spec rest d hx
      refine ⟨s, by simp only [assignAnnotators, hp]; exact h1, h2, h3, fun j => ?_⟩
      rw [h4 j]
      have : annotated d ((dk, pid) :: rest) j = annotated d rest j := by
        unfold annotated
        rw [List.filterMap_cons]
        by_cases hj : dk = j <;> simp [hj, hp]
      rw [this]
    | some pk =>
      let d1 : Document := { d with declarations := d.declarations.update dk fun dec => { dec with processors := dec.processors ++ [pk] } }
      have hx1 : DeclsExact d1 := Store.Exact.update hx dk _ (fun _ _ => rfl) (fun _ _ => rfl)
      obtain ⟨s, h1, h2, h3, h4⟩ := assignAnnotators_spec rest d1 hx1
      have hlen : d1.declarations.items.length = d.declarations.items.length := by
        show (d.declarations.update _ _).items.length = _
        unfold Store.update
        split <;> simp
      refine ⟨s, by simp only [assignAnnotators, hp]; exact h1, by rw [h2, hlen], h3, fun j => ?_⟩
      rw [h4 j]
      have hg : d1.getDeclaration j = if j = dk then (d.getDeclaration j).map fun dec => { dec with processors := dec.processors ++ [pk] } else d.getDeclaration j :=
        Store.get_update _ _ _ _
      have ha : annotated d1 rest j = annotated d rest j := rfl
      rw [hg, ha]
      by_cases hj : j = dk
      · subst hj
        rw [if_pos rfl, Option.map_map]
        congr 1
        funext dec
        simp [annotated, hp]
      · rw [if_neg hj]
        have : annotated d ((dk, pid) :: rest) j = annotated d rest j := by
          unfold annotated
          rw [List.filterMap_cons]
          simp [Ne.symm hj]
        rw [this]

theorem annotated_names (d : Document) (n j : Nat) (names : List String) :
    annotated d (names.map fun id => (n, id)) j = if n = j then names.filterMap d.processorKeyById else [] := by
  unfold annotated
  rw [List.filterMap_map]
  by_cases h : n = j
  · rw [if_pos h]
    congr 1
    funext id
    simp [h]
  · rw [if_neg h]
    simp [h]

theorem annotated_append (d : Document) (A B : List (Nat × String)) (j : Nat) : annotated d (A ++ B) j = annotated d A j ++ annotated d B j :=
  List.filterMap_append ..

theorem annotated_new (d0 d : Document) : ∀ (kept : List Declaration) (n j : Nat), annotated d (newAnnots d0 n kept) j =
    if j < n then [] else match kept[j - n]? with
      | some dec => (procNames d0 dec.processors).filterMap d.processorKeyById
      | none => []
  | [], n, j => by simp [newAnnots, annotated]
  | dec :: rest, n, j => by
    rw [newAnnots, annotated_append, annotated_names, annotated_new d0 d rest (n + 1) j]
    by_cases h1 : n = j
    · subst h1; simp
    · by_cases h2 : j < n
      · rw [if_neg h1, if_pos (by omega), if_pos h2]; rfl
      · rw [if_neg h1, if_neg (by omega), if_neg h2, show j - n = (j - (n + 1)) + 1 by omega, List.getElem?_cons_succ]; rfl

theorem storedDecls_get : ∀ (kept : List Declaration) (n j : Nat), (storedDecls n kept)[j]? = kept[j]?.map fun dec => some { bareDecl dec with key := some (n + j) }
  | [], n, j => by simp [storedDecls]
  | dec :: rest, n, 0 => by simp [storedDecls]
  | dec :: rest, n, j + 1 => by
    simp only [storedDecls, List.getElem?_cons_succ]
    rw [storedDecls_get rest (n + 1) j]
    congr 1
    funext dec
    rw [show n + 1 + j = n + (j + 1) by omega]

/-! ### Provenance -/

mutual
theorem bareTree_spec (lo : Nat) (d : Document) : ∀ (t : ProcTree) (par : Option Nat) (k : Nat), (ProcStored lo d par k (bareTree t) ↔ ProcStored lo d par k t) ∧
    procIds (bareTree t) = procIds t ∧ procSize (bareTree t) = procSize t ∧ CleanProc (bareTree t)
  | .node p ts, par, k => by
    have h := bareTrees_spec lo d ts (some k)
    refine ⟨?_, ?_, ?_, ?_⟩
    · simp only [bareTree, ProcStored]
      constructor
      · rintro ⟨subs, h1, h2, h3⟩; exact ⟨subs, h1, h2, ((h subs).1).mp h3⟩
      · rintro ⟨subs, h1, h2, h3⟩; exact ⟨subs, h1, h2, ((h subs).1).mpr h3⟩
    · simp only [bareTree, procIds, (h []).2.1]; rfl
    · simp only [bareTree, procSize, (h []).2.2.1]
    · simp only [bareTree, CleanProc]; exact ⟨rfl, rfl, (h []).2.2.2⟩
theorem bareTrees_spec (lo : Nat) (d : Document) : ∀ (ts : List ProcTree) (par : Option Nat) (ks : List Nat),
    (ProcsStored lo d par ks (bareTrees ts) ↔ ProcsStored lo d par ks ts) ∧
    procIdsList (bareTrees ts) = procIdsList ts ∧ procSizeList (bareTrees ts) = procSizeList ts ∧ CleanProcs (bareTrees ts)
  | [], par, ks => by simp [bareTrees, CleanProcs]
  | t :: ts, par, ks => by
    have h := bareTrees_spec lo d ts par
    have h' := bareTree_spec lo d t par
    refine ⟨?_, ?_, ?_, ?_⟩
    · simp only [bareTrees, ProcsStored]
      constructor
      · rintro ⟨c, cs, h1, h2, h3⟩; exact ⟨c, cs, h1, (h' c).1.mp h2, (h cs).1.mp h3⟩
      · rintro ⟨c, cs, h1, h2, h3⟩; exact ⟨c, cs, h1, (h' c).1.mpr h2, (h cs).1.mpr h3⟩
    · simp only [bareTrees, procIdsList, (h' 0).2.1, (h []).2.1]
    · simp only [bareTrees, procSizeList, (h' 0).2.2.1, (h []).2.2.1]
    · simp only [bareTrees, CleanProcs]; exact ⟨(h' 0).2.2.2, (h []).2.2.2⟩
end

/-- What adding several trees to the chain does. -/
structure ChainsAdded (d d' : Document) (ks : List Nat) (ts : List ProcTree) : Prop where
  same : d' = { d with processors := d'.processors, chain := d.chain ++ ks }
  len : d'.processors.len = d.processors.len + procSizeList ts
  old : ∀ j, j < d.processors.len → d'.getProcessor j = d.getProcessor j
  stored : ProcsStored d.processors.len d' none ks ts
  index : ∀ id, id ∉ procIdsList ts → d'.processorKeyById id = d.processorKeyById id
  links : ProcLinks d → ProcLinks d'

theorem addProcessors_added : ∀ {ts : List ProcTree} {d : Document}, CleanProcs ts → d.FreshProcs (procIdsList ts) → d.processors.len + procSizeList ts ≤ cap16 →
    ∃ d' ks, addProcessors ts d = (.ok (), d') ∧ ChainsAdded d d' ks ts
  | [], d, _, _, _ => ⟨d, [], rfl, ⟨by simp, by simp [procSizeList], fun _ _ => rfl, by simp only [ProcsStored], fun _ _ => rfl, fun h => h⟩⟩
  | t :: ts, d, hcl, hf, hcap => by
    simp only [CleanProcs] at hcl
    simp only [procIdsList] at hf
    simp only [procSizeList] at hcap
    obtain ⟨hn, hf⟩ := hf
    rw [List.nodup_append] at hn
    obtain ⟨d1, a1, a2⟩ := addProcessor_added hcl.1 (d := d) ⟨hn.1, fun id hid => hf id (List.mem_append_left _ hid)⟩ (by omega)
    obtain ⟨d2, ks, b1, b2⟩ := addProcessors_added (ts := ts) (d := d1) hcl.2 ⟨hn.2.1, fun id hid => by
      rw [a2.index id (fun h => hn.2.2 id h id hid rfl)]
      exact hf id (List.mem_append_right _ hid)⟩ (by rw [a2.len]; omega)
    refine ⟨d2, d.processors.len :: ks, ?_, ?_⟩
    · simp only [addProcessors]
      rw [M.run_bind, a1]
      exact b1
    · refine ⟨?_, by rw [b2.len, a2.len]; simp only [procSizeList]; omega, fun j hj => ?_, ?_, fun id hid => ?_, fun h => b2.links (a2.links h)⟩
      · rw [b2.same, a2.same]
        simp
      · rw [b2.old j (by rw [a2.len]; omega), a2.old j hj]
      · simp only [ProcsStored]
        refine ⟨_, _, rfl, ?_, ?_⟩
        · refine procStored_mono (Nat.le_refl _) (fun j x _ hx => ?_) _ _ _ a2.stored
          rw [b2.old j (getProcessor_lt hx)]; exact hx
        · exact procsStored_mono (by rw [a2.len]; omega) (fun _ _ _ h => h) _ _ _ b2.stored
      · simp only [procIdsList, List.mem_append, not_or] at hid
        rw [b2.index id hid.2, a2.index id hid.1]

/-! ### The whole section -/

/-- The result of reading back the metadata of `d`, starting with the document `d1`. -/
structure MetaBack (d d1 d2 : Document) (ts : List ProcTree) : Prop where
  same : d2 = { d1 with processors := d2.processors, chain := d2.chain, declarations := d2.declarations, metadata := d2.metadata }
  stored : ProcsStored 0 d2 none d2.chain ts
  links : ProcLinks d2
  decls : ∀ j, d2.getDeclaration j = (keptDecls d.declarations.items)[j]?.map fun dec =>
    { bareDecl dec with key := some j, processors := (procNames d dec.processors).filterMap d2.processorKeyById }
  declLen : d2.declarations.items.length = (keptDecls d.declarations.items).length
  exact : DeclsExact d2
  metadatatype : d2.metadata.metadatatype = d.metadata.metadatatype
  src : d2.metadata.src = d.metadata.src
  data : d2.metadata.data = insertValues [] (d.metadata.data ++ d.submetadata.flatMap fun sm => sm.2.data)

theorem keptDecls_mem {dec : Declaration} : ∀ {items : List (Option Declaration)}, dec ∈ keptDecls items → some dec ∈ items
  | [], h => by cases h
  | none :: rest, h => List.mem_cons_of_mem _ (keptDecls_mem (items := rest) h)
  | some a :: rest, h => by
    simp only [keptDecls] at h
    split at h
    · exact List.mem_cons_of_mem _ (keptDecls_mem h)
    · rcases List.mem_cons.mp h with rfl | h
      · exact List.mem_cons_self ..
      · exact List.mem_cons_of_mem _ (keptDecls_mem h)

theorem keptDecls_pairwise : ∀ (items : List (Option Declaration)), items.Pairwise (fun a b => ∀ x y, a = some x → b = some y → ¬ SameDecl x y) →
    (keptDecls items).Pairwise fun a b => ¬ SameDecl a b
  | [], _ => .nil
  | none :: rest, h => keptDecls_pairwise rest (List.pairwise_cons.mp h).2
  | some a :: rest, h => by
    obtain ⟨h1, h2⟩ := List.pairwise_cons.mp h
    simp only [keptDecls]
    split
    · exact keptDecls_pairwise rest h2
    · exact List.pairwise_cons.mpr ⟨fun b hb => h1 _ (keptDecls_mem hb) a b rfl rfl, keptDecls_pairwise rest h2⟩

theorem keptDecls_length : ∀ items : List (Option Declaration), (keptDecls items).length ≤ items.length
  | [] => Nat.le_refl _
  | none :: rest => Nat.le_succ_of_le (keptDecls_length rest)
  | some a :: rest => by
    simp only [keptDecls]
    have := keptDecls_length rest
    split
    · exact Nat.le_succ_of_le this
    · simp only [List.length_cons]; omega

theorem declsExact_pairwise {d : Document} (hx : DeclsExact d) :
    d.declarations.items.Pairwise (fun a b => ∀ x y, a = some x → b = some y → ¬ SameDecl x y) := by
  rw [List.pairwise_iff_getElem]
  intro i j hi hj hij x y hx1 hy hs
  have h1 : d.getDeclaration i = some x := Store.get_eq_some.mpr (by rw [List.getElem?_eq_getElem hi, hx1])
  have h2 : d.getDeclaration j = some y := Store.get_eq_some.mpr (by rw [List.getElem?_eq_getElem hj, hy])
  have := declarations_unique hx h1 h2 hs.1 hs.2
  omega

end Folia
