import Verif.Lemmas.HeadRun
import Verif.Lemmas.RoundNames
/-! Helper lemmas about reading the whole part of a source in front of its body. -/
namespace Folia
open Document

theorem parseRoot_pads : ∀ (es : List REvent) {rest : List REvent} {d : Document}, (∀ e ∈ es, e.Pad) → parseRoot d (es ++ rest) = parseRoot d rest
  | [], _, _, _ => rfl
  | e :: es, rest, d, h => by
    have ih := parseRoot_pads es (rest := rest) (d := d) fun e he => h e (List.mem_cons_of_mem _ he)
    have hp := h e (List.mem_cons_self ..)
    cases e with
    | error => cases hp
    | start => cases hp
    | empty => cases hp
    | endTag => cases hp
    | text t => exact ih
    | cdata t => exact ih
    | comment t => exact ih
    | other => exact ih

theorem rootAttrs_read : ∀ (as : List RAttr) {d d' : Document}, rootAttrs d as = .ok d' → d' = { d with
    id := match attrValue as "xml:id" with | some v => v | none => d.id
    version := match attrValue as "version" with | some v => v | none => d.version }
  | [], d, d', h => by cases h; rfl
  | .bad :: rest, d, d', h => by cases h
  | .ok k v :: rest, d, d', h => by
    simp only [attrValue_cons]
    simp only [rootAttrs] at h
    by_cases hk : k = "xml:id"
    · rw [if_pos hk] at h
      subst hk
      cases hu : unescape v with
      | none => rw [hu] at h; cases h
      | some s =>
        rw [hu] at h
        rw [rootAttrs_read rest h]
        rw [if_pos rfl, if_neg (by decide)]
        simp only [Option.or_none]
        cases attrValue rest "xml:id" <;> rfl
    · rw [if_neg hk] at h
      by_cases hk2 : k = "version"
      · rw [if_pos hk2] at h
        subst hk2
        cases hu : unescape v with
        | none => rw [hu] at h; cases h
        | some s =>
          rw [hu] at h
          rw [rootAttrs_read rest h]
          rw [if_pos rfl, if_neg (by decide)]
          simp only [Option.or_none]
          cases attrValue rest "version" <;> rfl
      · rw [if_neg hk2] at h
        rw [rootAttrs_read rest h]
        simp only [if_neg hk, if_neg hk2, Option.or_none]

mutual
theorem PNode.clean : ∀ n : PNode, CleanProcs n.trees
  | .empty as => by simp only [PNode.trees, CleanProcs, CleanProc]; exact ⟨⟨rfl, rfl, trivial⟩, trivial⟩
  | .pad _ => by simp only [PNode.trees, CleanProcs]
  | .full as subs => by simp only [PNode.trees, CleanProcs, CleanProc]; exact ⟨⟨rfl, rfl, PNode.cleanList subs⟩, trivial⟩
theorem PNode.cleanList : ∀ ns : List PNode, CleanProcs (PNode.treesList ns)
  | [] => by simp only [PNode.treesList, CleanProcs]
  | n :: ns => by
    simp only [PNode.treesList]
    have h1 := PNode.clean n
    have h2 := PNode.cleanList ns
    revert h1
    generalize n.trees = l
    intro h1
    induction l with
    | nil => exact h2
    | cons t ts ih =>
      simp only [CleanProcs] at h1
      simp only [List.cons_append, CleanProcs]
      exact ⟨h1.1, ih h1.2⟩
end

theorem pad_end {es : List REvent} (h : ∀ e ∈ es, e.Pad) : REvent.endTag .folia "metadata" ∉ es := fun hm => h _ hm

theorem ANode.not_end {anns : List ANode} (h : ∀ a ∈ anns, ∀ e, a = .pad e → e.Pad) : REvent.endTag .folia "metadata" ∉ anns.map ANode.event := by
  intro hm
  obtain ⟨a, ha, he⟩ := List.mem_map.mp hm
  cases a with
  | annotator as => cases he
  | pad e => simp only [ANode.event] at he; subst he; exact h _ ha _ rfl

theorem DNode.not_end {ns : List DNode} (h : ∀ n ∈ ns, n.Padded) : REvent.endTag .folia "metadata" ∉ ns.flatMap DNode.events := by
  intro hm
  obtain ⟨n, hn, he⟩ := List.mem_flatMap.mp hm
  have hp := h n hn
  cases n with
  | pad e => simp only [DNode.events, List.mem_singleton] at he; subst he; exact hp
  | declaration t as anns =>
    simp only [DNode.events, List.cons_append, List.mem_cons, List.mem_append, List.not_mem_nil, or_false] at he
    rcases he with he | he | he
    · cases he
    · exact ANode.not_end hp he
    · have hne := declTag_ne (Declaration.new t none none none)
      have htag : declTag (Declaration.new t none none none) = t.asStr ++ "-annotation" := rfl
      rw [htag] at hne
      injection he with _ h2
      rw [← h2] at hne
      exact hne (List.mem_cons_self ..)

mutual
theorem PNode.not_end : ∀ n : PNode, n.Padded → REvent.endTag .folia "metadata" ∉ n.events
  | .empty as, _ => by simp [PNode.events]
  | .pad e, hp => by
    simp only [PNode.Padded] at hp
    simp only [PNode.events, List.mem_singleton]
    rintro rfl; exact hp
  | .full as subs, hp => by
    simp only [PNode.Padded] at hp
    have := PNode.not_end_list subs hp
    simp only [PNode.events, List.cons_append, List.mem_cons, List.mem_append, List.not_mem_nil, or_false, not_or]
    exact ⟨nofun, this, by intro h; injection h with _ h2; exact absurd h2 (by decide)⟩
theorem PNode.not_end_list : ∀ ns : List PNode, PNode.PaddedList ns → REvent.endTag .folia "metadata" ∉ PNode.eventsList ns
  | [], _ => by simp [PNode.eventsList]
  | n :: ns, hp => by
    simp only [PNode.PaddedList] at hp
    simp only [PNode.eventsList, List.mem_append, not_or]
    exact ⟨PNode.not_end n hp.1, PNode.not_end_list ns hp.2⟩
end

theorem VNode.not_end {ns : List VNode} (h : ∀ n ∈ ns, n.Padded) : REvent.endTag .folia "metadata" ∉ ns.flatMap VNode.events := by
  intro hm
  obtain ⟨n, hn, he⟩ := List.mem_flatMap.mp hm
  have hp := h n hn
  cases n with
  | pad e => simp only [VNode.events, List.mem_singleton] at he; subst he; exact hp
  | value as t =>
    cases t with
    | none =>
      simp only [VNode.events, List.mem_cons, List.not_mem_nil, or_false] at he
      rcases he with he | he
      · cases he
      · injection he with _ h2; exact absurd h2 (by decide)
    | some t =>
      simp only [VNode.events, List.mem_cons, List.not_mem_nil, or_false] at he
      rcases he with he | he | he
      · cases he
      · cases he
      · injection he with _ h2; exact absurd h2 (by decide)

theorem annotators_named {d : Document} {ids : List String} (hx : ProcsExact d) (hin : ∀ id ∈ ids, ∃ j x, d.getProcessor j = some x ∧ x.id = id)
    (hout : ∀ id, id ∉ ids → d.processorKeyById id = none) : ∀ anns : List String,
    (anns.filterMap d.processorKeyById).map (fun p => (d.getProcessor p).map (·.id)) = (anns.filter (· ∈ ids)).map some
  | [] => rfl
  | a :: anns => by
    have ih := annotators_named hx hin hout anns
    by_cases h : a ∈ ids
    · obtain ⟨j, x, hj, hid⟩ := hin a h
      have hk := (processorKeyById_iff hx a j).mpr ⟨x, hj, hid⟩
      rw [List.filterMap_cons, hk, List.filter_cons_of_pos (by simpa using h)]
      simp only [List.map_cons, ih, hj, Option.map_some, hid]
    · rw [List.filterMap_cons, hout a h, List.filter_cons_of_neg (by simpa using h)]
      exact ih

theorem metadata_read {d : Document} {st : MetaSt} {as : List RAttr} {s : Document × MetaSt} (h : mStep (d, st) (.start .folia "metadata" as) = .ok s) :
    s = ({ d with metadata := { d.metadata with src := (attrValue as "src").or d.metadata.src, metadatatype := (attrValue as "type").or d.metadata.metadatatype } }, st) := by
  simp only [mStep] at h
  unfold metaStart at h
  rw [if_pos rfl, if_pos rfl] at h
  simp only [Bind.bind, Except.bind] at h
  split at h
  · cases h
  · rename_i m hm
    cases h
    have h1 := forAttrs_value (fun m : Metadata => m.src) "src" (by
      intro k v s
      by_cases h1 : k = "src"
      · simp only [if_pos h1]
      · simp only [if_neg h1]; split <;> rfl) as hm
    have h2 := forAttrs_value (fun m : Metadata => m.metadatatype) "type" (by
      intro k v s
      by_cases h1 : k = "src"
      · subst h1; rfl
      · simp only [if_neg h1]; split <;> rfl) as hm
    have h3 := forAttrs_inv (I := fun s : Metadata => s.data = d.metadata.data) (by
      intro k v s hs
      repeat' split
      all_goals exact hs) hm rfl
    obtain ⟨a, b, c⟩ := m
    simp only at h1 h2 h3
    rw [h1, h2, h3]

/-- The events between `FoLiA` and the end of the metadata. -/
theorem head_run {h : Head} {d1 : Document} {st : MetaSt} {s : Document × MetaSt} (hp : h.Proper) (hb : BlankMeta d1)
    (hd : st.prov = false) (hs : st.submeta = none) (hst : st.procStack = []) (han : st.annotators = [])
    (hr : mRun (d1, st) (h.afterRoot ++ .start .folia "metadata" h.attrs :: h.afterStart ++
      .start .folia "annotations" [] :: h.decls.flatMap DNode.events ++ .endTag .folia "annotations" :: h.between ++
      .start .folia "provenance" [] :: PNode.eventsList h.procs ++ .endTag .folia "provenance" :: h.values.flatMap VNode.events) = .ok s) :
    ∃ dc ds ks, ChainsAdded { d1 with metadata := { src := attrValue h.attrs "src", metadatatype := attrValue h.attrs "type" }, declarations := ds } dc ks (PNode.treesList h.procs) ∧
      ds.items = srcDecls 0 (h.decls.filterMap DNode.decl) ∧ ds.Exact Declaration.key ∧
      ∃ s2, s2.items.length = ds.items.length ∧ s2.Exact Declaration.key ∧
        (∀ j, s2.get j = (dc.getDeclaration j).map fun dec => { dec with processors := dec.processors ++ annotated dc (srcAnnots 0 (h.decls.filterMap DNode.decl)) j }) ∧
        s.1 = { dc with declarations := s2, metadata := { dc.metadata with data := putValues dc.metadata.data (h.values.filterMap VNode.pair) } } := by
  have hpads := hp.pads
  simp only [List.mem_append] at hpads
  simp only [List.append_assoc, List.cons_append] at hr
  obtain ⟨m1, r1, hr⟩ := mRun_append _ hr
  obtain ⟨tx1, rfl⟩ := mRun_pads _ (fun e he => hpads e (Or.inl (Or.inl (Or.inr he)))) r1
  obtain ⟨m2, r2, hr⟩ := mRun_cons hr
  have e2 := metadata_read r2
  rw [hb.info] at e2
  simp only [Option.or_none] at e2
  subst e2
  obtain ⟨m3, r3, hr⟩ := mRun_append _ hr
  obtain ⟨tx3, rfl⟩ := mRun_pads _ (fun e he => hpads e (Or.inl (Or.inr he))) r3
  obtain ⟨m4, r4, hr⟩ := mRun_cons hr
  have e4 : m4 = ({ d1 with metadata := { src := attrValue h.attrs "src", metadatatype := attrValue h.attrs "type" } }, { st with text := tx3, decls := true }) := by
    simp only [mStep] at r4
    unfold metaStart at r4
    rw [if_pos rfl, if_neg (by decide), if_pos rfl] at r4
    cases r4; rfl
  subst e4
  obtain ⟨m5, r5, hr⟩ := mRun_append _ hr
  have hdd : d1.declarations = {} := hb.decls
  obtain ⟨ds, tx5, dk, rfl, i5, x5⟩ := mRun_decls h.decls hp.decls rfl (by exact hd)
    (by show d1.declarations.Exact _; rw [hdd]; exact Store.Exact.empty) hp.names
    (by intro j a hj; unfold Document.getDeclaration at hj; simp only [hdd] at hj; simp [Store.get] at hj)
    (by simp only [hdd]; simpa [Store.len, cap16] using hp.declRoom) r5
  simp only [hdd, Store.len, List.length_nil, List.nil_append, han] at i5 hr
  obtain ⟨m6, r6, hr⟩ := mRun_cons hr
  simp only [mStep] at r6
  unfold metaEnd at r6
  rw [if_pos rfl, if_neg (by decide), if_pos rfl] at r6
  cases r6
  obtain ⟨m7, r7, hr⟩ := mRun_append _ hr
  obtain ⟨tx7, rfl⟩ := mRun_pads _ (fun e he => hpads e (Or.inr he)) r7
  obtain ⟨m8, r8, hr⟩ := mRun_cons hr
  simp only [mStep] at r8
  unfold metaStart at r8
  rw [if_pos rfl, if_neg (by decide), if_neg (by decide), if_pos rfl] at r8
  cases r8
  obtain ⟨m9, r9, hr⟩ := mRun_append _ hr
  obtain ⟨a9, tx9, e9⟩ := mRun_procs h.procs hp.procs rfl (by exact hst) r9
  obtain ⟨d9, st9⟩ := m9
  simp only at a9 e9
  subst e9
  have hpr : d1.processors = {} := hb.procs
  obtain ⟨dc, ks, ec, hc⟩ := addProcessors_added (ts := PNode.treesList h.procs)
    (d := { d1 with metadata := { src := attrValue h.attrs "src", metadatatype := attrValue h.attrs "type" }, declarations := ds }) (PNode.cleanList _)
    ⟨hp.ids, fun id _ => by unfold Document.processorKeyById; simp only [hpr]; rfl⟩
    (by simp only [hpr]; simpa [Store.len, cap16] using hp.procRoom)
  have hdc : d9 = dc := by
    rw [ec] at a9
    cases a9; rfl
  subst hdc
  obtain ⟨m10, r10, hr⟩ := mRun_cons hr
  simp only [mStep] at r10
  unfold metaEnd at r10
  rw [if_pos rfl, if_neg (by decide), if_neg (by decide), if_pos rfl] at r10
  cases r10
  have hdcd : d9.declarations = ds := by rw [hc.same]
  obtain ⟨s2, a1, a2, a3, a4⟩ := assignAnnotators_spec (srcAnnots 0 (h.decls.filterMap DNode.decl)) d9 (by show d9.declarations.Exact _; rw [hdcd]; exact x5)
  have hv := mRun_values h.values hp.values (by exact hs) hr
  simp only [a1] at hv
  exact ⟨d9, ds, ks, hc, i5, x5, s2, by rw [a2, hdcd], a3, a4, hv⟩

theorem parse_head {X : Ext} {F : Nat} {ps : DocumentProperties} {h : Head} {rest : List REvent} {d : Document} (hp : h.Proper) (hps : ps.processor = none)
    (hpar : Document.parse X F ps (h.events ++ rest) = .ok d) : HeadIs h d := by
  unfold Document.parse at hpar
  simp only [Bind.bind, Except.bind] at hpar
  split at hpar
  · cases hpar
  · rename_i r1 h1
    have hev : h.events ++ rest = h.before ++ (.start .folia "FoLiA" h.root :: ((h.afterRoot ++ .start .folia "metadata" h.attrs :: h.afterStart ++
        .start .folia "annotations" [] :: h.decls.flatMap DNode.events ++ .endTag .folia "annotations" :: h.between ++
        .start .folia "provenance" [] :: PNode.eventsList h.procs ++ .endTag .folia "provenance" :: h.values.flatMap VNode.events) ++ (.endTag .folia "metadata" :: rest))) := by
      simp only [Head.events, List.append_assoc, List.cons_append, List.nil_append]
    have hpads := hp.pads
    simp only [List.mem_append] at hpads
    rw [hev, parseRoot_pads _ (fun e he => hpads e (Or.inl (Or.inl (Or.inl he))))] at h1
    unfold parseRoot at h1
    rw [if_pos ⟨rfl, rfl⟩] at h1
    obtain ⟨d1, h2, h3⟩ := map_ok h1
    subst h3
    have hroot := rootAttrs_read _ h2
    split at hpar
    · cases hpar
    · rename_i r2 h4
      obtain ⟨s, h5, h6⟩ := parseMeta_mRun _ (by
        intro hm
        simp only [List.mem_append, List.mem_cons] at hm
        rcases hm with ((((hm | hm | hm) | hm | hm) | hm | hm) | hm | hm) | hm | hm
        · exact pad_end (fun e he => hpads e (Or.inl (Or.inl (Or.inr he)))) hm
        · cases hm
        · exact pad_end (fun e he => hpads e (Or.inl (Or.inr he))) hm
        · cases hm
        · exact DNode.not_end hp.decls hm
        · injection hm with _ h2; exact absurd h2 (by decide)
        · exact pad_end (fun e he => hpads e (Or.inr he)) hm
        · cases hm
        · exact PNode.not_end_list _ hp.procs hm
        · injection hm with _ h2; exact absurd h2 (by decide)
        · exact VNode.not_end hp.values hm) h4
      obtain ⟨dc, ds, ks, hc, i5, x5, s2, l2, x2, g2, hs1⟩ := head_run hp (by rw [hroot]; exact ⟨rfl, rfl, rfl, rfl⟩) rfl rfl rfl rfl h5
      have h7 : r2 = (s.1, rest) := by
        unfold parseMeta at h6
        rw [if_pos ⟨rfl, rfl⟩] at h6
        cases h6; rfl
      subst h7
      split at hpar
      · cases hpar
      · rename_i r3 h8
        obtain ⟨ob, rest3⟩ := r3
        cases ob with
        | none => cases hpar
        | some body =>
          simp only at hpar
          split at hpar
          · cases hpar
          · rename_i r4 h9
            obtain ⟨u, d4⟩ := r4
            have hd4 : d = d4 := by cases hpar; rfl
            clear hpar
            subst hd4
            have hci : CInv s.1 := by
              have hc0 : CInv d1 := by rw [hroot]; exact Prim.cinv (d := {}) (.admin rfl rfl rfl rfl rfl) cinv_empty
              exact ((parseMeta_steps (C := True) _ hc0.ix h4).clean hc0).1
            have hk : SameHead s.1 d := by
              have := KeepsHead.parseRest X F hps body rest3 s.1
              rw [runDoc_inv h9] at this
              exact this
            have hmono : DeclMono s.1 d :=
              ((runDoc_steps (C := True) (does_parseRest X F ps (by intro _ p hp; rw [hps] at hp; cases hp) body (parseBody_clean h8) _) hci.ix h9).1.clean hci).2
            have hk' : d = { s.1 with elements := d.elements, declarations := d.declarations } := hk
            have hps' : d.processors = s.1.processors := by rw [hk']
            have hpr1 : d1.processors = {} := by rw [hroot]
            have hch1 : d1.chain = [] := by rw [hroot]
            have hst1 : ProcsStored 0 s.1 none s.1.chain (PNode.treesList h.procs) := by
              have hst := hc.stored
              simp only [hpr1] at hst
              have hch : s.1.chain = ks := by rw [hs1]; show dc.chain = ks; rw [hc.same]; simp [hch1]
              rw [hch]
              exact stored_of_same (by rw [hs1]) hst
            have hm : s.1.metadata = { data := putValues [] (h.values.filterMap VNode.pair), src := attrValue h.attrs "src", metadatatype := attrValue h.attrs "type" } := by
              rw [hs1]; simp only; rw [hc.same]
            refine ⟨?_, ?_, ?_, ?_, fun k => ?_, ?_, ?_, ?_, fun j t hj => ?_⟩
            · rw [hk', hs1]; simp only; rw [hc.same]; simp only; rw [hroot]; cases attrValue h.root "xml:id" <;> rfl
            · rw [hk', hs1]; simp only; rw [hc.same]; simp only; rw [hroot]; cases attrValue h.root "version" <;> rfl
            · rw [hk']; simp only [hm]
            · rw [hk']; simp only [hm]
            · rw [hk']; simp only [hm]
              rw [putValues_find]
              simp [mapFind]
            · rw [hk', hs1]; simp only; rw [hc.same]; simp only; rw [hroot]
            · have hcd : d.chain = s.1.chain := by rw [hk']
              rw [hcd]; exact stored_of_same hps' hst1
            · rw [hps', hs1]; simp only
              have := hc.len
              simp only [hpr1] at this
              simpa [Store.len] using this
            · have hg : dc.getDeclaration j = some (t.stored j) := by
                have hdcd : dc.declarations = ds := by rw [hc.same]
                unfold Document.getDeclaration Store.get
                rw [hdcd, i5, srcDecls_get, hj]
                simp
              have hsj : s.1.getDeclaration j = some { t.stored j with processors := t.annotators.filterMap dc.processorKeyById } := by
                rw [hs1]
                show s2.get j = _
                rw [g2 j, hg, annotated_src]
                simp only [Nat.not_lt_zero, if_false, Nat.sub_zero, hj]
                rfl
              obtain ⟨dec, e1, e2⟩ := hmono j _ hsj
              refine ⟨dec, t.annotators.filterMap dc.processorKeyById, e1, e2.type, e2.set, e2.alias, e2.format, e2.processors, ?_⟩
              have hkey : dc.processorKeyById = s.1.processorKeyById := by rw [hs1]; rfl
              have hget : ∀ p, d.getProcessor p = s.1.getProcessor p := getProcessor_of_same hps'
              simp only [hget, hkey]
              refine annotators_named hci.procs (fun id hid => trees_ids_live _ _ _ hst1 id hid) (fun id hid => ?_) _
              rw [← hkey, hc.index id hid]
              unfold Document.processorKeyById
              simp only [hpr1]; rfl

end Folia
