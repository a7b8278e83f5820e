import Verif.Lemmas.HeadOps
import Verif.Lemmas.New
import Verif.Lemmas.ParseSteps
import Verif.Props.Provenance
/-! The processors form a forest in histories with distinct identifiers. -/
namespace Folia
open Document

theorem ProvForest.same_head {d d' : Document} (h : d.ProvForest) (hs : SameHead d d') : d'.ProvForest := by
  have hs : d' = { d with elements := d'.elements, declarations := d'.declarations } := hs
  exact ProvForest.of_eq h (by rw [hs]) (by rw [hs])

theorem KeepsHead.forest {α : Type} {m : M Document α} (hm : KeepsHead m) {d : Document} (h : d.ProvForest) : (m d).2.ProvForest := ProvForest.same_head h (hm d)

theorem applyProperties_forest {d : Document} {ps : DocumentProperties} (hf : d.ProvForest) (hp : ∀ t, ps.processor = some t → CleanProc t ∧ d.Addable t) :
    (applyProperties ps d).2.ProvForest := by
  cases hps : ps.processor with
  | none => exact (KeepsHead.applyProperties hps).forest hf
  | some t =>
    obtain ⟨hcl, hfr, hcap⟩ := hp t hps
    obtain ⟨k, d1, h1, _, _, _, _, _, _, h2⟩ := C49_add_processor hcl hfr hcap
    unfold applyProperties
    simp only [hps, M.run_bind, h1]
    exact (KeepsHead.forEach KeepsHead.applyDeclare ps.declare).forest (ProvForest.of_eq (h2 hf) rfl rfl)

theorem addProvenance_forest {d : Document} {p : Processor} (hf : d.ProvForest) (h1 : p.processors = []) (h2 : p.parent = none) :
    (addProvenance p d).2.ProvForest := by
  cases hk : d.processorKeyById p.id with
  | some k =>
    have : (addProvenance p d).2 = d := by
      unfold addProvenance onProcessors Store.add Store.getKey
      have : d.processors.index.find p.id = some k := hk
      simp only [Storable.maybeId, this]
    rw [this]; exact hf
  | none =>
    by_cases hc : d.processors.len < cap16
    · obtain ⟨d', e1, e2, _, e3, _⟩ := addProvenance_fresh hk hc
      rw [e1]
      have hch : d'.chain = d.chain := by rw [e2]
      refine ⟨orphan_links hf.toProcLinks (q := { p with key := some d.processors.len }) h1 h2 e3, by rw [hch]; exact hf.chainOnce, fun k hk => ?_⟩
      rw [hch] at hk
      obtain ⟨x, hx, hx'⟩ := hf.chainTop k hk
      refine ⟨x, ?_, hx'⟩
      have := getProcessor_lt hx
      rw [e3, if_neg (by omega)]; exact hx
    · have : (addProvenance p d).2 = d := by
        unfold addProvenance onProcessors Store.add Store.getKey
        have : d.processors.index.find p.id = none := hk
        simp only [Storable.maybeId, this]
        rw [if_neg (by exact hc)]
      rw [this]; exact hf

/-- Every call that keeps processors tidy keeps the provenance a forest. -/
theorem op_forest {d : Document} (F : Nat) (o : Op) (hf : d.ProvForest) (hc : o.Clean d) (ht : o.Tidy d) : (o.run F d).2.ProvForest := by
  have void : ∀ {α : Type} (m : M Document α), (m d).2.ProvForest → (m.void d).2.ProvForest := by
    intro α m h
    unfold M.void
    rw [M.run_bind]
    rcases hm : m d with ⟨_ | a, d'⟩ <;> (rw [hm] at h; exact h)
  cases o with
  | declare t s a f => exact (KeepsHead.declare _ _ _ _).void.forest hf
  | addDeclaration dec => exact (KeepsHead.addDeclaration _).void.forest hf
  | addClass k c => exact (KeepsHead.addClass _ _).void.forest hf
  | addElement e => exact (KeepsHead.addElement _ _).void.forest hf
  | addElementTo p e => exact (KeepsHead.addElementTo _ _ _).void.forest hf
  | attachElement p c => exact (KeepsHead.attachElement _ _).forest hf
  | detachElement c => exact (KeepsHead.detachElement _).forest hf
  | annotate p e => exact (KeepsHead.annotate _ _ _).void.forest hf
  | annotateSpan e => exact (KeepsHead.annotateSpan _ _).void.forest hf
  | addProvenance p =>
    simp only [Op.Clean, CleanProc] at hc
    exact void _ (addProvenance_forest hf hc.1 hc.2.1)
  | addProcessor t =>
    obtain ⟨k, d1, h1, _, _, _, _, _, _, h2⟩ := C49_add_processor hc ht.1 ht.2
    refine void (Document.addProcessor t) ?_
    rw [h1]; exact h2 hf
  | addSubprocessor p t =>
    obtain ⟨hp, ht⟩ := ht
    cases hpe : d.getProcessor p with
    | none => exact absurd hpe hp
    | some pe =>
      obtain ⟨k, d1, h1, _, _, _, _, _, _, _, h2⟩ := C49_add_subprocessor hc hpe ht.1 ht.2
      refine void (Document.addSubprocessor p t) ?_
      rw [h1]; exact h2 hf
  | attachProcessor p c =>
    simp only [Op.Tidy] at ht
    simp only [Op.run]
    cases hp : d.getProcessor p with
    | none =>
      have : (attachProcessor p c d).2 = d := by unfold attachProcessor; simp only [M.run_bind, M.run_get, hp]; rfl
      rw [this]; exact hf
    | some pe =>
      cases hcc : d.getProcessor c with
      | none =>
        have : (attachProcessor p c d).2 = d := by unfold attachProcessor; simp only [M.run_bind, M.run_get, hp, hcc]; rfl
        rw [this]; exact hf
      | some ce =>
        obtain ⟨t1, t2, t3⟩ := ht ce hcc
        obtain ⟨d', h1, h2, _⟩ := C50_attach_partial hf hp hcc t1 t2 t3
        rw [h1]; exact h2
  | activateProcessor k => exact ProvForest.of_eq hf rfl rfl
  | applyProperties ps => exact applyProperties_forest hf fun t h => ⟨hc t h, ht t h⟩
  | assign => exact ProvForest.of_eq hf rfl rfl

/-! ### Reading -/

theorem attrValue_cons (k v : String) (rest : List RAttr) (n : String) :
    attrValue (.ok k v :: rest) n = (attrValue rest n).or (if k = n then unescape v else none) := by
  unfold attrValue
  simp only [List.filterMap_cons]
  by_cases h : k = n
  · simp only [if_pos h]
    cases unescape v with
    | none => simp
    | some x =>
      simp only [List.getLast?_cons]
      cases List.getLast? _ <;> rfl
  · simp only [if_neg h]
    simp

theorem parseProcessor_id : ∀ (as : List RAttr) {p p' : Processor}, parseProcessor p as = .ok p' → p'.id = (match attrValue as "xml:id" with
      | some i => i
      | none => p.id)
  | [], p, p', h => by cases h; rfl
  | .bad :: rest, p, p', h => by
    simp only [parseProcessor] at h
    exact parseProcessor_id rest h
  | .ok k v :: rest, p, p', h => by
    simp only [parseProcessor] at h
    cases hu : unescape v with
    | none => rw [hu] at h; cases h
    | some value =>
      rw [hu] at h
      simp only at h
      cases ha : procAttr p k value with
      | none => rw [ha] at h; cases h
      | some q =>
        rw [ha] at h
        rw [parseProcessor_id rest h, attrValue_cons]
        by_cases hk : k = "xml:id"
        · subst hk
          simp only [procAttr] at ha
          cases ha
          simp only [if_true, hu]
          cases attrValue rest "xml:id" <;> rfl
        · have hq : q.id = p.id := by
            suffices AllSome (fun q : Processor => q.id = p.id) (procAttr p k value) from this q ha
            unfold procAttr
            rw [if_neg hk]
            repeat' apply AllSome.ite
            all_goals first
              | exact AllSome.some rfl
              | exact AllSome.none
              | (apply AllSome.map; intro _; rfl)
          simp only [if_neg hk, hq, Option.or_none]

/-- The state of the metadata loop: the processors form a forest, those on the stack exist, and those still to come are new. -/
structure MetaInv (own extra : List String) (n : Nat) (d : Document) (st : MetaSt) : Prop where
  forest : d.ProvForest
  stack : ∀ k ∈ st.procStack, d.getProcessor k ≠ none
  fresh : ∀ id ∈ own ++ extra, d.processorKeyById id = none
  nodup : (own ++ extra).Nodup
  count : d.processors.len + own.length ≤ n

theorem MetaInv.drop {ids own extra : List String} {n : Nat} {d : Document} {st : MetaSt} (h : MetaInv (ids ++ own) extra n d st) : MetaInv own extra n d st where
  forest := h.forest
  stack := h.stack
  fresh id hid := h.fresh id (by rw [List.append_assoc]; exact List.mem_append_right _ hid)
  nodup := by have := h.nodup; rw [List.append_assoc, List.nodup_append] at this; exact this.2.1
  count := by have := h.count; rw [List.length_append] at this; omega

theorem MetaInv.move {own extra : List String} {n : Nat} {d d' : Document} {st st' : MetaSt} (h : MetaInv own extra n d st)
    (hp : d'.processors = d.processors) (hc : d'.chain = d.chain) (hst : ∀ k ∈ st'.procStack, k ∈ st.procStack) : MetaInv own extra n d' st' where
  forest := ProvForest.of_eq h.forest hp hc
  stack k hk := by unfold getProcessor; rw [hp]; exact h.stack k (hst k hk)
  fresh id hid := by unfold processorKeyById; rw [hp]; exact h.fresh id hid
  nodup := h.nodup
  count := by rw [hp]; exact h.count

theorem runDoc_inv {α : Type} {m : M Document α} {d d' : Document} {a : α} (h : runDoc m d = .ok (a, d')) : m d = (.ok a, d') := by
  unfold runDoc at h
  rcases hm : m d with ⟨f | b, d''⟩
  · rw [hm] at h; cases h
  · rw [hm] at h; cases h; rfl

theorem addProvenance_room {d d' : Document} {p : Processor} {k : Nat} (hf : d.processorKeyById p.id = none) (h : addProvenance p d = (.ok k, d')) : d.processors.len < cap16 := by
  by_cases hc : d.processors.len < cap16
  · exact hc
  · unfold addProvenance onProcessors Store.add Store.getKey at h
    have : d.processors.index.find p.id = none := hf
    simp only [Storable.maybeId, this] at h
    rw [if_neg (by exact hc)] at h
    cases h

theorem addParsed_inv {own extra : List String} {n k : Nat} {d d' : Document} {st : MetaSt} {as : List RAttr} {p : Processor}
    (hi : MetaInv (sourceProcId as :: own) extra n d st) (hp : parseProcessor {} as = .ok p) (h : runDoc (addParsedProcessor st p) d = .ok (k, d')) :
    MetaInv own extra n d' st ∧ d'.getProcessor k ≠ none := by
  have hid : p.id = sourceProcId as := parseProcessor_id as hp
  have hcl := parseProcessor_clean hp ⟨rfl, rfl⟩
  have hct : CleanProc (.node p []) := by simp [CleanProc, CleanProcs, hcl]
  have hids : procIds (.node p []) = [p.id] := by simp [procIds, procIdsList]
  have hsz : procSize (.node p []) = 1 := by simp [procSize, procSizeList]
  have hfr : d.FreshProcs (procIds (.node p [])) := by
    rw [hids]
    refine ⟨by simp, fun id hm => ?_⟩
    rw [List.mem_singleton] at hm
    rw [hm, hid]; exact hi.fresh _ (List.mem_cons_self ..)
  have hrun := mapErr_ok (runDoc_inv h)
  have hnot : ∀ id ∈ own ++ extra, id ∉ procIds (.node p []) := by
    intro id hm
    rw [hids, List.mem_singleton, hid]
    rintro rfl
    exact (List.nodup_cons.mp (show (sourceProcId as :: (own ++ extra)).Nodup from hi.nodup)).1 hm
  have hnd := (List.nodup_cons.mp (show (sourceProcId as :: (own ++ extra)).Nodup from hi.nodup)).2
  have hcnt : d.processors.len + (own.length + 1) ≤ n := hi.count
  cases hst : st.procStack with
  | nil =>
    rw [hst] at hrun
    simp only at hrun
    have hroom : d.processors.len < cap16 := by
      unfold addProcessor at hrun
      obtain ⟨a, b, h1, _⟩ := bind_ok hrun
      exact addProvenance_room (hfr.2 p.id (by simp [hids])) h1
    have hcap : d.processors.len + procSize (.node p []) ≤ cap16 := by rw [hsz]; omega
    obtain ⟨d1, e1, e2⟩ := addProcessor_added hct hfr hcap
    obtain ⟨k', d2, g1, _, _, g2, g3, _, _, g4⟩ := C49_add_processor hct hfr hcap
    rw [e1] at g1 hrun
    cases g1; cases hrun
    refine ⟨⟨g4 hi.forest, by rw [hst]; nofun, fun id hm => ?_, hnd, by rw [g3, hsz]; omega⟩, ?_⟩
    · rw [e2.index id (hnot id hm)]; exact hi.fresh id (List.mem_cons_of_mem _ hm)
    · have := e2.stored
      simp only [ProcStored] at this
      obtain ⟨_, _, hg, _⟩ := this
      rw [hg]; nofun
  | cons par tl =>
    rw [hst] at hrun
    simp only at hrun
    have hroom : d.processors.len < cap16 := by
      unfold addSubprocessor at hrun
      obtain ⟨a, b, h1, _⟩ := bind_ok hrun
      exact addProvenance_room (hfr.2 p.id (by simp [hids])) h1
    have hcap : d.processors.len + procSize (.node p []) ≤ cap16 := by rw [hsz]; omega
    cases hpe : d.getProcessor par with
    | none => exact absurd hpe (hi.stack par (by rw [hst]; exact List.mem_cons_self ..))
    | some pe =>
      obtain ⟨d1, e1, e2⟩ := addSubprocessor_added _ _ _ _ hct hpe hfr hcap
      obtain ⟨k', d2, g1, _, _, g0, g2, g3, _, _, g4⟩ := C49_add_subprocessor hct hpe hfr hcap
      rw [e1] at g1 hrun
      cases g1; cases hrun
      refine ⟨⟨g4 hi.forest, fun j hj => ?_, fun id hm => ?_, hnd, by rw [g3, hsz]; omega⟩, ?_⟩
      · cases hx : d.getProcessor j with
        | none => exact absurd hx (hi.stack j hj)
        | some x =>
          by_cases hjp : j = par
          · rw [hjp, g0]; nofun
          · rw [g2 j x hjp hx]; nofun
      · rw [e2.index id (by
          have := hnot id hm
          simpa [procIdsList, hids] using this)]; exact hi.fresh id (List.mem_cons_of_mem _ hm)
      · have := e2.stored
        simp only [ProcsStored] at this
        obtain ⟨c, cs, hc, h3, _⟩ := this
        cases hc
        simp only [ProcStored] at h3
        obtain ⟨_, _, hg, _⟩ := h3
        rw [hg]; nofun

theorem metaEmpty_inv {own extra : List String} {n : Nat} {d : Document} {st : MetaSt} {ns : Ns} {tag : String} {as : List RAttr} {r : Document × MetaSt}
    (hi : MetaInv ((if ns = .folia ∧ tag = "processor" then [sourceProcId as] else []) ++ own) extra n d st) (h : metaEmpty d st ns tag as = .ok r) :
    MetaInv own extra n r.1 r.2 := by
  unfold metaEmpty at h
  split at h
  · rename_i hc
    rw [if_pos ⟨hc.1, hc.2.1⟩] at hi
    cases hp : asParseError (parseProcessor {} as) with
    | error f => rw [hp] at h; cases h
    | ok p =>
      rw [hp] at h
      cases hr : runDoc (addParsedProcessor st p) d with
      | error f => simp only [Bind.bind, Except.bind] at h; rw [hr] at h; cases h
      | ok r' =>
        simp only [Bind.bind, Except.bind] at h
        rw [hr] at h; cases h
        exact (addParsed_inv hi (asParseError_ok hp) hr).1
  · have hi := hi.drop
    split at h
    · simp only [Bind.bind, Except.bind] at h
      split at h
      · cases h
      · split at h <;> (cases h; exact hi.move rfl rfl fun _ h => h)
    · cases h; exact hi

theorem metaStart_inv {own extra : List String} {n : Nat} {d : Document} {st : MetaSt} {ns : Ns} {tag : String} {as : List RAttr} {r : Document × MetaSt}
    (hi : MetaInv ((if ns = .folia ∧ tag = "processor" then [sourceProcId as] else []) ++ own) extra n d st) (h : metaStart d st ns tag as = .ok r) :
    MetaInv own extra n r.1 r.2 := by
  have hj := hi.drop
  unfold metaStart at h
  simp only [Bind.bind, Except.bind] at h
  have hattrs : ∀ {f : String → String → MetaSt → MetaSt} {st' : MetaSt}, (∀ k v s, s.procStack = st.procStack → (f k v s).procStack = st.procStack) →
      forAttrs f as st = .ok st' → st'.procStack = st.procStack := fun hf h => forAttrs_inv (I := fun s => s.procStack = st.procStack) (fun {k v s} => hf k v s) h rfl
  split at h
  · split at h
    · split at h
      · cases h
      · cases h; exact hj.move rfl rfl fun _ h => h
    · split at h
      · cases h; exact hj.move rfl rfl fun _ h => h
      · split at h
        · cases h; exact hj.move rfl rfl fun _ h => h
        · split at h
          · split at h
            · cases h
            · rename_i st' hst
              have := hattrs (by intro k v s hs; repeat' split
                                 all_goals exact hs) hst
              split at h
              · cases h
              · cases h; exact hj.move rfl rfl fun _ h => by rw [← this]; exact h
          · split at h
            · split at h
              · cases h
              · rename_i st' hst
                have := hattrs (by intro k v s hs; repeat' split
                                   all_goals exact hs) hst
                cases h; exact hj.move rfl rfl fun _ h => by rw [← this]; exact h
            · split at h
              · rename_i hns _ _ _ _ _ hc
                rw [if_pos ⟨hns, hc.1⟩] at hi
                split at h
                · cases h
                · rename_i p hp
                  split at h
                  · cases h
                  · rename_i r' hr
                    cases h
                    obtain ⟨h1, h2⟩ := addParsed_inv hi (asParseError_ok hp) hr
                    refine ⟨h1.forest, fun k hk => ?_, h1.fresh, h1.nodup, h1.count⟩
                    rcases List.mem_cons.mp hk with rfl | hk
                    · exact h2
                    · exact h1.stack k hk
              · split at h
                · split at h
                  · cases h
                  · rename_i dec hdec
                    split at h
                    · cases h
                    · rename_i r' hr
                      cases h
                      have hs := (KeepsHead.mapErr .parse (KeepsHead.addDeclaration dec)) d
                      rw [runDoc_inv hr] at hs
                      have hs : r'.2 = { d with elements := r'.2.elements, declarations := r'.2.declarations } := hs
                      exact hj.move (by rw [hs]) (by rw [hs]) fun _ h => h
                · cases h
  · cases h

theorem assignAnnotators_same (l : List (Nat × String)) (d : Document) : (assignAnnotators d l).processors = d.processors ∧ (assignAnnotators d l).chain = d.chain := by
  induction l generalizing d with
  | nil => exact ⟨rfl, rfl⟩
  | cons x xs ih =>
    obtain ⟨dk, id⟩ := x
    simp only [assignAnnotators]
    split
    · exact ih _
    · exact ih _

theorem metaEnd_inv {own extra : List String} {n : Nat} {d : Document} {st : MetaSt} {ns : Ns} {tag : String} (hi : MetaInv own extra n d st) :
    MetaInv own extra n (metaEnd d st ns tag).1 (metaEnd d st ns tag).2 := by
  unfold metaEnd
  repeat' split
  all_goals first
    | exact hi
    | exact hi.move rfl rfl fun _ h => h
    | exact hi.move rfl rfl fun _ h => List.mem_of_mem_tail h
    | exact hi.move (assignAnnotators_same _ _).1 (assignAnnotators_same _ _).2 fun _ h => h
    | skip
  unfold metaValue
  repeat' split
  all_goals exact hi.move rfl rfl fun _ h => h

theorem parseMeta_inv (extra : List String) (n : Nat) (evs : List REvent) : ∀ {d : Document} {st : MetaSt} {r : Document × List REvent},
    MetaInv (sourceProcIds evs) extra n d st → parseMeta d st evs = .ok r → ∃ own st', MetaInv own extra n r.1 st' := by
  induction evs with
  | nil => intro d st r _ h; cases h
  | cons ev rest ih =>
    intro d st r hi h
    cases ev with
    | error => cases h
    | empty ns tag as =>
      simp only [parseMeta] at h
      split at h
      · rename_i d' st' he
        exact ih (metaEmpty_inv hi he) h
      · cases h
    | start ns tag as =>
      simp only [parseMeta] at h
      split at h
      · rename_i d' st' he
        exact ih (metaStart_inv hi he) h
      · cases h
    | text s =>
      simp only [parseMeta] at h
      split at h
      · refine ih ?_ h
        exact hi.move rfl rfl fun _ h => h
      · cases h
    | endTag ns tag =>
      simp only [parseMeta] at h
      split at h
      · cases h; exact ⟨_, _, hi⟩
      · exact ih (metaEnd_inv hi) h
    | cdata s => exact ih hi h
    | comment s => exact ih hi h
    | other => exact ih hi h

theorem parseRoot_sub : ∀ (evs : List REvent) {d : Document} {r : Document × List REvent}, parseRoot d evs = .ok r →
    (sourceProcIds r.2).Sublist (sourceProcIds evs) ∧ r.1.processors = d.processors ∧ r.1.chain = d.chain
  | [], d, r, h => by cases h
  | ev :: rest, d, r, h => by
    cases ev with
    | error => cases h
    | start ns tag as =>
      simp only [parseRoot] at h
      split at h
      · obtain ⟨d', h1, h2⟩ := map_ok h
        subst h2
        have hs := rootAttrs_same _ h1
        exact ⟨List.sublist_append_right .., hs.2.2.1, hs.2.2.2.1⟩
      · cases h
    | empty ns tag as =>
      obtain ⟨h1, h2⟩ := parseRoot_sub rest (d := d) (r := r) h
      exact ⟨h1.trans (List.sublist_append_right ..), h2⟩
    | text | endTag | cdata | comment | other => exact parseRoot_sub rest (d := d) (r := r) h

theorem parse_forest {X : Ext} {F : Nat} {ps : DocumentProperties} {evs : List REvent} {d : Document} (hn : (sourceProcIds evs).Nodup)
    (hp : ∀ t, ps.processor = some t → CleanProc t ∧ (sourceProcIds evs ++ procIds t).Nodup ∧ (sourceProcIds evs).length + procSize t ≤ 65536)
    (h : Document.parse X F ps evs = .ok d) : d.ProvForest := by
  unfold Document.parse at h
  simp only [Bind.bind, Except.bind] at h
  split at h
  · cases h
  · rename_i r1 h1
    obtain ⟨hsub, hproc, hchain⟩ := parseRoot_sub _ h1
    -- the identifiers of the processor of the properties
    let extra : List String := match ps.processor with | some t => procIds t | none => []
    have hnd : (sourceProcIds evs ++ extra).Nodup := by
      cases hps : ps.processor with
      | none => simp only [extra, hps, List.append_nil]; exact hn
      | some t => simp only [extra, hps]; exact (hp t hps).2.1
    have hi : MetaInv (sourceProcIds r1.2) extra (sourceProcIds evs).length r1.1 {} :=
      { forest := C49_none hproc hchain
        stack := by nofun
        fresh := fun i _ => by unfold processorKeyById; rw [hproc]; rfl
        nodup := (hsub.append_right extra).nodup hnd
        count := by rw [hproc]; have := hsub.length_le; simp [Store.len]; exact this }
    split at h
    · cases h
    · rename_i r2 h2
      obtain ⟨own, st', hj⟩ := parseMeta_inv extra _ _ hi h2
      split at h
      · cases h
      · rename_i r3 h3
        split at h
        · cases h
        · rename_i body hbody
          split at h
          · cases h
          · rename_i r4 h4
            cases h
            have h5 := runDoc_inv h4
            unfold parseRest at h5
            obtain ⟨k, d1, e1, e2⟩ := bind_ok h5
            have hd1 : SameHead r2.1 d1 := by have := KeepsHead.mapErr .parse (KeepsHead.addElem body none) r2.1; rw [e1] at this; exact this
            obtain ⟨u, d2, e3, e4⟩ := bind_ok e2
            have hs : d1 = { r2.1 with elements := d1.elements, declarations := d1.declarations } := hd1
            have hd2 : d2.ProvForest := by
              have := applyProperties_forest (ps := ps) (ProvForest.same_head hj.forest hd1) fun t ht => by
                obtain ⟨c1, c2, c3⟩ := hp t ht
                have hex : extra = procIds t := by simp only [extra, ht]
                refine ⟨c1, ⟨(List.nodup_append.mp c2).2.1, fun i hm => ?_⟩, ?_⟩
                · have := hj.fresh i (List.mem_append_right _ (by rw [hex]; exact hm))
                  rw [hs]; exact this
                · have h1 := hj.count
                  have h2 : d1.processors.len = r2.1.processors.len := by rw [hs]
                  omega
              rw [mapErr_ok e3] at this
              exact this
            have hk : KeepsHead (M.get >>= fun d : Document => if d.elements.items.isEmpty = true then M.err .internal else parseElements X F r3.2 [0]) :=
              KeepsHead.bind KeepsHead.get fun d => by
                split
                · exact KeepsHead.err _
                · exact KeepsHead.parseElements X F _ _
            have := hk d2
            rw [e4] at this
            exact ProvForest.same_head hd2 this

end Folia
