import Verif.Provenance
import Verif.Lemmas.Store
/-! Adding processors. -/
namespace Folia
open Document

mutual
theorem procStored_mono {lo lo' : Nat} {d d' : Document} (hlo : lo' ≤ lo) (hk : ∀ j x, lo ≤ j → d.getProcessor j = some x → d'.getProcessor j = some x) :
    ∀ (t : ProcTree) (k : Nat) (par : Option Nat), ProcStored lo d par k t → ProcStored lo' d' par k t
  | .node p pending, k, par, h => by
    simp only [ProcStored] at h ⊢
    obtain ⟨subs, h1, h2, h3⟩ := h
    exact ⟨subs, Nat.le_trans hlo h1, hk _ _ h1 h2, procsStored_mono hlo hk pending subs (some k) h3⟩
theorem procsStored_mono {lo lo' : Nat} {d d' : Document} (hlo : lo' ≤ lo) (hk : ∀ j x, lo ≤ j → d.getProcessor j = some x → d'.getProcessor j = some x) :
    ∀ (ts : List ProcTree) (ks : List Nat) (par : Option Nat), ProcsStored lo d par ks ts → ProcsStored lo' d' par ks ts
  | [], ks, par, h => by simp only [ProcsStored] at h ⊢; exact h
  | t :: ts, ks, par, h => by
    simp only [ProcsStored] at h ⊢
    obtain ⟨c, cs, h1, h2, h3⟩ := h
    exact ⟨c, cs, h1, procStored_mono hlo hk t c par h2, procsStored_mono hlo hk ts cs par h3⟩
end

theorem getProcessor_update (d : Document) (k j : Nat) (f : Processor → Processor) :
    ({ d with processors := d.processors.update k f } : Document).getProcessor j = if j = k then (d.getProcessor j).map f else d.getProcessor j := by
  unfold getProcessor
  exact Store.get_update ..

theorem getProcessor_lt {d : Document} {k : Nat} {x : Processor} (h : d.getProcessor k = some x) : k < d.processors.len := Store.get_lt h

/-- Adding a processor with a new identifier. -/
theorem addProvenance_fresh {d : Document} {p : Processor} (hf : d.processorKeyById p.id = none) (hc : d.processors.len < cap16) :
    ∃ d', addProvenance p d = (.ok d.processors.len, d') ∧ d' = { d with processors := d'.processors } ∧ d'.processors.len = d.processors.len + 1 ∧
      (∀ j, d'.getProcessor j = if j = d.processors.len then some { p with key := some d.processors.len } else d.getProcessor j) ∧
      ∀ id, d'.processorKeyById id = if id = p.id then some d.processors.len else d.processorKeyById id := by
  have hadd : d.processors.add cap16 p = (.ok d.processors.len,
      ({ items := d.processors.items ++ [some { p with key := some d.processors.len }], index := d.processors.index.insert p.id d.processors.len } : Store Processor)) := by
    unfold Store.add Store.getKey
    have : d.processors.index.find p.id = none := hf
    simp only [Storable.maybeId, this]
    rw [if_pos (by exact hc)]
    rfl
  refine ⟨{ d with processors := { items := d.processors.items ++ [some { p with key := some d.processors.len }], index := d.processors.index.insert p.id d.processors.len } },
    by unfold addProvenance onProcessors; dsimp only; rw [hadd], rfl, by simp [Store.len], fun j => ?_, fun id => ?_⟩
  · exact Store.get_append_item ..
  · unfold processorKeyById Store.idToKey
    simp only [Index.insert, Index.find]
    by_cases h : id = p.id
    · simp [h]
    · simp [h, Ne.symm h]

theorem attachProcessor_run {d : Document} {p c : Nat} {pe ce : Processor} (hp : d.getProcessor p = some pe) (hc : d.getProcessor c = some ce) :
    ∃ d', attachProcessor p c d = (.ok (), d') ∧ d' = { d with processors := d'.processors } ∧ d'.processors.len = d.processors.len ∧
      d'.processors.index = d.processors.index ∧ ∀ j, d'.getProcessor j = (d.getProcessor j).map fun x =>
        { x with parent := if j = c then some p else x.parent, processors := if j = p then x.processors ++ [c] else x.processors } := by
  refine ⟨{ d with processors := (d.processors.update c fun x => { x with parent := some p }).update p fun x => { x with processors := x.processors ++ [c] } },
    ?_, rfl, by simp [Store.len], by simp, fun j => ?_⟩
  · unfold attachProcessor
    simp only [M.run_bind, M.run_get, hp, hc]
    rfl
  · unfold getProcessor at hp hc ⊢
    rw [Store.get_update, Store.get_update]
    cases hg : d.processors.get j with
    | none => simp
    | some x => by_cases h1 : j = p <;> by_cases h2 : j = c <;> simp [h1, h2] <;> (try subst h1) <;> (try subst h2) <;> simp_all

/-- The trees `ts` were added below `parent` with the keys `ks`. -/
structure SubAdded (d d' : Document) (parent : Nat) (ks : List Nat) (ts : List ProcTree) : Prop where
  same : d' = { d with processors := d'.processors }
  len : d'.processors.len = d.processors.len + procSizeList ts
  old : ∀ j, j < d.processors.len → d'.getProcessor j = (d.getProcessor j).map fun x => { x with processors := if j = parent then x.processors ++ ks else x.processors }
  stored : ProcsStored d.processors.len d' (some parent) ks ts
  index : ∀ id, id ∉ procIdsList ts → d'.processorKeyById id = d.processorKeyById id
  links : ProcLinks d → ProcLinks d'

theorem SubAdded.refl (d : Document) (parent : Nat) : SubAdded d d parent [] [] where
  same := rfl
  len := by simp [procSizeList]
  old := fun j _ => by cases d.getProcessor j <;> simp
  stored := by simp only [ProcsStored]
  index := fun _ _ => rfl
  links := fun h => h

theorem SubAdded.trans {a b c : Document} {parent k : Nat} {ks : List Nat} {t : ProcTree} {ts : List ProcTree} (hp : parent < a.processors.len)
    (h : SubAdded a b parent [k] [t]) (h' : SubAdded b c parent ks ts) : SubAdded a c parent (k :: ks) (t :: ts) where
  same := by rw [h'.same, h.same]
  len := by rw [h'.len, h.len]; simp [procSizeList]; omega
  old := fun j hj => by
    rw [h'.old j (by rw [h.len]; omega), h.old j hj]
    cases a.getProcessor j with
    | none => rfl
    | some x => by_cases hjp : j = parent <;> simp [hjp]
  stored := by
    have hs := h.stored
    simp only [ProcsStored] at hs ⊢
    obtain ⟨c1, cs1, h1, h2, h3⟩ := hs
    cases h1
    refine ⟨k, ks, rfl, procStored_mono (Nat.le_refl _) ?_ t k _ h2, procsStored_mono (by rw [h.len]; omega) (fun _ _ _ h => h) ts ks _ h'.stored⟩
    intro j x hj hx
    rw [h'.old j (getProcessor_lt hx), hx, Option.map_some, if_neg (by omega)]
  index := fun id hid => by
    simp only [procIdsList, List.mem_append, not_or] at hid
    rw [h'.index id hid.2, h.index id (by simpa [procIdsList] using hid.1)]
  links := fun hl => h'.links (h.links hl)

/-- Adding a leaf below an existing processor keeps the links in order. -/
theorem leaf_links {d d' : Document} {p : Nat} {pe q : Processor} (hl : ProcLinks d) (hp : d.getProcessor p = some pe)
    (hn : d.getProcessor d.processors.len = none)
    (hg : ∀ j, d'.getProcessor j = if j = d.processors.len then some { q with parent := some p, processors := [] }
      else (d.getProcessor j).map fun x => { x with processors := if j = p then x.processors ++ [d.processors.len] else x.processors }) : ProcLinks d' := by
  have hpl := getProcessor_lt hp
  have hlist : ∀ a c, d'.ListsProc a c ↔ (a = p ∧ c = d.processors.len) ∨ d.ListsProc a c := by
    intro a c
    unfold ListsProc
    rw [hg a]
    by_cases ha : a = d.processors.len
    · rw [if_pos ha]
      constructor
      · rintro ⟨x, hx, hm⟩; cases hx; cases hm
      · rintro (⟨rfl, _⟩ | ⟨x, hx, _⟩)
        · omega
        · subst ha; rw [hn] at hx; cases hx
    · rw [if_neg ha]
      constructor
      · rintro ⟨x, hx, hm⟩
        obtain ⟨y, hy, rfl⟩ := Option.map_eq_some_iff.mp hx
        simp only at hm
        split at hm
        · rename_i hap
          rw [List.mem_append, List.mem_singleton] at hm
          rcases hm with hm | hm
          · exact Or.inr ⟨y, hy, hm⟩
          · exact Or.inl ⟨hap, hm⟩
        · exact Or.inr ⟨y, hy, hm⟩
      · rintro (⟨rfl, rfl⟩ | ⟨x, hx, hm⟩)
        · exact ⟨_, by rw [hp]; rfl, by simp⟩
        · refine ⟨_, by rw [hx]; rfl, ?_⟩
          simp only
          split
          · exact List.mem_append_left _ hm
          · exact hm
  have hbelow : ∀ c a, d'.ProcBelow c a ↔ (a = p ∧ c = d.processors.len) ∨ d.ProcBelow c a := by
    intro c a
    unfold ProcBelow
    rw [hg c]
    by_cases hc : c = d.processors.len
    · rw [if_pos hc]
      constructor
      · rintro ⟨x, hx, hm⟩; cases hx; cases hm; exact Or.inl ⟨rfl, hc⟩
      · rintro (⟨rfl, _⟩ | ⟨x, hx, _⟩)
        · exact ⟨_, rfl, rfl⟩
        · subst hc; rw [hn] at hx; cases hx
    · rw [if_neg hc]
      constructor
      · rintro ⟨x, hx, hm⟩
        obtain ⟨y, hy, rfl⟩ := Option.map_eq_some_iff.mp hx
        exact Or.inr ⟨y, hy, hm⟩
      · rintro (⟨_, rfl⟩ | ⟨x, hx, hm⟩)
        · exact absurd rfl hc
        · exact ⟨{ x with processors := if c = p then x.processors ++ [d.processors.len] else x.processors }, by rw [hx, Option.map_some], hm⟩
  have hold : ∀ a c, d.ListsProc a c → c ≠ d.processors.len := by
    intro a c hac hc
    obtain ⟨x, hx, _⟩ := (hl.agree a c).mp hac
    subst hc; rw [hn] at hx; cases hx
  refine ⟨fun a c => by rw [hlist, hbelow, hl.agree], fun a x hx => ?_, ?_⟩
  · rw [hg a] at hx
    split at hx
    · cases hx; exact List.nodup_nil
    · obtain ⟨y, hy, rfl⟩ := Option.map_eq_some_iff.mp hx
      simp only
      split
      · rw [List.nodup_append]
        refine ⟨hl.once a y hy, by simp, ?_⟩
        intro u hu v hv
        rw [List.mem_singleton] at hv
        subst hv
        exact hold a u ⟨y, hy, hu⟩
      · exact hl.once a y hy
  · obtain ⟨h, hh⟩ := hl.height
    refine ⟨fun k => if k = d.processors.len then 0 else h k + 1, fun a c hac => ?_⟩
    rcases (hlist a c).mp hac with ⟨rfl, rfl⟩ | hac'
    · simp only [if_pos]; rw [if_neg (by omega)]; omega
    · have h1 := hh a c hac'
      have h2 := hold a c hac'
      simp only [if_neg h2]
      obtain ⟨x, hx, _⟩ := hac'
      have := getProcessor_lt hx
      rw [if_neg (by omega)]
      omega

theorem get_len_none (d : Document) : d.getProcessor d.processors.len = none := by
  cases h : d.getProcessor d.processors.len with
  | none => rfl
  | some x => have := getProcessor_lt h; omega

mutual
theorem addSubprocessor_added : ∀ (t : ProcTree) (parent : Nat) (d : Document) (pe : Processor), CleanProc t → d.getProcessor parent = some pe →
    d.FreshProcs (procIds t) → d.processors.len + procSize t ≤ cap16 →
    ∃ d', addSubprocessor parent t d = (.ok d.processors.len, d') ∧ SubAdded d d' parent [d.processors.len] [t]
  | .node p pending, parent, d, pe, hcl, hp, hf, hcap => by
    simp only [CleanProc] at hcl
    simp only [procIds] at hf
    simp only [procSize] at hcap
    obtain ⟨hn, hf⟩ := hf
    rw [List.nodup_cons] at hn
    obtain ⟨d1, a1, a2, a3, a4, a5⟩ := addProvenance_fresh (hf p.id (List.mem_cons_self ..)) (by omega : d.processors.len < cap16)
    have hpl := getProcessor_lt hp
    have hp1 : d1.getProcessor parent = some pe := by rw [a4, if_neg (by omega)]; exact hp
    have hc1 : d1.getProcessor d.processors.len = some { p with key := some d.processors.len } := by rw [a4, if_pos rfl]
    obtain ⟨d2, b1, b2, b3, b4, b5⟩ := attachProcessor_run hp1 hc1
    have hg2 : ∀ j, d2.getProcessor j = if j = d.processors.len then some { p with key := some d.processors.len, parent := some parent, processors := [] }
        else (d.getProcessor j).map fun x => { x with processors := if j = parent then x.processors ++ [d.processors.len] else x.processors } := by
      intro j
      rw [b5, a4]
      by_cases hj : j = d.processors.len
      · rw [if_pos hj, if_pos hj, Option.map_some, if_pos hj, if_neg (by omega), hcl.1]
      · rw [if_neg hj, if_neg hj]
        simp only [if_neg hj]
    have hk2 : ∀ id, d2.processorKeyById id = if id = p.id then some d.processors.len else d.processorKeyById id := by
      intro id
      rw [← a5 id]
      unfold processorKeyById Store.idToKey
      rw [b4]
    obtain ⟨d3, c1, ks, c2⟩ := addSubprocessors_added pending d.processors.len d2 _ hcl.2.2 (by rw [hg2, if_pos rfl])
      ⟨hn.2, fun id hid => by
        rw [hk2, if_neg (by rintro rfl; exact hn.1 hid)]
        exact hf id (List.mem_cons_of_mem _ hid)⟩ (by rw [b3, a3]; omega)
    have hlen2 : d2.processors.len = d.processors.len + 1 := by rw [b3, a3]
    refine ⟨d3, ?_, ?_⟩
    · simp only [addSubprocessor]
      rw [M.run_bind, a1]
      simp only
      rw [M.run_bind, b1]
      simp only
      rw [M.run_bind, c1]
      rfl
    · constructor
      · rw [c2.same, b2, a2]
      · rw [c2.len, hlen2]; simp [procSizeList, procSize]; omega
      · intro j hj
        rw [c2.old j (by omega), hg2, if_neg (by omega)]
        cases d.getProcessor j with
        | none => rfl
        | some x => simp only [Option.map_some, if_neg (show j ≠ d.processors.len by omega)]
      · simp only [ProcsStored, ProcStored]
        refine ⟨_, [], rfl, ⟨ks, Nat.le_refl _, ?_, ?_⟩, rfl⟩
        · rw [c2.old _ (by omega), hg2, if_pos rfl]
          simp
        · exact procsStored_mono (by omega) (fun _ _ _ h => h) pending ks _ c2.stored
      · intro id hid
        simp only [procIdsList, procIds, List.append_nil, List.mem_cons, not_or] at hid
        rw [c2.index id hid.2, hk2, if_neg hid.1]
      · intro hl
        refine c2.links (leaf_links (q := { p with key := some d.processors.len }) hl hp (get_len_none d) ?_)
        intro j
        rw [hg2]
theorem addSubprocessors_added : ∀ (ts : List ProcTree) (parent : Nat) (d : Document) (pe : Processor), CleanProcs ts → d.getProcessor parent = some pe →
    d.FreshProcs (procIdsList ts) → d.processors.len + procSizeList ts ≤ cap16 →
    ∃ d', addSubprocessors parent ts d = (.ok (), d') ∧ ∃ ks, SubAdded d d' parent ks ts
  | [], parent, d, pe, _, _, _, _ => ⟨d, rfl, [], .refl d parent⟩
  | t :: ts, parent, d, pe, hcl, hp, hf, hcap => by
    simp only [CleanProcs] at hcl
    simp only [procIdsList] at hf
    simp only [procSizeList] at hcap
    obtain ⟨hn, hf⟩ := hf
    rw [List.nodup_append] at hn
    obtain ⟨d1, a1, a2⟩ := addSubprocessor_added t parent d pe hcl.1 hp ⟨hn.1, fun id hid => hf id (List.mem_append_left _ hid)⟩ (by omega)
    have hlen1 : d1.processors.len = d.processors.len + procSize t := by rw [a2.len]; simp [procSizeList]
    have hpl := getProcessor_lt hp
    obtain ⟨d2, b1, ks, b2⟩ := addSubprocessors_added ts parent d1 _ hcl.2 (by rw [a2.old parent hpl, hp]; rfl)
      ⟨hn.2.1, fun id hid => by
        rw [a2.index id (by simp only [procIdsList, List.append_nil]; exact fun h => hn.2.2 id h id hid rfl)]
        exact hf id (List.mem_append_right _ hid)⟩ (by omega)
    refine ⟨d2, ?_, _, a2.trans hpl b2⟩
    simp only [addSubprocessors]
    rw [M.run_bind, a1]
    exact b1
end

/-- A tree was added to the chain with the key `k`. -/
structure ChainAdded (d d' : Document) (k : Nat) (t : ProcTree) : Prop where
  same : d' = { d with processors := d'.processors, chain := d.chain ++ [k] }
  len : d'.processors.len = d.processors.len + procSize t
  old : ∀ j, j < d.processors.len → d'.getProcessor j = d.getProcessor j
  stored : ProcStored d.processors.len d' none k t
  index : ∀ id, id ∉ procIds t → d'.processorKeyById id = d.processorKeyById id
  links : ProcLinks d → ProcLinks d'

theorem orphan_links {d d' : Document} {q : Processor} (hl : ProcLinks d) (hq : q.processors = []) (hqp : q.parent = none)
    (hg : ∀ j, d'.getProcessor j = if j = d.processors.len then some q else d.getProcessor j) : ProcLinks d' := by
  have hn := get_len_none d
  have hlist : ∀ a c, d'.ListsProc a c ↔ d.ListsProc a c := by
    intro a c
    unfold ListsProc
    rw [hg a]
    by_cases ha : a = d.processors.len
    · rw [if_pos ha, ha, hn]
      constructor
      · rintro ⟨x, hx, hm⟩; cases hx; rw [hq] at hm; cases hm
      · rintro ⟨x, hx, _⟩; cases hx
    · rw [if_neg ha]
  have hbelow : ∀ c a, d'.ProcBelow c a ↔ d.ProcBelow c a := by
    intro c a
    unfold ProcBelow
    rw [hg c]
    by_cases ha : c = d.processors.len
    · rw [if_pos ha, ha, hn]
      constructor
      · rintro ⟨x, hx, hm⟩; cases hx; rw [hqp] at hm; cases hm
      · rintro ⟨x, hx, _⟩; cases hx
    · rw [if_neg ha]
  refine ⟨fun a c => by rw [hlist, hbelow, hl.agree], fun a x hx => ?_, ?_⟩
  · rw [hg a] at hx
    split at hx
    · cases hx; rw [hq]; exact List.nodup_nil
    · exact hl.once a x hx
  · obtain ⟨h, hh⟩ := hl.height
    exact ⟨h, fun a c hac => hh a c ((hlist a c).mp hac)⟩

theorem addProcessor_added {t : ProcTree} {d : Document} (hcl : CleanProc t) (hf : d.FreshProcs (procIds t)) (hcap : d.processors.len + procSize t ≤ cap16) :
    ∃ d', addProcessor t d = (.ok d.processors.len, d') ∧ ChainAdded d d' d.processors.len t := by
  obtain ⟨p, pending⟩ := t
  simp only [CleanProc] at hcl
  simp only [procIds] at hf
  simp only [procSize] at hcap
  obtain ⟨hn, hf⟩ := hf
  rw [List.nodup_cons] at hn
  obtain ⟨d1, a1, a2, a3, a4, a5⟩ := addProvenance_fresh (hf p.id (List.mem_cons_self ..)) (by omega : d.processors.len < cap16)
  obtain ⟨d3, c1, ks, c2⟩ := addSubprocessors_added pending d.processors.len { d1 with chain := d1.chain ++ [d.processors.len] } _ hcl.2.2
    (show d1.getProcessor _ = _ by rw [a4, if_pos rfl])
    ⟨hn.2, fun id hid => by
      show d1.processorKeyById id = none
      rw [a5, if_neg (by rintro rfl; exact hn.1 hid)]
      exact hf id (List.mem_cons_of_mem _ hid)⟩ (by show d1.processors.len + _ ≤ _; rw [a3]; omega)
  have hlen1 : ({ d1 with chain := d1.chain ++ [d.processors.len] } : Document).processors.len = d.processors.len + 1 := a3
  refine ⟨d3, ?_, ?_⟩
  · simp only [addProcessor]
    rw [M.run_bind, a1]
    simp only
    rw [M.run_bind, M.run_modify]
    simp only
    rw [M.run_bind, c1]
    rfl
  · constructor
    · rw [c2.same, a2]
    · rw [c2.len, hlen1]; simp [procSize]; omega
    · intro j hj
      rw [c2.old j (by omega)]
      show (d1.getProcessor j).map _ = _
      rw [a4, if_neg (by omega)]
      cases d.getProcessor j with
      | none => rfl
      | some x => simp only [Option.map_some, if_neg (show j ≠ d.processors.len by omega)]
    · simp only [ProcStored]
      refine ⟨ks, Nat.le_refl _, ?_, procsStored_mono (by omega) (fun _ _ _ h => h) pending ks _ c2.stored⟩
      rw [c2.old _ (by omega)]
      show (d1.getProcessor _).map _ = _
      rw [a4, if_pos rfl]
      simp [hcl.1, hcl.2.1]
    · intro id hid
      simp only [procIds, List.mem_cons, not_or] at hid
      rw [c2.index id hid.2]
      show d1.processorKeyById id = _
      rw [a5, if_neg hid.1]
    · intro hl
      refine c2.links (orphan_links (q := { p with key := some d.processors.len }) hl hcl.1 hcl.2.1 ?_)
      intro j
      exact a4 j

/-! ### Attaching -/

theorem attachProc_links {d d' : Document} {p c : Nat} {pe ce : Processor} (hl : ProcLinks d) (hp : d.getProcessor p = some pe) (hc : d.getProcessor c = some ce)
    (hcp : ce.parent = none) (hover : ¬ d.ProcOver c p) (hg : ∀ j, d'.getProcessor j = (d.getProcessor j).map fun x =>
        { x with parent := if j = c then some p else x.parent, processors := if j = p then x.processors ++ [c] else x.processors }) : ProcLinks d' := by
  have hlist : ∀ a b, d'.ListsProc a b ↔ (a = p ∧ b = c) ∨ d.ListsProc a b := by
    intro a b
    unfold ListsProc
    rw [hg a]
    constructor
    · rintro ⟨x, hx, hm⟩
      obtain ⟨y, hy, rfl⟩ := Option.map_eq_some_iff.mp hx
      simp only at hm
      split at hm
      · rename_i hap
        rw [List.mem_append, List.mem_singleton] at hm
        rcases hm with hm | hm
        · exact Or.inr ⟨y, hy, hm⟩
        · exact Or.inl ⟨hap, hm⟩
      · exact Or.inr ⟨y, hy, hm⟩
    · rintro (⟨rfl, rfl⟩ | ⟨x, hx, hm⟩)
      · exact ⟨_, by rw [hp]; rfl, by simp⟩
      · refine ⟨_, by rw [hx]; rfl, ?_⟩
        simp only
        split
        · exact List.mem_append_left _ hm
        · exact hm
  have hbelow : ∀ b a, d'.ProcBelow b a ↔ (a = p ∧ b = c) ∨ d.ProcBelow b a := by
    intro b a
    unfold ProcBelow
    rw [hg b]
    constructor
    · rintro ⟨x, hx, hm⟩
      obtain ⟨y, hy, rfl⟩ := Option.map_eq_some_iff.mp hx
      simp only at hm
      split at hm
      · rename_i hbc
        cases hm
        exact Or.inl ⟨rfl, hbc⟩
      · exact Or.inr ⟨y, hy, hm⟩
    · rintro (⟨rfl, rfl⟩ | ⟨x, hx, hm⟩)
      · exact ⟨_, by rw [hc]; rfl, by simp⟩
      · have hbc : b ≠ c := by
          rintro rfl
          rw [hc] at hx; cases hx
          rw [hcp] at hm; cases hm
        refine ⟨_, by rw [hx]; rfl, ?_⟩
        simp only
        rw [if_neg hbc]
        exact hm
  refine ⟨fun a b => by rw [hlist, hbelow, hl.agree], fun a x hx => ?_, ?_⟩
  · rw [hg a] at hx
    obtain ⟨y, hy, rfl⟩ := Option.map_eq_some_iff.mp hx
    simp only
    split
    · rw [List.nodup_append]
      refine ⟨hl.once a y hy, by simp, ?_⟩
      intro u hu v hv
      rw [List.mem_singleton] at hv
      subst hv
      rintro rfl
      obtain ⟨z, hz, hz'⟩ := (hl.agree a u).mp ⟨y, hy, hu⟩
      rw [hc] at hz; cases hz
      rw [hcp] at hz'; cases hz'
    · exact hl.once a y hy
  · obtain ⟨h, hh⟩ := hl.height
    obtain ⟨g, hg1, hg2⟩ : ∃ g : Nat → Nat, (∀ k, d.ProcOver k p → g k = h c + 1) ∧ ∀ k, ¬ d.ProcOver k p → g k = 0 := by
      classical
      exact ⟨fun k => if d.ProcOver k p then h c + 1 else 0, fun k hk => if_pos hk, fun k hk => if_neg hk⟩
    refine ⟨fun k => h k + g k, fun a b hab => ?_⟩
    rcases (hlist a b).mp hab with ⟨rfl, rfl⟩ | hab
    · simp only [hg2 _ hover, hg1 _ (ProcOver.here a)]
      omega
    · have h1 := hh a b hab
      simp only
      by_cases hb : d.ProcOver b p
      · rw [hg1 _ hb, hg1 _ (.step hab hb)]; omega
      · rw [hg2 _ hb]; omega

/-! ### Writing -/

/-- The tree below a processor. -/
theorem exists_procTree {d : Document} (hl : ProcLinks d) :
    ∀ (n : Nat) (h : Nat → Nat), (∀ p c, d.ListsProc p c → h c < h p) → ∀ k x, h k < n → d.getProcessor k = some x → x.key = some k →
      (∀ j y, d.getProcessor j = some y → y.key = some j) → ∃ t, ProcStored 0 d x.parent k t
  | 0, h, _, k, x, hn, _, _, _ => by omega
  | n + 1, h, hh, k, x, hn, hx, hk, hkeys => by
    have hsub : ∀ cs : List Nat, (∀ c ∈ cs, c ∈ x.processors) → ∃ ts, ProcsStored 0 d (some k) cs ts := by
      intro cs
      induction cs with
      | nil => intro _; exact ⟨[], by simp only [ProcsStored]⟩
      | cons c cs ih =>
        intro hcs
        have hc := hcs c (List.mem_cons_self ..)
        obtain ⟨ts, hts⟩ := ih fun c' hc' => hcs c' (List.mem_cons_of_mem _ hc')
        obtain ⟨y, hy, hyp⟩ := (hl.agree k c).mp ⟨x, hx, hc⟩
        have := hh k c ⟨x, hx, hc⟩
        obtain ⟨t, ht⟩ := exists_procTree hl n h hh c y (by omega) hy (hkeys c y hy) hkeys
        rw [hyp] at ht
        exact ⟨t :: ts, by simp only [ProcsStored]; exact ⟨c, cs, rfl, ht, hts⟩⟩
    obtain ⟨ts, hts⟩ := hsub x.processors fun _ h => h
    refine ⟨.node x ts, ?_⟩
    simp only [ProcStored]
    refine ⟨x.processors, Nat.zero_le _, ?_, hts⟩
    rw [hx]
    congr 1
    cases x
    simp only at hk
    subst hk
    rfl

theorem concatRes_cons {α : Type} (f : α → Res (List WEvent)) {a : α} {as : List α} {evs rest : List WEvent} (h : f a = .ok evs) (h' : concatRes f as = .ok rest) :
    concatRes f (a :: as) = .ok (evs ++ rest) := by
  simp only [concatRes, h, h']
  rfl

mutual
/-- A processor is written as its tree. -/
theorem xmlProcessor_tree {d : Document} : ∀ (t : ProcTree) (k : Nat) (par : Option Nat) (lo : Nat), ProcStored lo d par k t →
    ∃ N, ∀ G, N ≤ G → xmlProcessor d G k = .ok (procXml t)
  | .node p pending, k, par, lo, h => by
    simp only [ProcStored] at h
    obtain ⟨subs, _, h2, h3⟩ := h
    obtain ⟨N, hN⟩ := xmlProcessors_tree pending subs (some k) lo h3
    refine ⟨N + 1, fun G hG => ?_⟩
    obtain ⟨n, rfl⟩ : ∃ n, G = n + 1 := ⟨G - 1, by omega⟩
    have hs := hN n (by omega)
    simp only [xmlProcessor, h2]
    cases pending with
    | nil =>
      simp only [ProcsStored] at h3
      subst h3
      simp only [procXml]
      rfl
    | cons t ts =>
      simp only [ProcsStored] at h3
      obtain ⟨c, cs, rfl, _, _⟩ := h3
      simp only [hs, Except.map, procXml]
      rfl
/-- See `xmlProcessor_tree`. -/
theorem xmlProcessors_tree {d : Document} : ∀ (ts : List ProcTree) (ks : List Nat) (par : Option Nat) (lo : Nat), ProcsStored lo d par ks ts →
    ∃ N, ∀ G, N ≤ G → concatRes (xmlProcessor d G) ks = .ok (procsXml ts)
  | [], ks, par, lo, h => by
    simp only [ProcsStored] at h
    subst h
    exact ⟨0, fun G _ => by simp only [concatRes, procsXml]⟩
  | t :: ts, ks, par, lo, h => by
    simp only [ProcsStored] at h
    obtain ⟨c, cs, rfl, h1, h2⟩ := h
    obtain ⟨N1, hN1⟩ := xmlProcessor_tree t c par lo h1
    obtain ⟨N2, hN2⟩ := xmlProcessors_tree ts cs par lo h2
    refine ⟨max N1 N2, fun G hG => ?_⟩
    simp only [procsXml]
    exact concatRes_cons _ (hN1 G (by omega)) (hN2 G (by omega))
end

end Folia
