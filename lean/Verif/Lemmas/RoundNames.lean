import Verif.RoundTrip
import Verif.Lemmas.RoundHead
import Verif.Lemmas.Query
/-! Names of processors, and maps, after writing and reading. -/
namespace Folia
open Document

mutual
theorem over_in_tree {lo : Nat} {d : Document} : ∀ (t : ProcTree) (par : Option Nat) (k : Nat), ProcStored lo d par k t → ∀ {p : Nat} {x : Processor},
    d.ProcOver k p → d.getProcessor p = some x → x.id ∈ procIds t
  | .node q ts, par, k, h, p, x, ho, hx => by
    simp only [ProcStored] at h
    obtain ⟨subs, _, h1, h2⟩ := h
    simp only [procIds]
    cases ho with
    | here =>
      rw [h1] at hx
      cases hx
      exact List.mem_cons_self ..
    | step hl ho =>
      obtain ⟨y, hy, hm⟩ := hl
      rw [h1] at hy
      cases hy
      exact List.mem_cons_of_mem _ (over_in_trees ts _ _ h2 hm ho hx)
theorem over_in_trees {lo : Nat} {d : Document} : ∀ (ts : List ProcTree) (par : Option Nat) (ks : List Nat), ProcsStored lo d par ks ts → ∀ {c p : Nat} {x : Processor},
    c ∈ ks → d.ProcOver c p → d.getProcessor p = some x → x.id ∈ procIdsList ts
  | [], par, ks, h, c, p, x, hc, _, _ => by
    simp only [ProcsStored] at h
    subst h
    cases hc
  | t :: ts, par, ks, h, c, p, x, hc, ho, hx => by
    simp only [ProcsStored] at h
    obtain ⟨c', cs, rfl, h1, h2⟩ := h
    simp only [procIdsList, List.mem_append]
    rcases List.mem_cons.mp hc with rfl | hc
    · exact Or.inl (over_in_tree t par _ h1 ho hx)
    · exact Or.inr (over_in_trees ts par cs h2 hc ho hx)
end

mutual
theorem tree_ids_live {lo : Nat} {d : Document} : ∀ (t : ProcTree) (par : Option Nat) (k : Nat), ProcStored lo d par k t → ∀ pid ∈ procIds t,
    ∃ j x, d.getProcessor j = some x ∧ x.id = pid
  | .node q ts, par, k, h, pid, hid => by
    simp only [ProcStored] at h
    obtain ⟨subs, _, h1, h2⟩ := h
    simp only [procIds] at hid
    rcases List.mem_cons.mp hid with rfl | hid
    · exact ⟨k, _, h1, rfl⟩
    · exact trees_ids_live ts _ _ h2 pid hid
theorem trees_ids_live {lo : Nat} {d : Document} : ∀ (ts : List ProcTree) (par : Option Nat) (ks : List Nat), ProcsStored lo d par ks ts → ∀ pid ∈ procIdsList ts,
    ∃ j x, d.getProcessor j = some x ∧ x.id = pid
  | [], par, ks, h, pid, hid => by simp only [procIdsList] at hid; cases hid
  | t :: ts, par, ks, h, pid, hid => by
    simp only [ProcsStored] at h
    obtain ⟨c', cs, _, h1, h2⟩ := h
    simp only [procIdsList, List.mem_append] at hid
    rcases hid with hid | hid
    · exact tree_ids_live t _ _ h1 pid hid
    · exact trees_ids_live ts _ _ h2 pid hid
end

theorem names_back {d d2 : Document} (hx : ProcsExact d2) : ∀ (ps : List Nat), (∀ p ∈ ps, ∀ x, d.getProcessor p = some x → ∃ j y, d2.getProcessor j = some y ∧ y.id = x.id) →
    procIdents d2 ((procNames d ps).filterMap d2.processorKeyById) = procIdents d ps
  | [], _ => rfl
  | p :: ps, h => by
    have ih := names_back hx ps fun q hq => h q (List.mem_cons_of_mem _ hq)
    unfold procIdents procNames at ih ⊢
    cases hp : d.getProcessor p with
    | none => simp only [List.filterMap_cons, hp, Option.map_none]; exact ih
    | some x =>
      obtain ⟨j, y, hj, hid⟩ := h p (List.mem_cons_self ..) x hp
      have hk := (processorKeyById_iff hx x.id j).mpr ⟨y, hj, hid⟩
      simp only [List.filterMap_cons, hp, Option.map_some, hk, hj, hid]
      rw [ih]

theorem kept_filter : ∀ items : List (Option Declaration), keptDecls items = (items.filterMap fun o => o).filter fun dec => dec.processors ≠ []
  | [] => rfl
  | none :: rest => by simp only [keptDecls, List.filterMap_cons]; exact kept_filter rest
  | some dec :: rest => by
    simp only [keptDecls, List.filterMap_cons, List.filter_cons, kept_filter rest]
    by_cases h : dec.processors = [] <;> simp [h]

theorem mapInsert_new {α : Type} : ∀ (m : List (String × α)) (k : String) (v : α), k ∉ m.map (·.1) → mapInsert m k v = m ++ [(k, v)]
  | [], _, _, _ => rfl
  | (k', v') :: rest, k, v, h => by
    simp only [List.map_cons, List.mem_cons, not_or] at h
    simp only [mapInsert, if_neg (Ne.symm h.1), mapInsert_new rest k v h.2, List.cons_append]

theorem insertValues_all : ∀ (data m : List (String × String)), (∀ kv ∈ data, kv.2 ≠ "") → ((m ++ data).map (·.1)).Nodup → insertValues m data = m ++ data
  | [], m, _, _ => by simp [insertValues]
  | (k, v) :: rest, m, hv, hn => by
    have hk : k ∉ m.map (·.1) := by
      rw [List.map_append, List.nodup_append] at hn
      intro hm
      exact hn.2.2 k hm k (by simp) rfl
    have h1 : insertValues m ((k, v) :: rest) = insertValues (mapInsert m k v) rest := by
      have := hv (k, v) (List.mem_cons_self ..)
      simp only [insertValues]
      rw [List.filter_cons_of_pos (by simpa using this)]
      rfl
    rw [h1, mapInsert_new m k v hk, insertValues_all rest _ (fun kv h => hv kv (List.mem_cons_of_mem _ h)) (by simpa using hn)]
    simp

end Folia
