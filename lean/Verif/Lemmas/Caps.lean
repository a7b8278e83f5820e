import Verif.Lemmas.Exact
import Verif.Lemmas.Elements
import Verif.Lemmas.Provenance
/-! The stores of declarations and processors never hold more than their keys can number, and a provenance forest has as many identifiers as
processors. -/
namespace Folia
open Document

theorem Store.length_add {α : Type} [Storable α] (cap : Nat) (s : Store α) (a : α) (h : s.items.length ≤ cap) : (s.add cap a).2.items.length ≤ cap := by
  rcases Store.add_spec cap s a with ⟨_, _, _, _, heq⟩ | ⟨heq, _⟩ | ⟨_, hc, s', heq, hi, _⟩
  · rw [heq]; exact h
  · rw [heq]; exact h
  · rw [heq]; show s'.items.length ≤ cap; rw [hi]; simp; omega

theorem Store.length_update {α : Type} (s : Store α) (k : Nat) (f : α → α) : (s.update k f).items.length = s.items.length := by
  unfold Store.update
  split <;> simp

/-- A method that does not make more declarations than there are keys. -/
def KeepsCap {α : Type} (m : M Document α) : Prop := ∀ d, d.declarations.items.length ≤ cap16 → (m d).2.declarations.items.length ≤ cap16

namespace KeepsCap
variable {α β : Type}

theorem pure (a : α) : KeepsCap (pure a : M Document α) := fun _ h => h
theorem err (e : ErrKind) : KeepsCap (M.err e : M Document α) := fun _ h => h
theorem get : KeepsCap (M.get : M Document Document) := fun _ h => h
theorem ofRes (f : Document → Res α) : KeepsCap (M.ofRes f) := fun _ h => h
theorem bind {m : M Document α} {f : α → M Document β} (h : KeepsCap m) (h' : ∀ a, KeepsCap (f a)) : KeepsCap (m >>= f) := by
  intro d hd
  rw [M.run_bind]
  have := h d hd
  rcases hm : m d with ⟨_ | a, d'⟩
  · rw [hm] at this; exact this
  · rw [hm] at this; exact h' a d' this
theorem declare (t : AnnotationType) (s a f : Option String) : KeepsCap (Document.declare t s a f) := by
  intro d hd
  have hl : ∀ k (d : Document), (linkActive k d).declarations.items.length = d.declarations.items.length := by
    intro k d; unfold linkActive; split
    · exact Store.length_update _ _ _
    · rfl
  rcases declare_cases d t s a f with ⟨k, _, heq⟩ | ⟨_, ⟨k, _, heq⟩ | ⟨_, hm⟩⟩
  · rw [heq]; exact hd
  · rw [heq, hl]; exact hd
  · have := Store.length_add cap16 d.declarations (Declaration.new t s a f) hd
    rcases hadd : d.declarations.add cap16 (Declaration.new t s a f) with ⟨r, st⟩
    rw [hadd] at hm this
    cases r with
    | ok k => simp only at hm; rw [hm, hl]; exact this
    | error e => simp only at hm; rw [hm]; exact this
theorem callDeclaration (k : Nat) (f : Declaration → Res α × Declaration) : KeepsCap (Document.callDeclaration k f) := by
  intro d hd
  unfold Document.callDeclaration
  split
  · show (d.declarations.update _ _).items.length ≤ _
    rw [Store.length_update]; exact hd
  · exact hd
theorem updDeclaration (k : Nat) (f : Declaration → Declaration) : KeepsCap (Document.updDeclaration k f) := fun d hd => by
  show (d.declarations.update _ _).items.length ≤ _
  rw [Store.length_update]; exact hd
theorem addName (k : Nat) (name : Res (Option String)) (f : String → Declaration → Res Nat × Declaration) :
    KeepsCap (Document.addName k name f) := by
  unfold Document.addName
  split
  · refine bind (callDeclaration _ _) fun r => ?_
    split <;> exact pure _
  · exact pure _
theorem encodeProc (k : Nat) : KeepsCap (Document.encodeProc k) := by
  unfold Document.encodeProc
  refine bind get fun d => ?_
  repeat' split
  all_goals exact pure _
theorem encodeTyped (e : ElementData) (t : AnnotationType) : KeepsCap (Document.encodeTyped e t) := by
  unfold Document.encodeTyped
  exact bind (ofRes _) fun s => bind (declare _ _ _ _) fun k => bind (addName _ _ _) fun ck => bind (encodeProc _) fun r => pure _
theorem encodeFeature (e : ElementData) (ctx : Option Nat) : KeepsCap (Document.encodeFeature e ctx) := by
  unfold Document.encodeFeature
  split
  · exact bind (ofRes _) fun p => bind (ofRes _) fun t => bind (ofRes _) fun s => bind (declare _ _ _ _) fun k =>
      bind (addName _ _ _) fun ck => bind (addName _ _ _) fun r => pure _
  · exact err _
theorem encodeLink (enc : Document.Enc) : KeepsCap (Document.encodeLink enc) := by
  unfold Document.encodeLink
  split
  · exact updDeclaration _ _
  · exact pure _
theorem encode (e : ElementData) (ctx : Option Nat) : KeepsCap (Document.encode e ctx) := by
  unfold Document.encode Document.encodeCore
  split
  · refine bind ?_ fun enc => bind get fun d => bind (encodeLink _) fun _ => pure _
    repeat' split
    · exact encodeTyped _ _
    · exact encodeFeature _ _
    · exact pure _
  · exact pure _
theorem addElem (e : ElementData) (ctx : Option Nat) : KeepsCap (Document.addElem e ctx) := by
  intro d hd
  rw [addElem_eq]
  have := encode e ctx d hd
  rcases h : Document.encode e ctx d with ⟨_ | e', d'⟩ <;> rw [h] at this <;> exact this
theorem addClass (k : Nat) (c : String) : KeepsCap (Document.addClass k c) := by
  unfold Document.addClass
  refine bind (callDeclaration _ _) fun r => ?_
  split
  · exact ofRes _
  · exact err _

end KeepsCap

/-- Neither store holds more than its keys can number. -/
structure Caps (d : Document) : Prop where
  decls : d.declarations.items.length ≤ cap16
  procs : d.processors.items.length ≤ cap16

theorem Prim.caps {C : Prop} {d d' : Document} (h : Prim C d d') (hd : Caps d) : Caps d' := by
  constructor
  · cases h with
    | admin _ h _ _ _ => rw [h]; exact hd.decls
    | addDeclaration dec _ => exact Store.length_add cap16 d.declarations dec hd.decls
    | declare t s a f => exact KeepsCap.declare t s a f d hd.decls
    | addClass k c => exact KeepsCap.addClass k c d hd.decls
    | annotator k p _ => exact KeepsCap.updDeclaration k _ d hd.decls
    | addElem e ctx _ => exact KeepsCap.addElem e ctx d hd.decls
    | setParent | orphan | pushElem | pushText | pushSpan | unlink | layer | addProc | chain | procParent | procPush | activate => exact hd.decls
  · cases h with
    | admin _ _ h _ _ => rw [h]; exact hd.procs
    | addProc p _ => exact Store.length_add cap16 d.processors p hd.procs
    | procParent | procPush =>
      show (d.processors.update _ _).items.length ≤ _
      rw [Store.length_update]; exact hd.procs
    | declare t s a f => rw [(declare_elements ..).2.1]; exact hd.procs
    | addClass k c => rw [(OnlyDecls.addClass k c d).2]; exact hd.procs
    | addElem e ctx _ => rw [(addElem_elements e ctx d).1.processors]; exact hd.procs
    | addDeclaration | annotator | setParent | orphan | pushElem | pushText | pushSpan | unlink | layer | chain | activate => exact hd.procs

theorem Reachable.caps {X : Ext} {F : Nat} {d : Document} (hr : Reachable X F d) : Caps d :=
  Steps.inv Prim.caps hr.steps ⟨Nat.zero_le _, Nat.zero_le _⟩
theorem CleanReachable.caps {X : Ext} {F : Nat} {d : Document} (hr : CleanReachable X F d) : Caps d :=
  Steps.inv Prim.caps hr.steps ⟨Nat.zero_le _, Nat.zero_le _⟩

/-! ### The processors below different processors with the same parent are different -/

/-- `ProcOver`, with the last step last. -/
inductive ProcOver' (d : Document) (a : Nat) : Nat → Prop
  | here : ProcOver' d a a
  | step {b c : Nat} : ProcOver' d a b → d.ListsProc b c → ProcOver' d a c

theorem ProcOver'.cons {d : Document} {a b c : Nat} (h : d.ListsProc a b) (h' : ProcOver' d b c) : ProcOver' d a c := by
  induction h' with
  | here => exact .step .here h
  | step _ h2 ih => exact .step ih h2

theorem unique_parent {d : Document} (hl : ProcLinks d) {p p' c : Nat} (h : d.ListsProc p c) (h' : d.ListsProc p' c) : p = p' := by
  obtain ⟨x, hx, h1⟩ := (hl.agree p c).mp h
  obtain ⟨y, hy, h2⟩ := (hl.agree p' c).mp h'
  rw [hx] at hy
  cases hy
  rw [h1] at h2
  exact Option.some.inj h2

theorem over_linear {d : Document} (hl : ProcLinks d) {a a' b : Nat} (h : ProcOver' d a b) (h' : ProcOver' d a' b) : ProcOver' d a a' ∨ ProcOver' d a' a := by
  induction h with
  | here => exact Or.inr h'
  | @step p c h1 h2 ih =>
    cases h' with
    | here => exact Or.inl (.step h1 h2)
    | step h3 h4 =>
      obtain rfl := unique_parent hl h2 h4
      exact ih h3

theorem over_height {d : Document} {h : Nat → Nat} (hh : ∀ p c, d.ListsProc p c → h c < h p) {a b : Nat} (ho : ProcOver' d a b) : h b ≤ h a := by
  induction ho with
  | here => exact Nat.le_refl _
  | step _ h2 ih => have := hh _ _ h2; omega

theorem siblings_apart {d : Document} (hl : ProcLinks d) {a b : Nat} {x y : Processor} (hx : d.getProcessor a = some x) (hy : d.getProcessor b = some y)
    (hp : x.parent = y.parent) (ho : ProcOver' d a b) : a = b := by
  obtain ⟨h, hh⟩ := hl.height
  cases ho with
  | here => rfl
  | @step p _ h1 h2 =>
    exfalso
    obtain ⟨z, hz, hzp⟩ := (hl.agree _ _).mp h2
    rw [hy] at hz
    cases hz
    have h3 : d.ListsProc p a := (hl.agree _ _).mpr ⟨x, hx, by rw [hp, hzp]⟩
    have := over_height hh h1
    have := hh _ _ h3
    omega

/-- The keys of what is stored, in document order. -/
structure ProcKeys (d : Document) (tops keys : List Nat) (ids : List String) (n : Nat) : Prop where
  nodup : keys.Nodup
  len : keys.length = n
  ids : ids = keys.filterMap fun k => (d.getProcessor k).map (·.id)
  live : ∀ k ∈ keys, ∃ x, d.getProcessor k = some x
  over : ∀ k ∈ keys, ∃ t ∈ tops, ProcOver' d t k

mutual
theorem procStored_keys {d : Document} (hl : ProcLinks d) {lo : Nat} : ∀ (t : ProcTree) (par : Option Nat) (k : Nat), ProcStored lo d par k t →
    ∃ keys, ProcKeys d [k] keys (procIds t) (procSize t)
  | .node p ts, par, k, h => by
    simp only [ProcStored] at h
    obtain ⟨subs, _, h1, h2⟩ := h
    obtain ⟨keys, hk⟩ := procsStored_keys hl ts (some k) subs h2 (hl.once k _ h1)
    have hsub : ∀ c ∈ subs, d.ListsProc k c := fun c hc => ⟨_, h1, hc⟩
    refine ⟨k :: keys, ⟨List.nodup_cons.mpr ⟨?_, hk.nodup⟩, by simp [procSize, hk.len], ?_, ?_, ?_⟩⟩
    · intro hm
      obtain ⟨t, ht, ho⟩ := hk.over k hm
      obtain ⟨h, hh⟩ := hl.height
      have := over_height hh ho
      have := hh _ _ (hsub t ht)
      omega
    · rw [List.filterMap_cons, h1]
      simp only [Option.map_some, procIds]
      rw [hk.ids]
    · intro j hj
      rcases List.mem_cons.mp hj with rfl | hj
      · exact ⟨_, h1⟩
      · exact hk.live j hj
    · intro j hj
      refine ⟨k, List.mem_singleton.mpr rfl, ?_⟩
      rcases List.mem_cons.mp hj with rfl | hj
      · exact .here
      · obtain ⟨t, ht, ho⟩ := hk.over j hj
        exact .cons (hsub t ht) ho
theorem procsStored_keys {d : Document} (hl : ProcLinks d) {lo : Nat} : ∀ (ts : List ProcTree) (par : Option Nat) (ks : List Nat), ProcsStored lo d par ks ts →
    ks.Nodup → ∃ keys, ProcKeys d ks keys (procIdsList ts) (procSizeList ts)
  | [], par, ks, h, _ => by
    simp only [ProcsStored] at h
    exact ⟨[], ⟨List.nodup_nil, rfl, rfl, fun _ h => (by cases h), fun _ h => (by cases h)⟩⟩
  | t :: ts, par, ks, h, hn => by
    have hpar : ∀ (ts : List ProcTree) (ks : List Nat), ProcsStored lo d par ks ts → ∀ k ∈ ks, ∃ x, d.getProcessor k = some x ∧ x.parent = par := by
      intro ts
      induction ts with
      | nil => intro ks h k hk; simp only [ProcsStored] at h; subst h; cases hk
      | cons t ts ih =>
        intro ks h k hk
        simp only [ProcsStored] at h
        obtain ⟨c, cs, rfl, h1, h2⟩ := h
        rcases List.mem_cons.mp hk with rfl | hk
        · obtain ⟨p, pend⟩ := t
          simp only [ProcStored] at h1
          obtain ⟨subs, _, h1, _⟩ := h1
          exact ⟨_, h1, rfl⟩
        · exact ih cs h2 k hk
    have hall := hpar _ _ h
    simp only [ProcsStored] at h
    obtain ⟨c, cs, rfl, h1, h2⟩ := h
    rw [List.nodup_cons] at hn
    obtain ⟨keys1, k1⟩ := procStored_keys hl t par c h1
    obtain ⟨keys2, k2⟩ := procsStored_keys hl ts par cs h2 hn.2
    refine ⟨keys1 ++ keys2, ⟨List.nodup_append.mpr ⟨k1.nodup, k2.nodup, ?_⟩, by simp [procSizeList, k1.len, k2.len], ?_, ?_, ?_⟩⟩
    · intro a ha b hb hab
      subst hab
      obtain ⟨t1, ht1, o1⟩ := k1.over a ha
      rw [List.mem_singleton] at ht1
      subst ht1
      obtain ⟨t2, ht2, o2⟩ := k2.over a hb
      obtain ⟨x, hx, hxp⟩ := hall t1 (List.mem_cons_self ..)
      obtain ⟨y, hy, hyp⟩ := hall t2 (List.mem_cons_of_mem _ ht2)
      have heq : t1 = t2 := by
        rcases over_linear hl o1 o2 with o | o
        · exact siblings_apart hl hx hy (by rw [hxp, hyp]) o
        · exact (siblings_apart hl hy hx (by rw [hxp, hyp]) o).symm
      subst heq
      exact hn.1 ht2
    · rw [List.filterMap_append, procIdsList, ← k1.ids, ← k2.ids]
    · intro k hk
      rcases List.mem_append.mp hk with hk | hk
      · exact k1.live k hk
      · exact k2.live k hk
    · intro k hk
      rcases List.mem_append.mp hk with hk | hk
      · obtain ⟨t', ht, ho⟩ := k1.over k hk
        rw [List.mem_singleton] at ht
        exact ⟨c, List.mem_cons_self .., ht ▸ ho⟩
      · obtain ⟨t', ht, ho⟩ := k2.over k hk
        exact ⟨t', List.mem_cons_of_mem _ ht, ho⟩
end

theorem procKeys_ids_nodup {d : Document} (hx : ProcsExact d) : ∀ {keys : List Nat}, keys.Nodup → (keys.filterMap fun k => (d.getProcessor k).map (·.id)).Nodup
  | [], _ => List.nodup_nil
  | k :: keys, h => by
    rw [List.nodup_cons] at h
    rw [List.filterMap_cons]
    cases hk : d.getProcessor k with
    | none => exact procKeys_ids_nodup hx h.2
    | some x =>
      refine List.nodup_cons.mpr ⟨?_, procKeys_ids_nodup hx h.2⟩
      intro hm
      obtain ⟨j, hj, hm⟩ := List.mem_filterMap.mp hm
      obtain ⟨y, hy, hid⟩ := Option.map_eq_some_iff.mp hm
      have h1 := (hx.index x.id k).mpr ⟨x, hk, rfl⟩
      have h2 := (hx.index y.id j).mpr ⟨y, hy, rfl⟩
      rw [hid] at h2
      rw [h1] at h2
      cases h2
      exact h.1 hj

theorem nodup_length_le : ∀ (n : Nat) (l : List Nat), l.Nodup → (∀ k ∈ l, k < n) → l.length ≤ n
  | 0, l, _, h => by
    cases l with
    | nil => exact Nat.le_refl _
    | cons a l => exact absurd (h a (List.mem_cons_self ..)) (Nat.not_lt_zero _)
  | n + 1, l, hn, h => by
    have h1 := nodup_length_le n (l.erase n) (hn.erase n) (fun k hk => by
      have h2 := h k (List.mem_of_mem_erase hk)
      have h3 : k ≠ n := by rintro rfl; exact (List.Nodup.not_mem_erase hn) hk
      omega)
    rw [List.length_erase] at h1
    split at h1 <;> omega

/-- What the chain stores has distinct identifiers, and not too many. -/
theorem forest_fresh {X : Ext} {F : Nat} {d : Document} (hr : CleanReachable X F d) (hf : ProvForest d) {ts : List ProcTree} (h : ProcsStored 0 d none d.chain ts) :
    (procIdsList ts).Nodup ∧ procSizeList ts ≤ cap16 := by
  obtain ⟨keys, hk⟩ := procsStored_keys hf.toProcLinks ts none d.chain h hf.chainOnce
  constructor
  · rw [hk.ids]; exact procKeys_ids_nodup hr.cinv.procs hk.nodup
  · rw [← hk.len]
    refine Nat.le_trans (nodup_length_le d.processors.items.length keys hk.nodup fun k hm => ?_) hr.caps.procs
    obtain ⟨x, hx⟩ := hk.live k hm
    exact getProcessor_lt hx

end Folia
