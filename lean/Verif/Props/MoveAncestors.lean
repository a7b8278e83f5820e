import Verif.Props.MoveQuery
import Verif.Props.Ancestors
/-! C97: the ancestors of elements after moving and detaching elements. -/
namespace Folia
open Document

theorem chain_unique {d : Document} {k : Nat} {l l' : List Nat} (h : Chain d k l) (h' : Chain d k l') : l = l' := by
  induction h generalizing l' with
  | top he hp =>
    cases h' with
    | top => rfl
    | up h _ =>
      obtain ⟨e', g1, g2⟩ := h
      rw [he] at g1; cases g1
      rw [hp] at g2; cases g2
  | up hkp _ ih =>
    cases h' with
    | top he hp =>
      obtain ⟨e', g1, g2⟩ := hkp
      rw [he] at g1; cases g1
      rw [hp] at g2; cases g2
    | up h hc =>
      cases hasParent_unique hkp h
      rw [ih hc]

/-- Outside of `c`, where no parents changed, the chain is the same. -/
theorem chain_outside {d d' : Document} {c : Nat}
    (hsame : ∀ x e, x ≠ c → d.getElement x = some e → ∃ e', d'.getElement x = some e' ∧ e'.parent = e.parent) {k : Nat} {l : List Nat} (h : Chain d k l)
    (hout : ¬ Within d c k) : Chain d' k l := by
  induction h with
  | top he hp =>
    obtain ⟨e', h1, h2⟩ := hsame _ _ (fun h => hout (.inl h)) he
    exact .top h1 (h2.trans hp)
  | up hkp _ ih =>
    have hk := fun h => hout (.inl h)
    have hw := fun h => hout ((within_parent hkp hk).mpr h)
    obtain ⟨e, he, hp⟩ := hkp
    obtain ⟨e', h1, h2⟩ := hsame _ _ hk he
    exact .up ⟨e', h1, h2.trans hp⟩ (ih hw)

/-- Below `c`, the chain is the same up to `c`. -/
theorem chain_inside {d d' : Document} (hac : d.Acyclic) {c : Nat}
    (hsame : ∀ x e, x ≠ c → d.getElement x = some e → ∃ e', d'.getElement x = some e' ∧ e'.parent = e.parent) {lc lc' : List Nat} (hc : Chain d c lc)
    (hc' : Chain d' c lc') {k : Nat} (hw : Within d c k) : ∃ m, Chain d k (m ++ lc) ∧ Chain d' k (m ++ lc') := by
  rcases hw with rfl | ha
  · exact ⟨[], hc, hc'⟩
  · have hstep : ∀ {k r : Nat}, d.HasParent k r → k ≠ c → d'.HasParent k r := by
      rintro k r ⟨e, he, hp⟩ hk
      obtain ⟨e', h1, h2⟩ := hsame _ _ hk he
      exact ⟨e', h1, h2.trans hp⟩
    have hne : ∀ {k : Nat}, d.Above c k → k ≠ c := by rintro k h rfl; exact hac _ h
    induction ha with
    | parent h => exact ⟨[c], .up h hc, .up (hstep h (hne (.parent h))) hc'⟩
    | up h ha ih =>
      obtain ⟨m, h1, h2⟩ := ih
      exact ⟨_ :: m, .up h h1, .up (hstep h (hne (.up h ha))) h2⟩

/-- Every element of a chain exists. -/
theorem chain_live {d : Document} (hl : d.LinksAgree) {k : Nat} {l : List Nat} (h : Chain d k l) : ∀ a ∈ l, ∃ e, d.getElement a = some e := by
  induction h with
  | top => exact nofun
  | up hkp _ ih =>
    intro a ha
    rcases List.mem_cons.mp ha with rfl | ha
    · obtain ⟨e, he, _⟩ := (hl.agree _ _).mpr hkp
      exact ⟨e, he⟩
    · exact ih a ha

theorem filter_selects {d d' : Document} {s : Selector} {l : List Nat} (h : ∀ a ∈ l, s.matches d' (.element a) = s.matches d (.element a)) :
    (l.filter fun a => decide (Selects d' s a)) = l.filter fun a => decide (Selects d s a) :=
  List.filter_congr fun a ha => decide_eq_decide.mpr (by unfold Selects; rw [h a ha])

/-- After taking the element `c` out of its parent, an element outside of `c` has the ancestors that it had. An element that is `c` or below it has the
ancestors that it had up to `c`, and those of `c` no more. The order is kept. -/
theorem C97_detach {X : Ext} {F : Nat} {d d' : Document} (hr : CleanReachable X F d) (hf : d.Forest) {c : Nat}
    (h : detachElement c d = (.ok (), d')) {k : Nat} {e : ElementData} (hk : d.getElement k = some e) (s : Selector) :
    ∃ N, ∀ G, N ≤ G →
      (¬ Within d c k → ∃ keys, ancestors d G k s = .ok keys ∧ ancestors d' G k s = .ok keys) ∧
      (Within d c k → ∃ below above, ancestors d G k s = .ok (below ++ above) ∧ ancestors d G c s = .ok above ∧ ancestors d' G k s = .ok below) := by
  have hl := hf.links
  cases hc : d.getElement c with
  | none => rw [C16_detach_unknown hc] at h; cases h
  | some ce =>
    obtain ⟨d2, h2, h3, _⟩ := C16_detach_orphans hl hc
    rw [h] at h2; cases h2
    have hr' : CleanReachable X F d' := by
      have := CleanReachable.op (F := F) (.detachElement c) hr trivial
      have hrun : (Op.run F (.detachElement c) d).2 = (detachElement c d).2 := rfl
      rw [hrun, h] at this
      exact this
    have hsame : ∀ x e, x ≠ c → d.getElement x = some e → ∃ e', d'.getElement x = some e' ∧ e'.parent = e.parent := fun x e hx he => by
      obtain ⟨e', g1, _, _, _, g2, _⟩ := h3.elements x e he
      exact ⟨e', g1, g2 hx⟩
    have hm : ∀ a xe, d.getElement a = some xe → s.matches d' (.element a) = s.matches d (.element a) := by
      intro a xe hx
      obtain ⟨xe', hx', ht, ha, _⟩ := h3.elements a xe hx
      rw [h3.rest] at hx' ⊢
      exact matches_moved hx hx' ht ha s
    obtain ⟨l, hch, _, _, N, _⟩ := C30_ancestors hr hf hk s
    obtain ⟨lc, hcc, _⟩ := C30_ancestors hr hf hc s
    have hcc' : Chain d' c [] := by
      obtain ⟨ce', g1, _⟩ := h3.elements c ce hc
      refine .top g1 ?_
      cases hp : ce'.parent with
      | none => rfl
      | some p => exact absurd ⟨ce', g1, hp⟩ (h3.child p)
    refine ⟨l.length + lc.length + 1, fun G hG => ⟨fun hout => ⟨_, ancCollect_chain hr s hch G (by omega), ?_⟩, fun hw => ?_⟩⟩
    · rw [← filter_selects (d' := d') fun a ha => (chain_live hl hch a ha).elim (hm a)]
      exact ancCollect_chain hr' s (chain_outside hsame hch hout) G (by omega)
    · obtain ⟨m, g1, g2⟩ := chain_inside hf.acyclic hsame hcc hcc' hw
      cases chain_unique hch g1
      rw [List.append_nil] at g2
      rw [List.length_append] at hG
      refine ⟨m.filter fun a => decide (Selects d s a), _, ?_, ancCollect_chain hr s hcc G (by omega), ?_⟩
      · rw [← List.filter_append]
        exact ancCollect_chain hr s g1 G (by rw [List.length_append]; omega)
      · rw [← filter_selects (d' := d') fun a ha => (chain_live hl g1 a (by simp [ha])).elim (hm a)]
        exact ancCollect_chain hr' s g2 G (by omega)

/-- After moving the element `c` below `p`, an element outside of `c` has the ancestors that it had. An element that is `c` or below it has the ancestors
that it had up to `c`, followed by `p`, if that is accepted, and by the ancestors of `p`, in place of those of `c`. -/
theorem C97_attach {X : Ext} {F : Nat} {d d' : Document} (hr : CleanReachable X F d) (hf : d.Forest) {p c : Nat}
    (h : attachElement p c d = (.ok (), d')) (hn : ¬ Within d c p) {k : Nat} {e : ElementData} (hk : d.getElement k = some e) (s : Selector) :
    ∃ N, ∀ G, N ≤ G →
      (¬ Within d c k → ∃ keys, ancestors d G k s = .ok keys ∧ ancestors d' G k s = .ok keys) ∧
      (Within d c k → ∃ below above new, ancestors d G k s = .ok (below ++ above) ∧ ancestors d G c s = .ok above ∧ ancestors d G p s = .ok new ∧
        ancestors d' G k s = .ok (below ++ (if s.matches d (.element p) = .ok true then [p] else []) ++ new)) := by
  have hl := hf.links
  cases hp : d.getElement p with
  | none => rw [C15_attach_unknown (.inl hp)] at h; cases h
  | some pe =>
    cases hc : d.getElement c with
    | none => rw [C15_attach_unknown (.inr hc)] at h; cases h
    | some ce =>
      obtain ⟨d2, h2, h3, _⟩ := C15_attach_moves hl hp hc
      rw [h] at h2; cases h2
      have hr' : CleanReachable X F d' := by
        have := CleanReachable.op (F := F) (.attachElement p c) hr trivial
        have hrun : (Op.run F (.attachElement p c) d).2 = (attachElement p c d).2 := rfl
        rw [hrun, h] at this
        exact this
      have hsame : ∀ x e, x ≠ c → d.getElement x = some e → ∃ e', d'.getElement x = some e' ∧ e'.parent = e.parent := fun x e hx he => by
        obtain ⟨e', g1, _, _, _, g2, _⟩ := h3.elements x e he
        exact ⟨e', g1, g2 hx⟩
      have hm : ∀ a xe, d.getElement a = some xe → s.matches d' (.element a) = s.matches d (.element a) := by
        intro a xe hx
        obtain ⟨xe', hx', ht, ha, _⟩ := h3.elements a xe hx
        rw [h3.rest] at hx' ⊢
        exact matches_moved hx hx' ht ha s
      obtain ⟨l, hch, _⟩ := C30_ancestors hr hf hk s
      obtain ⟨lc, hcc, _⟩ := C30_ancestors hr hf hc s
      obtain ⟨lp, hcp, _⟩ := C30_ancestors hr hf hp s
      have hcc' : Chain d' c (p :: lp) := .up ((h3.child p).mpr rfl) (chain_outside hsame hcp hn)
      refine ⟨l.length + lc.length + lp.length + 2, fun G hG => ⟨fun hout => ⟨_, ancCollect_chain hr s hch G (by omega), ?_⟩, fun hw => ?_⟩⟩
      · rw [← filter_selects (d' := d') fun a ha => (chain_live hl hch a ha).elim (hm a)]
        exact ancCollect_chain hr' s (chain_outside hsame hch hout) G (by omega)
      · obtain ⟨m, g1, g2⟩ := chain_inside hf.acyclic hsame hcc hcc' hw
        cases chain_unique hch g1
        rw [List.length_append] at hG
        refine ⟨m.filter fun a => decide (Selects d s a), _, _, ?_, ancCollect_chain hr s hcc G (by omega), ancCollect_chain hr s hcp G (by omega), ?_⟩
        · rw [← List.filter_append]
          exact ancCollect_chain hr s g1 G (by rw [List.length_append]; omega)
        · have hpf : (if s.matches d (.element p) = .ok true then [p] else []) = [p].filter fun a => decide (Selects d s a) := by
            by_cases hsp : s.matches d (.element p) = .ok true <;> simp [Selects, hsp]
          rw [hpf, ← List.filter_append, ← List.filter_append, ← filter_selects (d' := d') (fun a ha => ?_), List.append_assoc]
          · exact ancCollect_chain hr' s g2 G (by simp; omega)
          · simp only [List.mem_append, List.mem_singleton] at ha
            rcases ha with (ha | rfl) | ha
            · exact (chain_live hl g1 a (by simp [ha])).elim (hm a)
            · exact hm _ _ hp
            · exact (chain_live hl hcp a ha).elim (hm a)

/-- The hypotheses are met, and the feature of the tag follows its tag to another word. -/
example : CleanReachable Sample.X Sample.F Sample.doc ∧ Sample.doc.Forest ∧ (attachElement 4 6 Sample.doc).1 = .ok () ∧
    ¬ Within Sample.doc 6 4 ∧ Within Sample.doc 6 7 ∧ (ancestors Sample.doc 60 7 .elements).toOption = some [6, 2, 5, 0] ∧
    (ancestors (attachElement 4 6 Sample.doc).2 60 7 .elements).toOption = some [6, 4, 5, 0] ∧ (detachElement 6 Sample.doc).1 = .ok () ∧
    (ancestors (detachElement 6 Sample.doc).2 60 7 .elements).toOption = some [6] := by
  refine ⟨Sample.doc_clean, Sample.doc_forest, by decide +kernel, ?_, .inr (.parent ?_), by decide +kernel, by decide +kernel, by decide +kernel,
    by decide +kernel⟩
  · rintro (h | h)
    · cases h
    · exact absurd (Sample.aboves_sound h (n := 20) (l := [5, 0]) (by decide +kernel)) (by decide)
  · obtain ⟨e, he⟩ := Option.isSome_iff_exists.mp (show (Sample.doc.getElement 7).isSome = true by decide +kernel)
    refine ⟨e, he, ?_⟩
    have : (Sample.doc.getElement 7).bind (·.parent) = some 6 := by decide +kernel
    rw [he] at this
    exact this

end Folia
