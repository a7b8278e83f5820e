import Verif.Lemmas.Annotate
/-! Well-behaved histories keep the links consistent. -/
namespace Folia
open Document

/-- The call does not touch elements. -/
def KeepsElements {α : Type} (m : M Document α) : Prop := ∀ d, (m d).2.elements = d.elements

namespace KeepsElements
variable {α β : Type}

theorem of_decls {m : M Document α} (h : OnlyDecls m) : KeepsElements m := fun d => (h d).elements
theorem pure (a : α) : KeepsElements (pure a : M Document α) := fun _ => rfl
theorem err (e : ErrKind) : KeepsElements (M.err e : M Document α) := fun _ => rfl
theorem get : KeepsElements (M.get : M Document Document) := fun _ => rfl
theorem modify {f : Document → Document} (h : ∀ d, (f d).elements = d.elements) : KeepsElements (M.modify f) := h
theorem bind {m : M Document α} {f : α → M Document β} (h : KeepsElements m) (h' : ∀ a, KeepsElements (f a)) : KeepsElements (m >>= f) := by
  intro d
  rw [M.run_bind]
  have := h d
  rcases hm : m d with ⟨e | a, d'⟩
  · rw [hm] at this; exact this
  · rw [hm] at this; exact (h' a d').trans this
theorem void {m : M Document α} (h : KeepsElements m) : KeepsElements m.void := bind h fun _ => pure _
theorem forEach {f : α → M Document Unit} (h : ∀ a, KeepsElements (f a)) : ∀ l : List α, KeepsElements (M.forEach f l)
  | [] => pure _
  | a :: l => by
    simp only [M.forEach]
    exact bind (h a) fun _ => forEach h l

theorem addProvenance (p : Processor) : KeepsElements (addProvenance p) := fun _ => rfl
theorem attachProcessor (p c : Nat) : KeepsElements (attachProcessor p c) := by
  unfold Document.attachProcessor
  refine bind get fun d => ?_
  split
  · exact err _
  · refine bind get fun d => ?_
    split
    · exact err _
    · exact bind (modify fun _ => rfl) fun _ => modify fun _ => rfl

mutual
theorem addSubprocessor (parent : Nat) : ∀ p : ProcTree, KeepsElements (addSubprocessor parent p)
  | .node p pending => by
    simp only [Document.addSubprocessor]
    exact bind (addProvenance p) fun k => bind (attachProcessor parent k) fun _ => bind (addSubprocessors k pending) fun _ => pure _
theorem addSubprocessors (parent : Nat) : ∀ ps : List ProcTree, KeepsElements (addSubprocessors parent ps)
  | [] => by simp only [Document.addSubprocessors]; exact pure _
  | p :: ps => by
    simp only [Document.addSubprocessors]
    exact bind (addSubprocessor parent p) fun _ => addSubprocessors parent ps
end

theorem addProcessor : ∀ p : ProcTree, KeepsElements (addProcessor p)
  | .node p pending => by
    simp only [Document.addProcessor]
    exact bind (addProvenance p) fun k => bind (modify fun _ => rfl) fun _ => bind (addSubprocessors k pending) fun _ => pure _

theorem activateProcessor (k : Nat) : KeepsElements (activateProcessor k) := modify fun _ => rfl

theorem applyDeclare (ts : AnnotationType × Option String) : KeepsElements (applyDeclare ts) := by
  unfold Document.applyDeclare
  refine bind (of_decls (OnlyDecls.declare _ _ _ _)) fun k => ?_
  split
  · exact bind (of_decls (OnlyDecls.addClass _ _)) fun _ => pure _
  · exact pure _

theorem applyProperties (ps : DocumentProperties) : KeepsElements (applyProperties ps) := by
  unfold Document.applyProperties
  have hrest := forEach applyDeclare ps.declare
  cases ps.processor with
  | none => exact bind (pure ()) fun _ => hrest
  | some p => exact bind (addProcessor p) fun k => bind (activateProcessor k) fun _ => hrest

end KeepsElements

theorem links_congr {d d' : Document} (h : d'.elements = d.elements) : (LinksAgree d → LinksAgree d') ∧ (Ranked d → Ranked d') := by
  have hg : ∀ j, d'.getElement j = d.getElement j := fun j => by unfold getElement; rw [h]
  refine ⟨fun hl => ⟨fun p c => ?_, fun p e he => hl.once p e (by rw [← hg]; exact he)⟩, fun ⟨r, hr⟩ => ⟨r, fun p c ⟨e, h1, h2⟩ => hr p c ⟨e, by rw [← hg]; exact h1, h2⟩⟩⟩
  unfold Document.Lists Document.HasParent
  simp only [hg]
  exact hl.agree p c

theorem void_ok {σ α : Type} {m : M σ α} {s s' : σ} {u : Unit} (h : m.void s = (.ok u, s')) : ∃ a, m s = (.ok a, s') := by
  obtain ⟨a, s1, h1, h2⟩ := bind_ok h
  cases h2
  exact ⟨a, h1⟩

theorem void_snd {σ α : Type} (m : M σ α) (s : σ) : (m.void s).2 = (m s).2 := by
  unfold M.void
  rw [M.run_bind]
  rcases m s with ⟨e | a, s1⟩ <;> rfl

theorem noKids_unborn : ∀ {data : List Data}, builderSizeList data = 0 → data.any isUnborn = false
  | [], _ => rfl
  | .addElement e :: rest, h => by
    cases e
    simp only [builderSizeList, builderSize] at h
    omega
  | .text _ :: rest, h => by simp only [builderSizeList] at h; simpa [isUnborn] using noKids_unborn h
  | .comment _ :: rest, h => by simp only [builderSizeList] at h; simpa [isUnborn] using noKids_unborn h
  | .element _ :: rest, h => by simp only [builderSizeList] at h; simpa [isUnborn] using noKids_unborn h
  | .spanReference _ :: rest, h => by simp only [builderSizeList] at h; simpa [isUnborn] using noKids_unborn h

/-- `add_element` without pending children. -/
theorem addElement_single {F : Nat} {e : ElementData} {d : Document} (hi : CInv d) (hn : d.NewBuilder e) (hz : builderSizeList e.data = 0) :
    (addElement F e d).2.elements = d.elements ∨ ∃ k, addElement F e d = (.ok k, (addElement F e d).2) ∧ Born d d (addElement F e d).2 k e := by
  obtain ⟨hc, hf⟩ := hn
  have hcd : CleanData e.data := by cases e; simp only [CleanBuilder] at hc; exact hc.2.1
  have hu := noKids_unborn hz
  have hrun : addElement F e d = addElem e none d := by
    unfold addElement
    have : addChildren F e d = (.ok (e, none), d) := by
      cases e
      rw [addChildren_run]
      simp only at hu
      simp [hu]
    rw [M.run_bind, this]
  rw [hrun]
  rcases hm : addElem e none d with ⟨f | k, d2⟩
  · left
    obtain ⟨_, ⟨_, _, h2⟩ | ⟨e', _, _, _, h1, h2, _⟩⟩ := addElem_elements e none d
    · rw [hm] at h2; exact h2
    · rw [hm] at h1 h2
      rcases Store.add_spec cap32 d.elements e' with ⟨_, _, _, _, h3⟩ | ⟨h3, _⟩ | ⟨_, _, s', h3, _⟩
      · rw [h3] at h2; exact h2
      · rw [h3] at h2; exact h2
      · rw [h3] at h1; cases h1
  · right
    obtain ⟨h1, h2, hz', h3⟩ := text_items (d0 := d) (d := d) hcd hu
    have hhead : CleanHead e := by cases e; simp only [CleanBuilder] at hc; exact ⟨hc.1, hc.2.2⟩
    have hk : KidsOk d d d e.data e.data [] := ⟨by rw [h2]; exact .refl d, by rw [h3]; exact List.nodup_nil, by rw [h3]; simp, h3.symm, h1,
      by rw [hz']; rfl, cleanData_not_unborn _ hcd hu⟩
    exact ⟨k, rfl, born (F := F) (o := none) hi rfl (Nat.le_refl _) hhead hf hk (Or.inr ⟨rfl, rfl⟩) rfl rfl rfl hm rfl⟩

theorem detach_unknown {d : Document} {c : Nat} (h : d.getElement c = none) : (detachElement c d).2 = d := by
  unfold detachElement
  rw [M.run_bind, M.run_get]
  simp only [h]
  rfl

section
variable {d d' : Document} {c : Nat} (he : ∀ j, d'.getElement j = (d.getElement j).map fun e =>
      { e with parent := if j = c then none else e.parent, data := e.data.filter (!·.isElem c) })
include he

theorem detach_lists {q x : Nat} : d'.Lists q x ↔ x ≠ c ∧ d.Lists q x := by
  unfold Document.Lists
  rw [he q]
  cases h : d.getElement q with
  | none => simp
  | some e =>
    simp only [Option.map_some, Option.some.injEq, exists_eq_left', List.mem_filter, Bool.not_eq_true']
    constructor
    · rintro ⟨h1, h2⟩
      refine ⟨?_, h1⟩
      rintro rfl
      rw [isElem_iff.mpr rfl] at h2
      cases h2
    · rintro ⟨h1, h2⟩
      refine ⟨h2, ?_⟩
      simp [DataType.isElem, h1]

theorem detach_hasParent {q x : Nat} : d'.HasParent x q ↔ x ≠ c ∧ d.HasParent x q := by
  unfold Document.HasParent
  rw [he x]
  cases h : d.getElement x with
  | none => simp
  | some e =>
    by_cases hx : x = c <;> simp [hx]

theorem detach_links (hl : LinksAgree d) : LinksAgree d' := by
  constructor
  · intro q x
    rw [detach_lists he, detach_hasParent he, hl.agree]
  · intro q e' hq
    rw [he q, Option.map_eq_some_iff] at hq
    obtain ⟨e, h1, rfl⟩ := hq
    simp only [kids_filter]
    exact (hl.once q e h1).sublist List.filter_sublist

theorem detach_ranked (hr : Ranked d) : Ranked d' := by
  obtain ⟨r, hr⟩ := hr
  exact ⟨r, fun p x h => hr p x ((detach_lists he).mp h).2⟩
end

/-- Well-behaved calls keep the links consistent. -/
theorem tame_links {F : Nat} {d : Document} (hi : CInv d) {o : Op} (ht : o.Tame F d) (hl : LinksAgree d) : LinksAgree (o.run F d).2 := by
  rcases ht with ht | ⟨_, ht⟩
  · rw [ht]; exact hl
  have keep : ∀ {m : M Document Unit}, KeepsElements m → LinksAgree (m d).2 := fun h => (links_congr (h d)).1 hl
  cases o with
  | declare t s a f => exact keep (.void (.of_decls (OnlyDecls.declare t s a f)))
  | addDeclaration dec => exact keep (.void (.of_decls (OnlyDecls.addDeclaration dec)))
  | addClass k c => exact keep (.void (.of_decls (OnlyDecls.addClass k c)))
  | addProvenance p => exact keep (.void (.addProvenance p))
  | addProcessor p => exact keep (.void (.addProcessor p))
  | addSubprocessor p c => exact keep (.void (.addSubprocessor p c))
  | attachProcessor p c => exact keep (.attachProcessor p c)
  | activateProcessor k => exact keep (.activateProcessor k)
  | applyProperties ps => exact keep (.applyProperties ps)
  | assign => exact keep fun _ => rfl
  | addElement e =>
    show LinksAgree ((addElement F e).void d).2
    rw [void_snd]
    rcases addElement_single (F := F) hi ht.1 ht.2 with h | ⟨k, _, h⟩
    · exact (links_congr h).1 hl
    · exact h.grew.links hl
  | addElementTo p e =>
    obtain ⟨⟨hc, hf⟩, hp, hok⟩ := ht
    obtain ⟨pe, hpe⟩ := Option.isSome_iff_exists.mp hp
    obtain ⟨k, hk⟩ := void_ok (m := addElementTo F p e) (s := d) (s' := ((addElementTo F p e).void d).2) (u := ()) (Prod.ext hok rfl)
    have := (planted hi ⟨pe, hpe⟩ hc hf hk).links hl
    exact this
  | annotate p e =>
    obtain ⟨⟨hc, hf⟩, hok⟩ := ht
    obtain ⟨k, hk⟩ := void_ok (m := annotate F p e) (s := d) (s' := ((annotate F p e).void d).2) (u := ()) (Prod.ext hok rfl)
    obtain ⟨d1, layer, h1, h2⟩ := annotate_planted hi hc hf hk
    rcases h1 with rfl | ⟨_, _, _, _, h1⟩
    · exact h2.links hl
    · exact h2.links (h1.links hl)
  | annotateSpan e =>
    obtain ⟨⟨hc, hf⟩, hok⟩ := ht
    obtain ⟨k, hk⟩ := void_ok (m := annotateSpan F e) (s := d) (s' := ((annotateSpan F e).void d).2) (u := ()) (Prod.ext hok rfl)
    obtain ⟨_, w, ws, _, hk⟩ := annotateSpan_ok hk
    obtain ⟨d1, layer, h1, h2⟩ := annotate_planted hi hc hf hk
    rcases h1 with rfl | ⟨_, _, _, _, h1⟩
    · exact h2.links hl
    · exact h2.links (h1.links hl)
  | attachElement p c =>
    show LinksAgree (attachElement p c d).2
    cases hp : d.getElement p with
    | none => rw [attach_unknown (Or.inl hp)]; exact hl
    | some pe =>
      cases hc : d.getElement c with
      | none => rw [attach_unknown (Or.inr hc)]; exact hl
      | some ce =>
        obtain ⟨s, h1, _, _, h2⟩ := attach_effect hl hp hc
        rw [h1]
        exact attach_links hl ⟨pe, hp⟩ ⟨ce, hc⟩ h2
  | detachElement c =>
    show LinksAgree (detachElement c d).2
    cases hc : d.getElement c with
    | none => rw [detach_unknown hc]; exact hl
    | some ce =>
      obtain ⟨s, h1, _, _, h2⟩ := detach_effect hl hc
      rw [h1]
      exact detach_links h2 hl

/-- Well-behaved calls that do not attach an element below itself keep the element graph a forest. -/
theorem tame_ranked {F : Nat} {d : Document} (hi : CInv d) {o : Op} (ht : o.Tame F d) (hn : o.NoLoop d) (hl : LinksAgree d) (hr : Ranked d) :
    Ranked (o.run F d).2 := by
  rcases ht with ht | ⟨_, ht⟩
  · rw [ht]; exact hr
  have keep : ∀ {m : M Document Unit}, KeepsElements m → Ranked (m d).2 := fun h => (links_congr (h d)).2 hr
  cases o with
  | declare t s a f => exact keep (.void (.of_decls (OnlyDecls.declare t s a f)))
  | addDeclaration dec => exact keep (.void (.of_decls (OnlyDecls.addDeclaration dec)))
  | addClass k c => exact keep (.void (.of_decls (OnlyDecls.addClass k c)))
  | addProvenance p => exact keep (.void (.addProvenance p))
  | addProcessor p => exact keep (.void (.addProcessor p))
  | addSubprocessor p c => exact keep (.void (.addSubprocessor p c))
  | attachProcessor p c => exact keep (.attachProcessor p c)
  | activateProcessor k => exact keep (.activateProcessor k)
  | applyProperties ps => exact keep (.applyProperties ps)
  | assign => exact keep fun _ => rfl
  | addElement e =>
    show Ranked ((addElement F e).void d).2
    rw [void_snd]
    rcases addElement_single (F := F) hi ht.1 ht.2 with h | ⟨k, _, h⟩
    · exact (links_congr h).2 hr
    · exact h.grew.ranked hl hr
  | addElementTo p e =>
    obtain ⟨⟨hc, hf⟩, hp, hok⟩ := ht
    obtain ⟨pe, hpe⟩ := Option.isSome_iff_exists.mp hp
    obtain ⟨k, hk⟩ := void_ok (m := addElementTo F p e) (s := d) (s' := ((addElementTo F p e).void d).2) (u := ()) (Prod.ext hok rfl)
    exact (planted hi ⟨pe, hpe⟩ hc hf hk).ranked hl hr
  | annotate p e =>
    obtain ⟨⟨hc, hf⟩, hok⟩ := ht
    obtain ⟨k, hk⟩ := void_ok (m := annotate F p e) (s := d) (s' := ((annotate F p e).void d).2) (u := ()) (Prod.ext hok rfl)
    obtain ⟨d1, layer, h1, h2⟩ := annotate_planted hi hc hf hk
    rcases h1 with rfl | ⟨_, _, _, _, h1⟩
    · exact h2.ranked hl hr
    · exact h2.ranked (h1.links hl) (h1.ranked hl hr)
  | annotateSpan e =>
    obtain ⟨⟨hc, hf⟩, hok⟩ := ht
    obtain ⟨k, hk⟩ := void_ok (m := annotateSpan F e) (s := d) (s' := ((annotateSpan F e).void d).2) (u := ()) (Prod.ext hok rfl)
    obtain ⟨_, w, ws, _, hk⟩ := annotateSpan_ok hk
    obtain ⟨d1, layer, h1, h2⟩ := annotate_planted hi hc hf hk
    rcases h1 with rfl | ⟨_, _, _, _, h1⟩
    · exact h2.ranked hl hr
    · exact h2.ranked (h1.links hl) (h1.ranked hl hr)
  | attachElement p c =>
    show Ranked (attachElement p c d).2
    cases hp : d.getElement p with
    | none => rw [attach_unknown (Or.inl hp)]; exact hr
    | some pe =>
      cases hc : d.getElement c with
      | none => rw [attach_unknown (Or.inr hc)]; exact hr
      | some ce =>
        obtain ⟨s, h1, _, _, h2⟩ := attach_effect hl hp hc
        rw [h1]
        exact attach_ranked hl hr ⟨pe, hp⟩ hn.1 hn.2 h2
  | detachElement c =>
    show Ranked (detachElement c d).2
    cases hc : d.getElement c with
    | none => rw [detach_unknown hc]; exact hr
    | some ce =>
      obtain ⟨s, h1, _, _, h2⟩ := detach_effect hl hc
      rw [h1]
      exact detach_ranked h2 hr

theorem new_links {id : String} {ps : DocumentProperties} {d : Document} (h : Document.new id ps = .ok d) : LinksAgree d ∧ Ranked d := by
  unfold Document.new at h
  dsimp only at h
  split at h
  · rename_i d' hm
    cases h
    obtain ⟨body, d1, h1, hm⟩ := bind_ok hm
    obtain ⟨k, d2, h2, hm⟩ := bind_ok hm
    have e3 : d.elements = d2.elements := by have := KeepsElements.applyProperties ps d2; rw [hm] at this; exact this
    have e1 : d1.elements = {} := by have := (OnlyDecls.encode (bodyElement ps.bodytype) none { id, autodeclare := ps.autodeclare }).elements; rw [h1] at this; exact this
    have hb : body.data = [] ∧ body.parent = none := by
      have := encode_result (bodyElement ps.bodytype) none { id, autodeclare := ps.autodeclare } body (by rw [h1])
      have h0 : (bodyElement ps.bodytype).data = [] ∧ (bodyElement ps.bodytype).parent = none := by cases ps.bodytype <;> exact ⟨rfl, rfl⟩
      exact ⟨this.2.1.trans h0.1, this.2.2.2.trans h0.2⟩
    have hone : ∀ j x, d.getElement j = some x → x.data = [] ∧ x.parent = none := by
      intro j x hj
      obtain ⟨_, ⟨f, h3, _⟩ | ⟨e', _, hd, hp, _, h4, _⟩⟩ := addElem_elements body none d1
      · rw [h2] at h3; cases h3
      · have hg : d.elements = (d1.elements.add cap32 e').2 := by rw [e3, ← h4, h2]
        have hx : (d1.elements.add cap32 e').2.get j = some x := by rw [← hg]; exact hj
        rw [e1] at hx
        rcases Store.add_spec cap32 ({} : Store ElementData) e' with ⟨_, _, _, h, _⟩ | ⟨h, _⟩ | ⟨_, _, s', h, _, h5, _⟩
        · cases h
        · rw [h] at hx; cases hx
        · rw [h, h5] at hx
          split at hx
          · cases hx
            exact ⟨hd.trans hb.1, hp.trans hb.2⟩
          · cases hx
    refine ⟨⟨fun p c => ⟨?_, ?_⟩, fun p e he => by rw [(hone p e he).1]; exact List.nodup_nil⟩, fun _ => 0, ?_⟩
    · rintro ⟨e, h1, h2⟩; rw [(hone p e h1).1] at h2; cases h2
    · rintro ⟨e, h1, h2⟩; rw [(hone c e h1).2] at h2; cases h2
    · rintro p c ⟨e, h1, h2⟩; rw [(hone p e h1).1] at h2; cases h2
  · cases h

theorem _root_.Folia.TameReachable.clean (X : Ext) {F : Nat} {d : Document} (h : TameReachable F d) : CleanReachable X F d := by
  induction h with
  | new h1 h2 => exact .new h1 h2
  | op o _ ht ih =>
    rcases ht with ht | ht
    · rw [ht]; exact ih
    · exact .op o ih ht.1

theorem _root_.Folia.ForestReachable.tame {F : Nat} {d : Document} (h : ForestReachable F d) : TameReachable F d := by
  induction h with
  | new h1 h2 => exact .new h1 h2
  | op o _ ht _ ih => exact .op o ih ht

theorem _root_.Folia.TameReachable.links {F : Nat} {d : Document} (h : TameReachable F d) : LinksAgree d := by
  induction h with
  | new _ h2 => exact (new_links h2).1
  | op o h ht ih => exact tame_links (h.clean ⟨fun _ => "", fun _ => none⟩).cinv ht ih

theorem _root_.Folia.ForestReachable.ranked {F : Nat} {d : Document} (h : ForestReachable F d) : Ranked d := by
  induction h with
  | new _ h2 => exact (new_links h2).2
  | op o h ht hn ih => exact tame_ranked (h.tame.clean ⟨fun _ => "", fun _ => none⟩).cinv ht hn h.tame.links ih

end Folia
