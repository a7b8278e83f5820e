import Verif.Lemmas.Select
import Verif.Lemmas.Matches
import Verif.Lemmas.Query
import Verif.Lemmas.View
import Verif.Lemmas.Flat
import Verif.Lemmas.Preorder
/-! The search for the declaration of a layer always ends. -/
namespace Folia
open Document

/-- The declaration of the first element that has the annotation type of the layer, and a declaration. -/
def layerFind (d : Document) (t : ElementType) : List Nat → Res (Option Nat)
  | [] => .ok none
  | k :: ks => match d.getElement k with
    | none => .error .panic
    | some e =>
      if e.elementtype.annotationtype = t.annotationtype then
        match e.declarationKeyU with
        | .error f => .error f
        | .ok (some dk) => .ok (some dk)
        | .ok none => layerFind d t ks
      else layerFind d t ks

/-- One call of `next` on elements, with the state in which the iterator is left. -/
theorem selNextElement_step {cfg : SelCfg} {F m n : Nat} (hF : n < F) (hm1 : n < m) {st : SelState} {out : List SelectItem}
    (hp : Pending cfg.doc cfg.recursion st.stack out n) {S : List Nat} (hS : SeenRep st S)
    (hm : ∀ i ∈ out, ∃ b, cfg.selector.matches cfg.doc i.data = .ok b) (ho : Ordinary cfg st)
    (hl : ∀ i ∈ out, ∀ k, itemKey i = some k → ∃ e, cfg.doc.getElement k = some e) :
    ∃ st2 S2 out2 n2, SeenRep st2 S2 ∧ Pending cfg.doc cfg.recursion st2.stack out2 n2 ∧ Ordinary cfg st2 ∧ (∀ i ∈ out2, i ∈ out) ∧
      ((selNextElement cfg F m st = (.ok none, st2) ∧ (results cfg S out).filterMap itemKey = []) ∨
       ∃ k, (∃ e, cfg.doc.getElement k = some e) ∧ selNextElement cfg F m st = (.ok (some k), st2) ∧
        (results cfg S out).filterMap itemKey = k :: (results cfg S2 out2).filterMap itemKey ∧ n2 < n) := by
  induction m generalizing n st out S with
  | zero => omega
  | succ m ih =>
    unfold selNextElement
    obtain ⟨st2, S2, out2, n2, h1, h2, h3, h4, h5⟩ := selNext_ordinary hF hp hS hm ho
    rcases h5 with ⟨h5, h6, _, _⟩ | ⟨i, hi, h5, h6, h7⟩
    · rw [h5, h6]
      exact ⟨st2, S2, out2, n2, h1, h2, h3, h4, .inl ⟨rfl, rfl⟩⟩
    · rw [h5, h6]
      have hrec := ih (n := n2) (by omega) (by omega) h2 h1 (fun i hi => hm i (h4 i hi)) h3 (fun i hi => hl i (h4 i hi))
      have hk : itemKey i = match i.data with
        | .element k | .spanReference k => some k
        | _ => none := rfl
      rw [List.filterMap_cons]
      have skip : itemKey i = none → ∃ st3 S3 out3 n3, SeenRep st3 S3 ∧ Pending cfg.doc cfg.recursion st3.stack out3 n3 ∧ Ordinary cfg st3 ∧ (∀ i ∈ out3, i ∈ out) ∧
        ((selNextElement cfg F m st2 = (.ok none, st3) ∧ (results cfg S2 out2).filterMap itemKey = []) ∨
         ∃ k, (∃ e, cfg.doc.getElement k = some e) ∧ selNextElement cfg F m st2 = (.ok (some k), st3) ∧
          (results cfg S2 out2).filterMap itemKey = k :: (results cfg S3 out3).filterMap itemKey ∧ n3 < n) := by
        intro _
        obtain ⟨st3, S3, out3, n3, g1, g2, g3, g4, g5⟩ := hrec
        refine ⟨st3, S3, out3, n3, g1, g2, g3, fun i hi => h4 i (g4 i hi), ?_⟩
        rcases g5 with g5 | ⟨k, g5, g6, g7, g8⟩
        · exact .inl g5
        · exact .inr ⟨k, g5, g6, g7, by omega⟩
      cases hd : i.data <;> simp only [hd] at hk <;> simp only [hk, hd]
      case element k | spanReference k =>
        obtain ⟨e, he⟩ := hl i hi _ hk
        simp only [he]
        exact ⟨st2, S2, out2, n2, h1, h2, h3, h4, .inr ⟨k, ⟨e, he⟩, rfl, rfl, h7⟩⟩
      all_goals exact skip hk

theorem layerSearch_ordinary {cfg : SelCfg} {F m n : Nat} {t : ElementType} (hF : n < F) (hm1 : n < m) {st : SelState} {out : List SelectItem}
    (hp : Pending cfg.doc cfg.recursion st.stack out n) {S : List Nat} (hS : SeenRep st S)
    (hm : ∀ i ∈ out, ∃ b, cfg.selector.matches cfg.doc i.data = .ok b) (ho : Ordinary cfg st)
    (hl : ∀ i ∈ out, ∀ k, itemKey i = some k → ∃ e, cfg.doc.getElement k = some e) :
    layerSearch cfg F t m st = layerFind cfg.doc t ((results cfg S out).filterMap itemKey) := by
  induction m generalizing n st out S with
  | zero => omega
  | succ m ih =>
    unfold layerSearch
    obtain ⟨st2, S2, out2, n2, h1, h2, h3, h4, h5⟩ := selNextElement_step hF hF hp hS hm ho hl
    rcases h5 with ⟨h5, h6⟩ | ⟨k, ⟨e, he⟩, h5, h6, h7⟩
    · rw [h5, h6]; rfl
    · rw [h5, h6]
      have hrec := ih (n := n2) (by omega) (by omega) h2 h1 (fun i hi => hm i (h4 i hi)) h3 (fun i hi => hl i (h4 i hi))
      simp only [layerFind, he]
      split
      · cases e.declarationKeyU with
        | error f => rfl
        | ok o => cases o with
          | some dk => rfl
          | none => exact hrec
      · exact hrec

theorem layerFind_ok {d : Document} (hc : CInv d) {t : ElementType} : ∀ {ks : List Nat}, (∀ k ∈ ks, ∃ e, d.getElement k = some e) → ∃ r, layerFind d t ks = .ok r
  | [], _ => ⟨none, rfl⟩
  | k :: ks, h => by
    obtain ⟨e, he⟩ := h k (List.mem_cons_self ..)
    obtain ⟨r, hr⟩ := layerFind_ok hc (t := t) (ks := ks) fun k hk => h k (List.mem_cons_of_mem _ hk)
    obtain ⟨plain, enc, h1, h2, _⟩ := (hc.elem k e he).refs
    simp only [layerFind, he, (keysU_of_refs h1 h2).1]
    split
    · cases enc.dec with
      | some dk => exact ⟨_, rfl⟩
      | none => exact ⟨r, hr⟩
    · exact ⟨r, hr⟩

/-- The search for the declaration of a layer ends, with the same result whatever the fuel. -/
theorem layerDecl_ok {d : Document} (hc : CInv d) (hr : Ranked d) {k : Nat} {e : ElementData} (he : d.getElement k = some e) (t : ElementType) :
    ∃ r N, ∀ F, N ≤ F → layerDecl d F k t = .ok r := by
  obtain ⟨items, hb⟩ := exists_below hr (fun k e he => (hc.elem k e he).data) he
  obtain ⟨h1, h2, h3⟩ := below_iff.mp hb
  have hsel : ∃ sel, Selector.fromQuery d { elementgroup := .is .span, set := .some } = .ok sel ∧ sel.matchable = true := ⟨_, rfl, rfl⟩
  obtain ⟨sel, hs, hma⟩ := hsel
  let cfg : SelCfg := { doc := d, selector := sel, recursion := .always, inclusive := false, spanreferences := true }
  have hp : Pending d .always (SelState.init k).stack _ _ := pending_init hb
  have hlive : ∀ i ∈ preorder Recursion.always.eval k e.elementtype 0 1 items, ∀ j, itemKey i = some j → ∃ x, d.getElement j = some x := by
    intro i hi j hj
    have ho := (mem_preorder hb i).mp hi
    have : DataLive d i.data := by
      obtain ⟨x, p, c, m⟩ := i
      simp only at ho ⊢
      cases ho with
      | direct g1 g2 => exact (hc.elem _ _ g1).data _ (List.mem_of_getElem? g2)
      | deeper _ _ _ g1 g2 => exact (hc.elem _ _ g1).data _ (List.mem_of_getElem? g2)
    unfold itemKey at hj
    cases hd : i.data <;> rw [hd] at hj this <;> cases hj <;> first | exact this | exact this.imp fun _ h => h.1
  obtain ⟨r, hr⟩ := layerFind_ok hc (t := t) (ks := (results cfg [] (preorder Recursion.always.eval k e.elementtype 0 1 items)).filterMap itemKey) (by
    intro j hj
    obtain ⟨i, hi, hij⟩ := List.mem_filterMap.mp hj
    exact hlive i (results_mem hi) j hij)
  refine ⟨r, rounds items + 1, fun F hF => ?_⟩
  unfold layerDecl
  rw [hs]
  show layerSearch cfg F t F (.init k) = _
  rw [layerSearch_ordinary (cfg := cfg) (by omega) (by omega) hp (seenRep_init k) (fun i _ => matches_ok hc.encoded sel i.data) (.inr ⟨hma, rfl⟩) hlive, hr]

end Folia
