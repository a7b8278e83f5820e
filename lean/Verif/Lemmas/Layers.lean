import Verif.Lemmas.Flat
import Verif.Lemmas.Query
import Verif.Lemmas.Single
import Verif.Lemmas.Spans
/-! Looking up layers. -/
namespace Folia
open Document

theorem layertype_typed (t : AnnotationType) (lt : ElementType) (h : t.layertype = some lt) : ElementGroup.layer.contains lt = true ∧
    lt ≠ .feature ∧ ∃ a, lt.annotationtype = some a := by
  have : ∀ t ∈ AnnotationType.all, ∀ lt, t.layertype = some lt → ElementGroup.layer.contains lt = true ∧ lt ≠ .feature ∧ lt.annotationtype.isSome := by
    decide +kernel
  obtain ⟨h1, h2, h3⟩ := this t (AnnotationType.mem_all t) lt h
  exact ⟨h1, h2, Option.isSome_iff_exists.mp h3⟩

/-- The layer that `annotate` looks up is the first one of the type and set. -/
theorem layer_first {d : Document} (hinv : CInv d) {p : Nat} {pe : ElementData} (hp : d.getElement p = some pe)
    {t : AnnotationType} {lt : ElementType} (hlt : t.layertype = some lt) (s : String) :
    ∃ N o, (∀ G, N ≤ G → getLayerKey d G p t (some s) = .ok o) ∧ FirstSuch (LayerFor d lt s) (pe.data.filterMap dataKey) o := by
  obtain ⟨sel, h0, hc, h1, h2, h3, h4, h5, h6⟩ := fromQuery_plain d { elementtype := .is lt, set := .is s } rfl
  have hrun : ∀ G, getLayerKey d G p t (some s) = selectFirst d G p sel .no := by
    intro G
    unfold getLayerKey
    rw [hlt]
    show (Selector.fromQuery d { elementtype := .is lt, set := .is s } >>= fun sel => _) = _
    rw [h0]
    show (match d.getElement p with
      | some _ => _
      | none => _) = _
    rw [hp]
  have hfor : ∀ x f, d.getElement x = some f → (sel.matches d (.element x) = .ok true ↔ LayerFor d lt s x) := by
    intro x f hf
    obtain ⟨plain, enc, g1, g2, g3⟩ := (hinv.elem x f hf).refs
    have hdec : f.getDeclaration d = .ok (enc.dec.bind d.getDeclaration) := (values_of_refs (d := d) g1 g2).1
    have hset := compileSet_meets hinv.decls.exact (.is lt) (.is s) g3.dec
    rw [compiled_matches hc hf g1 g2, h1, h2, h3, h4, h5, h6, hset]
    constructor
    · rintro ⟨_, i1, ⟨t', a', y, i2, i3, i4, i5, i6⟩, _⟩
      cases i2
      exact ⟨f, y, hf, by injection i1, by rw [hdec, i4], by rw [i3, i5], i6⟩
    · rintro ⟨f', y, i1, i2, i3, i4, i5⟩
      rw [hf] at i1; cases i1
      rw [hdec] at i3
      refine ⟨trivial, by rw [i2]; rfl, ⟨lt, _, y, rfl, i4, by injection i3, rfl, i5⟩, trivial, trivial, trivial⟩
  have hlive : ∀ x ∈ pe.data.filterMap dataKey, ∃ f, d.getElement x = some f := by
    intro x hx
    obtain ⟨i, hi, hix⟩ := List.mem_filterMap.mp hx
    have := (hinv.elem p pe hp).data i hi
    cases i <;> cases hix <;> first | exact this | exact this.imp fun _ h => h.1
  by_cases hm : sel.matchable = true
  · obtain ⟨keys, N, k1, _, k2⟩ := select_flat hinv hp sel hm
    refine ⟨N, keys.head?, fun G hG => by rw [hrun, (k1 G hG).2], k2.congr fun x hx => ?_⟩
    obtain ⟨f, hf⟩ := hlive x hx
    exact hfor x f hf
  · have hm : sel.matchable = false := by simpa using hm
    refine ⟨1, none, fun G hG => ?_, .none fun x hx => ?_⟩
    · rw [hrun]
      obtain ⟨G, rfl⟩ : ∃ n, G = n + 1 := ⟨G - 1, by omega⟩
      unfold selectFirst selNextElement selNext step
      simp [SelState.init, hm]
    · obtain ⟨f, hf⟩ := hlive x hx
      rw [← hfor x f hf]
      intro hmx
      obtain ⟨plain, enc, g1, g2, g3⟩ := (hinv.elem x f hf).refs
      rw [compiled_matches hc hf g1 g2, h5, h6] at hmx
      unfold Selector.matchable at hm
      rw [h5, h6] at hm
      have : sel.core.set = .unmatchable := by
        simpa [compileClass, compileProc] using hm
      rw [this] at hmx
      exact hmx.2.2.1

/-- The data of the parent after adding a single element that is not a word reference. -/
theorem single_data {F p k : Nat} {e pe : ElementData} {d d' : Document} (hp : d.getElement p = some pe) (hf : d.FreshIds (builderIds e))
    (hz : builderSizeList e.data = 0) (ht : e.elementtype ≠ .wordReference) (hpar : e.parent = none) (h : addElementTo F p e d = (.ok k, d')) :
    ∃ pe', d'.getElement p = some pe' ∧ pe'.data = pe.data ++ [.element k] := by
  unfold addElementTo at h
  rw [M.run_bind, addChildren_single hz] at h
  simp only at h
  obtain ⟨ck, d2, h2, h⟩ := bind_ok h
  have h2 := mapErr_ok h2
  have h : (attachElement p ck >>= fun _ => postAdd F ck none >>= fun _ => pure ck) d2 = (.ok k, d') := h
  obtain ⟨_, d3, h3, h⟩ := bind_ok h
  obtain ⟨_, d4, h4, h⟩ := bind_ok h
  cases h
  have hfr : ∀ id, e.id = some id → d.elementKeyById id = none := by
    intro id hid
    refine hf.2 id ?_
    cases e
    simp only [builderIds]
    simp [hid]
  obtain ⟨hck, _, _, _, e', henc, hget⟩ := addElem_fresh hfr h2
  have hr := encode_result e (some p) d e' (by rw [henc])
  have hpk : p ≠ k := by
    have : p < d.elements.len := Store.get_lt hp
    omega
  have hk2 : d2.getElement k = some { e' with key := some k } := by rw [hget, if_pos rfl]
  have hp2 : d2.getElement p = some pe := by rw [hget, if_neg hpk, hp]
  have hrun := attach_run hp2 hk2
  rw [h3] at hrun
  simp only [Prod.mk.injEq, true_and] at hrun
  rw [show e'.parent = none from hr.2.2.2.trans hpar] at hrun
  have hp3 : d3.getElement p = some (pe.push (.element k)) := by
    rw [hrun]
    show Store.get (Store.update (Store.update d2.elements k _) p _) p = _
    rw [Store.get_update, if_pos rfl, Store.get_update, if_neg hpk, show d2.elements.get p = _ from hp2]
    rfl
  have hk3 : ∃ y, d3.getElement k = some y ∧ y.elementtype = e.elementtype := by
    rw [hrun]
    show ∃ y, Store.get (Store.update (Store.update d2.elements k _) p _) k = some y ∧ _
    rw [Store.get_update, if_neg (Ne.symm hpk), Store.get_update, if_pos rfl, show d2.elements.get k = _ from hk2]
    exact ⟨_, rfl, hr.1⟩
  obtain ⟨y, hy, hyt⟩ := hk3
  rcases postAdd_data hy h4 with ⟨hw, _⟩ | ⟨_, hd⟩
  · exact absurd (hyt.symm.trans hw) ht
  · have := hd p
    rw [hp3] at this
    cases hg : d'.getElement p with
    | none => rw [hg] at this; cases this
    | some pe' =>
      rw [hg] at this
      exact ⟨pe', rfl, by injection this⟩

end Folia
