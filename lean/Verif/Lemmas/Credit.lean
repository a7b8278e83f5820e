import Verif.Lemmas.Single
/-! Which processor an annotation is credited to. -/
namespace Folia
open Document

theorem linkProcessor_mem (p : Nat) (dec : Declaration) : p ∈ (linkProcessor p dec).processors := by
  unfold linkProcessor
  split
  · rename_i h; exact List.contains_iff_mem.mp h
  · simp

theorem linkProcessor_single {p q : Nat} {dec : Declaration} (h : (linkProcessor p dec).processors = [q]) : q = p := by
  have := linkProcessor_mem p dec
  rw [h, List.mem_singleton] at this
  exact this.symm

theorem linkActive_self {d : Document} {k a : Nat} {dec : Declaration} (ha : d.activeProcessor = some a) (h : d.getDeclaration k = some dec) :
    (linkActive k d).getDeclaration k = some (linkProcessor a dec) := by
  unfold linkActive
  rw [ha]
  unfold getDeclaration at h ⊢
  simp [h]

/-- The declaration that `declare` returns while a processor is active. -/
theorem declare_active {d d' : Document} {t : AnnotationType} {s : Option String} {k a : Nat} (hd : DInv d) (ha : d.activeProcessor = some a)
    (h : declare t s none none d = (.ok k, d')) : ∃ dec, d'.getDeclaration k = some dec ∧ dec.annotationtype = t ∧ (s ≠ none → dec.set = s) ∧
      (a ∈ dec.processors ∨ (d.declarationKeyById (Declaration.indexId t s) = some k ∧ d' = d)) := by
  have hdd := ddoes_declare t s none none d hd trivial
  rw [h] at hdd
  obtain ⟨dec, h1, h2, h3⟩ := hdd.2.2 k rfl
  refine ⟨dec, h1, h2, h3, ?_⟩
  rcases declare_cases d t s none none with ⟨k', hk, heq⟩ | ⟨_, ⟨k', hk, heq⟩ | ⟨_, hm⟩⟩
  · rw [h] at heq; cases heq; exact Or.inr ⟨hk, rfl⟩
  · rw [h] at heq
    cases heq
    left
    cases hg : d.getDeclaration k with
    | none =>
      obtain ⟨⟨⟨dec0, h4, _⟩, _⟩, _⟩ := declareDefault_some hk
      have : d.getDeclaration k = some dec0 := Store.get_eq_some.mpr h4
      rw [hg] at this; cases this
    | some dec0 =>
      rw [linkActive_self ha hg] at h1
      cases h1
      exact linkProcessor_mem a dec0
  · left
    have hgk := fun k => Store.Exact.add_get hd.exact cap16 (Declaration.new t s none none) (fun _ _ => rfl) (k := k)
    rcases hadd : d.declarations.add cap16 (Declaration.new t s none none) with ⟨r, st⟩
    rw [hadd] at hm hgk
    cases r with
    | error e => simp only at hm; rw [h] at hm; cases hm
    | ok j =>
      simp only at hm
      rw [h] at hm
      cases hm
      obtain ⟨b, hb, _⟩ := hgk k rfl
      rw [linkActive_self (d := { d with declarations := st }) ha hb] at h1
      cases h1
      exact linkProcessor_mem a b

theorem addName_procs {d d' : Document} {k : Nat} {name : Res (Option String)} {f : String → Declaration → Res Nat × Declaration} {r : Option Nat}
    (hf : ∀ s dec, (f s dec).2.processors = dec.processors) {dec : Declaration} (hk : d.getDeclaration k = some dec)
    (h : addName k name f d = (.ok r, d')) : d'.activeProcessor = d.activeProcessor ∧ ∃ dec', d'.getDeclaration k = some dec' ∧ dec'.processors = dec.processors := by
  unfold addName at h
  split at h
  · rename_i c
    have hm : callDeclaration k (f c) d = (.ok (some (f c dec).1), { d with declarations := d.declarations.update k fun _ => (f c dec).2 }) := by
      unfold callDeclaration; rw [hk]
    rw [M.run_bind, hm] at h
    simp only at h
    have hg : (Store.update d.declarations k fun _ => (f c dec).2).get k = some (f c dec).2 := by
      unfold getDeclaration at hk
      simp [hk]
    cases hr : (f c dec).1 <;> rw [hr] at h <;> cases h <;> exact ⟨rfl, _, hg, hf c dec⟩
  · cases h; exact ⟨rfl, dec, hk, rfl⟩

/-- The processor put on an annotation without one while a processor is active. -/
theorem encode_credit {e e' : ElementData} {ctx : Option Nat} {d d1 : Document} {t : AnnotationType} {a : Nat} (hd : DInv d)
    (ht : e.elementtype.annotationtype = some t) (hen : e.encodable = true) (hc : CleanAttribs e.attribs) (hno : e.processor = .ok none)
    (ha : d.activeProcessor = some a) (h : encode e ctx d = (.ok e', d1)) :
    ∃ dk dec q, d1.getDeclaration dk = some dec ∧ q ∈ dec.processors ∧
      (∀ x : ElementData, x.attribs = e'.attribs → x.declarationKeyU = .ok (some dk) ∧ x.processorKeyU = .ok (some q)) ∧
      (q = a ∨ ∃ s dec0, e.set = .ok s ∧ d.declarationKeyById (Declaration.indexId t s) = some dk ∧ d.getDeclaration dk = some dec0 ∧ dec0.processors = [q]) := by
  unfold encode at h
  rw [if_pos hen] at h
  obtain ⟨enc, d5, h5, h⟩ := bind_ok h
  obtain ⟨_, d6, h6, h⟩ := bind_ok h
  cases h6
  obtain ⟨_, d7, h7, h⟩ := bind_ok h
  cases h
  unfold encodeCore at h5
  rw [ht] at h5
  simp only at h5
  unfold encodeTyped at h5
  obtain ⟨s, h8, h5⟩ := ofRes_bind h5
  obtain ⟨dk, d9, h9, h5⟩ := bind_ok h5
  obtain ⟨ck', d10, h10, h5⟩ := bind_ok h5
  obtain ⟨pr, d11, h11, h5⟩ := bind_ok h5
  cases h5
  obtain ⟨dec9, g1, g2, g3, g4⟩ := declare_active hd ha h9
  have ha9 : d9.activeProcessor = some a := by
    have := (OnlyDecls.declare t s none none d).active
    rw [h9] at this; exact this.trans ha
  obtain ⟨ha10, dec10, g5, g6⟩ := addName_procs (fun _ _ => rfl) g1 h10
  have hp : encodeProc dk d10 = (.ok (match dec10.processors with | [q] => (some q, false) | _ => (some a, !dec10.processors.contains a)), d10) := by
    unfold encodeProc
    rw [M.run_bind, M.run_get]
    simp only [g5]
    unfold Declaration.defaultProcessor
    cases dec10.processors with
    | nil => simp only [ha10.trans ha9]; rfl
    | cons q qs => cases qs with
      | nil => rfl
      | cons r rs => simp only [ha10.trans ha9]; rfl
  have hee : ∀ d0 enc, encodeExplicit d0 e enc = enc := by intro d0 enc; unfold encodeExplicit; rw [hno]
  rw [hp] at h11
  cases h11
  rw [hee] at h7 ⊢
  have hpl : PlainAttribs (e.attribs.filter (!·.encodable)) := by
    intro a h
    rw [List.mem_filter] at h
    exact ⟨by simpa using h.2, hc a h.1⟩
  have hkeys : ∀ x : ElementData, ∀ enc, x.attribs = encodedAttribs e.attribs enc → x.declarationKeyU = .ok enc.dec ∧ x.processorKeyU = .ok enc.proc := by
    intro x enc hx
    rw [encodedAttribs_eq] at hx
    exact ⟨(keysU_of_refs hx hpl).1, (keysU_of_refs hx hpl).2.2.1⟩
  by_cases hs : ∃ q, dec10.processors = [q]
  · obtain ⟨q, hq⟩ := hs
    rw [hq] at h7 ⊢
    cases h7
    refine ⟨dk, dec10, q, g5, by rw [hq]; simp, fun x hx => hkeys x _ hx, ?_⟩
    rcases g4 with g4 | ⟨g4, g7⟩
    · left
      rw [← g6, hq, List.mem_singleton] at g4
      exact g4.symm
    · right
      subst g7
      exact ⟨s, dec9, unwrapRes_ok h8, g4, g1, by rw [← g6, hq]⟩
  · have hm : (match dec10.processors with | [q] => ((some q, false) : Option Nat × Bool) | _ => (some a, !dec10.processors.contains a)) =
        (some a, !dec10.processors.contains a) := by
      split
      · rename_i q hq; exact absurd ⟨q, hq⟩ hs
      · rfl
    rw [hm] at h7 ⊢
    cases hca : dec10.processors.contains a with
    | true =>
      rw [hca] at h7
      cases h7
      exact ⟨dk, dec10, a, g5, List.contains_iff_mem.mp hca, fun x hx => hkeys x _ hx, Or.inl rfl⟩
    | false =>
      rw [hca] at h7
      cases h7
      refine ⟨dk, linkProcessor a dec10, a, ?_, linkProcessor_mem a dec10, fun x hx => hkeys x _ hx, Or.inl rfl⟩
      unfold getDeclaration at g5 ⊢
      simp [g5]

end Folia
