import Verif.Lemmas.Links
/-! Adding a builder tree with fresh identifiers. -/
namespace Folia
open Document

theorem maybeId_eq (e : ElementData) : Storable.maybeId e = e.id := by
  show (e.attrib .ID).bind Attribute.asStr = e.id
  unfold ElementData.attrib ElementData.id
  induction e.attribs with
  | nil => rfl
  | cons a as ih =>
    simp only [List.find?_cons, List.findSome?_cons]
    cases a <;> first | exact ih | rfl

/-- The attributes of a set-less layer were replaced. -/
def LayerFix (e e' : ElementData) : Prop :=
  ElementGroup.layer.contains e.elementtype = true ∧ e.hasAttrib .SET = false ∧ ∃ dk, e'.attribs = [.declarationRef dk]

/-- The changes an element undergoes while it and its relatives are being added. -/
structure Upd (e e' : ElementData) (p : Option Nat) (fix : Prop) : Prop where
  type : e'.elementtype = e.elementtype
  key : e'.key = e.key
  parent : e'.parent = p
  attribs : e'.attribs = e.attribs ∨ (fix ∧ LayerFix e e')
  data : ∃ refs, e'.data = e.data ++ List.map .spanReference refs

theorem Upd.refl (e : ElementData) (fix : Prop) : Upd e e e.parent fix := ⟨rfl, rfl, rfl, Or.inl rfl, [], by simp⟩

theorem Upd.grown {e e' : ElementData} (h : Upd e e' e.parent False) : Grown e e' :=
  ⟨h.type, h.key, h.parent, by rcases h.attribs with h | h; exact h; exact h.1.elim, h.data⟩

theorem Grown.refl (e : ElementData) : Grown e e := ⟨rfl, rfl, rfl, rfl, [], by simp⟩

theorem refs_trans {a b c : List Data} (h : ∃ refs : List Nat, b = a ++ List.map .spanReference refs)
    (h' : ∃ refs : List Nat, c = b ++ List.map .spanReference refs) : ∃ refs : List Nat, c = a ++ List.map .spanReference refs := by
  obtain ⟨r1, rfl⟩ := h
  obtain ⟨r2, rfl⟩ := h'
  exact ⟨r1 ++ r2, by simp⟩

theorem Grown.trans {a b c : ElementData} (h : Grown a b) (h' : Grown b c) : Grown a c :=
  ⟨h'.type.trans h.type, h'.key.trans h.key, h'.parent.trans h.parent, h'.attribs.trans h.attribs, refs_trans h.data h'.data⟩

/-- A transition that only appends span references and, for the elements in `cs`, sets the parent to `p` and possibly fixes layers. -/
structure Upds (d d' : Document) (par : Nat → Option Nat → Option Nat) (fix : Nat → Prop) : Prop where
  len : d'.elements.len = d.elements.len
  index : d'.elements.index = d.elements.index
  decls : d'.declarations = d.declarations
  procs : d'.processors = d.processors
  elems : ∀ j, (d.getElement j = none ∧ d'.getElement j = none) ∨
    ∃ e e', d.getElement j = some e ∧ d'.getElement j = some e' ∧ Upd e e' (par j e.parent) (fix j)

theorem Upds.refl (d : Document) (fix : Nat → Prop) : Upds d d (fun _ p => p) fix := by
  refine ⟨rfl, rfl, rfl, rfl, fun j => ?_⟩
  cases h : d.getElement j with
  | none => exact Or.inl ⟨rfl, rfl⟩
  | some e => exact Or.inr ⟨e, e, rfl, rfl, .refl e _⟩

theorem upds_update (d : Document) (k : Nat) (f : ElementData → ElementData) (par : Nat → Option Nat → Option Nat) (fix : Nat → Prop)
    (hk : ∀ e, d.getElement k = some e → Upd e (f e) (par k e.parent) (fix k)) (hpar : ∀ j, j ≠ k → ∀ p, par j p = p) :
    Upds d { d with elements := d.elements.update k f } par fix := by
  refine ⟨Store.update_length .., Store.update_index .., rfl, rfl, fun j => ?_⟩
  rw [getElement_update]
  cases h : d.getElement j with
  | none => left; simp
  | some e =>
    right
    by_cases hj : j = k
    · subst hj; exact ⟨e, f e, rfl, by simp, hk e h⟩
    · refine ⟨e, e, rfl, by simp [hj], ?_⟩
      have := Upd.refl e (fix j)
      rw [hpar j hj]; exact this

/-- The effect of `post_add`. -/
theorem postAdd_upds (F key : Nat) (st : Option (List Nat)) (d : Document) :
    Upds d (postAdd F key st d).2 (fun _ p => p) (· = key) := by
  have hrefl := Upds.refl d (· = key)
  unfold postAdd
  simp only [M.run_bind, M.run_get]
  cases he : d.getElement key with
  | none => exact hrefl
  | some e =>
    simp only
    split
    · cases e.lastIdref with
      | none => exact hrefl
      | some idref =>
        simp only [M.run_bind, M.run_ofRes]
        cases spanKey d F key st with
        | error f => exact hrefl
        | ok o =>
          cases o with
          | none => exact hrefl
          | some sk =>
            simp only [M.run_bind, M.run_get]
            cases d.elementKeyById idref with
            | none => exact hrefl
            | some target =>
              simp only [M.run_bind, M.run_get]
              cases d.getElement target with
              | none => exact hrefl
              | some te =>
                exact upds_update d target _ _ _ (fun e _ => ⟨rfl, rfl, rfl, Or.inl rfl, [sk], rfl⟩) fun _ _ _ => rfl
    · split
      · rename_i hl
        simp only [Bool.and_eq_true, Bool.not_eq_true'] at hl
        simp only [M.run_bind, M.run_ofRes]
        cases layerDecl d F key e.elementtype with
        | error f => exact hrefl
        | ok o =>
          cases o with
          | none => exact hrefl
          | some dk =>
            refine upds_update d key _ _ _ (fun e' he' => ?_) fun _ _ _ => rfl
            rw [he] at he'; cases he'
            exact ⟨rfl, rfl, rfl, Or.inr ⟨rfl, hl.1, hl.2, dk, rfl⟩, [], by simp [ElementData.withAttribs]⟩
      · exact hrefl

theorem LayerFix.back {a b c : ElementData} (ht : b.elementtype = a.elementtype) (h : a.attribs = b.attribs) (h' : LayerFix b c) : LayerFix a c := by
  obtain ⟨h1, h2, h3⟩ := h'
  refine ⟨by rw [← ht]; exact h1, ?_, h3⟩
  unfold ElementData.hasAttrib at h2 ⊢
  rw [h]; exact h2

theorem Upd.trans {a b c : ElementData} {p q : Option Nat} {fix fix' : Prop} (h : Upd a b p fix) (h' : Upd b c q fix') :
    Upd a c q (fix ∨ fix') := by
  refine ⟨h'.type.trans h.type, h'.key.trans h.key, h'.parent, ?_, refs_trans h.data h'.data⟩
  rcases h'.attribs with h2 | ⟨hf, h2⟩
  · rcases h.attribs with h1 | ⟨hf, h1⟩
    · exact Or.inl (h2.trans h1)
    · exact Or.inr ⟨Or.inl hf, h1.1, h1.2.1, by obtain ⟨dk, h3⟩ := h1.2.2; exact ⟨dk, h2.trans h3⟩⟩
  · rcases h.attribs with h1 | ⟨hf, h1⟩
    · exact Or.inr ⟨Or.inr hf, h2.back h.type h1.symm⟩
    · obtain ⟨dk, h3⟩ := h1.2.2
      obtain ⟨_, h4, _⟩ := h2
      unfold ElementData.hasAttrib at h4
      rw [h3] at h4
      simp [Attribute.attribtype] at h4

theorem Upd.mono {e e' : ElementData} {p : Option Nat} {fix fix' : Prop} (h : Upd e e' p fix) (hf : fix → fix') : Upd e e' p fix' :=
  ⟨h.type, h.key, h.parent, h.attribs.imp id fun h => ⟨hf h.1, h.2⟩, h.data⟩

theorem Upds.trans {a b c : Document} {par par' : Nat → Option Nat → Option Nat} {fix fix' : Nat → Prop} (h : Upds a b par fix)
    (h' : Upds b c par' fix') : Upds a c (fun j p => par' j (par j p)) fun j => fix j ∨ fix' j := by
  refine ⟨h'.len.trans h.len, h'.index.trans h.index, h'.decls.trans h.decls, h'.procs.trans h.procs, fun j => ?_⟩
  rcases h.elems j with ⟨h1, h2⟩ | ⟨e, e', h1, h2, h3⟩
  · rcases h'.elems j with ⟨_, h5⟩ | ⟨x, _, h4, _, _⟩
    · exact Or.inl ⟨h1, h5⟩
    · rw [h2] at h4; cases h4
  · rcases h'.elems j with ⟨h4, _⟩ | ⟨x, x', h4, h5, h6⟩
    · rw [h2] at h4; cases h4
    · rw [h2] at h4; cases h4
      refine Or.inr ⟨e, x', h1, h5, ?_⟩
      rw [h3.parent] at h6
      exact h3.trans h6

theorem Upds.weaken {d d' : Document} {par par' : Nat → Option Nat → Option Nat} {fix fix' : Nat → Prop} (h : Upds d d' par fix)
    (hp : ∀ j p, par j p = par' j p) (hf : ∀ j, fix j → fix' j) : Upds d d' par' fix' := by
  refine ⟨h.len, h.index, h.decls, h.procs, fun j => ?_⟩
  rcases h.elems j with h1 | ⟨e, e', h1, h2, h3⟩
  · exact Or.inl h1
  · exact Or.inr ⟨e, e', h1, h2, by rw [← hp]; exact h3.mono (hf j)⟩

theorem adopt_upds (F p c : Nat) (d : Document) :
    Upds d (adopt F p c d).2 (fun j q => if j = c then some p else q) (· = c) := by
  unfold adopt
  simp only [M.run_bind, updElement, M.run_modify]
  have h1 : Upds d { d with elements := d.elements.update c fun e => { e with parent := some p } }
      (fun j q => if j = c then some p else q) (fun _ => False) := by
    refine upds_update d c _ _ _ (fun e _ => ?_) fun j hj q => if_neg hj
    rw [if_pos rfl]
    exact ⟨rfl, rfl, rfl, Or.inl rfl, [], by simp⟩
  exact (h1.trans (postAdd_upds F c none _)).weaken (fun _ _ => rfl) fun j h => h.elim False.elim id

theorem forEach_adopt_upds (F p : Nat) : ∀ (cs : List Nat) (d d' : Document), M.forEach (adopt F p) cs d = (.ok (), d') →
    Upds d d' (fun j q => if j ∈ cs then some p else q) (· ∈ cs)
  | [], d, d', h => by cases h; exact (Upds.refl d _).weaken (fun _ _ => by simp) fun _ h => h
  | c :: cs, d, d', h => by
    simp only [M.forEach, M.run_bind] at h
    have h1 := adopt_upds F p c d
    rcases hm : adopt F p c d with ⟨_ | u, d1⟩
    · rw [hm] at h; cases h
    · rw [hm] at h h1
      have h2 := forEach_adopt_upds F p cs d1 d' h
      refine (h1.trans h2).weaken (fun j q => ?_) fun j hj => ?_
      · by_cases hc : j = c <;> by_cases hcs : j ∈ cs <;> simp [hc, hcs]
        all_goals (try (subst hc; simp [hcs]))
      · rcases hj with rfl | hj <;> simp [*]

/-! ### Links of a new element with its children -/

theorem Upd.kids {e e' : ElementData} {p : Option Nat} {fix : Prop} (h : Upd e e' p fix) : kids e'.data = kids e.data := by
  obtain ⟨refs, hr⟩ := h.data
  rw [hr, kids_append, kids_refs, List.append_nil]

theorem Upds.lists {d d' : Document} {par : Nat → Option Nat → Option Nat} {fix : Nat → Prop} (h : Upds d d' par fix) (p c : Nat) :
    d'.Lists p c ↔ d.Lists p c := by
  unfold Document.Lists
  rcases h.elems p with ⟨h1, h2⟩ | ⟨e, e', h1, h2, h3⟩
  · simp [h1, h2]
  · simp only [h1, h2, Option.some.injEq, exists_eq_left']
    rw [← mem_kids, ← mem_kids, h3.kids]

/-- A new element together with the adoption of its children. -/
structure Graft (d1 d3 : Document) (ck : Nat) (cs : List Nat) : Prop where
  new : d1.getElement ck = none
  old : ∀ j, j ≠ ck → (d1.getElement j = none ∧ d3.getElement j = none) ∨
    ∃ e e', d1.getElement j = some e ∧ d3.getElement j = some e' ∧ Upd e e' (if j ∈ cs then some ck else e.parent) (j ∈ cs)
  self : ∃ x, d3.getElement ck = some x ∧ x.parent = none ∧ kids x.data = cs
  nodup : cs.Nodup
  orphans : ∀ c ∈ cs, ∃ ce, d1.getElement c = some ce ∧ ce.parent = none

theorem Graft.lists {d1 d3 : Document} {ck : Nat} {cs : List Nat} (h : Graft d1 d3 ck cs) (p c : Nat) :
    d3.Lists p c ↔ (p = ck ∧ c ∈ cs) ∨ (p ≠ ck ∧ d1.Lists p c) := by
  by_cases hp : p = ck
  · subst hp
    obtain ⟨x, h1, _, h2⟩ := h.self
    unfold Document.Lists
    simp only [h1, Option.some.injEq, exists_eq_left', ← mem_kids, h2]
    simp
  · simp only [hp, false_and, false_or, ne_eq, not_false_eq_true, true_and]
    unfold Document.Lists
    rcases h.old p hp with ⟨h1, h2⟩ | ⟨e, e', h1, h2, h3⟩
    · simp [h1, h2]
    · simp only [h1, h2, Option.some.injEq, exists_eq_left', ← mem_kids, h3.kids]

theorem Graft.hasParent {d1 d3 : Document} {ck : Nat} {cs : List Nat} (h : Graft d1 d3 ck cs) (p c : Nat) :
    d3.HasParent c p ↔ (p = ck ∧ c ∈ cs) ∨ (c ∉ cs ∧ d1.HasParent c p) := by
  have hck : ck ∉ cs := fun hc => by obtain ⟨ce, h1, _⟩ := h.orphans ck hc; rw [h.new] at h1; cases h1
  unfold Document.HasParent
  by_cases hc : c = ck
  · subst hc
    obtain ⟨x, h1, h2, _⟩ := h.self
    simp [h1, h2, hck, h.new]
  · rcases h.old c hc with ⟨h1, h2⟩ | ⟨e, e', h1, h2, h3⟩
    · have : c ∉ cs := fun hm => by obtain ⟨ce, h4, _⟩ := h.orphans c hm; rw [h1] at h4; cases h4
      simp [h1, h2, this]
    · simp only [h1, h2, Option.some.injEq, exists_eq_left', h3.parent]
      by_cases hm : c ∈ cs
      · simp [hm, eq_comm]
      · simp [hm]

theorem Graft.links {d1 d3 : Document} {ck : Nat} {cs : List Nat} (h : Graft d1 d3 ck cs) (hl : LinksAgree d1) : LinksAgree d3 := by
  constructor
  · intro p c
    rw [h.lists, h.hasParent]
    constructor
    · rintro (h1 | ⟨hp, h1⟩)
      · exact Or.inl h1
      · have h2 := (hl.agree p c).mp h1
        refine Or.inr ⟨fun hm => ?_, h2⟩
        obtain ⟨ce, h3, h4⟩ := h.orphans c hm
        obtain ⟨ce', h5, h6⟩ := h2
        rw [h3] at h5; cases h5
        rw [h4] at h6; cases h6
    · rintro (h1 | ⟨hc, h1⟩)
      · exact Or.inl h1
      · have h2 := (hl.agree p c).mpr h1
        refine Or.inr ⟨?_, h2⟩
        rintro rfl
        obtain ⟨e, h3, _⟩ := h2
        rw [h.new] at h3; cases h3
  · intro p e' he'
    by_cases hp : p = ck
    · subst hp
      obtain ⟨x, h1, _, h2⟩ := h.self
      rw [he'] at h1; cases h1
      rw [h2]; exact h.nodup
    · rcases h.old p hp with ⟨_, h2⟩ | ⟨e, e2, h1, h2, h3⟩
      · rw [he'] at h2; cases h2
      · rw [he'] at h2; cases h2
        rw [h3.kids]; exact hl.once p e h1

theorem le_sum_of_mem {l : List Nat} {f : Nat → Nat} {c : Nat} (h : c ∈ l) : f c ≤ (l.map f).sum := by
  induction l with
  | nil => cases h
  | cons x xs ih =>
    rw [List.map_cons, List.sum_cons]
    rcases List.mem_cons.mp h with rfl | h
    · omega
    · have := ih h; omega

theorem Graft.ranked {d1 d3 : Document} {ck : Nat} {cs : List Nat} (h : Graft d1 d3 ck cs) (hl : LinksAgree d1) (hr : Ranked d1) : Ranked d3 := by
  obtain ⟨r, hr⟩ := hr
  have hck : ck ∉ cs := fun hc => by obtain ⟨ce, h1, _⟩ := h.orphans ck hc; rw [h.new] at h1; cases h1
  refine ⟨fun j => if j = ck then (cs.map r).sum + 1 else r j, ?_⟩
  intro p c hpc
  rw [h.lists] at hpc
  rcases hpc with ⟨rfl, hc⟩ | ⟨hp, hpc⟩
  · have : c ≠ p := fun h => hck (h ▸ hc)
    simp only [this, if_true, if_false]
    have := le_sum_of_mem (f := r) hc
    omega
  · have hc : c ≠ ck := by
      rintro rfl
      obtain ⟨e, h1, _⟩ := (hl.agree p c).mp hpc
      rw [h.new] at h1; cases h1
    simp only [hp, hc, if_false]
    exact hr p c hpc

end Folia
