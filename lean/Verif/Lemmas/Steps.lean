import Verif.Ops
import Verif.Lemmas.Decl
/-! Every public operation decomposes into a sequence of elementary transitions `Prim`. Invariants and monotonicity relations then only
have to be checked for the elementary transitions. -/
namespace Folia

/-- A key of an existing element. -/
def Document.Live (d : Document) (k : Nat) : Prop := ∃ e, d.getElement k = some e
/-- A key of an existing processor. -/
def Document.ProcLive (d : Document) (k : Nat) : Prop := ∃ p, d.getProcessor k = some p

/-- A data item that refers only to existing elements (and is not a pending builder). -/
def DataLive (d : Document) : Data → Prop
  | .element k => d.Live k
  | .spanReference k => ∃ e, d.getElement k = some e ∧ ElementGroup.span.contains e.elementtype = true
  | .addElement _ => False
  | _ => True

/-- A text or comment. -/
def DataType.Textual {E : Type} : DataType E → Prop
  | .text _ => True
  | .comment _ => True
  | _ => False

/-- No encoded references among the attributes. -/
def CleanAttribs (as : List Attribute) : Prop := ∀ a ∈ as, a.decodable = false

open Document in
/-- Elementary transitions. The guards that depend on clean arguments are only present if `C` holds. -/
inductive Prim (C : Prop) : Document → Document → Prop
  | admin {d d'} (he : d'.elements = d.elements) (hd : d'.declarations = d.declarations) (hp : d'.processors = d.processors)
      (hc : d'.chain = d.chain) (ha : d'.activeProcessor = d.activeProcessor) : Prim C d d'
  | addDeclaration (d) (dec : Declaration) (h : C → dec.Blank) : Prim C d (addDeclaration dec d).2
  | declare (d) (t s a f) : Prim C d (declare t s a f d).2
  | addClass (d) (k c) : Prim C d (addClass k c d).2
  | annotator (d) (k p) (h : d.ProcLive p) :
      Prim C d { d with declarations := d.declarations.update k fun dec => { dec with processors := dec.processors ++ [p] } }
  | addElem (d) (e : ElementData) (ctx : Option Nat)
      (h : C → CleanAttribs e.attribs ∧ (∀ x ∈ e.data, DataLive d x) ∧ e.parent = none) : Prim C d (addElem e ctx d).2
  | setParent (d) (c p) (h : d.Live p) : Prim C d { d with elements := d.elements.update c fun e => { e with parent := some p } }
  | orphan (d) (c) : Prim C d { d with elements := d.elements.update c fun e => { e with parent := none } }
  | pushElem (d) (p c) (h : d.Live c) : Prim C d { d with elements := d.elements.update p fun e => e.push (.element c) }
  | pushText (d) (p) (x : Data) (h : x.Textual) : Prim C d { d with elements := d.elements.update p fun e => e.push x }
  | pushSpan (d) (t s) (h : ∃ e, d.getElement s = some e ∧ ElementGroup.span.contains e.elementtype = true) :
      Prim C d { d with elements := d.elements.update t fun e => e.push (.spanReference s) }
  | unlink (d) (p c) : Prim C d { d with elements := d.elements.update p (unlink c) }
  | layer (d) (k dk e) (he : d.getElement k = some e) (hl : ElementGroup.layer.contains e.elementtype = true)
      (hn : e.hasAttrib .SET = false) (hd : ∃ k' e', d.getElement k' = some e' ∧ e'.declarationKeyU = .ok (some dk) ∧
        e'.elementtype.annotationtype = e.elementtype.annotationtype) :
      Prim C d { d with elements := d.elements.update k fun e => e.withAttribs [.declarationRef dk] }
  | addProc (d) (p : Processor) (h : C → p.processors = [] ∧ p.parent = none) : Prim C d (addProvenance p d).2
  | chain (d) (k) (h : d.ProcLive k) : Prim C d { d with chain := d.chain ++ [k] }
  | procParent (d) (c p) (h : d.ProcLive p) : Prim C d { d with processors := d.processors.update c fun q => { q with parent := some p } }
  | procPush (d) (p c) (h : d.ProcLive c) :
      Prim C d { d with processors := d.processors.update p fun q => { q with processors := q.processors ++ [c] } }
  | activate (d) (k) (h : C → d.ProcLive k) : Prim C d { d with activeProcessor := some k }

/-- Sequences of elementary transitions. -/
inductive Steps (C : Prop) : Document → Document → Prop
  | refl (d) : Steps C d d
  | tail {a b c} : Steps C a b → Prim C b c → Steps C a c

namespace Steps
variable {C : Prop}

theorem single {a b : Document} (h : Prim C a b) : Steps C a b := .tail (.refl a) h

theorem trans {a b c : Document} (h : Steps C a b) (h' : Steps C b c) : Steps C a c := by
  induction h' with
  | refl => exact h
  | tail _ hp ih => exact .tail ih hp

/-- A reflexive and transitive relation that contains the elementary transitions contains all sequences. -/
theorem lift {R : Document → Document → Prop} (hrefl : ∀ d, R d d) (htrans : ∀ {a b c}, R a b → R b c → R a c)
    (h : ∀ {a b}, Prim C a b → R a b) {a b : Document} (hs : Steps C a b) : R a b := by
  induction hs with
  | refl => exact hrefl _
  | tail _ hp ih => exact htrans ih (h hp)

/-- An invariant of the elementary transitions is an invariant of all sequences. -/
theorem inv {I : Document → Prop} (h : ∀ {a b}, Prim C a b → I a → I b) {a b : Document} (hs : Steps C a b) (ha : I a) : I b := by
  induction hs with
  | refl => exact ha
  | tail _ hp ih => exact h hp ih

end Steps

/-! ### Effect of encoding on the element store -/

open Document in
theorem declare_elements (t : AnnotationType) (s a f : Option String) (d : Document) :
    (declare t s a f d).2.elements = d.elements ∧ (declare t s a f d).2.processors = d.processors ∧
    (declare t s a f d).2.chain = d.chain ∧ (declare t s a f d).2.activeProcessor = d.activeProcessor := by
  have hl : ∀ k (d : Document), (linkActive k d).elements = d.elements ∧ (linkActive k d).processors = d.processors ∧
      (linkActive k d).chain = d.chain ∧ (linkActive k d).activeProcessor = d.activeProcessor := by
    intro k d; unfold linkActive; split <;> simp_all
  rcases declare_cases d t s a f with ⟨k, _, heq⟩ | ⟨_, ⟨k, _, heq⟩ | ⟨_, hm⟩⟩
  · rw [heq]; simp
  · rw [heq]; exact hl k d
  · rcases hadd : d.declarations.add cap16 (Declaration.new t s a f) with ⟨r, st⟩
    rw [hadd] at hm
    cases r with
    | ok k => simp only at hm; rw [hm]; exact hl k _
    | error e => simp only at hm; rw [hm]; simp

/-- Two documents that differ at most in their declarations. -/
structure SameButDecls (d d' : Document) : Prop where
  elements : d'.elements = d.elements
  processors : d'.processors = d.processors
  chain : d'.chain = d.chain
  active : d'.activeProcessor = d.activeProcessor

namespace SameButDecls
theorem refl (d : Document) : SameButDecls d d := ⟨rfl, rfl, rfl, rfl⟩
theorem trans {a b c : Document} (h : SameButDecls a b) (h' : SameButDecls b c) : SameButDecls a c :=
  ⟨h'.1.trans h.1, h'.2.trans h.2, h'.3.trans h.3, h'.4.trans h.4⟩
end SameButDecls

/-- A method that changes at most declarations. -/
def OnlyDecls {α : Type} (m : M Document α) : Prop := ∀ d, SameButDecls d (m d).2

namespace OnlyDecls
variable {α β : Type}

theorem pure (a : α) : OnlyDecls (pure a : M Document α) := fun d => .refl d
theorem throw (e : Fault) : OnlyDecls (M.throw e : M Document α) := fun d => .refl d
theorem err (e : ErrKind) : OnlyDecls (M.err e : M Document α) := fun d => .refl d
theorem get : OnlyDecls (M.get : M Document Document) := fun d => .refl d
theorem ofRes (f : Document → Res α) : OnlyDecls (M.ofRes f) := fun d => .refl d
theorem bind {m : M Document α} {f : α → M Document β} (h : OnlyDecls m) (h' : ∀ a, OnlyDecls (f a)) : OnlyDecls (m >>= f) := by
  intro d
  rw [M.run_bind]
  have := h d
  rcases hm : m d with ⟨_ | a, d'⟩
  · simpa [hm] using this
  · rw [hm] at this; exact this.trans (h' a d')
theorem declare (t : AnnotationType) (s a f : Option String) : OnlyDecls (Document.declare t s a f) := by
  intro d
  obtain ⟨h1, h2, h3, h4⟩ := declare_elements t s a f d
  exact ⟨h1, h2, h3, h4⟩
theorem callDeclaration (k : Nat) (f : Declaration → Res α × Declaration) : OnlyDecls (Document.callDeclaration k f) := by
  intro d
  unfold Document.callDeclaration
  split
  · exact ⟨rfl, rfl, rfl, rfl⟩
  · exact .refl d
theorem updDeclaration (k : Nat) (f : Declaration → Declaration) : OnlyDecls (Document.updDeclaration k f) := by
  intro d; exact ⟨rfl, rfl, rfl, rfl⟩
theorem addName (k : Nat) (name : Res (Option String)) (f : String → Declaration → Res Nat × Declaration) :
    OnlyDecls (Document.addName k name f) := by
  unfold Document.addName
  split
  · refine bind (callDeclaration _ _) fun r => ?_
    split <;> exact pure _
  · exact pure _
theorem encodeProc (k : Nat) : OnlyDecls (Document.encodeProc k) := by
  unfold Document.encodeProc
  refine bind get fun d => ?_
  repeat' split
  all_goals exact pure _
theorem encodeTyped (e : ElementData) (t : AnnotationType) : OnlyDecls (Document.encodeTyped e t) := by
  unfold Document.encodeTyped
  refine bind (ofRes _) fun s => bind (declare _ _ _ _) fun k => bind (addName _ _ _) fun ck => bind (encodeProc _) fun r => ?_
  exact pure _
theorem encodeFeature (e : ElementData) (ctx : Option Nat) : OnlyDecls (Document.encodeFeature e ctx) := by
  unfold Document.encodeFeature
  split
  · refine bind (ofRes _) fun p => bind (ofRes _) fun t => bind (ofRes _) fun s => bind (declare _ _ _ _) fun k =>
      bind (addName _ _ _) fun ck => bind (addName _ _ _) fun r => pure _
  · exact err _
theorem encodeLink (enc : Document.Enc) : OnlyDecls (Document.encodeLink enc) := by
  unfold Document.encodeLink
  split
  · exact updDeclaration _ _
  · exact pure _
theorem encodeCore (e : ElementData) (ctx : Option Nat) : OnlyDecls (Document.encodeCore e ctx) := by
  unfold Document.encodeCore
  split
  · exact encodeTyped _ _
  · split
    · exact encodeFeature _ _
    · exact pure _
theorem encode (e : ElementData) (ctx : Option Nat) : OnlyDecls (Document.encode e ctx) := by
  unfold Document.encode
  split
  · exact bind (encodeCore _ _) fun enc => bind get fun d => bind (encodeLink _) fun _ => pure _
  · exact pure _
theorem addClass (k : Nat) (c : String) : OnlyDecls (Document.addClass k c) := by
  unfold Document.addClass
  refine bind (callDeclaration _ _) fun r => ?_
  split
  · exact ofRes _
  · exact err _
theorem addDeclaration (dec : Declaration) : OnlyDecls (Document.addDeclaration dec) := fun _ => ⟨rfl, rfl, rfl, rfl⟩

end OnlyDecls

/-- Encoding changes only the attributes of the element. -/
theorem encode_result (e : ElementData) (ctx : Option Nat) (d : Document) (e' : ElementData) (h : (Document.encode e ctx d).1 = .ok e') :
    e'.elementtype = e.elementtype ∧ e'.data = e.data ∧ e'.key = e.key ∧ e'.parent = e.parent := by
  unfold Document.encode at h
  split at h
  · rw [M.run_bind] at h
    rcases hm : Document.encodeCore e ctx d with ⟨_ | enc, d'⟩
    · rw [hm] at h; simp at h
    · rw [hm] at h
      simp only [M.run_bind, M.run_get] at h
      rcases hl : Document.encodeLink (Document.encodeExplicit d' e enc) d' with ⟨_ | _, d''⟩
      · rw [hl] at h; simp at h
      · rw [hl] at h
        simp only [M.run_pure] at h
        cases h
        exact ⟨rfl, rfl, rfl, rfl⟩
  · cases h; exact ⟨rfl, rfl, rfl, rfl⟩

/-- `addElem` is: encode, then store. -/
theorem addElem_eq (e : ElementData) (ctx : Option Nat) (d : Document) :
    Document.addElem e ctx d = match Document.encode e ctx d with
      | (.ok e', d') => ((d'.elements.add cap32 e').1, { d' with elements := (d'.elements.add cap32 e').2 })
      | (.error f, d') => (.error f, d') := by
  unfold Document.addElem
  by_cases h : e.encodable = true
  · simp only [h, if_true, M.run_bind]
    rcases Document.encode e ctx d with ⟨_ | e', d'⟩ <;> rfl
  · have : Document.encode e ctx d = (.ok e, d) := by simp [Document.encode, h]
    simp only [h, this]
    rfl

/-- What `addElem` does to the element store. -/
theorem addElem_elements (e : ElementData) (ctx : Option Nat) (d : Document) :
    SameButDecls { d with elements := (Document.addElem e ctx d).2.elements } (Document.addElem e ctx d).2 ∧
    ((∃ f, (Document.addElem e ctx d).1 = .error f ∧ (Document.addElem e ctx d).2.elements = d.elements) ∨
     ∃ e', e'.elementtype = e.elementtype ∧ e'.data = e.data ∧ e'.parent = e.parent ∧
      (Document.addElem e ctx d).1 = (d.elements.add cap32 e').1 ∧
      (Document.addElem e ctx d).2.elements = (d.elements.add cap32 e').2 ∧
      (Document.encode e ctx d).1 = .ok e') := by
  have hs := OnlyDecls.encode e ctx d
  have hr := encode_result e ctx d
  rw [addElem_eq]
  rcases henc : Document.encode e ctx d with ⟨f | e', d'⟩
  · rw [henc] at hs
    exact ⟨⟨rfl, hs.processors, hs.chain, hs.active⟩, Or.inl ⟨f, rfl, hs.elements⟩⟩
  · rw [henc] at hs hr
    obtain ⟨h1, h2, _, h4⟩ := hr e' rfl
    refine ⟨⟨rfl, hs.processors, hs.chain, hs.active⟩, Or.inr ⟨e', h1, h2, h4, ?_, ?_, rfl⟩⟩
    · have he := hs.elements; simp only at he ⊢; rw [he]
    · have he := hs.elements; simp only at he ⊢; rw [he]

/-! ### Soundness of the indices -/

/-- The indices of elements and processors refer to existing items. -/
structure IxOk (d : Document) : Prop where
  elems : ∀ id k, d.elements.index.find id = some k → d.Live k
  procs : ∀ id k, d.processors.index.find id = some k → d.ProcLive k

/-- Existing elements and processors stay. -/
structure LiveMono (d d' : Document) : Prop where
  types : ∀ k e, d.getElement k = some e → ∃ e', d'.getElement k = some e' ∧ e'.elementtype = e.elementtype
  procs : ∀ k, d.ProcLive k → d'.ProcLive k

theorem LiveMono.elems {d d' : Document} (h : LiveMono d d') (k : Nat) : d.Live k → d'.Live k := fun ⟨e, he⟩ =>
  let ⟨e', he', _⟩ := h.types k e he
  ⟨e', he'⟩
theorem LiveMono.refl (d : Document) : LiveMono d d := ⟨fun _ e h => ⟨e, h, rfl⟩, fun _ h => h⟩
theorem LiveMono.trans {a b c : Document} (h : LiveMono a b) (h' : LiveMono b c) : LiveMono a c :=
  ⟨fun k e hk => by
    obtain ⟨e1, h1, h2⟩ := h.types k e hk
    obtain ⟨e2, h3, h4⟩ := h'.types k e1 h1
    exact ⟨e2, h3, h4.trans h2⟩, fun k hk => h'.2 k (h.2 k hk)⟩

theorem Store.live_update {α : Type} (s : Store α) (k : Nat) (f : α → α) {j : Nat} (h : ∃ a, s.get j = some a) :
    ∃ a, (s.update k f).get j = some a := by
  obtain ⟨a, ha⟩ := h
  rw [Store.get_update]
  split
  · exact ⟨f a, by simp [ha]⟩
  · exact ⟨a, ha⟩

theorem Store.live_add {α : Type} [Storable α] (cap : Nat) (s : Store α) (a : α) {j : Nat} (h : ∃ a, s.get j = some a) :
    ∃ b, (s.add cap a).2.get j = some b := by
  obtain ⟨b, hb⟩ := h
  have := Store.get_lt hb
  rcases Store.add_spec cap s a with ⟨_, _, _, _, heq⟩ | ⟨heq, _⟩ | ⟨_, _, s', heq, _, hg, _⟩
  · rw [heq]; exact ⟨b, hb⟩
  · rw [heq]; exact ⟨b, hb⟩
  · rw [heq]; exact ⟨b, by rw [hg, if_neg (by omega)]; exact hb⟩

theorem Store.type_update (s : Store ElementData) (k : Nat) (f : ElementData → ElementData) (hf : ∀ e, (f e).elementtype = e.elementtype) {j : Nat} {a : ElementData}
    (h : s.get j = some a) : ∃ b, (s.update k f).get j = some b ∧ b.elementtype = a.elementtype := by
  rw [Store.get_update]
  split
  · exact ⟨f a, by simp [h], hf a⟩
  · exact ⟨a, h, rfl⟩

theorem Store.type_add (cap : Nat) (s : Store ElementData) (a : ElementData) {j : Nat} {b : ElementData} (hb : s.get j = some b) :
    ∃ b', (s.add cap a).2.get j = some b' ∧ b'.elementtype = b.elementtype := by
  have := Store.get_lt hb
  rcases Store.add_spec cap s a with ⟨_, _, _, _, heq⟩ | ⟨heq, _⟩ | ⟨_, _, s', heq, _, hg, _⟩
  · rw [heq]; exact ⟨b, hb, rfl⟩
  · rw [heq]; exact ⟨b, hb, rfl⟩
  · rw [heq]; exact ⟨b, by rw [hg, if_neg (by omega)]; exact hb, rfl⟩

theorem Store.sound_add {α : Type} [Storable α] (cap : Nat) (s : Store α) (a : α)
    (h : ∀ id k, s.index.find id = some k → ∃ b, s.get k = some b) :
    ∀ id k, (s.add cap a).2.index.find id = some k → ∃ b, (s.add cap a).2.get k = some b := by
  intro id k hk
  rcases Store.add_spec cap s a with ⟨_, _, _, _, heq⟩ | ⟨heq, _⟩ | ⟨_, _, s', heq, _, hg, hx⟩
  · rw [heq] at hk ⊢; exact h id k hk
  · rw [heq] at hk ⊢; exact h id k hk
  · rw [heq] at hk ⊢
    simp only [hx] at hk
    split at hk
    · cases hk; exact ⟨_, by rw [hg, if_pos rfl]⟩
    · obtain ⟨b, hb⟩ := h id k hk
      have := Store.get_lt hb
      exact ⟨b, by rw [hg, if_neg (by omega)]; exact hb⟩

theorem Store.live_of_add {α : Type} [Storable α] {cap : Nat} {s : Store α} {a : α}
    (h : ∀ id k, s.index.find id = some k → ∃ b, s.get k = some b) {k : Nat} (hk : (s.add cap a).1 = .ok k) :
    ∃ b, (s.add cap a).2.get k = some b := by
  rcases Store.add_spec cap s a with ⟨id, k', _, hf, heq⟩ | ⟨heq, _⟩ | ⟨_, _, s', heq, _, hg, hx⟩
  · rw [heq] at hk ⊢; cases hk; exact h id k hf
  · rw [heq] at hk; cases hk
  · rw [heq] at hk ⊢; cases hk; exact ⟨_, by rw [hg, if_pos rfl]⟩

theorem liveMono_of_elements {d d' : Document} (s : Store ElementData) (he : d'.elements = s) (hp : d'.processors = d.processors)
    (h : ∀ k a, d.elements.get k = some a → ∃ b, s.get k = some b ∧ b.elementtype = a.elementtype) : LiveMono d d' :=
  ⟨fun k e hk => by unfold Document.getElement; rw [he]; exact h k e hk,
   fun k hk => by unfold Document.ProcLive Document.getProcessor; rw [hp]; exact hk⟩

theorem liveMono_of_processors {d d' : Document} (s : Store Processor) (hp : d'.processors = s) (he : d'.elements = d.elements)
    (h : ∀ k, (∃ a, d.processors.get k = some a) → ∃ a, s.get k = some a) : LiveMono d d' :=
  ⟨fun k e hk => ⟨e, by unfold Document.getElement; rw [he]; exact hk, rfl⟩,
   fun k hk => by unfold Document.ProcLive Document.getProcessor; rw [hp]; exact h k hk⟩

theorem liveMono_of_same {d d' : Document} (he : d'.elements = d.elements) (hp : d'.processors = d.processors) : LiveMono d d' :=
  liveMono_of_elements d.elements he hp fun _ a h => ⟨a, h, rfl⟩

theorem Prim.liveMono {C : Prop} {d d' : Document} (h : Prim C d d') : LiveMono d d' := by
  cases h with
  | admin he _ hp _ _ => exact liveMono_of_same he hp
  | addDeclaration dec _ => exact liveMono_of_same rfl rfl
  | declare t s a f => exact liveMono_of_same (declare_elements ..).1 (declare_elements ..).2.1
  | addClass k c => have := OnlyDecls.addClass k c d; exact liveMono_of_same this.1 this.2
  | annotator k p _ => exact liveMono_of_same rfl rfl
  | addElem e ctx _ =>
    obtain ⟨hs, h⟩ := addElem_elements e ctx d
    refine liveMono_of_elements _ rfl hs.processors fun k a hk => ?_
    rcases h with ⟨f, _, he⟩ | ⟨e', _, _, _, _, he, _⟩
    · rw [he]; exact ⟨a, hk, rfl⟩
    · rw [he]; exact Store.type_add _ _ _ hk
  | setParent | orphan | pushElem | pushText | pushSpan | unlink | layer =>
    refine liveMono_of_elements _ rfl rfl fun k a hk => ?_
    refine Store.type_update _ _ _ ?_ hk
    intro e
    first | rfl | (unfold Document.unlink; split <;> rfl)
  | addProc p _ => exact liveMono_of_processors _ rfl rfl fun k hk => Store.live_add _ _ _ hk
  | chain | activate => exact liveMono_of_same rfl rfl
  | procParent | procPush => exact liveMono_of_processors _ rfl rfl fun k hk => Store.live_update _ _ _ hk

theorem Steps.liveMono {C : Prop} {d d' : Document} (h : Steps C d d') : LiveMono d d' :=
  Steps.lift LiveMono.refl LiveMono.trans Prim.liveMono h

theorem Prim.ixOk {C : Prop} {d d' : Document} (h : Prim C d d') (hi : IxOk d) : IxOk d' := by
  have hm := h.liveMono
  have same : d'.elements.index = d.elements.index → d'.processors.index = d.processors.index → IxOk d' := fun h1 h2 =>
    ⟨fun id k hk => hm.elems k (hi.1 id k (by rw [← h1]; exact hk)), fun id k hk => hm.2 k (hi.2 id k (by rw [← h2]; exact hk))⟩
  cases h with
  | admin he _ hp _ _ => exact same (by rw [he]) (by rw [hp])
  | addDeclaration dec _ => exact same rfl rfl
  | declare t s a f => exact same (by rw [(declare_elements ..).1]) (by rw [(declare_elements ..).2.1])
  | addClass k c => have := OnlyDecls.addClass k c d; exact same (by rw [this.1]) (by rw [this.2])
  | annotator k p _ => exact same rfl rfl
  | addElem e ctx _ =>
    obtain ⟨hs, h⟩ := addElem_elements e ctx d
    refine ⟨fun id k hk => ?_, fun id k hk => hm.2 k (hi.2 id k (by rw [hs.processors] at hk; exact hk))⟩
    rcases h with ⟨f, _, he⟩ | ⟨e', _, _, _, _, he, _⟩
    · rw [he] at hk; exact hm.elems k (hi.1 id k hk)
    · rw [he] at hk
      have := Store.sound_add cap32 d.elements e' hi.1 id k hk
      unfold Document.Live Document.getElement
      rw [he]; exact this
  | setParent | orphan | pushElem | pushText | pushSpan | unlink | layer => exact same (Store.update_index ..) rfl
  | addProc p _ =>
    refine ⟨fun id k hk => hm.elems k (hi.1 id k hk), fun id k hk => ?_⟩
    exact Store.sound_add cap16 d.processors p hi.2 id k hk
  | chain | activate => exact same rfl rfl
  | procParent | procPush => exact same rfl (Store.update_index ..)

theorem Steps.ixOk {C : Prop} {d d' : Document} (h : Steps C d d') (hi : IxOk d) : IxOk d' := Steps.inv Prim.ixOk h hi

end Folia
