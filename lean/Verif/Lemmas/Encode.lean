import Verif.Lemmas.ParseSteps
import Verif.Props.Stores
/-! What encoding does: declarations only grow, and the references put on the element resolve to what was asked for. -/
namespace Folia

/-- Decompose a successful sequence. -/
theorem bind_ok {σ α β : Type} {m : M σ α} {f : α → M σ β} {s s' : σ} {b : β} (h : (m >>= f) s = (.ok b, s')) :
    ∃ a s1, m s = (.ok a, s1) ∧ f a s1 = (.ok b, s') := by
  rw [M.run_bind] at h
  rcases hm : m s with ⟨e | a, s1⟩
  · rw [hm] at h; cases h
  · rw [hm] at h; exact ⟨a, s1, rfl, h⟩

/-! ### String stores -/

/-- An optional string store that, if present, is a proper interning table. -/
def StrOk (st : Option StringStore) : Prop := ∀ x, st = some x → ∃ l, x.Holds l

/-- Number of strings. -/
def optLen : Option StringStore → Nat
  | some x => x.items.length
  | none => 0

/-- Strings keep their keys. -/
structure OptGrows (st st' : Option StringStore) : Prop where
  get : ∀ k s, optGet st k = some s → optGet st' k = some s
  len : optLen st ≤ optLen st'

theorem OptGrows.refl (st : Option StringStore) : OptGrows st st := ⟨fun _ _ h => h, Nat.le_refl _⟩
theorem OptGrows.trans {a b c : Option StringStore} (h : OptGrows a b) (h' : OptGrows b c) : OptGrows a c :=
  ⟨fun k s hk => h'.get k s (h.get k s hk), Nat.le_trans h.len h'.len⟩

theorem StringStore.holds_empty : StringStore.Holds {} [] := ⟨List.nodup_nil, rfl, by simp [Index.find]⟩

theorem StringStore.Holds.get {s : StringStore} {l : List String} (h : s.Holds l) (k : Nat) : s.get k = l[k]? := by
  unfold StringStore.get
  rw [h.2.1]
  simp only [List.getElem?_map]
  cases l[k]? <;> rfl

theorem StringStore.add_get_old (cap : Nat) (s : StringStore) (x : String) {k : Nat} {y : String} (h : s.get k = some y) :
    (s.add cap x).2.get k = some y := by
  unfold StringStore.add
  split
  · exact h
  · split
    · unfold StringStore.get at h ⊢
      simp only
      have hlt : k < s.items.length := by
        rcases hk : s.items[k]? with _ | z
        · rw [hk] at h; cases h
        · exact (List.getElem?_eq_some_iff.mp hk).1
      rw [List.getElem?_append_left hlt]; exact h
    · exact h

theorem StringStore.add_len (cap : Nat) (s : StringStore) (x : String) : s.items.length ≤ (s.add cap x).2.items.length := by
  unfold StringStore.add
  split
  · exact Nat.le_refl _
  · split <;> simp

theorem optAdd_grows (cap : Nat) (st : Option StringStore) (s : String) : OptGrows st (optAdd cap st s).2 := by
  unfold optAdd
  cases st with
  | none =>
    refine ⟨?_, Nat.zero_le _⟩
    intro k s h; cases h
  | some x =>
    simp only
    split
    · exact OptGrows.refl _
    · exact ⟨fun k y hk => StringStore.add_get_old cap x s hk, StringStore.add_len cap x s⟩

theorem optAdd_spec (cap : Nat) (st : Option StringStore) (s : String) (h : StrOk st) :
    StrOk (optAdd cap st s).2 ∧ (∀ k, (optAdd cap st s).1 = .ok k → optGet (optAdd cap st s).2 k = some s) ∧
    ∀ f, (optAdd cap st s).1 = .error f → cap ≤ optLen st := by
  have key : ∀ x : StringStore, (∃ l, x.Holds l) → (∀ n, n = x.items.length → n = optLen st) →
      let r := (match x.getKey s with
        | some k => ((.ok k : Res Nat), some x)
        | none => match x.add cap s with
          | (r, st'') => (r, some st''))
      StrOk r.2 ∧ (∀ k, r.1 = .ok k → optGet r.2 k = some s) ∧ ∀ f, r.1 = .error f → cap ≤ optLen st := by
    rintro x ⟨l, hl⟩ hlen
    have hk : x.getKey s = if s ∈ l then some (l.idxOf s) else none := hl.2.2 s
    by_cases hs : s ∈ l
    · simp only [hk, hs, if_true]
      refine ⟨?_, ?_, nofun⟩
      · rintro _ ⟨⟩; exact ⟨l, hl⟩
      · rintro k ⟨⟩
        show x.get _ = _
        rw [hl.get, List.getElem?_eq_getElem (List.idxOf_lt_length_iff.mpr hs), List.getElem_idxOf]
    · simp only [hk, hs, if_false]
      rcases hl.add cap s with ⟨h1, _⟩ | ⟨_, h1, h2, h3⟩ | ⟨_, h1, h2⟩
      · exact absurd h1 hs
      · rcases hadd : x.add cap s with ⟨r, x'⟩
        rw [hadd] at h2 h3
        simp only at h2 h3 ⊢
        subst h2
        refine ⟨?_, ?_, nofun⟩
        · rintro _ ⟨⟩; exact ⟨_, h3⟩
        · rintro k ⟨⟩
          show x'.get _ = _
          rw [h3.get]; simp
      · rw [h2]
        simp only
        refine ⟨?_, nofun, ?_⟩
        · rintro _ ⟨⟩; exact ⟨l, hl⟩
        · intro f _
          rw [← hlen _ rfl, hl.2.1, List.length_map]; exact h1
  unfold optAdd
  cases st with
  | none => exact key {} ⟨[], StringStore.holds_empty⟩ (fun n hn => by rw [hn]; rfl)
  | some x => exact key x (h x rfl) (fun n hn => hn)

/-! ### Declarations -/

/-- A declaration keeps everything it had. -/
structure DeclGrows (a b : Declaration) : Prop where
  key : b.key = a.key
  type : b.annotationtype = a.annotationtype
  set : b.set = a.set
  alias : b.alias = a.alias
  format : b.format = a.format
  processors : a.processors <+: b.processors
  classes : OptGrows a.classes b.classes
  subsets : OptGrows a.subsets b.subsets
  subclasses : OptGrows a.subclasses b.subclasses

theorem DeclGrows.refl (a : Declaration) : DeclGrows a a :=
  ⟨rfl, rfl, rfl, rfl, rfl, List.prefix_refl _, .refl _, .refl _, .refl _⟩
theorem DeclGrows.trans {a b c : Declaration} (h : DeclGrows a b) (h' : DeclGrows b c) : DeclGrows a c :=
  ⟨h'.key.trans h.key, h'.type.trans h.type, h'.set.trans h.set, h'.alias.trans h.alias, h'.format.trans h.format,
    h.processors.trans h'.processors, h.classes.trans h'.classes, h.subsets.trans h'.subsets, h.subclasses.trans h'.subclasses⟩

theorem DeclGrows.linkProcessor (p : Nat) (a : Declaration) : DeclGrows a (Document.linkProcessor p a) := by
  unfold Document.linkProcessor
  split
  · exact .refl a
  · exact ⟨rfl, rfl, rfl, rfl, rfl, List.prefix_append _ _, .refl _, .refl _, .refl _⟩

/-- Declarations stay and keep everything they had. -/
def DeclMono (d d' : Document) : Prop :=
  ∀ k dec, d.getDeclaration k = some dec → ∃ dec', d'.getDeclaration k = some dec' ∧ DeclGrows dec dec'

theorem DeclMono.refl (d : Document) : DeclMono d d := fun _ dec h => ⟨dec, h, .refl _⟩
theorem DeclMono.trans {a b c : Document} (h : DeclMono a b) (h' : DeclMono b c) : DeclMono a c := by
  intro k dec hd
  obtain ⟨dec', h1, h2⟩ := h k dec hd
  obtain ⟨dec'', h3, h4⟩ := h' k dec' h1
  exact ⟨dec'', h3, h2.trans h4⟩

theorem DeclMono.of_eq {d d' : Document} (h : d'.declarations = d.declarations) : DeclMono d d' := by
  intro k dec hd
  exact ⟨dec, by unfold Document.getDeclaration; rw [h]; exact hd, .refl _⟩

theorem DeclMono.update (d : Document) (k : Nat) (f : Declaration → Declaration)
    (hf : ∀ a, d.getDeclaration k = some a → DeclGrows a (f a)) : DeclMono d { d with declarations := d.declarations.update k f } := by
  intro j dec hd
  unfold Document.getDeclaration at hd ⊢
  simp only [Store.get_update]
  split
  · rename_i hj; subst hj
    exact ⟨f dec, by simp [hd], hf dec hd⟩
  · exact ⟨dec, hd, .refl _⟩

theorem DeclMono.add (d : Document) (dec : Declaration) : DeclMono d { d with declarations := (d.declarations.add cap16 dec).2 } := by
  intro j a ha
  have := Store.get_lt ha
  unfold Document.getDeclaration at ha ⊢
  rcases Store.add_spec cap16 d.declarations dec with ⟨_, _, _, _, heq⟩ | ⟨heq, _⟩ | ⟨_, _, s', heq, _, hg, _⟩
  · rw [heq]; exact ⟨a, ha, .refl _⟩
  · rw [heq]; exact ⟨a, ha, .refl _⟩
  · rw [heq]; exact ⟨a, by simp only; rw [hg, if_neg (by omega)]; exact ha, .refl _⟩

/-- A declaration whose string stores are proper and whose processors exist. -/
structure DeclOk (d : Document) (dec : Declaration) : Prop where
  classes : StrOk dec.classes
  subsets : StrOk dec.subsets
  subclasses : StrOk dec.subclasses
  procs : ∀ p ∈ dec.processors, d.ProcLive p

/-- The invariant of the declarations. -/
structure DInv (d : Document) : Prop where
  exact : DeclsExact d
  ok : ∀ k dec, d.getDeclaration k = some dec → DeclOk d dec
  active : ∀ p, d.activeProcessor = some p → d.ProcLive p
  procs : ∀ id p, d.processors.index.find id = some p → d.ProcLive p

theorem DeclOk.congr {d d' : Document} {dec : Declaration} (hd : DeclOk d dec) (h : d'.processors = d.processors) : DeclOk d' dec :=
  ⟨hd.1, hd.2, hd.3, fun p hp => by unfold Document.ProcLive Document.getProcessor; rw [h]; exact hd.4 p hp⟩

theorem DInv.update {d : Document} (h : DInv d) (k : Nat) (f : Declaration → Declaration)
    (hg : ∀ a, d.getDeclaration k = some a → DeclGrows a (f a)) (hf : ∀ a, d.getDeclaration k = some a → DeclOk d (f a)) :
    DInv { d with declarations := d.declarations.update k f } := by
  refine ⟨?_, ?_, h.active, h.procs⟩
  · refine Store.Exact.update h.exact k f ?_ ?_
    · intro a ha
      show some (Declaration.indexId _ _) = some (Declaration.indexId _ _)
      rw [(hg a ha).type, (hg a ha).set]
    · intro a ha; exact (hg a ha).key
  · intro j dec hd
    unfold Document.getDeclaration at hd
    simp only [Store.get_update] at hd
    split at hd
    · rename_i hj; subst hj
      cases hb : d.declarations.get j with
      | none => simp [hb] at hd
      | some b =>
        simp only [hb, Option.map_some, Option.some.injEq] at hd
        subst hd
        exact (hf b hb).congr (by rfl)
    · exact (h.ok j dec hd).congr (by rfl)

theorem declOk_blank {d : Document} {dec : Declaration} (h : dec.Blank) : DeclOk d dec := by
  obtain ⟨h1, h2, h3, h4⟩ := h
  refine ⟨?_, ?_, ?_, ?_⟩
  · rw [h2]; nofun
  · rw [h3]; nofun
  · rw [h4]; nofun
  · rw [h1]; simp

theorem DInv.add {d : Document} (h : DInv d) {dec : Declaration} (hb : dec.Blank) :
    DInv { d with declarations := (d.declarations.add cap16 dec).2 } := by
  refine ⟨Store.Exact.add h.exact cap16 dec (fun _ _ => rfl) (fun _ _ => rfl), ?_, h.active, h.procs⟩
  intro j a ha
  unfold Document.getDeclaration at ha
  rcases Store.add_spec cap16 d.declarations dec with ⟨_, _, _, _, heq⟩ | ⟨heq, _⟩ | ⟨_, _, s', heq, _, hg, _⟩
  · rw [heq] at ha; exact (h.ok j a ha).congr (by rfl)
  · rw [heq] at ha; exact (h.ok j a ha).congr (by rfl)
  · rw [heq] at ha
    simp only [hg] at ha
    split at ha
    · cases ha
      exact declOk_blank (d := { d with declarations := (d.declarations.add cap16 dec).2 }) (dec := Storable.assignKey dec _) hb
    · exact (h.ok j a ha).congr (by rfl)

theorem DInv.linkActive {d : Document} (h : DInv d) (k : Nat) : DInv (linkActive k d) ∧ DeclMono d (linkActive k d) := by
  unfold Folia.linkActive
  split
  · rename_i p hp
    refine ⟨h.update k _ (fun a _ => .linkProcessor p a) ?_, .update d k _ fun a _ => .linkProcessor p a⟩
    intro a ha
    have hok := h.ok k a ha
    unfold Document.linkProcessor
    split
    · exact hok
    · refine ⟨hok.1, hok.2, hok.3, ?_⟩
      intro q hq
      simp only [List.mem_append, List.mem_singleton] at hq
      rcases hq with hq | rfl
      · exact hok.4 q hq
      · exact h.active _ hp
  · exact ⟨h, .refl d⟩

/-! ### Methods that change declarations only -/

/-- The relation between the states before and after. -/
structure DGrow (d d' : Document) : Prop where
  decls : DeclMono d d'
  same : SameButDecls d d'

theorem DGrow.refl (d : Document) : DGrow d d := ⟨.refl d, .refl d⟩
theorem DGrow.trans {a b c : Document} (h : DGrow a b) (h' : DGrow b c) : DGrow a c := ⟨h.1.trans h'.1, h.2.trans h'.2⟩

/-- From a state satisfying `P`: preserves the invariant, only grows declarations and, on success, establishes `Q`. -/
def DDoes {α : Type} (P : Document → Prop) (m : M Document α) (Q : α → Document → Prop) : Prop :=
  ∀ d, DInv d → P d → DInv (m d).2 ∧ DGrow d (m d).2 ∧ ∀ a, (m d).1 = .ok a → Q a (m d).2

/-- Facts that survive the growth of declarations. -/
def DStable (K : Document → Prop) : Prop := ∀ d d', DGrow d d' → K d → K d'

theorem DStable.procLive (k : Nat) : DStable (·.ProcLive k) := by
  intro d d' h hk
  unfold Document.ProcLive Document.getProcessor
  rw [h.same.processors]; exact hk

theorem DStable.decl {k : Nat} {φ : Declaration → Prop} (h : ∀ a b, DeclGrows a b → φ a → φ b) :
    DStable fun d => ∃ dec, d.getDeclaration k = some dec ∧ φ dec := by
  rintro d d' hg ⟨dec, h1, h2⟩
  obtain ⟨dec', h3, h4⟩ := hg.decls k dec h1
  exact ⟨dec', h3, h _ _ h4 h2⟩

theorem DStable.and {K L : Document → Prop} (h : DStable K) (h' : DStable L) : DStable fun d => K d ∧ L d :=
  fun d d' hg hk => ⟨h d d' hg hk.1, h' d d' hg hk.2⟩
theorem DStable.const (p : Prop) : DStable fun _ => p := fun _ _ _ h => h

namespace DDoes
variable {α β : Type} {P : Document → Prop} {Q : α → Document → Prop} {R : β → Document → Prop}

theorem weaken {P' : Document → Prop} {Q' : α → Document → Prop} {m : M Document α} (h : DDoes P m Q) (hp : ∀ d, P' d → P d)
    (hq : ∀ a d, Q a d → Q' a d) : DDoes P' m Q' :=
  fun d hi hd => ⟨(h d hi (hp d hd)).1, (h d hi (hp d hd)).2.1, fun a ha => hq a _ ((h d hi (hp d hd)).2.2 a ha)⟩
theorem pre {P' : Document → Prop} {m : M Document α} (h : DDoes P m Q) (hp : ∀ d, P' d → P d) : DDoes P' m Q := h.weaken hp fun _ _ h => h
theorem post {Q' : α → Document → Prop} {m : M Document α} (h : DDoes P m Q) (hq : ∀ a d, Q a d → Q' a d) : DDoes P m Q' :=
  h.weaken (fun _ h => h) hq

theorem bind {m : M Document α} {f : α → M Document β} (h : DDoes P m Q) (h' : ∀ a, DDoes (Q a) (f a) R) : DDoes P (m >>= f) R := by
  intro d hi hd
  obtain ⟨h1, h2, h3⟩ := h d hi hd
  rw [M.run_bind]
  rcases hm : m d with ⟨e | a, d'⟩
  · rw [hm] at h1 h2; exact ⟨h1, h2, nofun⟩
  · rw [hm] at h1 h2 h3
    obtain ⟨h4, h5, h6⟩ := h' a d' h1 (h3 a rfl)
    exact ⟨h4, h2.trans h5, h6⟩

theorem frame {K : Document → Prop} (hK : DStable K) {m : M Document α} (h : DDoes P m Q) :
    DDoes (fun d => P d ∧ K d) m fun a d => Q a d ∧ K d :=
  fun d hi hd => ⟨(h d hi hd.1).1, (h d hi hd.1).2.1, fun a ha => ⟨(h d hi hd.1).2.2 a ha, hK _ _ (h d hi hd.1).2.1 hd.2⟩⟩

/-- Run a method without precondition while keeping a stable fact. -/
theorem keep {K : Document → Prop} (hK : DStable K) {m : M Document α} (h : DDoes (fun _ => True) m Q) :
    DDoes K m fun a d => Q a d ∧ K d := (h.frame hK).pre fun _ h => ⟨trivial, h⟩

theorem pure {a : α} (h : ∀ d, P d → Q a d) : DDoes P (pure a : M Document α) Q :=
  fun d hi hd => ⟨hi, .refl d, fun b hb => by cases hb; exact h d hd⟩
theorem err (e : ErrKind) : DDoes P (M.err e : M Document α) Q := fun d hi _ => ⟨hi, .refl d, nofun⟩
theorem ofRes (f : Document → Res α) : DDoes P (M.ofRes f) fun a d => f d = .ok a ∧ P d := fun d hi hd => ⟨hi, .refl d, fun _ ha => ⟨ha, hd⟩⟩
theorem get : DDoes P M.get fun a d => a = d ∧ P d := fun d hi hd => ⟨hi, .refl d, fun a ha => by cases ha; exact ⟨rfl, hd⟩⟩
theorem pull {m : M Document α} {p : Prop} (hp : ∀ d, P d → p) (h : p → DDoes P m Q) : DDoes P m Q := fun d hi hd => h (hp d hd) d hi hd

end DDoes

open Document

/-- The declaration `k` exists, with this type and, if a set was asked for, this set. -/
def Declared (k : Nat) (t : AnnotationType) (s : Option String) (d : Document) : Prop :=
  ∃ dec, d.getDeclaration k = some dec ∧ (dec.annotationtype = t ∧ (s ≠ none → dec.set = s))

theorem Declared.stable (k : Nat) (t : AnnotationType) (s : Option String) : DStable (Declared k t s) :=
  DStable.decl fun _ _ hg h => ⟨hg.type.trans h.1, fun hn => hg.set.trans (h.2 hn)⟩

theorem ddoes_declare (t : AnnotationType) (s a f : Option String) :
    DDoes (fun _ => True) (declare t s a f) fun k d => Declared k t s d := by
  intro d hd _
  have hsame := OnlyDecls.declare t s a f d
  rcases declare_cases d t s a f with ⟨k, hk, heq⟩ | ⟨_, ⟨k, hk, heq⟩ | ⟨_, hm⟩⟩
  · rw [heq]
    refine ⟨hd, .refl d, ?_⟩
    rintro _ ⟨⟩
    obtain ⟨dec, h1, h2, h3⟩ := (declarationKeyById_iff hd.exact t s k).mp hk
    exact ⟨dec, h1, h2, fun _ => h3⟩
  · rw [heq] at hsame ⊢
    refine ⟨(hd.linkActive k).1, ⟨(hd.linkActive k).2, hsame⟩, ?_⟩
    rintro _ ⟨⟩
    obtain ⟨⟨⟨dec, h1, h2⟩, _⟩, hs⟩ := declareDefault_some hk
    have hg : d.getDeclaration k = some dec := Store.get_eq_some.mpr h1
    obtain ⟨dec', h3, h4⟩ := (hd.linkActive k).2 k dec hg
    refine ⟨dec', h3, h4.type.trans h2, fun hne => ?_⟩
    rcases hs with hs | ⟨dec2, hs1, hs2⟩
    · exact absurd hs hne
    · rw [hg] at hs1; cases hs1; exact h4.set.trans hs2
  · have hi := hd.add (dec := Declaration.new t s a f) ⟨rfl, rfl, rfl, rfl⟩
    have hg := DeclMono.add d (Declaration.new t s a f)
    have hgk := fun k => Store.Exact.add_get hd.exact cap16 (Declaration.new t s a f) (fun _ _ => rfl) (k := k)
    rcases hadd : d.declarations.add cap16 (Declaration.new t s a f) with ⟨r, st⟩
    rw [hadd] at hm hi hg hgk
    cases r with
    | ok k =>
      simp only at hm
      rw [hm] at hsame ⊢
      refine ⟨(hi.linkActive k).1, ⟨hg.trans (hi.linkActive k).2, hsame⟩, ?_⟩
      rintro _ ⟨⟩
      obtain ⟨b, hb, hb'⟩ := hgk k rfl
      obtain ⟨dec', h3, h4⟩ := (hi.linkActive k).2 k b hb
      have := Declaration.indexId_inj (Option.some.inj hb')
      exact ⟨dec', h3, h4.type.trans this.1, fun _ => h4.set.trans this.2⟩
    | error e => simp only at hm; rw [hm] at hsame ⊢; exact ⟨hi, ⟨hg, hsame⟩, nofun⟩

/-- A method on a declaration that adds a string to one of its stores. -/
structure Adder (cap : Nat) (look : Declaration → Option StringStore) (f : String → Declaration → Res Nat × Declaration) : Prop where
  grows : ∀ s dec, DeclGrows dec (f s dec).2
  mono : ∀ a b, DeclGrows a b → OptGrows (look a) (look b)
  ok : ∀ s dec d, DeclOk d dec → DeclOk d (f s dec).2
  found : ∀ s dec d k, DeclOk d dec → (f s dec).1 = .ok k → optGet (look (f s dec).2) k = some s
  full : ∀ s dec d e, DeclOk d dec → (f s dec).1 = .error e → cap ≤ optLen (look (f s dec).2)

theorem adder_class : Adder cap32 Declaration.classes fun c dec => dec.addClass c := by
  refine ⟨fun s dec => ?_, fun _ _ h => h.classes, fun s dec d h => ?_, fun s dec d k h hk => ?_, fun s dec d e h he => ?_⟩
  · exact ⟨rfl, rfl, rfl, rfl, rfl, List.prefix_refl _, optAdd_grows _ _ _, .refl _, .refl _⟩
  · exact ⟨(optAdd_spec _ _ _ h.1).1, h.2, h.3, h.4⟩
  · exact (optAdd_spec _ _ _ h.1).2.1 k hk
  · exact Nat.le_trans ((optAdd_spec _ _ _ h.1).2.2 e he) (optAdd_grows _ _ _).len

theorem adder_subset : Adder cap16 Declaration.subsets fun c dec => dec.addSubset c := by
  refine ⟨fun s dec => ?_, fun _ _ h => h.subsets, fun s dec d h => ?_, fun s dec d k h hk => ?_, fun s dec d e h he => ?_⟩
  · exact ⟨rfl, rfl, rfl, rfl, rfl, List.prefix_refl _, .refl _, optAdd_grows _ _ _, .refl _⟩
  · exact ⟨h.1, (optAdd_spec _ _ _ h.2).1, h.3, h.4⟩
  · exact (optAdd_spec _ _ _ h.2).2.1 k hk
  · exact Nat.le_trans ((optAdd_spec _ _ _ h.2).2.2 e he) (optAdd_grows _ _ _).len

theorem adder_subclass : Adder cap32 Declaration.subclasses fun c dec => dec.addSubclass c := by
  refine ⟨fun s dec => ?_, fun _ _ h => h.subclasses, fun s dec d h => ?_, fun s dec d k h hk => ?_, fun s dec d e h he => ?_⟩
  · exact ⟨rfl, rfl, rfl, rfl, rfl, List.prefix_refl _, .refl _, .refl _, optAdd_grows _ _ _⟩
  · exact ⟨h.1, h.2, (optAdd_spec _ _ _ h.3).1, h.4⟩
  · exact (optAdd_spec _ _ _ h.3).2.1 k hk
  · exact Nat.le_trans ((optAdd_spec _ _ _ h.3).2.2 e he) (optAdd_grows _ _ _).len

/-- The outcome of adding an optional name: a key under which the name is found, or nothing because there was no name or no room. -/
def NameOk (cap : Nat) (st : Option StringStore) (name : Res (Option String)) (r : Option Nat) : Prop :=
  (∀ ck, r = some ck → ∃ c, name = .ok (some c) ∧ optGet st ck = some c) ∧
  (r = none → ∀ c, name = .ok (some c) → cap ≤ optLen st)

theorem NameOk.grows {cap : Nat} {st st' : Option StringStore} {name : Res (Option String)} {r : Option Nat} (h : NameOk cap st name r)
    (hg : OptGrows st st') : NameOk cap st' name r :=
  ⟨fun ck hck => (h.1 ck hck).imp fun _ hc => ⟨hc.1, hg.get _ _ hc.2⟩, fun hr c hc => Nat.le_trans (h.2 hr c hc) hg.len⟩

/-- The declaration `k` exists and the name was added to it. -/
def Named (cap : Nat) (look : Declaration → Option StringStore) (k : Nat) (name : Res (Option String)) (r : Option Nat) (d : Document) : Prop :=
  ∃ dec, d.getDeclaration k = some dec ∧ NameOk cap (look dec) name r

theorem Named.stable {cap : Nat} {look : Declaration → Option StringStore} {f : String → Declaration → Res Nat × Declaration}
    (ha : Adder cap look f) (k : Nat) (name : Res (Option String)) (r : Option Nat) : DStable (Named cap look k name r) :=
  DStable.decl fun a b hg h => h.grows (ha.mono a b hg)

theorem ddoes_addName {cap : Nat} {look : Declaration → Option StringStore} {f : String → Declaration → Res Nat × Declaration}
    (ha : Adder cap look f) (k : Nat) (name : Res (Option String)) :
    DDoes (fun d => ∃ dec, d.getDeclaration k = some dec) (addName k name f) fun r d => Named cap look k name r d := by
  rintro d hd ⟨dec, hk⟩
  unfold addName
  have triv : (∀ c, name ≠ .ok (some c)) → Named cap look k name none d := fun h => ⟨dec, hk, nofun, fun _ c hc => absurd hc (h c)⟩
  cases name with
  | error e => exact ⟨hd, .refl d, fun r hr => by cases hr; exact triv nofun⟩
  | ok o =>
    cases o with
    | none => exact ⟨hd, .refl d, fun r hr => by cases hr; exact triv nofun⟩
    | some c =>
      have hok := hd.ok k dec hk
      have hm : callDeclaration k (f c) d =
          (.ok (some (f c dec).1), { d with declarations := d.declarations.update k fun _ => (f c dec).2 }) := by
        unfold callDeclaration; rw [hk]
      have h1 : DInv { d with declarations := d.declarations.update k fun _ => (f c dec).2 } := by
        refine hd.update k _ ?_ ?_
        · intro a ha'; rw [hk] at ha'; cases ha'; exact ha.grows c dec
        · intro a ha'; rw [hk] at ha'; cases ha'; exact ha.ok c dec d hok
      have h2 : DGrow d { d with declarations := d.declarations.update k fun _ => (f c dec).2 } := by
        refine ⟨DeclMono.update d k _ ?_, rfl, rfl, rfl, rfl⟩
        intro a ha'; rw [hk] at ha'; cases ha'; exact ha.grows c dec
      have h3 : Document.getDeclaration { d with declarations := d.declarations.update k fun _ => (f c dec).2 } k = some (f c dec).2 := by
        unfold getDeclaration at hk ⊢
        simp [hk]
      simp only [M.run_bind, hm]
      rcases hf : (f c dec).1 with e | ck
      · refine ⟨h1, h2, fun r hr => ?_⟩
        cases hr
        exact ⟨_, h3, nofun, fun _ _ _ => ha.full c dec d e hok hf⟩
      · refine ⟨h1, h2, fun r hr => ?_⟩
        cases hr
        exact ⟨_, h3, (by rintro _ ⟨⟩; exact ⟨c, rfl, ha.found c dec d ck hok hf⟩), nofun⟩

/-- The processor is listed in the declaration. -/
def DeclLists (k p : Nat) (d : Document) : Prop := ∃ dec, d.getDeclaration k = some dec ∧ p ∈ dec.processors

theorem DeclLists.stable (k p : Nat) : DStable (DeclLists k p) := by
  rintro d d' hg ⟨dec, h1, h2⟩
  obtain ⟨dec', h3, h4⟩ := hg.decls k dec h1
  exact ⟨dec', h3, h4.processors.mem h2⟩

theorem ddoes_encodeProc (k : Nat) : DDoes (fun _ => True) (encodeProc k) fun r d =>
    ∀ p, r.1 = some p → d.ProcLive p ∧ (r.2 = false → DeclLists k p d) := by
  intro d hd _
  unfold encodeProc
  simp only [M.run_bind, M.run_get]
  cases hk : d.getDeclaration k with
  | none => exact ⟨hd, .refl d, fun r hr => by cases hr; exact nofun⟩
  | some dec =>
    simp only
    cases hdp : dec.defaultProcessor with
    | some p =>
      refine ⟨hd, .refl d, fun r hr => ?_⟩
      cases hr
      rintro _ ⟨⟩
      have hm : p ∈ dec.processors := by
        unfold Declaration.defaultProcessor at hdp
        split at hdp
        · rename_i q hq; cases hdp; rw [hq]; simp
        · cases hdp
      exact ⟨(hd.ok k dec hk).procs p hm, fun _ => ⟨dec, hk, hm⟩⟩
    | none =>
      simp only
      cases hap : d.activeProcessor with
      | none => exact ⟨hd, .refl d, fun r hr => by cases hr; exact nofun⟩
      | some p => exact ⟨hd, .refl d, fun r hr => by cases hr; rintro _ ⟨⟩; exact ⟨hd.active p hap, fun h => ⟨dec, hk, by simpa using h⟩⟩⟩

/-- What the references computed by `encode` mean for an element with an annotation type. -/
structure TypedOk (e : ElementData) (t : AnnotationType) (enc : Enc) (d : Document) : Prop where
  dec : ∃ k s, enc.dec = some k ∧ e.set = .ok s ∧ Declared k t s d ∧ Named cap32 Declaration.classes k e.cls enc.cls d
  subset : enc.subset = none

theorem unwrapRes_ok {α : Type} {r : Res α} {a : α} (h : unwrapRes r = .ok a) : r = .ok a := by
  unfold unwrapRes at h
  split at h
  · cases h
  · exact h

theorem ddoes_encodeTyped (e : ElementData) (t : AnnotationType) : DDoes (fun _ => True) (encodeTyped e t) fun enc d =>
    TypedOk e t enc d ∧ ∀ p, enc.proc = some p → d.ProcLive p ∧ (enc.test = false → ∀ k, enc.dec = some k → DeclLists k p d) := by
  unfold encodeTyped
  refine DDoes.bind (DDoes.ofRes _) fun s => DDoes.pull (fun d hd => unwrapRes_ok hd.1) fun hs => ?_
  refine DDoes.bind ((ddoes_declare t s none none).pre fun _ _ => trivial) fun k => ?_
  refine DDoes.bind (Q := fun ck d => Named cap32 Declaration.classes k e.cls ck d ∧ Declared k t s d)
    (((ddoes_addName adder_class k e.cls).frame (Declared.stable k t s)).pre fun d hd => ⟨hd.imp fun _ h => h.1, hd⟩) fun ck => ?_
  refine DDoes.bind (DDoes.keep ((Named.stable adder_class k e.cls ck).and (Declared.stable k t s)) (ddoes_encodeProc k)) fun r => ?_
  exact DDoes.pure fun d hd => ⟨⟨⟨k, s, rfl, hs, hd.2.2, hd.2.1⟩, rfl⟩, fun p hp => ⟨(hd.1 p hp).1, fun ht _ hk => (by cases hk; exact (hd.1 p hp).2 ht)⟩⟩

/-- What the references computed by `encode` mean for a feature below an element of annotation type `t`. -/
structure FeatureOk (e : ElementData) (t : AnnotationType) (enc : Enc) (d : Document) : Prop where
  dec : ∃ k s, enc.dec = some k ∧ e.set = .ok s ∧ Declared k t s d ∧ Named cap32 Declaration.subclasses k e.cls enc.cls d ∧
    Named cap16 Declaration.subsets k e.subset enc.subset d

theorem ddoes_encodeFeature (e : ElementData) (ctx : Option Nat) : DDoes (fun _ => True) (encodeFeature e ctx) fun enc d =>
    (∃ pk parent t, ctx = some pk ∧ d.getElement pk = some parent ∧ parent.elementtype.annotationtype = some t ∧ FeatureOk e t enc d) ∧
    ∀ p, enc.proc = some p → d.ProcLive p := by
  unfold encodeFeature
  cases ctx with
  | none => exact DDoes.err _
  | some pk =>
    refine DDoes.bind (DDoes.ofRes _) fun parent => ?_
    have hstab : DStable fun d => d.getElement pk = some parent := by
      intro d d' hg h
      unfold getElement; rw [hg.same.elements]; exact h
    refine DDoes.pre (P := fun d => d.getElement pk = some parent) ?_ ?_
    · refine DDoes.bind (DDoes.ofRes _) fun t => DDoes.pull (p := parent.elementtype.annotationtype = some t) ?_ fun ht => ?_
      · intro d hd
        have := hd.1
        unfold expect at this
        split at this
        · rename_i t' ht'; cases this; exact ht'
        · cases this
      refine DDoes.bind (DDoes.ofRes _) fun s => DDoes.pull (fun d hd => unwrapRes_ok hd.1) fun hs => ?_
      refine DDoes.bind ((DDoes.keep hstab (ddoes_declare t s none none)).pre fun d hd => hd.2.2) fun k => ?_
      refine DDoes.bind (((ddoes_addName adder_subclass k e.cls).frame ((Declared.stable k t s).and hstab)).pre
        fun d hd => ⟨hd.1.imp fun _ h => h.1, hd⟩) fun ck => ?_
      refine DDoes.bind (((ddoes_addName adder_subset k e.subset).frame ((Named.stable adder_subclass k e.cls ck).and
        ((Declared.stable k t s).and hstab))).pre fun d hd => ⟨hd.1.imp fun _ h => h.1, hd⟩) fun sk => ?_
      exact DDoes.pure fun d hd => ⟨⟨pk, parent, t, rfl, hd.2.2.2, ht, ⟨⟨k, s, rfl, hs, hd.2.2.1, hd.2.1, hd.1⟩⟩⟩, nofun⟩
    · intro d hd
      have := hd.1
      unfold okOr at this
      split at this
      · rename_i a ha; cases this; exact ha
      · cases this

/-- What the references computed by `encode` mean, by the kind of element. -/
def CoreOk (e : ElementData) (ctx : Option Nat) (enc : Enc) (d : Document) : Prop :=
  match e.elementtype.annotationtype with
  | some t => TypedOk e t enc d
  | none =>
    if e.elementtype = .feature then
      ∃ pk parent t, ctx = some pk ∧ d.getElement pk = some parent ∧ parent.elementtype.annotationtype = some t ∧ FeatureOk e t enc d
    else enc.dec = none ∧ enc.cls = none ∧ enc.subset = none

theorem encodeFeature_proc {e : ElementData} {ctx : Option Nat} {enc : Enc} {d d' : Document} (h : encodeFeature e ctx d = (.ok enc, d')) :
    enc.proc = none := by
  unfold encodeFeature at h
  cases ctx with
  | none => cases h
  | some pk =>
    obtain ⟨_, _, _, h⟩ := bind_ok h
    obtain ⟨_, _, _, h⟩ := bind_ok h
    obtain ⟨_, _, _, h⟩ := bind_ok h
    obtain ⟨_, _, _, h⟩ := bind_ok h
    obtain ⟨_, _, _, h⟩ := bind_ok h
    obtain ⟨_, _, _, h⟩ := bind_ok h
    cases h; rfl

theorem ddoes_encodeCore (e : ElementData) (ctx : Option Nat) : DDoes (fun _ => True) (encodeCore e ctx) fun enc d =>
    CoreOk e ctx enc d ∧ (∀ p, enc.proc = some p → d.ProcLive p ∧ (enc.test = false → ∀ k, enc.dec = some k → DeclLists k p d)) ∧ (e.elementtype.annotationtype = none → enc.proc = none) := by
  unfold encodeCore CoreOk
  cases e.elementtype.annotationtype with
  | some t => exact (ddoes_encodeTyped e t).post fun _ _ h => ⟨h.1, h.2, nofun⟩
  | none =>
    simp only
    split
    · intro d hd hp
      obtain ⟨h1, h2, h3⟩ := ddoes_encodeFeature e ctx d hd hp
      refine ⟨h1, h2, fun enc he => ?_⟩
      have hn := encodeFeature_proc (Prod.ext he rfl)
      exact ⟨(h3 enc he).1, fun p hp => (by rw [hn] at hp; cases hp), fun _ => hn⟩
    · exact DDoes.pure fun d _ => ⟨⟨rfl, rfl, rfl⟩, nofun, fun _ => rfl⟩

theorem CoreOk.stable (e : ElementData) (ctx : Option Nat) (enc : Enc) : DStable (CoreOk e ctx enc) := by
  intro d d' hg h
  unfold CoreOk at h ⊢
  split
  · rename_i t ht
    rw [ht] at h
    obtain ⟨⟨k, s, h1, h2, h3, h4⟩, h5⟩ := h
    exact ⟨⟨k, s, h1, h2, Declared.stable _ _ _ _ _ hg h3, Named.stable adder_class _ _ _ _ _ hg h4⟩, h5⟩
  · rename_i ht
    rw [ht] at h
    simp only at h
    split
    · rename_i hf
      rw [if_pos hf] at h
      obtain ⟨pk, parent, t, h1, h2, h3, ⟨k, s, h4, h5, h6, h7, h8⟩⟩ := h
      refine ⟨pk, parent, t, h1, ?_, h3, ⟨k, s, h4, h5, Declared.stable _ _ _ _ _ hg h6, Named.stable adder_subclass _ _ _ _ _ hg h7,
        Named.stable adder_subset _ _ _ _ _ hg h8⟩⟩
      unfold getElement at h2 ⊢; rw [hg.same.elements]; exact h2
    · rename_i hf
      rw [if_neg hf] at h; exact h

/-- What the references put on an encoded element mean. -/
structure EncOk (e : ElementData) (ctx : Option Nat) (enc : Enc) (d : Document) : Prop where
  core : CoreOk e ctx enc d
  proc : ∀ p, enc.proc = some p → d.ProcLive p
  explicit : ∀ id p, e.processor = .ok (some id) → d.processorKeyById id = some p → enc.proc = some p
  none : e.elementtype.annotationtype = none → (∀ id, e.processor ≠ .ok (some id)) → enc.proc = none
  listed : ∀ k p, enc.dec = some k → enc.proc = some p → DeclLists k p d

theorem CoreOk.declared {e : ElementData} {ctx : Option Nat} {enc : Enc} {d : Document} (h : CoreOk e ctx enc d) {k : Nat} (hk : enc.dec = some k) :
    ∃ dec, d.getDeclaration k = some dec := by
  unfold CoreOk at h
  split at h
  · obtain ⟨⟨k', s, h1, _, ⟨dec, h3, _⟩, _⟩, _⟩ := h
    rw [hk] at h1; cases h1; exact ⟨dec, h3⟩
  · split at h
    · obtain ⟨_, _, _, _, _, _, ⟨k', s, h1, _, ⟨dec, h3, _⟩, _⟩⟩ := h
      rw [hk] at h1; cases h1; exact ⟨dec, h3⟩
    · rw [h.1] at hk; cases hk

theorem encodeExplicit_fields (d : Document) (e : ElementData) (enc : Enc) :
    (encodeExplicit d e enc).dec = enc.dec ∧ (encodeExplicit d e enc).cls = enc.cls ∧ (encodeExplicit d e enc).subset = enc.subset := by
  unfold encodeExplicit
  repeat' split
  all_goals exact ⟨rfl, rfl, rfl⟩

theorem CoreOk.congr {e : ElementData} {ctx : Option Nat} {enc enc' : Enc} {d : Document} (h : CoreOk e ctx enc d) (h1 : enc'.dec = enc.dec)
    (h2 : enc'.cls = enc.cls) (h3 : enc'.subset = enc.subset) : CoreOk e ctx enc' d := by
  unfold CoreOk at h ⊢
  split
  · rename_i t ht
    rw [ht] at h
    exact ⟨by rw [h1, h2]; exact h.1, by rw [h3]; exact h.2⟩
  · rename_i ht
    rw [ht] at h
    simp only at h
    split
    · rename_i hf
      rw [if_pos hf] at h
      obtain ⟨pk, parent, t, h4, h5, h6, h7⟩ := h
      exact ⟨pk, parent, t, h4, h5, h6, ⟨by rw [h1, h2, h3]; exact h7.1⟩⟩
    · rename_i hf
      rw [if_neg hf] at h
      rw [h1, h2, h3]; exact h

theorem encodeLink_cases (enc : Enc) (d : Document) :
    ((enc.test = true → ∀ k p, enc.dec = some k → enc.proc ≠ some p) ∧ encodeLink enc d = (.ok (), d)) ∨ ∃ k p, enc.dec = some k ∧ enc.proc = some p ∧
    enc.test = true ∧ encodeLink enc d = (.ok (), { d with declarations := d.declarations.update k (linkProcessor p) }) := by
  unfold encodeLink
  cases h1 : enc.test with
  | false => exact Or.inl ⟨nofun, rfl⟩
  | true => cases h2 : enc.dec with
    | none => exact Or.inl ⟨fun _ => nofun, rfl⟩
    | some k => cases h3 : enc.proc with
      | none => exact Or.inl ⟨fun _ _ _ _ => nofun, rfl⟩
      | some p => exact Or.inr ⟨k, p, rfl, rfl, rfl, rfl⟩

theorem ddoes_encode (e : ElementData) (ctx : Option Nat) : DDoes (fun _ => True) (encode e ctx) fun e' d =>
    (e.encodable = false ∧ e' = e) ∨
    (e.encodable = true ∧ ∃ enc, e' = { e with attribs := encodedAttribs e.attribs enc } ∧ EncOk e ctx enc d) := by
  unfold encode
  split
  · rename_i he
    refine DDoes.bind (ddoes_encodeCore e ctx) fun enc => DDoes.bind DDoes.get fun d0 => ?_
    have hpl : ∀ p, DStable (·.ProcLive p) := DStable.procLive
    refine DDoes.bind (Q := fun _ d => EncOk e ctx (encodeExplicit d0 e enc) d) ?_ fun _ => DDoes.pure fun d hd => Or.inr ⟨he, _, rfl, hd⟩
    intro d hd hp
    obtain ⟨rfl, hcore, hlive, hnp⟩ := hp
    have hf := encodeExplicit_fields d0 e enc
    have hproc : ∀ p, (encodeExplicit d0 e enc).proc = some p → d0.ProcLive p := by
      intro p hp
      unfold encodeExplicit at hp
      split at hp
      · split at hp
        · rename_i q hq
          simp only [Option.some.injEq] at hp
          subst hp
          exact hd.procs _ q hq
        · exact (hlive p hp).1
      · exact (hlive p hp).1
    have hunt : (encodeExplicit d0 e enc).test = false → ∀ k p, (encodeExplicit d0 e enc).dec = some k → (encodeExplicit d0 e enc).proc = some p → DeclLists k p d0 := by
      intro ht k p hk hp
      rw [hf.1] at hk
      unfold encodeExplicit at ht hp
      split at hp
      · split at hp
        · rename_i h1 _ _ h2; simp [h1, h2] at ht
        · rename_i h1 _ h2; simp only [h1, h2] at ht; exact (hlive p hp).2 ht k hk
      · refine (hlive p hp).2 ?_ k hk
        split at ht
        · rename_i h1 _ _ h2; exact absurd h2 (h1 _)
        · exact ht
    have hexp : ∀ id p, e.processor = .ok (some id) → d0.processorKeyById id = some p → (encodeExplicit d0 e enc).proc = some p := by
      intro id p h1 h2
      unfold encodeExplicit
      rw [h1]; simp only [h2]
    have hnone : e.elementtype.annotationtype = none → (∀ id, e.processor ≠ .ok (some id)) → (encodeExplicit d0 e enc).proc = none := by
      intro h1 h2
      unfold encodeExplicit
      split
      · rename_i id hid; exact absurd hid (h2 id)
      · exact hnp h1
    have hcore' : CoreOk e ctx (encodeExplicit d0 e enc) d0 := hcore.congr hf.1 hf.2.1 hf.2.2
    have hmono : ∀ d', DGrow d0 d' → (∀ k p, (encodeExplicit d0 e enc).dec = some k → (encodeExplicit d0 e enc).proc = some p → DeclLists k p d') →
        EncOk e ctx (encodeExplicit d0 e enc) d' := by
      intro d' hg hli
      refine ⟨CoreOk.stable _ _ _ _ _ hg hcore', fun p hp => hpl p _ _ hg (hproc p hp), fun id p h1 h2 => hexp id p h1 ?_, hnone, hli⟩
      unfold processorKeyById at h2 ⊢; rw [← hg.same.processors]; exact h2
    rcases encodeLink_cases (encodeExplicit d0 e enc) d0 with ⟨hno, heq⟩ | ⟨k, p, hk, hpp, _, heq⟩
    · rw [heq]
      refine ⟨hd, .refl d0, fun _ _ => hmono d0 (.refl d0) fun k p hk hp => hunt ?_ k p hk hp⟩
      cases ht : (encodeExplicit d0 e enc).test with
      | false => rfl
      | true => exact absurd hp (hno ht k p hk)
    · rw [heq]
      have hg : DGrow d0 { d0 with declarations := d0.declarations.update k (linkProcessor p) } :=
        ⟨DeclMono.update d0 k _ fun a _ => .linkProcessor p a, rfl, rfl, rfl, rfl⟩
      refine ⟨hd.update k _ (fun a _ => .linkProcessor p a) ?_, hg, fun _ _ => hmono _ hg fun k' p' hk' hp' => ?_⟩
      rotate_left
      · rw [hk] at hk'; cases hk'
        rw [hpp] at hp'; cases hp'
        obtain ⟨dec, hdec⟩ := hcore'.declared hk
        refine ⟨linkProcessor p dec, ?_, ?_⟩
        · unfold getDeclaration at hdec ⊢
          rw [Store.get_update, if_pos rfl, hdec]; rfl
        · unfold linkProcessor
          split
          · rename_i h; simpa using h
          · simp
      intro a ha
      have hok := hd.ok k a ha
      unfold linkProcessor
      split
      · exact hok
      · refine ⟨hok.1, hok.2, hok.3, ?_⟩
        intro q hq
        simp only [List.mem_append, List.mem_singleton] at hq
        rcases hq with hq | rfl
        · exact hok.4 q hq
        · exact hproc _ hpp
  · rename_i he
    exact DDoes.pure fun d _ => Or.inl ⟨by simpa using he, rfl⟩

end Folia
