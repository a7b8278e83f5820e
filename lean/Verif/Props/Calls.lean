import Verif.Calls
import Verif.Props.New
import Verif.Props.RoundTrip
import Verif.Props.Accept
import Verif.Props.Select
/-! C81 (builder methods), C82 (generated processors), C83 (equality of elements), C84 (elements as strings). -/
namespace Folia
open Document

/-! ### C81 -/

/-- The last value that the calls give to a field, or the default. -/
def lastValue {α β : Type} (field : α → Option β) (default : β) (calls : List α) : β := ((calls.filterMap field).getLast?).getD default

theorem lastValue_nil {α β : Type} (field : α → Option β) (default : β) : lastValue field default [] = default := rfl

theorem lastValue_snoc {α β : Type} (field : α → Option β) (default : β) (calls : List α) (c : α) :
    lastValue field default (calls ++ [c]) = (field c).getD (lastValue field default calls) := by
  unfold lastValue
  rw [List.filterMap_append]
  cases h : field c with
  | none => simp [h]
  | some v => simp [h]

theorem snoc_induction {α : Type} {P : List α → Prop} (nil : P []) (append_singleton : ∀ xs x, P xs → P (xs ++ [x])) (l : List α) : P l := by
  rw [← List.reverse_reverse l]
  induction l.reverse with
  | nil => exact nil
  | cons x xs ih => rw [List.reverse_cons]; exact append_singleton _ _ ih

/-- If every call overwrites a field exactly when it is a call for that field, the field has the last value. -/
theorem fold_last {σ α β : Type} (call : σ → α → σ) (init : σ) (get : σ → β) (field : α → Option β)
    (h : ∀ s c, get (call s c) = (field c).getD (get s)) (calls : List α) : get (calls.foldl call init) = lastValue field (get init) calls := by
  induction calls using snoc_induction with
  | nil => rfl
  | append_singleton cs c ih => rw [List.foldl_append, lastValue_snoc, ← ih]; exact h _ c

/-- A query made with any calls has, for every criterion, the value given last, and matches anything where none was given. -/
theorem C81_query (calls : List QueryCall) :
    (Query.build calls).elementtype = lastValue (fun | .element v => some v | _ => none) .any calls ∧
    (Query.build calls).elementgroup = lastValue (fun | .elementgroup v => some v | _ => none) .any calls ∧
    (Query.build calls).contexttype = lastValue (fun | .contexttype v => some v | _ => none) .any calls ∧
    (Query.build calls).set = lastValue (fun | .set v => some v | _ => none) .any calls ∧
    (Query.build calls).cls = lastValue (fun | .cls v => some v | _ => none) .any calls ∧
    (Query.build calls).processor = lastValue (fun | .processor v => some v | _ => none) .any calls ∧
    (Query.build calls).subset = lastValue (fun | .subset v => some v | _ => none) .any calls ∧
    (Query.build calls).annotator = lastValue (fun | .annotator v => some v | _ => none) .any calls ∧
    (Query.build calls).annotatortype = lastValue (fun | .annotatortype v => some v | _ => none) .any calls ∧
    (Query.build calls).confidence = lastValue (fun | .confidence v => some v | _ => none) .any calls := by
  refine ⟨?_, ?_, ?_, ?_, ?_, ?_, ?_, ?_, ?_, ?_⟩
  all_goals
    refine fold_last Query.call {} _ _ (fun q c => ?_) calls
    cases c <;> rfl

/-- The same for text parameters. The strictness cannot be set by a call. -/
theorem C81_text (calls : List TextCall) :
    (TextParameters.build calls).set = some (lastValue (fun | .set v => some v | _ => none) DEFAULT_TEXT_SET calls) ∧
    (TextParameters.build calls).textclass = some (lastValue (fun | .textclass v => some v | _ => none) "current" calls) ∧
    (TextParameters.build calls).retaintokenisation = lastValue (fun | .retaintokenisation v => some v | _ => none) false calls ∧
    (TextParameters.build calls).strict = false := by
  refine ⟨?_, ?_, ?_, ?_⟩
  · induction calls using snoc_induction with
    | nil => rfl
    | append_singleton cs c ih =>
      rw [lastValue_snoc, TextParameters.build, List.foldl_append]
      cases c <;> first | rfl | exact ih
  · induction calls using snoc_induction with
    | nil => rfl
    | append_singleton cs c ih =>
      rw [lastValue_snoc, TextParameters.build, List.foldl_append]
      cases c <;> first | rfl | exact ih
  · refine fold_last TextParameters.call {} (·.retaintokenisation) _ (fun q c => ?_) calls
    cases c <;> rfl
  · induction calls using snoc_induction with
    | nil => rfl
    | append_singleton cs c ih =>
      rw [TextParameters.build, List.foldl_append]
      cases c <;> exact ih

/-- Hence text parameters made with calls always have a set and a class, which is what `text` needs not to panic. -/
theorem C81_text_safe (d : Document) (F : Nat) (e : ElementData) (calls : List TextCall) (h : elementText d F e (TextParameters.build calls) = .error .panic) :
    ∃ dk ck, textByKey d dk ck (TextParameters.build calls).retaintokenisation false F e none = .error .panic := by
  obtain ⟨h1, h2, _, h4⟩ := C81_text calls
  unfold elementText at h
  rw [h1, h2, h4] at h
  simp only at h
  split at h
  · rename_i dk _
    split at h
    · rename_i ck _; exact ⟨_, ck, h⟩
    · rename_i f hf
      cases h
      unfold Document.classKey at hf
      split at hf
      · unfold okOr at hf; split at hf <;> cases hf
      · cases hf
  · cases h

/-- The same for document properties: the declarations asked for are added, in order, to the one for text that is there by default. -/
theorem C81_properties (calls : List PropCall) :
    (DocumentProperties.build calls).bodytype = lastValue (fun | .bodytype v => some v | _ => none) .text calls ∧
    (DocumentProperties.build calls).autodeclare = lastValue (fun | .autodeclare v => some v | _ => none) true calls ∧
    (DocumentProperties.build calls).processor = lastValue (fun | .processor v => some (some v) | _ => none) none calls ∧
    (DocumentProperties.build calls).declare = (AnnotationType.TEXT, some DEFAULT_TEXT_SET) ::
      calls.filterMap (fun | .declaration t s => some (t, s) | _ => none) := by
  refine ⟨?_, ?_, ?_, ?_⟩
  · refine fold_last DocumentProperties.call {} (·.bodytype) _ (fun q c => ?_) calls
    cases c <;> rfl
  · refine fold_last DocumentProperties.call {} (·.autodeclare) _ (fun q c => ?_) calls
    cases c <;> rfl
  · refine fold_last DocumentProperties.call {} (·.processor) _ (fun q c => ?_) calls
    cases c <;> rfl
  · induction calls using snoc_induction with
    | nil => rfl
    | append_singleton cs c ih =>
      rw [DocumentProperties.build, List.foldl_append, List.filterMap_append]
      rw [DocumentProperties.build] at ih
      cases c <;> simp [DocumentProperties.call, ih]

example : Query.build [.set (.is "a"), .element (.is .word), .set (.is "b")] = { elementtype := .is .word, set := .is "b" } ∧
    (DocumentProperties.build [.declaration .POS (some "brown"), .autodeclare false]).declare = [(.TEXT, some DEFAULT_TEXT_SET), (.POS, some "brown")] := ⟨rfl, rfl⟩

/-! ### C82 -/

theorem hexDigit_inj : ∀ a < 16, ∀ b < 16, hexDigit a = hexDigit b → a = b := by decide +kernel

theorem hexEncode_length : ∀ bs, (hexEncode bs).length = 2 * bs.length
  | [] => rfl
  | b :: bs => by simp only [hexEncode, List.length_cons, hexEncode_length bs]; omega

theorem hexEncode_inj : ∀ as bs, hexEncode as = hexEncode bs → as = bs
  | [], [], _ => rfl
  | [], b :: bs, h => by cases h
  | a :: as, [], h => by cases h
  | a :: as, b :: bs, h => by
    simp only [hexEncode, List.cons.injEq] at h
    have ha := a.toNat_lt
    have hb := b.toNat_lt
    have h1 := hexDigit_inj _ (by omega) _ (by omega) h.1
    have h2 := hexDigit_inj _ (by omega) _ (by omega) h.2.1
    rw [hexEncode_inj as bs h.2.2, UInt8.toNat.inj (by omega : a.toNat = b.toNat)]

/-- The identifiers of two new processors are the same only if their names and all of their random bytes are. -/
theorem C82_ids {name name' : String} {random random' : List UInt8} (h : random.length = random'.length)
    (hid : (Processor.new name random).id = (Processor.new name' random').id) : name = name' ∧ random = random' := by
  have hid : generatedId name random = generatedId name' random' := hid
  unfold generatedId at hid
  have hl := String.ofList_injective hid
  rw [List.append_assoc, List.append_assoc] at hl
  have hl := List.append_cancel_left hl
  obtain ⟨h1, h2⟩ := List.append_inj' hl (by simp [hexEncode_length, h])
  exact ⟨String.toList_injective h1, hexEncode_inj _ _ (List.cons.inj h2).2⟩

/-- A processor in the provenance chain has a date. -/
def Dated (d : Document) : Prop := ∃ k x, k ∈ d.chain ∧ d.getProcessor k = some x ∧ (x.begindatetime ≠ none ∨ x.enddatetime ≠ none)

theorem Prim.chainMono {C : Prop} {d d' : Document} (h : Prim C d d') : ∀ k ∈ d.chain, k ∈ d'.chain := by
  intro k hk
  cases h with
  | admin _ _ _ hc _ => rw [hc]; exact hk
  | addDeclaration | annotator | setParent | orphan | pushElem | pushText | pushSpan | unlink | layer | addProc | procParent | procPush | activate => exact hk
  | declare t s a f => rw [(OnlyDecls.declare t s a f d).chain]; exact hk
  | addClass j c => rw [(OnlyDecls.addClass j c d).chain]; exact hk
  | addElem e ctx _ => rw [(addElem_elements e ctx d).1.chain]; exact hk
  | chain j _ => exact List.mem_append_left _ hk

theorem Steps.dated {C : Prop} {d d' : Document} (h : Steps C d d') (hd : Dated d) : Dated d' := by
  obtain ⟨k, x, h1, h2, h3⟩ := hd
  obtain ⟨x', h4, h5⟩ := h.procMono k x h2
  refine ⟨k, x', ?_, h4, by rw [h5]; exact h3⟩
  exact Steps.lift (R := fun d d' => ∀ k ∈ d.chain, k ∈ d'.chain) (fun _ _ h => h) (fun h h' k hk => h' k (h k hk)) Prim.chainMono h k h1

/-- Once a document has a dated processor in its provenance, it stays so through all calls, and what is written of it can never be read again. -/
theorem C82_never_read {X : Ext} {F : Nat} {d : Document} (hi : CleanReachable X F d) (hd : Dated d) (os : List Op) (hos : OpsClean F os d)
    (hr : Consistent X F (runOps F os d)) {F' : Nat} {ps : DocumentProperties} {d' : Document} : ¬ Rereads X F' ps (runOps F os d) d' := by
  intro h
  obtain ⟨k, x, h1, h2, h3⟩ := (runOps_clean os hi.cinv.ix hos).dated hd
  obtain ⟨h4, h5⟩ := C47_dated hr h h1 (.here k) h2
  rcases h3 with h3 | h3
  · exact h3 h4
  · exact h3 h5

/-- A document made with an autofilled processor, in any environment, has a processor with a date. -/
theorem C82_dated {id : String} {ps : DocumentProperties} {env : Environment} {p : Processor} {pending : List ProcTree} {d : Document}
    (hps : ps.processor = some ((ProcTree.node p pending).autofill env)) (hp : CleanProc ((ProcTree.node p pending).autofill env) ∧
      (procIds ((ProcTree.node p pending).autofill env)).Nodup ∧ procSize ((ProcTree.node p pending).autofill env) ≤ 65536)
    (hc : ps.declare.length ≤ 65536) (h : Document.new id ps = .ok d) : Dated d := by
  obtain ⟨d', h1, _, _, _, _, _, _, _, _, h2, _⟩ := C72_new id (ps := ps) (fun t ht => by rw [hps] at ht; cases ht; exact hp) hc
  rw [h] at h1; cases h1
  obtain ⟨k, _, h3, h4, _⟩ := h2 _ hps
  simp only [ProcTree.autofill, ProcTree.withNewSubprocessor, ProcStored] at h4
  obtain ⟨subs, _, h4, _⟩ := h4
  exact ⟨k, _, by rw [h3]; simp, h4, .inl (by simp)⟩

/-- Autofilling the processor of a new document makes a document that can be written, but what is written cannot be read, for all names,
environments, dates and random bytes. -/
theorem C82_autofill {X : Ext} {F : Nat} (id name : String) (random : List UInt8) (env : Environment) (hlen : random.length = env.random.length)
    (hrand : name ≠ "folia-rust" ∨ random ≠ env.random) (ps : DocumentProperties) (hc : ps.declare.length ≤ 65536) :
    ∃ d, Document.new id { ps with processor := some ((ProcTree.node (Processor.new name random) []).autofill env) } = .ok d ∧
      (∃ N evs, ∀ G, N ≤ G → d.xml X G 0 = .ok evs) ∧ ∀ F' ps' d', ¬ Rereads X F' ps' d d' := by
  have hclean : CleanProc ((ProcTree.node (Processor.new name random) []).autofill env) := by
    simp [ProcTree.autofill, ProcTree.withNewSubprocessor, CleanProc, CleanProcs, Processor.new, Processor.thisLibrary]
  have hne : generatedId name random ≠ generatedId "folia-rust" env.random := by
    intro h
    obtain ⟨h1, h2⟩ := C82_ids hlen (name := name) (name' := "folia-rust") h
    rcases hrand with h3 | h3
    · exact h3 h1
    · exact h3 h2
  have hp : CleanProc ((ProcTree.node (Processor.new name random) []).autofill env) ∧ (procIds ((ProcTree.node (Processor.new name random) []).autofill env)).Nodup ∧
      procSize ((ProcTree.node (Processor.new name random) []).autofill env) ≤ 65536 := by
    refine ⟨hclean, ?_, ?_⟩
    · simp [ProcTree.autofill, ProcTree.withNewSubprocessor, procIds, procIdsList, Processor.new, Processor.thisLibrary, hne]
    · simp [ProcTree.autofill, ProcTree.withNewSubprocessor, procSize, procSizeList]
  obtain ⟨d, h1, _, _, _, _, ⟨e, he, _⟩, _, _, _, _, hprov⟩ :=
    C72_new id (ps := { ps with processor := some ((ProcTree.node (Processor.new name random) []).autofill env) }) (fun t ht => by cases ht; exact hp) hc
  have hfr : ForestReachable F d := .new (by intro p h; cases h; exact hclean) h1
  have hcr : CleanReachable X F d := hfr.tame.clean X
  have hr : Consistent X F d := ⟨hcr, hfr.forest, ⟨e, he⟩, hprov⟩
  refine ⟨d, h1, C70_written hr, fun F' ps' d' => ?_⟩
  exact C82_never_read hcr (C82_dated (ps := { ps with processor := _ }) (pending := []) rfl hp hc h1) [] trivial hr

example : ∃ d, Document.new "doc" { processor := some ((ProcTree.node (Processor.new "tagger" (List.replicate 16 7)) []).autofill
      ⟨"host", "user", "tag -v", ⟨2020, 5, 1, 12, 0, 0, 0⟩, List.replicate 16 200⟩) } = .ok d ∧
    (∃ N evs, ∀ G, N ≤ G → d.xml Sample.X G 0 = .ok evs) ∧ ∀ F' ps' d', ¬ Rereads Sample.X F' ps' d d' :=
  C82_autofill (F := 60) "doc" "tagger" _ _ (by simp) (.inl (by decide)) {} (by decide)

example : (Processor.new "tagger" [0, 255, 18]).id = "proc.tagger.00ff12" := by decide +kernel

/-! ### C83 -/

/-- Two elements of a document are equal exactly if they are the same element. -/
theorem C83_equal {X : Ext} {F : Nat} {d : Document} (hr : Reachable X F d) {j k : Nat} {a b : ElementData} (ha : d.getElement j = some a)
    (hb : d.getElement k = some b) : a.same b = true ↔ j = k := by
  unfold ElementData.same
  rw [hr.keysOk j a ha, hr.keysOk k b hb]
  simp

/-- Hence equality is an equivalence on the elements of a document. -/
theorem C83_equivalence {X : Ext} {F : Nat} {d : Document} (hr : Reachable X F d) {i j k : Nat} {a b c : ElementData} (ha : d.getElement i = some a)
    (hb : d.getElement j = some b) (hc : d.getElement k = some c) :
    a.same a = true ∧ (a.same b = true → b.same a = true) ∧ (a.same b = true → b.same c = true → a.same c = true) := by
  rw [C83_equal hr ha ha, C83_equal hr ha hb, C83_equal hr hb ha, C83_equal hr hb hc, C83_equal hr ha hc]
  exact ⟨rfl, Eq.symm, Eq.trans⟩

/-- An element stays equal to itself when its document changes. -/
theorem C83_stable {X : Ext} {F : Nat} {d : Document} (hr : Reachable X F d) (os : List Op) {k : Nat} {a : ElementData} (ha : d.getElement k = some a) :
    ∃ a', (runOps F os d).getElement k = some a' ∧ a.same a' = true := by
  have hr' : Reachable X F (runOps F os d) := Sample.reachable_ops os hr
  obtain ⟨a', h1, _⟩ := C01_keys_permanent hr os ha
  refine ⟨a', h1, ?_⟩
  unfold ElementData.same
  rw [hr.keysOk k a ha, hr'.keysOk k a' h1]
  simp

/-- An element under construction, which has no key yet, is equal to no element, not even to itself. -/
theorem C83_unstored {a : ElementData} (ha : a.key = none) (b : ElementData) : a.same b = false ∧ b.same a = false := by
  unfold ElementData.same
  rw [ha]
  cases b.key <;> exact ⟨rfl, rfl⟩

example : (ElementData.new .word).key = none := rfl

/-- A document with a span annotation and a word reference. -/
def Sample.awaited : Document := runOps Sample.F [.addElement (ElementData.new .chunk), .addElement (ElementData.new .wordReference)] Sample.fresh

/-- Elements of different documents can be equal although they have nothing in common. -/
theorem C83_documents_counterexample : ∃ d d' a b, Reachable Sample.X Sample.F d ∧ Reachable Sample.X Sample.F d' ∧ d.getElement 2 = some a ∧
    d'.getElement 2 = some b ∧ a.elementtype ≠ b.elementtype ∧ a.same b = true := by
  have h1 : (Sample.doc.getElement 2).map (fun a => (a.elementtype, a.key)) = some (.word, some 2) := by decide +kernel
  have h2 : (Sample.awaited.getElement 2).map (fun a => (a.elementtype, a.key)) = some (.wordReference, some 2) := by decide +kernel
  cases ha : Sample.doc.getElement 2 with
  | none => rw [ha] at h1; cases h1
  | some a =>
    cases hb : Sample.awaited.getElement 2 with
    | none => rw [hb] at h2; cases h2
    | some b =>
      rw [ha] at h1; rw [hb] at h2
      simp only [Option.map_some, Option.some.injEq, Prod.mk.injEq] at h1 h2
      refine ⟨_, _, a, b, Sample.doc_reachable, Sample.reachable_ops _ (.new Sample.fresh_eq), ha, hb, ?_, ?_⟩
      · rw [h1.1, h2.1]; decide
      · unfold ElementData.same; rw [h1.2, h2.2]; decide

/-! ### C84 -/

/-- An element as a string is its text with the default parameters. Missing for the claim that every element can be shown: if it has no such text,
this panics. -/
theorem C84_string_partial (d : Document) (F : Nat) (e : ElementData) (s : String) : elementToString d F e = .ok s ↔ elementText d F e {} = .ok s := by
  unfold elementToString
  split
  · rename_i h; rw [h]
  · rename_i h; rw [h]; simp
  · rename_i h; rw [h]

theorem C84_panics (d : Document) (F : Nat) (e : ElementData) (k : ErrKind) (h : elementText d F e {} = .error (.err k)) :
    elementToString d F e = .error .panic := by
  unfold elementToString; rw [h]

/-- A new document without declarations. -/
def Sample.plain : Document := Sample.value (Document.new "plain" { declare := [] })

theorem Sample.plain_eq : Document.new "plain" { declare := [] } = .ok Sample.plain := Sample.value_eq (by decide +kernel)

/-- A document with a word whose text is in a set other than the default one. -/
def Sample.otherSet : Document := runOps Sample.F [.addElementTo 0 ((ElementData.new .word).addElement
  ((((ElementData.new .textContent).setAttrib (.set "mine")).setAttrib (.cls "current")).push (.text "tea")))] Sample.plain

/-- A part-of-speech annotation cannot be shown, and neither can a word with text in a document that does not declare the default set. -/
theorem C84_counterexample : ∃ d d' a b, Reachable Sample.X Sample.F d ∧ Reachable Sample.X Sample.F d' ∧ d.getElement 6 = some a ∧
    a.elementtype = .posAnnotation ∧ elementToString d 60 a = .error .panic ∧ d'.getElement 2 = some b ∧ b.elementtype = .word ∧
    (∃ dk ck, d'.textByKey 60 2 dk ck false false = .ok "tea") ∧ elementToString d' 60 b = .error .panic := by
  have h1 : (Sample.doc.getElement 6).map (fun a => (a.elementtype, elementToString Sample.doc 60 a)) = some (.posAnnotation, .error .panic) := by decide +kernel
  have h2 : (Sample.otherSet.getElement 2).map (fun a => (a.elementtype, elementToString Sample.otherSet 60 a)) = some (.word, .error .panic) := by decide +kernel
  cases ha : Sample.doc.getElement 6 with
  | none => rw [ha] at h1; cases h1
  | some a =>
    cases hb : Sample.otherSet.getElement 2 with
    | none => rw [hb] at h2; cases h2
    | some b =>
      rw [ha] at h1; rw [hb] at h2
      simp only [Option.map_some, Option.some.injEq, Prod.mk.injEq] at h1 h2
      exact ⟨_, _, a, b, Sample.doc_reachable, Sample.reachable_ops _ (.new Sample.plain_eq), ha, h1.1, h1.2, hb, h2.1, ⟨0, 0, by decide +kernel⟩, h2.2⟩

end Folia
