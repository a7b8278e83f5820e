import Verif.Parser
/-! The operations a user of the library can perform on a document, and the documents they can obtain. This file is specification: it
only strings together calls of the model's public methods. -/
namespace Folia

/-- One call of a public mutating method of `Document` (src/document.rs, src/metadata.rs). -/
inductive Op where
  | declare (t : AnnotationType) (set alias format : Option String)
  | addDeclaration (dec : Declaration)
  | addClass (dec : Nat) (c : String)
  | addElement (e : ElementData)
  | addElementTo (parent : Nat) (e : ElementData)
  | attachElement (parent child : Nat)
  | detachElement (child : Nat)
  | annotate (parent : Nat) (e : ElementData)
  | annotateSpan (e : ElementData)
  | addProvenance (p : Processor)
  | addProcessor (p : ProcTree)
  | addSubprocessor (parent : Nat) (p : ProcTree)
  | attachProcessor (parent child : Nat)
  | activateProcessor (k : Nat)
  | applyProperties (ps : DocumentProperties)
  /-- Assigning the public fields that hold no keys (src/document.rs:32-35, 43-45, 49). -/
  | assign (id version : String) (filename : Option String) (metadata : Metadata) (submetadata : List (String × Metadata)) (autodeclare : Bool)

/-- Discard the result of a call. -/
def M.void {σ α : Type} (m : M σ α) : M σ Unit := m >>= fun _ => pure ()

/-- Perform a call; `F` bounds the iterators that the method runs. -/
def Op.run (F : Nat) : Op → M Document Unit
  | .declare t s a f => (Document.declare t s a f).void
  | .addDeclaration dec => (Document.addDeclaration dec).void
  | .addClass k c => (Document.addClass k c).void
  | .addElement e => (Document.addElement F e).void
  | .addElementTo p e => (Document.addElementTo F p e).void
  | .attachElement p c => Document.attachElement p c
  | .detachElement c => Document.detachElement c
  | .annotate p e => (Document.annotate F p e).void
  | .annotateSpan e => (Document.annotateSpan F e).void
  | .addProvenance p => (Document.addProvenance p).void
  | .addProcessor p => (Document.addProcessor p).void
  | .addSubprocessor p c => (Document.addSubprocessor p c).void
  | .attachProcessor p c => Document.attachProcessor p c
  | .activateProcessor k => Document.activateProcessor k
  | .applyProperties ps => Document.applyProperties ps
  | .assign id version filename metadata submetadata autodeclare =>
    M.modify fun d => { d with id, version, filename, metadata, submetadata, autodeclare }

/-- A history: a list of calls. Calls that fail leave the document in the state in which they failed, and the user goes on. -/
def runOps (F : Nat) : List Op → Document → Document
  | [], d => d
  | o :: os, d => runOps F os (o.run F d).2

/-- The documents a user can obtain: made by `Document::new` or by parsing, then changed by any calls. -/
inductive Reachable (X : Ext) (F : Nat) : Document → Prop
  | new {id ps d} : Document.new id ps = .ok d → Reachable X F d
  | parse {ps evs d} : Document.parse X F ps evs = .ok d → Reachable X F d
  | op {d} (o : Op) : Reachable X F d → Reachable X F (o.run F d).2

/-! ### Clean arguments: no raw keys smuggled in by the caller -/

mutual
/-- A builder without encoded references, raw keys or a preset parent, at any depth. -/
def CleanBuilder : ElementData → Prop
  | ⟨_, as, data, _, p⟩ => (∀ a ∈ as, a.decodable = false) ∧ CleanData data ∧ p = none
/-- Data items without raw keys. -/
def CleanData : List Data → Prop
  | [] => True
  | .addElement e :: rest => CleanBuilder e ∧ CleanData rest
  | .text _ :: rest => CleanData rest
  | .comment _ :: rest => CleanData rest
  | .element _ :: _ => False
  | .spanReference _ :: _ => False
end

mutual
/-- A processor without preset relations, at any depth. -/
def CleanProc : ProcTree → Prop
  | .node p pending => p.processors = [] ∧ p.parent = none ∧ CleanProcs pending
/-- See `CleanProc`. -/
def CleanProcs : List ProcTree → Prop
  | [] => True
  | p :: ps => CleanProc p ∧ CleanProcs ps
end

/-- A declaration as made by `Declaration::new`. -/
def Declaration.Blank (dec : Declaration) : Prop :=
  dec.processors = [] ∧ dec.classes = none ∧ dec.subsets = none ∧ dec.subclasses = none

/-- The call does not smuggle in raw keys: builders are clean and a processor is activated only if it exists. -/
def Op.Clean (d : Document) : Op → Prop
  | .addDeclaration dec => dec.Blank
  | .addElement e => CleanBuilder e
  | .addElementTo _ e => CleanBuilder e
  | .annotate _ e => CleanBuilder e
  | .annotateSpan e => CleanBuilder e
  | .addProvenance p => CleanProc (.node p [])
  | .addProcessor p => CleanProc p
  | .addSubprocessor _ p => CleanProc p
  | .activateProcessor k => (d.getProcessor k).isSome
  | .applyProperties ps => ∀ p, ps.processor = some p → CleanProc p
  | _ => True

/-- A history of calls that do not smuggle in raw keys. -/
def OpsClean (F : Nat) : List Op → Document → Prop
  | [], _ => True
  | o :: os, d => o.Clean d ∧ OpsClean F os (o.run F d).2

/-- The documents a user can obtain without smuggling in raw keys. -/
inductive CleanReachable (X : Ext) (F : Nat) : Document → Prop
  | new {id ps d} : (∀ p, ps.processor = some p → CleanProc p) → Document.new id ps = .ok d → CleanReachable X F d
  | parse {ps evs d} : (∀ p, ps.processor = some p → CleanProc p) → Document.parse X F ps evs = .ok d → CleanReachable X F d
  | op {d} (o : Op) : CleanReachable X F d → o.Clean d → CleanReachable X F (o.run F d).2

end Folia
