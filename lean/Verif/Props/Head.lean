import Verif.Lemmas.HeadWhole
import Verif.Samples
/-! C74: what a source says in front of its body is what the document has. -/
namespace Folia
open Document

/-- C74. If a source whose head consists of the root, the metadata tag, declarations, processors and values, in that order, with white space and
comments anywhere in between, is read, then the document has the identifier, version, kind and source of the metadata that the attributes give, for
every key the last value given, exactly the processors of the source, with all their attributes and nested in the same way, and the declarations of
the source, in order and with the annotators that are among the processors. Whatever follows the head changes nothing about this. Missing:
declarations that are empty tags, values without a key and submetadata, for which it is false (below). -/
theorem C74_head_partial {X : Ext} {F : Nat} {ps : DocumentProperties} {h : Head} {rest : List REvent} {d : Document} (hp : h.Proper) (hps : ps.processor = none)
    (hpar : Document.parse X F ps (h.events ++ rest) = .ok d) : HeadIs h d := parse_head hp hps hpar

namespace Sample

/-- A head with two declarations, nested processors and repeated values. -/
def head : Head where
  before := [.other, .text "\n"]
  root := [.ok "xml:id" "a&amp;b", .ok "version" "2.4", .ok "generator" "x"]
  attrs := [.ok "type" "native"]
  afterStart := [.comment "c"]
  decls := [.pad (.text "\n"), .declaration .TOKEN [.ok "set" "s", .ok "alias" "al"] [.pad (.text " "), .annotator [.ok "processor" "p2"], .annotator [.ok "processor" "unknown"]],
    .declaration .POS [.ok "format" "f"] [.annotator [.ok "processor" "p1"], .annotator [.ok "processor" "p2"]]]
  procs := [.full [.ok "xml:id" "p1", .ok "name" "one", .ok "type" "manual"] [.pad (.text "\n"), .empty [.ok "xml:id" "p2", .ok "name" "two"]],
    .empty [.ok "xml:id" "p3", .ok "user" "u"]]
  values := [.value [.ok "id" "k"] (some "1"), .pad (.comment "again"), .value [.ok "id" "k"] (some "2"), .pad (.text "\n"), .value [.ok "id" "e"] none]

def headSource : List REvent := head.events ++ [.start .folia "text" [.ok "xml:id" "t"], .endTag .folia "text", .endTag .folia "FoLiA"]

def headDoc : Document := value (Document.parse X F {} headSource)

theorem head_proper : head.Proper where
  pads := by
    intro e he
    have : head.before ++ head.afterRoot ++ head.afterStart ++ head.between = [.other, .text "\n", .comment "c"] := rfl
    rw [this] at he
    simp only [List.mem_cons, List.not_mem_nil, or_false] at he
    rcases he with rfl | rfl | rfl <;> trivial
  decls := by
    intro n hn
    simp only [head, List.mem_cons, List.not_mem_nil, or_false] at hn
    rcases hn with rfl | rfl | rfl
    · trivial
    · intro a ha e he
      subst he
      simp at ha
      subst ha; trivial
    · intro a ha e he
      subst he
      simp at ha
  procs := by simp [head, PNode.PaddedList, PNode.Padded, REvent.Pad]
  values := by
    intro n hn
    simp only [head, List.mem_cons, List.not_mem_nil, or_false] at hn
    rcases hn with rfl | rfl | rfl | rfl | rfl
    · show metaKey _ ≠ none; decide +kernel
    · trivial
    · show metaKey _ ≠ none; decide +kernel
    · trivial
    · show metaKey _ ≠ none; decide +kernel
  ids := by decide +kernel
  names := by decide +kernel
  procRoom := by decide +kernel
  declRoom := by decide +kernel

/-- The source is read, and the document has what its head says: the reference to p2 comes before the processor, `unknown` is dropped, the
second value counts. -/
example : HeadIs head headDoc := C74_head_partial (X := X) (F := F) (ps := {}) head_proper rfl (value_eq (by decide +kernel))

example : headDoc.id = "a&b" ∧ headDoc.version = "2.4" ∧ mapFind headDoc.metadata.data "k" = some "2" ∧ mapFind headDoc.metadata.data "e" = none ∧ headDoc.chain = [0, 2] ∧
    (headDoc.getProcessor 0).map (fun p => (p.name, p.processortype, p.processors)) = some ("one", .manual, [1]) ∧
    (headDoc.getProcessor 1).map (fun p => (p.name, p.processortype, p.parent)) = some ("two", .auto, some 0) ∧
    (headDoc.getDeclaration 0).map (fun d => (d.annotationtype, d.set, d.alias, d.processors)) = some (.TOKEN, some "s", some "al", [1]) ∧
    (headDoc.getDeclaration 1).map (fun d => (d.annotationtype, d.set, d.format, d.processors)) = some (.POS, none, some "f", [0, 1]) := by
  decide +kernel

/-- A source with only values in its metadata. -/
def valuesSource (vs : List REvent) : List REvent :=
  .start .folia "FoLiA" [] :: .start .folia "metadata" [] :: vs ++ [.endTag .folia "metadata", .start .folia "text" [], .endTag .folia "text", .endTag .folia "FoLiA"]

def staleDoc : Document := value (Document.parse X F {} (valuesSource [.start .folia "meta" [.ok "id" "a"], .text "1", .endTag .folia "meta",
  .start .folia "meta" [], .text "2", .endTag .folia "meta"]))

def emptyDecl : Document := value (Document.parse X F {} (valuesSource [.start .folia "annotations" [], .empty .folia "pos-annotation" [.ok "set" "s"], .endTag .folia "annotations"]))

def subDoc : Document := value (Document.parse X F {} (valuesSource [.start .folia "submetadata" [.ok "xml:id" "m"], .start .folia "meta" [.ok "id" "a"], .text "1",
  .endTag .folia "meta", .endTag .folia "submetadata"]))

end Sample

/-- A value without a key overwrites the value given before it: here `a` is given as 1, but becomes 2. -/
theorem C74_stale_counterexample : (Document.parse Sample.X Sample.F {} (Sample.valuesSource [.start .folia "meta" [.ok "id" "a"], .text "1", .endTag .folia "meta",
    .start .folia "meta" [], .text "2", .endTag .folia "meta"])).isOk = true ∧ Sample.staleDoc.metadata.data = [("a", "2")] := by
  decide +kernel

/-- A declaration that is an empty tag is ignored. -/
theorem C74_empty_counterexample : (Document.parse Sample.X Sample.F {} (Sample.valuesSource [.start .folia "annotations" [], .empty .folia "pos-annotation" [.ok "set" "s"],
    .endTag .folia "annotations"])).isOk = true ∧ Sample.emptyDecl.declarationKeyById (Declaration.indexId .POS (some "s")) = none := by
  decide +kernel

/-- Values in submetadata are dropped. -/
theorem C74_submetadata_counterexample : (Document.parse Sample.X Sample.F {} (Sample.valuesSource [.start .folia "submetadata" [.ok "xml:id" "m"],
    .start .folia "meta" [.ok "id" "a"], .text "1", .endTag .folia "meta", .endTag .folia "submetadata"])).isOk = true ∧
    Sample.subDoc.metadata.data = [] ∧ Sample.subDoc.submetadata.length = 0 := by
  decide +kernel

end Folia
