import Verif.Ops
/-! Small concrete documents. They are used to show that the hypotheses of theorems can be met and as counterexamples. -/
namespace Folia.Sample

/-- The value of a successful result, for concrete results only. -/
def value {α : Type} [Inhabited α] : Res α → α
  | .ok a => a
  | .error _ => default

theorem value_eq {α : Type} [Inhabited α] {r : Res α} (h : (match r with | .ok _ => true | .error _ => false) = true) : r = .ok (value r) := by
  cases r with
  | ok a => rfl
  | error e => cases h

instance : Inhabited Document := ⟨{}⟩

/-- No floating point numbers occur in the samples. -/
def X : Ext := { showF64 := fun _ => "", parseF64 := fun _ => none }
/-- Enough fuel for the samples. -/
def F : Nat := 60

theorem reachable_ops {X : Ext} {F : Nat} : ∀ (os : List Op) {d : Document}, Reachable X F d → Reachable X F (runOps F os d)
  | [], _, h => h
  | o :: os, _, h => reachable_ops os (.op o h)

theorem clean_ops {X : Ext} {F : Nat} : ∀ (os : List Op) {d : Document}, (∀ o ∈ os, ∀ d, o.Clean d) → CleanReachable X F d →
    CleanReachable X F (runOps F os d)
  | [], _, _, h => h
  | o :: os, _, hc, h => clean_ops os (fun o ho => hc o (by simp [ho])) (.op o h (hc o (by simp) _))

/-- A new document. -/
def fresh : Document := value (Document.new "sample" {})

theorem fresh_eq : Document.new "sample" {} = .ok fresh := value_eq (by decide +kernel)

/-- A word with an identifier, a class and text. -/
def word (id text : String) : ElementData :=
  (((ElementData.new .word).setAttrib (.id id)).setAttrib (.cls "WORD")).withText text

/-- A sentence of two words. -/
def sentence : ElementData :=
  (((ElementData.new .sentence).setAttrib (.id "s1")).addElement (word "w1" "Hello")).addElement (word "w2" "world")

/-- A part-of-speech annotation. -/
def pos : ElementData := ((ElementData.new .posAnnotation).setAttrib (.set "brown")).setAttrib (.cls "NN")

/-- A chunk over both words. -/
def chunk : ElementData := (((ElementData.new .chunk).setAttrib (.set "chunks")).setAttrib (.cls "NP")).withSpan ["w1", "w2"]

/-- A sequence of calls: a processor, a sentence with two words, a part-of-speech annotation on the first word, a feature on that
annotation, and a chunk over both words. -/
def ops : List Op := [
  .addProcessor (.node { id := "p1", name := "annotator" } []),
  .addElementTo 0 sentence,
  .annotate 2 (pos.setAttrib (.processor "p1")),
  .addElementTo 6 ((((ElementData.new .feature).setAttrib (.subset "number")).setAttrib (.cls "singular"))),
  .annotateSpan chunk]

/-- The document after `ops`. -/
def doc : Document := runOps F ops fresh

theorem doc_reachable : Reachable X F doc := reachable_ops ops (.new fresh_eq)

theorem ops_clean : ∀ o ∈ ops, ∀ d, o.Clean d := by
  intro o ho d
  simp only [ops, List.mem_cons, List.not_mem_nil, or_false] at ho
  rcases ho with rfl | rfl | rfl | rfl | rfl
  · simp [Op.Clean, CleanProc, CleanProcs]
  all_goals
    simp [Op.Clean, sentence, word, pos, chunk, ElementData.setAttrib, ElementData.delAttrib, ElementData.withText, ElementData.withSpan,
      ElementData.addElement, ElementData.push, ElementData.new, CleanBuilder, CleanData, Attribute.attribtype, List.findIdx?,
      List.findIdx?.go, Attribute.decodable]

theorem doc_clean : CleanReachable X F doc := clean_ops ops ops_clean (.new (by intro p h; cases h) fresh_eq)

/-- The types of the elements, in order of their keys. -/
def types (d : Document) : List (Option ElementType) := d.elements.items.map (·.map (·.elementtype))

theorem doc_types : types doc = [some .text, some .textContent, some .word, some .textContent, some .word, some .sentence,
    some .posAnnotation, some .feature, some .chunkingLayer, some .wordReference, some .wordReference, some .chunk] := by
  decide +kernel

end Folia.Sample
