import Verif.Select
/-! The remaining high-level lookups of `Element` (`src/element.rs`). -/
namespace Folia

/-- `Element::get_annotations` (src/element.rs:535-537) run to the end. -/
def getAnnotations (d : Document) (F : Nat) (key : Nat) (t : AnnotationType) (set : Cmp String) (r : Recursion) : Res (List Nat) :=
  getElements d F key t.elementtype set r

/-- `Element::get_feature` (src/element.rs:575-581). -/
def getFeature (d : Document) (F : Nat) (key : Nat) (e : ElementData) (subset : Cmp String) : Res (Option Nat) := do
  let q ← featureQuery d e subset
  let s ← unwrapRes (Selector.fromQuery d q)
  selectFirst d F key s .no

/-- `Element::get_ancestor` (src/element.rs:585-591). -/
def getAncestor (d : Document) (F : Nat) (key : Nat) (t : ElementType) (set : Cmp String) : Res (Option Nat) := do
  let s ← unwrapRes (Selector.fromQuery d { elementtype := .is t, set })
  ancNext d s .always F key

/-- `Element::get_ancestor_by_group` (src/element.rs:595-601). -/
def getAncestorByGroup (d : Document) (F : Nat) (key : Nat) (g : ElementGroup) (set : Cmp String) : Res (Option Nat) := do
  let s ← unwrapRes (Selector.fromQuery d { elementgroup := .is g, set })
  ancNext d s .always F key

end Folia
