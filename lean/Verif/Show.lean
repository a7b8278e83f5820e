import Verif.Attrib
import Verif.Text
/-! `Display` of types and errors. -/
namespace Folia

/-- `Into<&str> for AttribType` is `AttribType.asStr`. `Display for AttribType` (src/attrib.rs:65-69) formats itself with `{}`, which calls itself
again; the fuel stands for the stack. -/
def AttribType.display : Nat → AttribType → Res String
  | 0, _ => .error .fuel
  | n + 1, t => AttribType.display n t

/-- `Display for ElementType` and `Debug for ElementType` (src/types.rs:625-635). -/
def ElementType.display (t : ElementType) : Res String := .ok t.asStr

/-- `Display for AnnotationType` (src/types.rs:303-307). -/
def AnnotationType.display (t : AnnotationType) : Res String := .ok t.asStr

/-- `Display for ProcessorType` (src/metadata.rs:353-357). -/
def ProcessorType.display (t : ProcessorType) : Res String := .ok t.asStr

end Folia
