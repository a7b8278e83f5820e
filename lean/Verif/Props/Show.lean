import Verif.Show
import Verif.Props.Tables
/-! C93: types and attributes can be shown. -/
namespace Folia

/-- The value of an attribute is not a key, and there is one. -/
def Attribute.Plain (a : Attribute) : Prop := a ≠ .ignore ∧ a.decodable = false

/-- An attribute can be shown exactly if its value is not a key; otherwise showing it panics. -/
theorem C93_attributes (X : Ext) (a : Attribute) : (a.Plain → ∃ s, a.display X = .ok s) ∧ (¬ a.Plain → a.display X = .error .panic) := by
  cases a <;> simp [Attribute.Plain, Attribute.decodable, Attribute.display, Attribute.asStr, Attribute.toStr, expect]

/-- What is shown for an attribute with a string is that string, and the flags are shown as `yes` and `no`. -/
theorem C93_values (X : Ext) (s : String) (b : Bool) : (Attribute.cls s).display X = .ok s ∧ (Attribute.set s).display X = .ok s ∧
    (Attribute.id s).display X = .ok s ∧ (Attribute.n s).display X = .ok s ∧ (Attribute.space b).display X = .ok (if b then "yes" else "no") ∧
    (Attribute.newPage b).display X = .ok (if b then "yes" else "no") := ⟨rfl, rfl, rfl, rfl, rfl, rfl⟩

/-- Element types, annotation types and types of processors can be shown, and different ones are shown differently. -/
theorem C93_types :
    (∀ t u : ElementType, ∃ s, t.display = .ok s ∧ ElementType.fromStr s = some t ∧ (u.display = .ok s ↔ u = t)) ∧
    (∀ t u : AnnotationType, ∃ s, t.display = .ok s ∧ (u.display = .ok s ↔ u = t)) ∧
    ∀ t u : ProcessorType, ∃ s, t.display = .ok s ∧ (u.display = .ok s ↔ u = t) := by
  refine ⟨fun t u => ⟨t.asStr, rfl, t.fromStr_asStr, fun h => ?_, fun h => by rw [h]; rfl⟩,
    fun t u => ⟨t.asStr, rfl, fun h => ?_, fun h => by rw [h]; rfl⟩, fun t u => ⟨t.asStr, rfl, fun h => ?_, fun h => by rw [h]; rfl⟩⟩
  · exact C40_tag_injective u t (Except.ok.inj h)
  · have h1 : declTag { annotationtype := u } = declTag { annotationtype := t } := by
      unfold declTag
      rw [show u.asStr = t.asStr from Except.ok.inj h]
    exact C41_tags_distinct _ _ h1
  · have := Except.ok.inj h
    cases t <;> cases u <;> first | rfl | (revert this; decide)

/-- Attribute types can never be shown: the call does not end. -/
theorem C93_attribtype_diverges (t : AttribType) (n : Nat) : t.display n = .error .fuel := by
  induction n with
  | zero => rfl
  | succ n ih => exact ih

/-- The name of an attribute type exists, and showing it does not end. -/
theorem C93_counterexample : AttribType.asStr .CLASS = "class" ∧ ∀ n, AttribType.display n .CLASS = .error .fuel :=
  ⟨by decide, C93_attribtype_diverges _⟩

/-- There are attributes of both kinds. -/
example : (Attribute.cls "N").Plain ∧ (Attribute.offset 3).Plain ∧ ¬ (Attribute.classRef 0).Plain ∧ ¬ Attribute.ignore.Plain := by
  simp [Attribute.Plain, Attribute.decodable]

end Folia
