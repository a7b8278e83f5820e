import Verif.Parser
import Verif.Serialiser
/-! Tags and tables: C40, C41, C53. The tables are finite, so the statements about types are checked for every type by the kernel;
those about tags hold for every string. -/
namespace Folia

theorem ElementType.mem_all (t : ElementType) : t ∈ ElementType.all := by
  cases t <;> decide +kernel
theorem AnnotationType.mem_all (t : AnnotationType) : t ∈ AnnotationType.all := by
  cases t <;> decide +kernel

theorem lookupStr_mem {α : Type} (l : List (String × α)) (s : String) (a : α) (h : lookupStr l s = some a) : (s, a) ∈ l := by
  induction l with
  | nil => simp [lookupStr] at h
  | cons p rest ih =>
    obtain ⟨k, v⟩ := p
    simp only [lookupStr] at h
    split at h
    · simp_all
    · exact List.mem_cons_of_mem _ (ih h)

/-! ### C40 -/

theorem ElementType.fromStr_asStr (t : ElementType) : ElementType.fromStr t.asStr = some t := by
  have h : ∀ t ∈ ElementType.all, ElementType.fromStr t.asStr = some t := by decide +kernel
  exact h t t.mem_all

/-- C40: a string parses as an element type exactly if it is that type's tag. -/
theorem C40_tag_bijection (s : String) (t : ElementType) : ElementType.fromStr s = some t ↔ s = t.asStr := by
  constructor
  · intro h
    have hall : ∀ p ∈ ElementType.fromStrTable, p.1 = p.2.asStr := by decide +kernel
    exact hall _ (lookupStr_mem _ _ _ h)
  · rintro rfl; exact t.fromStr_asStr

/-- C40: different element types have different tags. -/
theorem C40_tag_injective (t u : ElementType) (h : t.asStr = u.asStr) : t = u := by
  have := t.fromStr_asStr
  rw [h, u.fromStr_asStr] at this
  exact (Option.some.inj this).symm

example : ElementType.fromStr "w" = some .word ∧ ElementType.fromStr "nonsense" = none := by decide +kernel

/-! ### C41 -/

theorem AnnotationType.fromStr_asStr (t : AnnotationType) : AnnotationType.fromStr t.asStr = some t := by
  have h : ∀ t ∈ AnnotationType.all, AnnotationType.fromStr t.asStr = some t := by decide +kernel
  exact h t t.mem_all

theorem AnnotationType.fromStr_some (s : String) (t : AnnotationType) (h : AnnotationType.fromStr s = some t) : s = t.asStr := by
  have hall : ∀ p ∈ AnnotationType.fromStrTable, p.1 = p.2.asStr := by decide +kernel
  exact hall _ (lookupStr_mem _ _ _ h)

theorem AnnotationType.asStr_inj {t u : AnnotationType} (h : t.asStr = u.asStr) : t = u := by
  have := t.fromStr_asStr
  rw [h, u.fromStr_asStr] at this
  exact (Option.some.inj this).symm

theorem AnnotationType.asStr_noDash (t : AnnotationType) : '-' ∉ t.asStr.toList := by
  have h : ∀ t ∈ AnnotationType.all, '-' ∉ t.asStr.toList := by decide +kernel
  exact h t t.mem_all

theorem AnnotationType.asStr_noSlash (t : AnnotationType) : '/' ∉ t.asStr.toList := by
  have h : ∀ t ∈ AnnotationType.all, '/' ∉ t.asStr.toList := by decide +kernel
  exact h t t.mem_all

/-- C41: a string is accepted as a declaration tag for an annotation type exactly if it is that type's name followed by
`-annotation`. -/
theorem C41_declaration_tag (s : String) (t : AnnotationType) :
    getDeclarationType s = .ok t ↔ s = t.asStr ++ "-annotation" := by
  constructor
  · intro h
    simp only [getDeclarationType] at h
    split at h
    · rename_i hsuf
      simp only [okOr] at h
      split at h
      · rename_i a ha
        simp only [Except.ok.injEq] at h
        subst h
        have h1 := AnnotationType.fromStr_some _ _ ha
        have h2 : s.toList.takeWhile (· != '-') ++ s.toList.dropWhile (· != '-') = s.toList := List.takeWhile_append_dropWhile
        rw [hsuf] at h2
        rw [← h1, ← String.toList_inj, String.toList_append, String.toList_ofList, h2]
      · simp at h
    · simp at h
  · rintro rfl
    have hd := t.asStr_noDash
    have hall : ∀ x ∈ t.asStr.toList, (x != '-') = true := by
      intro x hx
      simp only [bne_iff_ne, ne_eq]
      rintro rfl
      exact hd hx
    have h0 : ("-annotation".toList).takeWhile (· != '-') = [] ∧ ("-annotation".toList).dropWhile (· != '-') = "-annotation".toList := by
      decide
    have hs : (t.asStr ++ "-annotation").toList.takeWhile (· != '-') = t.asStr.toList := by
      rw [String.toList_append, List.takeWhile_append_of_pos hall, h0.1, List.append_nil]
    have hs' : (t.asStr ++ "-annotation").toList.dropWhile (· != '-') = "-annotation".toList := by
      rw [String.toList_append, List.dropWhile_append_of_pos hall, h0.2]
    simp only [getDeclarationType, hs, hs', String.ofList_toList, t.fromStr_asStr, okOr, if_true]

/-- C41: what the serialiser writes as tag of a declaration is parsed back to the declaration's annotation type. -/
theorem C41_written_tag_is_parsed (dec : Declaration) : getDeclarationType (declTag dec) = .ok dec.annotationtype :=
  (C41_declaration_tag _ _).mpr rfl

/-- C41: no two annotation types share a declaration tag. -/
theorem C41_tags_distinct (d1 d2 : Declaration) (h : declTag d1 = declTag d2) : d1.annotationtype = d2.annotationtype := by
  have := C41_written_tag_is_parsed d1
  rw [h, C41_written_tag_is_parsed d2] at this
  exact (Except.ok.inj this).symm

example : getDeclarationType "pos-annotation" = .ok .POS ∧ getDeclarationType "pos-annotation-x" = .error (.err .parse) ∧
    getDeclarationType "pos" = .error (.err .parse) := by decide +kernel

/-! ### C53 -/

/-- C53: the property table and the type table agree on the annotation type of every element type. -/
theorem C53_annotationtype_tables_agree (t : ElementType) : (props t).annotationtype = t.annotationtype := by
  have h : ∀ t ∈ ElementType.all, (props t).annotationtype = t.annotationtype := by decide +kernel
  exact h t t.mem_all

/-- C53: the property table and the type table agree on the tag of every element type that has a tag in the property table. -/
theorem C53_tag_tables_agree_partial (t : ElementType) (h : (props t).xmltag ≠ "") : (props t).xmltag = t.asStr := by
  have h' : ∀ t ∈ ElementType.all, (props t).xmltag ≠ "" → (props t).xmltag = t.asStr := by decide +kernel
  exact h' t t.mem_all h

/-- C53: the element types without a tag in the property table are exactly the features that have a fixed subset. -/
theorem C53_tagless_types (t : ElementType) :
    (props t).xmltag = "" ↔ (ElementGroup.feature.contains t = true ∧ t ≠ .feature) := by
  have h' : ∀ t ∈ ElementType.all, (props t).xmltag = "" ↔ (ElementGroup.feature.contains t = true ∧ t ≠ .feature) := by decide +kernel
  exact h' t t.mem_all

/-- C53: the tables disagree on the tag of a feature with a fixed subset. -/
theorem C53_tag_tables_counterexample : ¬ ∀ t, (props t).xmltag = t.asStr := by
  intro h; have := h .headFeature; revert this; decide +kernel

/-- C53: the main element of an annotation type has that annotation type and the tag that the type table gives for it. -/
theorem C53_main_element (t : AnnotationType) : t.elementtype.annotationtype = some t ∧ t.elementtype.asStr = t.asElementStr := by
  have h : ∀ t ∈ AnnotationType.all, t.elementtype.annotationtype = some t ∧ t.elementtype.asStr = t.asElementStr := by decide +kernel
  exact h t t.mem_all

/-- C53: every span annotation has an annotation type with a layer type; that layer is in the layer group and accepts the span. -/
theorem C53_span_layer (t : ElementType) (h : ElementGroup.span.contains t = true) :
    ∃ a l, t.annotationtype = some a ∧ a.layertype = some l ∧ ElementGroup.layer.contains l = true ∧
      (props l).acceptedData.any (·.covers t) = true := by
  have h' : ∀ t ∈ ElementType.all, ElementGroup.span.contains t = true →
      (match t.annotationtype with
      | some a => match a.layertype with
        | some l => ElementGroup.layer.contains l && (props l).acceptedData.any (·.covers t)
        | none => false
      | none => false) = true := by decide +kernel
  have := h' t t.mem_all h
  split at this
  · split at this
    · simp only [Bool.and_eq_true] at this
      exact ⟨_, _, ‹_›, ‹_›, this.1, this.2⟩
    · simp at this
  · simp at this

/-- C53: a layer's annotation type has exactly this layer as its layer type. -/
theorem C53_layer_type (t : ElementType) (h : ElementGroup.layer.contains t = true) :
    ∃ a, t.annotationtype = some a ∧ a.layertype = some t := by
  have h' : ∀ t ∈ ElementType.all, ElementGroup.layer.contains t = true →
      (match t.annotationtype with
      | some a => decide (a.layertype = some t)
      | none => false) = true := by decide +kernel
  have := h' t t.mem_all h
  split at this
  · exact ⟨_, ‹_›, by simpa using this⟩
  · simp at this

example : ElementGroup.span.contains .entity = true ∧ ElementGroup.layer.contains .entitiesLayer = true := by decide +kernel

end Folia
