import Verif.Element
import Verif.Lemmas.Digits
/-! C39 (attributes survive printing and parsing) and C55 (attribute updates). -/
namespace Folia

/-! ### C39 -/

/-- The range conditions on attribute values that the Rust types or the printed form impose: `u16` numbers, calendar dates with whole
seconds, and floating point numbers whose printed form is read back. -/
def Attribute.PrintsExactly (X : Ext) : Attribute → Prop
  | .offset i | .lineNr i => i < 2 ^ 16
  | .dateTime d => d.valid = true ∧ d.whole
  | .confidence f => X.parseF64 (X.showF64 f) = some f
  | _ => True

/-- Every attribute that can be printed is read back from its name and printed value. -/
theorem C39_print_parse (X : Ext) (a : Attribute) (v : String) (h : a.display X = .ok v) (hw : a.PrintsExactly X) :
    Attribute.parse X a.attribtype.asStr v = some a := by
  cases a with
  | annotatorType t =>
    cases t <;>
    · simp only [Attribute.display, Attribute.asStr, Except.ok.injEq] at h
      subst h; rfl
  | space b =>
    cases b <;>
    · simp only [Attribute.display, Attribute.asStr, Except.ok.injEq] at h
      subst h; rfl
  | newPage b =>
    cases b <;>
    · simp only [Attribute.display, Attribute.asStr, Except.ok.injEq] at h
      subst h; rfl
  | offset i =>
    simp only [Attribute.display, Attribute.asStr, Attribute.toStr, expect, Except.ok.injEq] at h
    subst h
    show (parseU16 _).map Attribute.offset = _
    rw [parseU16_toDigits i hw]; rfl
  | lineNr i =>
    simp only [Attribute.display, Attribute.asStr, Attribute.toStr, expect, Except.ok.injEq] at h
    subst h
    show (parseU16 _).map Attribute.lineNr = _
    rw [parseU16_toDigits i hw]; rfl
  | dateTime d =>
    simp only [Attribute.display, Attribute.asStr, Attribute.toStr, expect, Except.ok.injEq] at h
    subst h
    show (DateTime.parse fmtSeconds _).map Attribute.dateTime = _
    rw [String.toList_ofList, DateTime.parse_format d hw.1 hw.2]; rfl
  | confidence f =>
    simp only [Attribute.display, Attribute.asStr, Attribute.toStr, expect, Except.ok.injEq] at h
    subst h
    show (X.parseF64 _).map Attribute.confidence = _
    rw [show X.parseF64 (X.showF64 f) = some f from hw]; rfl
  | ignore | declarationRef | classRef | processorRef | subsetRef =>
    simp [Attribute.display, Attribute.asStr, Attribute.toStr, expect] at h
  | _ =>
    simp only [Attribute.display, Attribute.asStr, Except.ok.injEq] at h
    subst h; rfl

/-- Which attributes can be printed: all but the ignored ones and the encoded references. -/
theorem C39_printable_iff (X : Ext) (a : Attribute) : (∃ v, a.display X = .ok v) ↔ a ≠ .ignore ∧ a.decodable = false := by
  cases a <;> simp [Attribute.display, Attribute.asStr, Attribute.toStr, expect, Attribute.decodable]

/-- Distinct printable attributes of one element type never print to the same name and value. -/
theorem C39_print_injective (X : Ext) (a b : Attribute) (v : String) (ha : a.display X = .ok v) (hb : b.display X = .ok v)
    (hwa : a.PrintsExactly X) (hwb : b.PrintsExactly X) (hn : a.attribtype.asStr = b.attribtype.asStr) : a = b := by
  have h1 := C39_print_parse X a v ha hwa
  have h2 := C39_print_parse X b v hb hwb
  rw [hn, h2] at h1
  exact (Option.some.inj h1).symm

/-- The leap-second and whole-second restriction is needed: a date-time with a fraction of a second is printed without it and is read
back as a different value. -/
theorem C39_subsecond_counterexample : ∃ (X : Ext) (a : Attribute) (v : String), a.display X = .ok v ∧
    (∀ d, a = .dateTime d → d.valid = true) ∧ Attribute.parse X a.attribtype.asStr v ≠ some a := by
  refine ⟨⟨fun _ => "", fun _ => none⟩,
    .dateTime { year := 2020, month := 1, day := 2, hour := 3, minute := 4, second := 5, nano := 500000000 }, "2020-01-02T03:04:05", ?_, ?_, ?_⟩
  · decide +kernel
  · rintro d h; cases h; decide +kernel
  · decide +kernel

example : Attribute.display ⟨fun _ => "", fun _ => none⟩ (.dateTime { year := 2020, month := 1, day := 2, hour := 3, minute := 4, second := 5 }) =
    .ok "2020-01-02T03:04:05" := by decide +kernel
example : (Attribute.dateTime { year := 2020, month := 1, day := 2, hour := 3, minute := 4, second := 5 }).PrintsExactly
    ⟨fun _ => "", fun _ => none⟩ := ⟨by decide +kernel, Or.inl rfl⟩
example : (Attribute.offset 65535).PrintsExactly ⟨fun _ => "", fun _ => none⟩ := by show (65535 : Nat) < 2 ^ 16; decide

/-! ### C55 -/

/-- Deleting leaves exactly the attributes of the other types when there is at most one of the deleted type. -/
theorem eraseFirst_eq_filter (as : List Attribute) (t : AttribType) (hnd : (as.map Attribute.attribtype).Nodup) :
    (match as.findIdx? (·.attribtype == t) with
      | some i => as.eraseIdx i
      | none => as) = as.filter (·.attribtype != t) := by
  induction as with
  | nil => rfl
  | cons a as ih =>
    rw [List.map_cons, List.nodup_cons] at hnd
    rw [List.findIdx?_cons]
    by_cases h : a.attribtype = t
    · subst h
      simp only [beq_self_eq_true, if_true, List.eraseIdx_zero, List.tail_cons]
      rw [List.filter_cons_of_neg (by simp), List.filter_eq_self.mpr]
      intro b hb
      simp only [bne_iff_ne, ne_eq]
      intro hc
      exact hnd.1 (List.mem_map.mpr ⟨b, hb, hc⟩)
    · rw [if_neg (by simpa using h), List.filter_cons_of_pos (by simpa using h)]
      have := ih hnd.2
      cases hf : as.findIdx? (·.attribtype == t) with
      | none => rw [hf] at this; simpa using this
      | some i => rw [hf] at this; simpa using this

theorem setAttrib_attribs (e : ElementData) (a : Attribute) (hnd : (e.attribs.map Attribute.attribtype).Nodup) :
    (e.setAttrib a).attribs = e.attribs.filter (·.attribtype != a.attribtype) ++ [a] := by
  have := eraseFirst_eq_filter e.attribs a.attribtype hnd
  unfold ElementData.setAttrib ElementData.delAttrib
  cases h : e.attribs.findIdx? (·.attribtype == a.attribtype) with
  | none => rw [h] at this; simp only at this ⊢; rw [← this]
  | some i => rw [h] at this; simp only at this ⊢; rw [← this]

/-- An element whose attributes all have different types. -/
def ElementData.DistinctAttribs (e : ElementData) : Prop := (e.attribs.map Attribute.attribtype).Nodup

/-- Setting an attribute keeps the attribute types distinct, makes the new attribute the one that is read for its type, leaves every
other attribute type as it was, and touches nothing else. -/
theorem C55_set_attrib (e : ElementData) (a : Attribute) (h : e.DistinctAttribs) :
    (e.setAttrib a).DistinctAttribs ∧ (e.setAttrib a).attrib a.attribtype = some a ∧
    (∀ t, t ≠ a.attribtype → (e.setAttrib a).attrib t = e.attrib t) ∧
    (∀ b ∈ e.attribs, b.attribtype ≠ a.attribtype → b ∈ (e.setAttrib a).attribs) ∧
    (e.setAttrib a).elementtype = e.elementtype ∧ (e.setAttrib a).data = e.data ∧ (e.setAttrib a).key = e.key ∧
    (e.setAttrib a).parent = e.parent := by
  have hs := setAttrib_attribs e a h
  have hfilter : ∀ t, t ≠ a.attribtype →
      (e.attribs.filter (·.attribtype != a.attribtype)).find? (·.attribtype == t) = e.attribs.find? (·.attribtype == t) := by
    intro t ht
    rw [List.find?_filter]
    congr 1
    funext b
    by_cases hb : b.attribtype = t
    · subst hb; simp [ht]
    · simp [hb]
  refine ⟨?_, ?_, ?_, ?_, ?_⟩
  · unfold ElementData.DistinctAttribs
    rw [hs, List.map_append, List.nodup_append]
    refine ⟨List.Sublist.nodup (List.Sublist.map _ List.filter_sublist) h, by simp, ?_⟩
    simp only [List.mem_map, List.mem_filter, List.map_cons, List.map_nil, List.mem_singleton]
    rintro _ ⟨b, ⟨_, hb⟩, rfl⟩ _ rfl
    simpa using hb
  · unfold ElementData.attrib
    rw [hs, List.find?_append, List.find?_eq_none.mpr]
    · simp
    · simp
  · intro t ht
    unfold ElementData.attrib
    rw [hs, List.find?_append, hfilter t ht]
    have : a.attribtype ≠ t := fun h => ht h.symm
    simp [this]
  · intro b hb hne
    rw [hs]
    simp [hb, hne]
  · unfold ElementData.setAttrib ElementData.delAttrib
    cases e.attribs.findIdx? (·.attribtype == a.attribtype) <;> simp

/-- The last attribute of a given type in a list. -/
def lastOfType (t : AttribType) (as : List Attribute) : Option Attribute := (as.filter (·.attribtype == t)).getLast?

/-- An element built from nothing by `set_attrib`/`with_attrib` calls never holds two attributes of one type, and for every type it
reads back the last value set for that type. -/
theorem C55_last_write_wins (t : ElementType) (as : List Attribute) :
    (as.foldl ElementData.setAttrib (ElementData.new t)).DistinctAttribs ∧
    ∀ at_, (as.foldl ElementData.setAttrib (ElementData.new t)).attrib at_ = lastOfType at_ as := by
  suffices ∀ (n : Nat) (as : List Attribute), as.length = n → (as.foldl ElementData.setAttrib (ElementData.new t)).DistinctAttribs ∧
    ∀ at_, (as.foldl ElementData.setAttrib (ElementData.new t)).attrib at_ = lastOfType at_ as from this _ as rfl
  intro n
  induction n with
  | zero =>
    intro as h
    rw [List.length_eq_zero_iff] at h
    subst h
    exact ⟨List.nodup_nil, fun _ => rfl⟩
  | succ n ih =>
    intro as h
    obtain ⟨as, a, rfl⟩ : ∃ xs x, as = xs ++ [x] := ⟨as.dropLast, as.getLast (by rintro rfl; simp at h), (List.dropLast_concat_getLast _).symm⟩
    obtain ⟨h1, h2⟩ := ih as (by simpa using h)
    rw [List.foldl_append]
    have := C55_set_attrib _ a h1
    refine ⟨this.1, fun at_ => ?_⟩
    by_cases hat : at_ = a.attribtype
    · subst hat
      simp only [List.foldl_cons, List.foldl_nil]
      rw [this.2.1]
      simp [lastOfType, List.filter_append]
    · simp only [List.foldl_cons, List.foldl_nil]
      rw [this.2.2.1 at_ hat, h2 at_]
      have hne : a.attribtype ≠ at_ := fun h => hat h.symm
      simp [lastOfType, List.filter_append, hne]

/-- Distinctness is needed: on an element that was given two attributes of one type in bulk (`with_attribs`), the old second value
survives `set_attrib` and is the one that is read. -/
theorem C55_duplicates_counterexample : ∃ (e : ElementData) (a : Attribute), (e.setAttrib a).attrib a.attribtype ≠ some a := by
  refine ⟨(ElementData.new .word).withAttribs [.n "1", .n "2"], .n "3", ?_⟩
  decide +kernel

example : ((ElementData.new .word).setAttrib (.n "1")).DistinctAttribs := by
  unfold ElementData.DistinctAttribs; decide +kernel
example : ([Attribute.n "1", .cls "a", .n "2"].foldl ElementData.setAttrib (ElementData.new .word)).attrib .N = some (.n "2") := by
  decide +kernel

end Folia
