import Verif.Lemmas.Traced
import Verif.Lemmas.RoundHead
import Verif.Head
/-! Helper lemmas about reading the part of a source in front of its body. -/
namespace Folia
open Document

/-! ### Attributes -/

theorem attrValue_bad (rest : List RAttr) (n : String) : attrValue (.bad :: rest) n = attrValue rest n := rfl

theorem forAttrs_value {σ : Type} {f : String → String → σ → σ} (g : σ → Option String) (name : String)
    (hf : ∀ k v s, g (f k v s) = if k = name then some v else g s) : ∀ (as : List RAttr) {s s' : σ}, forAttrs f as s = .ok s' → g s' = (attrValue as name).or (g s)
  | [], s, s', h => by cases h; rfl
  | .bad :: _, s, s', h => by cases h
  | .ok k v :: rest, s, s', h => by
    simp only [forAttrs] at h
    rw [attrValue_cons]
    cases hu : unescape v with
    | none =>
      rw [hu] at h
      rw [forAttrs_value g name hf rest h]
      simp
    | some w =>
      rw [hu] at h
      rw [forAttrs_value g name hf rest h, hf]
      by_cases hk : k = name
      · simp only [if_pos hk]; cases attrValue rest name <;> rfl
      · simp only [if_neg hk]; cases attrValue rest name <;> rfl

theorem metaKey_cons (k v : String) (rest : List RAttr) :
    metaKey (.ok k v :: rest) = (metaKey rest).or (if k = "id" ∨ k = "xml:id" then unescape v else none) := by
  unfold metaKey
  simp only [List.filterMap_cons]
  by_cases h : k = "id" ∨ k = "xml:id"
  · simp only [if_pos h]
    cases unescape v with
    | none => simp
    | some x =>
      simp only [List.getLast?_cons]
      cases List.getLast? _ <;> rfl
  · simp only [if_neg h]
    simp

theorem forAttrs_key : ∀ (as : List RAttr) {s s' : MetaSt},
    forAttrs (fun k v (st : MetaSt) => if k = "id" ∨ k = "xml:id" then { st with metaId := some v } else st) as s = .ok s' → s' = { s with metaId := (metaKey as).or s.metaId }
  | [], s, s', h => by cases h; rfl
  | .bad :: _, s, s', h => by cases h
  | .ok k v :: rest, s, s', h => by
    simp only [forAttrs] at h
    rw [metaKey_cons]
    cases hu : unescape v with
    | none =>
      rw [hu] at h
      rw [forAttrs_key rest h]
      simp
    | some w =>
      rw [hu] at h
      rw [forAttrs_key rest h]
      by_cases hk : k = "id" ∨ k = "xml:id"
      · simp only [if_pos hk]; cases metaKey rest <;> rfl
      · simp only [if_neg hk]; cases metaKey rest <;> rfl

theorem parseDeclaration_read {t : AnnotationType} {as : List RAttr} {dec : Declaration} (h : parseDeclaration (t.asStr ++ "-annotation") as = .ok dec) :
    dec = Declaration.new t (attrValue as "set") (attrValue as "alias") (attrValue as "format") := by
  unfold parseDeclaration at h
  rw [show t.asStr ++ "-annotation" = declTag (Declaration.new t none none none) from rfl, declTag_parse] at h
  simp only [bind, Except.bind] at h
  have h1 := forAttrs_value (fun d : Declaration => d.set) "set" (by
    intro k v s
    by_cases h1 : k = "set"
    · simp only [if_pos h1]
    · simp only [if_neg h1]; repeat' split
      all_goals rfl) as h
  have h2 := forAttrs_value (fun d : Declaration => d.alias) "alias" (by
    intro k v s
    by_cases h1 : k = "set"
    · subst h1; rfl
    · simp only [if_neg h1]; repeat' split
      all_goals rfl) as h
  have h3 := forAttrs_value (fun d : Declaration => d.format) "format" (by
    intro k v s
    by_cases h1 : k = "set"
    · subst h1; rfl
    · by_cases h2 : k = "alias"
      · subst h2; rfl
      · simp only [if_neg h1, if_neg h2]; repeat' split
        all_goals rfl) as h
  have h4 := forAttrs_inv (I := fun s : Declaration => s = Declaration.new t s.set s.alias s.format) (by
    intro k v s hs
    repeat' split
    all_goals rw [hs]; rfl) h rfl
  rw [h4, h1, h2, h3]
  simp [Declaration.new]

/-- A processor after reading attributes. -/
def procRead (p : Processor) (as : List RAttr) : Processor :=
  { p with
    id := match attrValue as "xml:id" with | some v => v | none => p.id
    name := match attrValue as "name" with | some v => v | none => p.name
    processortype := match (attrValue as "type").bind ProcessorType.fromStr with | some v => v | none => p.processortype
    version := match attrValue as "version" with | some v => v | none => p.version
    foliaVersion := match attrValue as "folia_version" with | some v => v | none => p.foliaVersion
    documentVersion := match attrValue as "document_version" with | some v => v | none => p.documentVersion
    command := match attrValue as "command" with | some v => v | none => p.command
    host := match attrValue as "host" with | some v => v | none => p.host
    user := match attrValue as "user" with | some v => v | none => p.user
    begindatetime := ((attrValue as "begindatetime").bind fun v => DateTime.parse fmtDollarS v.toList).or p.begindatetime
    enddatetime := ((attrValue as "enddatetime").bind fun v => DateTime.parse fmtDollarS v.toList).or p.enddatetime
    src := match attrValue as "src" with | some v => v | none => p.src
    format := match attrValue as "format" with | some v => v | none => p.format
    resourcelink := match attrValue as "resourcelink" with | some v => v | none => p.resourcelink }

theorem procAttr_read {n w : String} : ∀ (as : List RAttr) {p p' : Processor}, parseProcessor p as = .ok p' → attrValue as n = some w → ∃ a b, procAttr a n w = some b
  | [], p, p', h, hv => by cases hv
  | .bad :: rest, p, p', h, hv => by
    simp only [parseProcessor] at h
    exact procAttr_read rest h hv
  | .ok k v :: rest, p, p', h, hv => by
    simp only [parseProcessor] at h
    rw [attrValue_cons] at hv
    cases hu : unescape v with
    | none => rw [hu] at h; cases h
    | some value =>
      rw [hu] at h hv
      simp only at h
      cases ha : procAttr p k value with
      | none => rw [ha] at h; cases h
      | some q =>
        rw [ha] at h
        cases hr : attrValue rest n with
        | some w' =>
          rw [hr] at hv; cases hv
          exact procAttr_read rest h hr
        | none =>
          rw [hr] at hv
          by_cases hk : k = n
          · rw [if_pos hk] at hv
            cases hv
            subst hk
            exact ⟨_, _, ha⟩
          · rw [if_neg hk] at hv; cases hv

theorem type_read {as : List RAttr} {p p' : Processor} (h : parseProcessor p as = .ok p') {w : String} (hv : attrValue as "type" = some w) : ∃ t, ProcessorType.fromStr w = some t := by
  obtain ⟨a, b, hab⟩ := procAttr_read as h hv
  have hab : (ProcessorType.fromStr w).map (fun t => { a with processortype := t }) = some b := hab
  cases ht : ProcessorType.fromStr w with
  | none => rw [ht] at hab; cases hab
  | some t => exact ⟨t, rfl⟩

theorem begin_read {as : List RAttr} {p p' : Processor} (h : parseProcessor p as = .ok p') {w : String} (hv : attrValue as "begindatetime" = some w) :
    ∃ t, DateTime.parse fmtDollarS w.toList = some t := by
  obtain ⟨a, b, hab⟩ := procAttr_read as h hv
  have hab : (DateTime.parse fmtDollarS w.toList).map (fun t => { a with begindatetime := some t }) = some b := hab
  cases ht : DateTime.parse fmtDollarS w.toList with
  | none => rw [ht] at hab; cases hab
  | some t => exact ⟨t, rfl⟩

theorem end_read {as : List RAttr} {p p' : Processor} (h : parseProcessor p as = .ok p') {w : String} (hv : attrValue as "enddatetime" = some w) :
    ∃ t, DateTime.parse fmtDollarS w.toList = some t := by
  obtain ⟨a, b, hab⟩ := procAttr_read as h hv
  have hab : (DateTime.parse fmtDollarS w.toList).map (fun t => { a with enddatetime := some t }) = some b := hab
  cases ht : DateTime.parse fmtDollarS w.toList with
  | none => rw [ht] at hab; cases hab
  | some t => exact ⟨t, rfl⟩

theorem procRead_step {p q p' : Processor} {k v value : String} {rest : List RAttr} (hu : unescape v = some value) (ha : procAttr p k value = some q)
    (h : parseProcessor q rest = .ok p') : procRead q rest = procRead p (.ok k v :: rest) := by
  have hty := @type_read rest q p' h
  have hbe := @begin_read rest q p' h
  have hen := @end_read rest q p' h
  unfold procAttr at ha
  by_cases hk : k = "xml:id"
  · rw [if_pos hk] at ha
    subst hk; cases ha
    simp only [procRead, attrValue_cons, hu]; simp
    cases attrValue rest "xml:id" <;> rfl
  rw [if_neg hk] at ha; clear hk
  by_cases hk : k = "name"
  · rw [if_pos hk] at ha
    subst hk; cases ha
    simp only [procRead, attrValue_cons, hu]; simp
    cases attrValue rest "name" <;> rfl
  rw [if_neg hk] at ha; clear hk
  by_cases hk : k = "version"
  · rw [if_pos hk] at ha
    subst hk; cases ha
    simp only [procRead, attrValue_cons, hu]; simp
    cases attrValue rest "version" <;> rfl
  rw [if_neg hk] at ha; clear hk
  by_cases hk : k = "folia_version"
  · rw [if_pos hk] at ha
    subst hk; cases ha
    simp only [procRead, attrValue_cons, hu]; simp
    cases attrValue rest "folia_version" <;> rfl
  rw [if_neg hk] at ha; clear hk
  by_cases hk : k = "document_version"
  · rw [if_pos hk] at ha
    subst hk; cases ha
    simp only [procRead, attrValue_cons, hu]; simp
    cases attrValue rest "document_version" <;> rfl
  rw [if_neg hk] at ha; clear hk
  by_cases hk : k = "command"
  · rw [if_pos hk] at ha
    subst hk; cases ha
    simp only [procRead, attrValue_cons, hu]; simp
    cases attrValue rest "command" <;> rfl
  rw [if_neg hk] at ha; clear hk
  by_cases hk : k = "host"
  · rw [if_pos hk] at ha
    subst hk; cases ha
    simp only [procRead, attrValue_cons, hu]; simp
    cases attrValue rest "host" <;> rfl
  rw [if_neg hk] at ha; clear hk
  by_cases hk : k = "user"
  · rw [if_pos hk] at ha
    subst hk; cases ha
    simp only [procRead, attrValue_cons, hu]; simp
    cases attrValue rest "user" <;> rfl
  rw [if_neg hk] at ha; clear hk
  by_cases hk : k = "begindatetime"
  · rw [if_pos hk] at ha
    subst hk
    cases hd : DateTime.parse fmtDollarS value.toList with
    | none => rw [hd] at ha; cases ha
    | some t =>
      rw [hd] at ha; cases ha
      simp only [procRead, attrValue_cons, hu]
      cases hr : attrValue rest "begindatetime" with
      | none => simp [hd]
      | some w => obtain ⟨t', ht'⟩ := hbe hr; simp [ht']
  rw [if_neg hk] at ha; clear hk
  by_cases hk : k = "enddatetime"
  · rw [if_pos hk] at ha
    subst hk
    cases hd : DateTime.parse fmtDollarS value.toList with
    | none => rw [hd] at ha; cases ha
    | some t =>
      rw [hd] at ha; cases ha
      simp only [procRead, attrValue_cons, hu]
      cases hr : attrValue rest "enddatetime" with
      | none => simp [hd]
      | some w => obtain ⟨t', ht'⟩ := hen hr; simp [ht']
  rw [if_neg hk] at ha; clear hk
  by_cases hk : k = "src"
  · rw [if_pos hk] at ha
    subst hk; cases ha
    simp only [procRead, attrValue_cons, hu]; simp
    cases attrValue rest "src" <;> rfl
  rw [if_neg hk] at ha; clear hk
  by_cases hk : k = "format"
  · rw [if_pos hk] at ha
    subst hk; cases ha
    simp only [procRead, attrValue_cons, hu]; simp
    cases attrValue rest "format" <;> rfl
  rw [if_neg hk] at ha; clear hk
  by_cases hk : k = "resourcelink"
  · rw [if_pos hk] at ha
    subst hk; cases ha
    simp only [procRead, attrValue_cons, hu]; simp
    cases attrValue rest "resourcelink" <;> rfl
  rw [if_neg hk] at ha; clear hk
  by_cases hk : k = "type"
  · rw [if_pos hk] at ha
    subst hk
    cases hd : ProcessorType.fromStr value with
    | none => rw [hd] at ha; cases ha
    | some t =>
      rw [hd] at ha; cases ha
      simp only [procRead, attrValue_cons, hu]
      cases hr : attrValue rest "type" with
      | none => simp [hd]
      | some w => obtain ⟨t', ht'⟩ := hty hr; simp [ht']
  rw [if_neg hk] at ha; clear hk
  cases ha

theorem parseProcessor_read : ∀ (as : List RAttr) {p p' : Processor}, parseProcessor p as = .ok p' → p' = procRead p as
  | [], p, p', h => by cases h; simp [procRead, attrValue]
  | .bad :: rest, p, p', h => by
    simp only [parseProcessor] at h
    exact parseProcessor_read rest h
  | .ok k v :: rest, p, p', h => by
    simp only [parseProcessor] at h
    cases hu : unescape v with
    | none => rw [hu] at h; cases h
    | some value =>
      rw [hu] at h
      simp only at h
      cases ha : procAttr p k value with
      | none => rw [ha] at h; cases h
      | some q =>
        rw [ha] at h
        rw [parseProcessor_read rest h]
        exact procRead_step hu ha h

theorem parseProcessor_procOf {as : List RAttr} {p : Processor} (h : parseProcessor {} as = .ok p) : p = procOf as := by
  rw [parseProcessor_read as h]
  simp only [procRead, procOf, attrText, Option.or_none]
  rfl

end Folia
