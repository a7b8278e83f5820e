import Verif.Lemmas.Chars
import Verif.Lemmas.Indent
import Verif.Props.Serialise
/-! What the serialiser writes can be read back, character by character. -/
namespace Folia
open Document

/-- An attribute that does not declare a namespace. -/
def NeatKey (k : String) : Prop := KeyName k ∧ k.toList.take 5 ≠ ['x', 'm', 'l', 'n', 's']
/-- Attributes that can be read back and declare no namespace. -/
def NeatAttrs (as : List (String × String)) : Prop := ∀ a ∈ as, NeatKey a.1 ∧ Plain a.2

/-- Events that can be read back and declare no namespace. -/
def Neat : WEvent → Prop
  | .start t as => TagName t ∧ NeatAttrs as
  | .empty t as => TagName t ∧ NeatAttrs as
  | .endTag t => TagName t
  | .text s => Plain s
  | .comment s => Plain s

theorem NeatAttrs.tidy {as : List (String × String)} (h : NeatAttrs as) : TidyAttrs as := fun a ha => ⟨(h a ha).1.1, (h a ha).2⟩

theorem Neat.tidy {ev : WEvent} (h : Neat ev) : Tidy ev := by
  cases ev with
  | start t as => exact ⟨h.1, h.2.tidy⟩
  | empty t as => exact ⟨h.1, h.2.tidy⟩
  | _ => exact h

/-- All events are neat. -/
def AllNeat (evs : List WEvent) : Prop := ∀ ev ∈ evs, Neat ev

theorem AllNeat.nil : AllNeat [] := nofun
theorem AllNeat.cons {ev : WEvent} {evs : List WEvent} (h : Neat ev) (h' : AllNeat evs) : AllNeat (ev :: evs) := List.forall_mem_cons.mpr ⟨h, h'⟩
theorem AllNeat.append {a b : List WEvent} (h : AllNeat a) (h' : AllNeat b) : AllNeat (a ++ b) := List.forall_mem_append.mpr ⟨h, h'⟩

/-! ### Names -/

/-- See `TagName`. -/
def isTagName (s : String) : Bool := !s.toList.isEmpty && s.toList.all tagChar
/-- See `NeatKey`. -/
def isNeatKey (s : String) : Bool := !s.toList.isEmpty && s.toList.all keyChar && s.toList.take 5 != ['x', 'm', 'l', 'n', 's']

theorem isTagName_iff {s : String} (h : isTagName s = true) : TagName s := by
  simp only [isTagName, Bool.and_eq_true, Bool.not_eq_true', List.all_eq_true] at h
  exact ⟨fun hn => by rw [hn] at h; simp at h, h.2⟩

theorem isNeatKey_iff {s : String} (h : isNeatKey s = true) : NeatKey s := by
  simp only [isNeatKey, Bool.and_eq_true, Bool.not_eq_true', List.all_eq_true, bne_iff_ne] at h
  exact ⟨⟨fun hn => by rw [hn] at h; simp at h, h.1.2⟩, h.2⟩

theorem element_tag (t : ElementType) : TagName t.asStr := isTagName_iff (by cases t <;> decide +kernel)
theorem declaration_tag (dec : Declaration) : TagName (declTag dec) := by
  have : ∀ t : AnnotationType, isTagName (t.asStr ++ "-annotation") = true := by intro t; cases t <;> decide +kernel
  exact isTagName_iff (this _)
theorem attribute_key (t : AttribType) : NeatKey t.asStr := isNeatKey_iff (by cases t <;> decide +kernel)

theorem plain_escape (s : String) : Plain (escape s) := fun c hc => C38_no_markup s c hc
theorem plain_nl : Plain "\n" := by
  intro c hc
  have : c = '\n' := by simpa using hc
  subst this; decide

theorem neat_nl : Neat nl := plain_nl
theorem allNeat_nl : AllNeat [nl] := .cons neat_nl .nil

/-! ### Attributes -/

theorem NeatAttrs.nil : NeatAttrs [] := nofun
theorem NeatAttrs.append {a b : List (String × String)} (h : NeatAttrs a) (h' : NeatAttrs b) : NeatAttrs (a ++ b) := List.forall_mem_append.mpr ⟨h, h'⟩
theorem neat_wattr {k : String} (h : NeatKey k) (v : String) : NeatAttrs [wattr k v] := by
  intro a ha
  cases List.mem_singleton.mp ha
  exact ⟨h, plain_escape v⟩
theorem neat_opt {k : String} (h : NeatKey k) (v : Option String) : NeatAttrs (wattrOpt k v) := by
  cases v with
  | none => exact .nil
  | some v => exact neat_wattr h v
theorem neat_nonempty {k : String} (h : NeatKey k) (v : String) : NeatAttrs (wattrNonempty k v) := by
  unfold wattrNonempty
  split
  · exact .nil
  · exact neat_wattr h v

theorem neatKey_ok {k : String} (h : isNeatKey k = true) : NeatKey k := isNeatKey_iff h

theorem neat_decl (dec : Declaration) : NeatAttrs (declAttrs dec) :=
  ((neat_opt (neatKey_ok (by decide +kernel)) _).append (neat_opt (neatKey_ok (by decide +kernel)) _)).append (neat_opt (neatKey_ok (by decide +kernel)) _)

theorem neat_proc (p : Processor) : NeatAttrs (procAttrs p) := by
  unfold procAttrs
  refine NeatAttrs.append (NeatAttrs.append (NeatAttrs.append (NeatAttrs.append (NeatAttrs.append (NeatAttrs.append (NeatAttrs.append (NeatAttrs.append (NeatAttrs.append
    (NeatAttrs.append (NeatAttrs.append ?_ (neat_nonempty (neatKey_ok ?_) _)) (neat_nonempty (neatKey_ok ?_) _)) (neat_nonempty (neatKey_ok ?_) _)) (neat_nonempty (neatKey_ok ?_) _))
    (neat_nonempty (neatKey_ok ?_) _)) (neat_nonempty (neatKey_ok ?_) _)) (neat_opt (neatKey_ok ?_) _)) (neat_opt (neatKey_ok ?_) _)) (neat_nonempty (neatKey_ok ?_) _))
    (neat_nonempty (neatKey_ok ?_) _)) (neat_nonempty (neatKey_ok ?_) _)
  · exact (neat_wattr (neatKey_ok (k := "xml:id") (by decide +kernel)) _).append ((neat_wattr (neatKey_ok (k := "name") (by decide +kernel)) _).append
      (neat_wattr (neatKey_ok (k := "type") (by decide +kernel)) _))
  all_goals decide +kernel

theorem neat_plain {X : Ext} : ∀ {as : List Attribute} {l}, plainAttrs X as = .ok l → NeatAttrs l
  | [], _, h => by cases h; exact .nil
  | a :: as, _, h => by
    unfold plainAttrs at h
    split at h
    · exact neat_plain h
    · split at h
      · cases h
      · obtain ⟨_, h1, rfl⟩ := map_ok h
        exact (neat_wattr (attribute_key a.attribtype) _).append (neat_plain h1)

theorem res_bind_ok {α β : Type} {x : Res α} {f : α → Res β} {b : β} (h : x >>= f = .ok b) : ∃ a, x = .ok a ∧ f a = .ok b := by
  cases x with
  | error e => cases h
  | ok a => exact ⟨a, rfl, h⟩

theorem neat_encoded {d : Document} {mask : List Bool} {e : ElementData} {l} (h : encodedAttrs d mask e = .ok l) : NeatAttrs l := by
  have key : ∀ set subset cls proc, NeatAttrs (wattrOpt "set" set ++ wattrOpt "subset" subset ++ wattrOpt "class" cls ++ wattrOpt "processor" proc) :=
    fun _ _ _ _ => (((neat_opt (neatKey_ok (by decide +kernel)) _).append (neat_opt (neatKey_ok (by decide +kernel)) _)).append
      (neat_opt (neatKey_ok (by decide +kernel)) _)).append (neat_opt (neatKey_ok (by decide +kernel)) _)
  unfold encodedAttrs at h
  obtain ⟨k, h1, h⟩ := res_bind_ok h
  cases k with
  | none => cases h; exact .nil
  | some k =>
    simp only at h
    obtain ⟨_, _, h⟩ := res_bind_ok h
    split at h
    all_goals
      obtain ⟨_, _, h⟩ := res_bind_ok h
      obtain ⟨_, _, h⟩ := res_bind_ok h
      obtain ⟨_, _, h⟩ := res_bind_ok h
      obtain ⟨_, _, h⟩ := res_bind_ok h
      split at h
      · obtain ⟨_, _, h⟩ := res_bind_ok h
        split at h <;> (cases h; exact key _ _ _ _)
      · cases h; exact key _ _ _ _

theorem neat_element {X : Ext} {d : Document} {mask : List Bool} {e : ElementData} {l} (h : elementAttrs X d mask e = .ok l) : NeatAttrs l := by
  unfold elementAttrs at h
  obtain ⟨_, h1, h⟩ := res_bind_ok h
  obtain ⟨_, h2, h⟩ := res_bind_ok h
  cases h
  exact (neat_plain h1).append (neat_encoded h2)

/-! ### Metadata -/

theorem tagName_ok {s : String} (h : isTagName s = true) : TagName s := isTagName_iff h

theorem neat_metas : ∀ data : List (String × String), AllNeat (xmlMetas data)
  | [] => .nil
  | (k, v) :: rest => by
    have : xmlMetas ((k, v) :: rest) = [.start "meta" [wattr "id" k], .text (escape v), .endTag "meta", nl] ++ xmlMetas rest := rfl
    rw [this]
    exact AllNeat.append (.cons ⟨tagName_ok (by decide +kernel), neat_wattr (neatKey_ok (by decide +kernel)) _⟩ (.cons (plain_escape v)
      (.cons (tagName_ok (by decide +kernel)) allNeat_nl))) (neat_metas rest)

theorem neat_annotators {d : Document} : ∀ {ps : List Nat} {evs}, xmlAnnotators d ps = .ok evs → AllNeat evs
  | [], _, h => by cases h; exact .nil
  | p :: ps, _, h => by
    unfold xmlAnnotators at h
    split at h
    · obtain ⟨_, h1, rfl⟩ := map_ok h
      exact .cons ⟨tagName_ok (by decide +kernel), neat_wattr (neatKey_ok (by decide +kernel)) _⟩ (neat_annotators h1)
    · cases h

theorem neat_declaration {d : Document} {dec : Declaration} {evs} (h : xmlDeclaration d dec = .ok evs) : AllNeat evs := by
  unfold xmlDeclaration at h
  split at h
  · cases h; exact .cons ⟨declaration_tag dec, neat_decl dec⟩ allNeat_nl
  · obtain ⟨_, h1, rfl⟩ := map_ok h
    exact AllNeat.append (.cons ⟨declaration_tag dec, neat_decl dec⟩ (neat_annotators h1)) (.cons (declaration_tag dec) allNeat_nl)

theorem neat_declarations {d : Document} : ∀ {l evs}, xmlDeclarationList d l = .ok evs → AllNeat evs
  | [], _, h => by cases h; exact .nil
  | none :: _, _, h => neat_declarations (l := _) (by unfold xmlDeclarationList at h; exact h)
  | some dec :: _, _, h => by
    unfold xmlDeclarationList at h
    split at h
    · cases h
    · rename_i h0
      obtain ⟨_, h1, rfl⟩ := map_ok h
      exact (neat_declaration h0).append (neat_declarations h1)

theorem neat_concat {α : Type} {f : α → Res (List WEvent)} (hf : ∀ a evs, f a = .ok evs → AllNeat evs) : ∀ {l evs}, concatRes f l = .ok evs → AllNeat evs
  | [], _, h => by cases h; exact .nil
  | _ :: _, _, h => by
    unfold concatRes at h
    split at h
    · cases h
    · rename_i h0
      obtain ⟨_, h1, rfl⟩ := map_ok h
      exact (hf _ _ h0).append (neat_concat hf h1)

theorem neat_processor {d : Document} : ∀ {n k evs}, xmlProcessor d n k = .ok evs → AllNeat evs
  | 0, _, _, h => by cases h
  | n + 1, k, _, h => by
    unfold xmlProcessor at h
    split at h
    · cases h; exact .nil
    · split at h
      · cases h; exact .cons ⟨tagName_ok (by decide +kernel), neat_proc _⟩ allNeat_nl
      · obtain ⟨_, h1, rfl⟩ := map_ok h
        exact AllNeat.append (.cons ⟨tagName_ok (by decide +kernel), neat_proc _⟩ (neat_concat (fun _ _ => neat_processor) h1))
          (.cons (tagName_ok (by decide +kernel)) allNeat_nl)

theorem neat_metadata {d : Document} {n : Nat} {evs} (h : xmlMetadata d n = .ok evs) : AllNeat evs := by
  unfold xmlMetadata xmlDeclarations xmlProvenance at h
  simp only [bind, Except.bind, Pure.pure, Except.pure] at h
  split at h
  · cases h
  · rename_i h1
    obtain ⟨_, h1', rfl⟩ := map_ok h1
    split at h
    · cases h
    · rename_i h2
      obtain ⟨_, h2', rfl⟩ := map_ok h2
      cases h
      have hsub : ∀ l : List (String × Metadata), AllNeat (l.flatMap fun sm => xmlMetas sm.2.data) := by
        intro l
        induction l with
        | nil => exact .nil
        | cons a l ih => exact (neat_metas _).append ih
      refine AllNeat.append (AllNeat.append (AllNeat.append (AllNeat.append (AllNeat.append ?_ ?_) ?_) (neat_metas _)) (hsub _)) ?_
      · exact .cons ⟨tagName_ok (by decide +kernel), (neat_opt (neatKey_ok (by decide +kernel)) _).append (neat_opt (neatKey_ok (by decide +kernel)) _)⟩ allNeat_nl
      · exact (AllNeat.append (AllNeat.cons (ev := .start _ []) ⟨tagName_ok (by decide +kernel), .nil⟩ allNeat_nl) (neat_declarations h1')).append (.cons (tagName_ok (by decide +kernel)) allNeat_nl)
      · exact (AllNeat.append (AllNeat.cons (ev := .start _ []) ⟨tagName_ok (by decide +kernel), .nil⟩ allNeat_nl) (neat_concat (fun _ _ => neat_processor) h2')).append
          (.cons (tagName_ok (by decide +kernel)) allNeat_nl)
      · exact .cons (tagName_ok (by decide +kernel)) allNeat_nl

/-! ### The body -/

theorem neat_close : ∀ {n st evs st'}, TagsOk st → closeTags n st = .ok (evs, st') → AllNeat evs ∧ TagsOk st'
  | 0, _, _, _, hst, h => by cases h; exact ⟨.nil, hst⟩
  | _ + 1, [], _, _, _, h => by cases h
  | n + 1, (tag, t) :: st, _, _, hst, h => by
    unfold closeTags at h
    split at h
    · cases h
    · rename_i h0
      cases h
      obtain ⟨g1, g2⟩ := neat_close (fun o ho => hst o (List.mem_cons_of_mem _ ho)) h0
      obtain ⟨t', ht'⟩ := hst _ List.mem_cons_self
      have ht'' : tag = t'.asStr := ht'
      subst ht''
      refine ⟨AllNeat.append (.cons (element_tag t') ?_) g1, g2⟩
      split
      · exact allNeat_nl
      · exact .nil

theorem neat_item {X : Ext} {d : Document} {mask : List Bool} {x : Data} {st st' : List OpenTag} {evs : List WEvent} (hst : TagsOk st)
    (h : xmlItem X d mask x st = .ok (evs, st')) : AllNeat evs ∧ TagsOk st' := by
  have hnl : ∀ c : Bool, AllNeat (if c = true then [nl] else []) := fun c => by
    cases c
    · exact .nil
    · exact allNeat_nl
  cases x with
  | element k =>
    unfold xmlItem at h
    simp only at h
    split at h
    · cases h; exact ⟨.nil, hst⟩
    · rename_i e _
      split at h
      · cases h
      · rename_i ha
        split at h
        · cases h; exact ⟨.cons ⟨element_tag _, neat_element ha⟩ (hnl _), hst⟩
        · cases h
          refine ⟨.cons ⟨element_tag _, neat_element ha⟩ (hnl _), fun o ho => ?_⟩
          rcases List.mem_cons.mp ho with rfl | ho
          · exact ⟨_, rfl⟩
          · exact hst o ho
  | text s => cases h; exact ⟨.cons (plain_escape s) .nil, hst⟩
  | comment s => cases h; exact ⟨.cons (plain_escape s) .nil, hst⟩
  | spanReference k => cases h; exact ⟨.nil, hst⟩
  | addElement e => cases h; exact ⟨.nil, hst⟩

theorem neat_loop {X : Ext} {d : Document} {mask : List Bool} : ∀ {is : List SelectItem} {prev : Nat} {st : List OpenTag} {evs : List WEvent}, TagsOk st →
    xmlLoop X d mask is prev st = .ok evs → AllNeat evs
  | [], _, st, _, hst, h => by
    cases h
    intro ev hev
    obtain ⟨o, ho, rfl⟩ := List.mem_map.mp hev
    obtain ⟨t, ht⟩ := hst o ho
    show TagName o.1
    rw [ht]
    exact element_tag t
  | i :: is, prev, st, _, hst, h => by
    unfold xmlLoop at h
    split at h
    · cases h
    · rename_i h0
      split at h
      · cases h
      · rename_i h1
        obtain ⟨_, h2, rfl⟩ := map_ok h
        obtain ⟨g1, g2⟩ := neat_close hst h0
        obtain ⟨g3, g4⟩ := neat_item g2 h1
        exact (g1.append g3).append (neat_loop g4 h2)

theorem neat_elements {X : Ext} {d : Document} {F root : Nat} {evs : List WEvent} (h : xmlElements X d F root = .ok evs) : AllNeat evs := by
  unfold xmlElements at h
  obtain ⟨_, _, h⟩ := res_bind_ok h
  exact neat_loop (by nofun) h

/-- The root tag of a document. -/
def rootAttributes (d : Document) : List (String × String) := [wattr "xmlns" NSFOLIA, wattr "xmlns:xlink" NSXLINK, wattr "xml:id" d.id,
  wattr "version" FOLIAVERSION, wattr "generator" GENERATOR]

theorem neat_xml {X : Ext} {d : Document} {F root : Nat} {evs : List WEvent} (h : d.xml X F root = .ok evs) :
    ∃ m b, xmlMetadata d F = .ok m ∧ xmlElements X d F root = .ok b ∧ AllNeat m ∧ AllNeat b ∧
      evs = .start "FoLiA" (rootAttributes d) :: ((nl :: m ++ b ++ [nl]) ++ [.endTag "FoLiA"]) := by
  unfold Document.xml at h
  obtain ⟨m, h1, h⟩ := res_bind_ok h
  obtain ⟨b, h2, h⟩ := res_bind_ok h
  cases h
  exact ⟨m, b, h1, h2, neat_metadata h1, neat_elements h2, by simp [rootAttributes]⟩

theorem tidy_root (d : Document) : TidyAttrs (rootAttributes d) := by
  have hk : ∀ k : String, (!k.toList.isEmpty && k.toList.all keyChar) = true → KeyName k := by
    intro k h
    simp only [Bool.and_eq_true, Bool.not_eq_true', List.all_eq_true] at h
    exact ⟨fun hn => by rw [hn] at h; simp at h, h.2⟩
  intro a ha
  simp only [rootAttributes, List.mem_cons, List.not_mem_nil, or_false] at ha
  rcases ha with rfl | rfl | rfl | rfl | rfl
  all_goals first
    | exact ⟨hk "xmlns" (by decide +kernel), plain_escape _⟩
    | exact ⟨hk "xmlns:xlink" (by decide +kernel), plain_escape _⟩
    | exact ⟨hk "xml:id" (by decide +kernel), plain_escape _⟩
    | exact ⟨hk "version" (by decide +kernel), plain_escape _⟩
    | exact ⟨hk "generator" (by decide +kernel), plain_escape _⟩

/-! ### Namespaces -/

/-- The events close the elements that are open, `n` and the root, and end there. -/
inductive Inside : Nat → List WEvent → Prop
  | root (t) : Inside 0 [.endTag t]
  | start {n t as evs} : Inside (n + 1) evs → Inside n (.start t as :: evs)
  | empty {n t as evs} : Inside n evs → Inside n (.empty t as :: evs)
  | endTag {n t evs} : Inside n evs → Inside (n + 1) (.endTag t :: evs)
  | text {n s evs} : Inside n evs → Inside n (.text s :: evs)
  | comment {n s evs} : Inside n evs → Inside n (.comment s :: evs)

theorem inside_of_nesting (t : String) : ∀ {evs : List WEvent} {st : List String}, nesting st evs = some [] → Inside st.length (evs ++ [.endTag t])
  | [], st, h => by cases h; exact .root t
  | .start _ _ :: evs, st, h => .start (inside_of_nesting t (st := _ :: st) (by unfold nesting at h; exact h))
  | .empty _ _ :: evs, st, h => .empty (inside_of_nesting t (st := st) (by unfold nesting at h; exact h))
  | .text _ :: evs, st, h => .text (inside_of_nesting t (st := st) (by unfold nesting at h; exact h))
  | .comment _ :: evs, st, h => .comment (inside_of_nesting t (st := st) (by unfold nesting at h; exact h))
  | .endTag _ :: evs, [], h => by unfold nesting at h; cases h
  | .endTag _ :: evs, _ :: st, h => .endTag (inside_of_nesting t (st := st) (by
      unfold nesting at h
      split at h
      · exact h
      · cases h))

theorem inside_indent (k : Nat) {n : Nat} {evs : List WEvent} (h : Inside n evs) : ∀ (brk : Bool) (len : Nat), Inside n (indentFrom k brk len evs) := by
  have hb : ∀ (brk : Bool) (len : Nat) {n : Nat} {evs : List WEvent}, Inside n evs → Inside n (breakBefore brk len ++ evs) := by
    intro brk len n evs h
    cases brk
    · exact h
    · exact .text h
  induction h with
  | root t => exact fun brk len => hb _ _ (.root t)
  | start _ ih => exact fun brk len => hb _ _ (.start (ih _ _))
  | empty _ ih => exact fun brk len => hb _ _ (.empty (ih _ _))
  | endTag _ ih => exact fun brk len => hb _ _ (.endTag (ih _ _))
  | text _ ih => exact fun brk len => .text (ih _ _)
  | comment _ ih => exact fun brk len => hb _ _ (.comment (ih _ _))

theorem plain_break (len : Nat) : Plain ("\n" ++ String.ofList (List.replicate len ' ')) := by
  intro c hc
  rw [String.toList_append, List.mem_append] at hc
  rcases hc with hc | hc
  · exact plain_nl c hc
  · rw [String.toList_ofList] at hc
    rw [List.eq_of_mem_replicate hc]; decide

theorem neat_indent (k : Nat) : ∀ {evs : List WEvent}, AllNeat evs → ∀ (brk : Bool) (len : Nat), AllNeat (indentFrom k brk len evs)
  | [], _, _, _ => .nil
  | ev :: evs, h, brk, len => by
    have hb : ∀ (brk : Bool) (len : Nat), AllNeat (breakBefore brk len) := by
      intro brk len
      cases brk
      · exact .nil
      · exact .cons (plain_break len) .nil
    have h1 := h ev (by simp)
    have ih := neat_indent k (fun e he => h e (by simp [he]) : AllNeat evs)
    cases ev with
    | text s => exact .cons h1 (ih _ _)
    | _ => exact (hb _ _).append (.cons h1 (ih _ _))

theorem readAttrs_keys : ∀ {as : List (String × String)} {seen : List String}, NeatAttrs as → declaredNs (readAttrs seen as) = []
  | [], _, _ => rfl
  | (k, v) :: rest, seen, h => by
    have ih := readAttrs_keys (seen := k :: seen) (fun a ha => h a (by simp [ha]) : NeatAttrs rest)
    have hk := (h (k, v) (by simp)).1.2
    unfold readAttrs
    by_cases hs : k ∈ seen
    · rw [if_pos hs, declaredNs, List.filterMap_cons]
      exact ih
    · rw [if_neg hs]
      have : declaredNs (.ok k v :: readAttrs (k :: seen) rest) = declaredNs (readAttrs (k :: seen) rest) := by
        unfold declaredNs
        rw [List.filterMap_cons]
        simp only
        split
        · rfl
        · rename_i h0
          split at h0
          · rename_i hl; simp only at hk; rw [hl] at hk; exact absurd rfl hk
          · rename_i hl; simp only at hk; rw [hl] at hk; exact absurd rfl hk
          · cases h0
      rw [this, ih]

theorem splitName_tag {t : String} (h : TagName t) : splitName t = ("", t) := by
  unfold splitName
  rw [upTo_none fun c hc => tagChar_colon (h.2 c hc)]

theorem nsOf_empty (sc : List (List (String × String))) (p : String) : nsOf ([] :: sc) p = nsOf sc p := rfl

theorem nsOf_replicate (n : Nat) (sc : List (List (String × String))) (p : String) : nsOf (List.replicate n [] ++ sc) p = nsOf sc p := by
  induction n with
  | zero => rfl
  | succ n ih => rw [List.replicate_succ, List.cons_append, nsOf_empty, ih]

/-- Below a root that declares the namespace of FoLiA as the default, all tags are resolved to it. -/
theorem resolve_inside {R : List (String × String)} (hR : nsOf [R] "" = .folia) {n : Nat} {evs : List WEvent} (h : Inside n evs) :
    ∀ (p : String), AllNeat evs → resolveNs (List.replicate n [] ++ [R]) ((readBackAux p evs).map forgetNs) = readBackAux p evs := by
  have hpre : ∀ (sc : List (List (String × String))) (p : String) (ts : List Tok),
      resolveNs sc (List.map forgetNs (if p = "" then [] else [REvent.text p]) ++ ts) = (if p = "" then [] else [REvent.text p]) ++ resolveNs sc ts := by
    intro sc p ts
    split <;> rfl
  have hns : ∀ n, nsOf (List.replicate n [] ++ [R]) "" = .folia := fun n => by rw [nsOf_replicate, hR]
  induction h with
  | root t =>
    intro p hn
    have ht := splitName_tag (hn (.endTag t) (by simp))
    simp only [readBackAux, List.map_append, hpre, if_true]
    simp only [List.map_cons, List.map_nil, forgetNs, resolveNs, ht, hns]
  | @start n t as evs _ ih =>
    intro p hn
    obtain ⟨h1, h2⟩ : TagName t ∧ NeatAttrs as := hn (.start t as) (by simp)
    have ih := ih "" fun e he => hn e (by simp [he])
    rw [List.replicate_succ, List.cons_append] at ih
    simp only [readBackAux, List.map_append, hpre]
    simp only [List.map_cons, forgetNs, resolveNs, splitName_tag h1, readAttrs_keys h2, nsOf_empty, hns, ih]
  | @empty n t as evs _ ih =>
    intro p hn
    obtain ⟨h1, h2⟩ : TagName t ∧ NeatAttrs as := hn (.empty t as) (by simp)
    have ih := ih "" fun e he => hn e (by simp [he])
    simp only [readBackAux, List.map_append, hpre]
    simp only [List.map_cons, forgetNs, resolveNs, splitName_tag h1, readAttrs_keys h2, nsOf_empty, hns, ih]
  | @endTag n t evs _ ih =>
    intro p hn
    have h1 := splitName_tag (hn (.endTag t) (by simp))
    have ih := ih "" fun e he => hn e (by simp [he])
    simp only [readBackAux, List.map_append, hpre]
    simp only [List.map_cons, forgetNs, resolveNs, h1, hns]
    rw [List.replicate_succ, List.cons_append, List.tail_cons, ih]
  | @text n s evs _ ih => exact fun p hn => ih (p ++ s) fun e he => hn e (by simp [he])
  | @comment n s evs _ ih =>
    intro p hn
    have ih := ih "" fun e he => hn e (by simp [he])
    simp only [readBackAux, List.map_append, hpre]
    simp only [List.map_cons, forgetNs, resolveNs, ih]

theorem root_scope (d : Document) : ∃ R, declaredNs (readAttrs [] (rootAttributes d)) = R ∧ nsOf [R] "" = .folia := by
  refine ⟨_, rfl, ?_⟩
  have h1 : escape NSFOLIA = NSFOLIA := by decide +kernel
  have h2 : ∀ a b c e, declaredNs (readAttrs [] [("xmlns", NSFOLIA), ("xmlns:xlink", a), ("xml:id", b), ("version", c), ("generator", e)]) =
      [("", NSFOLIA), ("xlink", a)] := by
    intro a b c e
    have : readAttrs [] [("xmlns", NSFOLIA), ("xmlns:xlink", a), ("xml:id", b), ("version", c), ("generator", e)] =
        [.ok "xmlns" NSFOLIA, .ok "xmlns:xlink" a, .ok "xml:id" b, .ok "version" c, .ok "generator" e] := by
      simp [readAttrs]
    rw [this]
    rfl
  unfold rootAttributes wattr
  rw [h1, h2]
  rfl

/-- What is written for a root with neat contents reads back as what was written. -/
theorem readXml_written {d : Document} {evs : List WEvent} (hi : Inside 0 evs) (hn : AllNeat evs) :
    readXml (render (.start "FoLiA" (rootAttributes d) :: evs)) = readBack (.start "FoLiA" (rootAttributes d) :: evs) := by
  have hr : TagName "FoLiA" := tagName_ok (by decide +kernel)
  have h1 := scan_written (.start "FoLiA" (rootAttributes d) :: evs) "" _ (by intro c hc; simp at hc)
    (List.forall_mem_cons.mpr ⟨⟨hr, tidy_root d⟩, fun e he => (hn e he).tidy⟩) (Nat.le_refl _)
  obtain ⟨R, hR, hns⟩ := root_scope d
  have h2 := resolve_inside hns hi "" hn
  have h3 : ("" : String).toList = [] := rfl
  rw [h3, List.nil_append, List.length_nil, Nat.zero_add] at h1
  unfold readXml readBack
  rw [h1]
  simp only [readBackAux, if_true, List.nil_append, List.map_cons, forgetNs, resolveNs, splitName_tag hr, hR, hns]
  rw [show (List.replicate 0 ([] : List (String × String)) ++ [R]) = [R] from rfl] at h2
  rw [h2]

end Folia
