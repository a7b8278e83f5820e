import Verif.Lemmas.RoundHead
import Verif.Lemmas.Source
import Verif.Lemmas.Preorder
import Verif.Lemmas.Prefix
import Verif.RoundTrip
/-! What becomes of the body of a document when it is written and read back. -/
namespace Folia
open Document

/-! ### Attributes -/

theorem readAttrs_ok : ∀ (l : List (String × String)) (seen : List String), (l.map (·.1)).Nodup → (∀ k ∈ l.map (·.1), k ∉ seen) →
    readAttrs seen l = l.map fun kv => .ok kv.1 kv.2
  | [], _, _, _ => rfl
  | (k, v) :: rest, seen, hn, hs => by
    rw [List.map_cons, List.nodup_cons] at hn
    simp only [readAttrs, List.map_cons]
    rw [if_neg (hs k (by simp)), readAttrs_ok rest (k :: seen) hn.2]
    intro k' hk' hm
    rcases List.mem_cons.mp hm with rfl | hm
    · exact hn.1 hk'
    · exact hs k' (by rw [List.map_cons]; exact List.mem_cons_of_mem _ hk') hm

/-- Attributes that are all read back as attributes of the element. -/
theorem attrsMeaning_map {X : Ext} {t : ElementType} : ∀ (as : List Attribute) (name value : Attribute → String),
    (∀ a ∈ as, Attribute.parse X (name a) (value a) = some a) →
    attrsMeaning X t (as.map fun a => .ok (name a) (escape (value a))) = some (as, [])
  | [], _, _, _ => rfl
  | a :: as, name, value, h => by
    simp only [List.map_cons, attrsMeaning, C38_unescape_escape]
    rw [attrsMeaning_map as name value fun b hb => h b (List.mem_cons_of_mem _ hb)]
    simp only [bind, Option.bind, h a (List.mem_cons_self ..)]

/-- The attributes that stand for set, subset, class and processor. -/
def refAttribs (set subset cls proc : Option String) : List Attribute :=
  (set.map Attribute.set).toList ++ (subset.map Attribute.subset).toList ++ (cls.map Attribute.cls).toList ++ (proc.map Attribute.processor).toList

/-- The value of an attribute as it is printed. -/
def shown (X : Ext) (a : Attribute) : String := match a.display X with
  | .ok v => v
  | .error _ => ""

theorem printedAttrs_own (X : Ext) (e : ElementData) : printedAttrs X e.attribs = (ownAttribs e).map fun a => (a.attribtype.asStr, escape (shown X a)) := by
  unfold printedAttrs ownAttribs
  induction e.attribs with
  | nil => rfl
  | cons a as ih =>
    rw [List.filterMap_cons, List.filter_cons]
    have hiff := C39_printable_iff X a
    by_cases hc : (!a.decodable && a != .ignore) = true
    · rw [if_pos hc, List.map_cons, ← ih]
      simp only [Bool.and_eq_true, Bool.not_eq_true', bne_iff_ne, ne_eq] at hc
      obtain ⟨v, hv⟩ := hiff.mpr ⟨hc.2, hc.1⟩
      simp only [hv, shown, wattr]
    · rw [if_neg hc, ← ih]
      cases hd : a.display X with
      | error f => rfl
      | ok v =>
        have := hiff.mp ⟨v, hd⟩
        simp [this.1, this.2] at hc

theorem refAttribs_written (X : Ext) (set subset cls proc : Option String) :
    wattrOpt "set" set ++ wattrOpt "subset" subset ++ wattrOpt "class" cls ++ wattrOpt "processor" proc =
      (refAttribs set subset cls proc).map fun a => (a.attribtype.asStr, escape (shown X a)) := by
  unfold refAttribs
  simp only [List.map_append]
  congr 1
  · congr 1
    · congr 1
      · cases set <;> rfl
      · cases subset <;> rfl
    · cases cls <;> rfl
  · cases proc <;> rfl

theorem refAttribs_types (set subset cls proc : Option String) :
    ((refAttribs set subset cls proc).map Attribute.attribtype).Sublist [.SET, .SUBSET, .CLASS, .PROCESSOR] := by
  unfold refAttribs
  simp only [List.map_append]
  have h : ∀ (t : AttribType) (o : Option String) (f : String → Attribute) (_ : ∀ s, (f s).attribtype = t), ((o.map f).toList.map Attribute.attribtype).Sublist [t] := by
    intro t o f hf
    cases o with
    | none => exact List.nil_sublist _
    | some s => simp [hf s]
  exact (((h .SET _ _ fun _ => rfl).append (h .SUBSET _ _ fun _ => rfl)).append (h .CLASS _ _ fun _ => rfl)).append (h .PROCESSOR _ _ fun _ => rfl)

/-- Written attributes mean the same attributes again. -/
theorem attrs_back {X : Ext} {t : ElementType} {e : ElementData} (hp : Printable X e) (hc : ∀ a ∈ ownAttribs e, a.encodable = false)
    (set subset cls proc : Option String) :
    attrsMeaning X t (readAttrs [] (printedAttrs X e.attribs ++ (wattrOpt "set" set ++ wattrOpt "subset" subset ++ wattrOpt "class" cls ++ wattrOpt "processor" proc))) =
      some (ownAttribs e ++ refAttribs set subset cls proc, []) := by
  rw [printedAttrs_own, refAttribs_written X, ← List.map_append]
  have hdist : ((ownAttribs e ++ refAttribs set subset cls proc).map Attribute.attribtype).Nodup := by
    rw [List.map_append, List.nodup_append]
    refine ⟨hp.distinct, List.Nodup.sublist (refAttribs_types ..) (by decide), ?_⟩
    intro x hx y hy hxy
    subst hxy
    obtain ⟨a, ha, rfl⟩ := List.mem_map.mp hx
    have h1 := hc a ha
    have h2 := (refAttribs_types ..).subset hy
    have h3 := (List.mem_filter.mp ha).2
    revert h1 h2 h3
    cases a <;> simp [Attribute.attribtype, Attribute.encodable, Attribute.decodable]
  rw [readAttrs_ok _ _ _ (by simp)]
  · rw [List.map_map]
    refine attrsMeaning_map _ (fun a => a.attribtype.asStr) (shown X) fun a ha => ?_
    rcases List.mem_append.mp ha with ha | ha
    · have h3 := (List.mem_filter.mp ha).2
      simp only [Bool.and_eq_true, Bool.not_eq_true', bne_iff_ne, ne_eq] at h3
      obtain ⟨v, hv⟩ := (C39_printable_iff X a).mpr ⟨h3.2, h3.1⟩
      simp only [shown, hv]
      exact C39_print_parse X a v hv (hp.exact a ha)
    · unfold refAttribs at ha
      simp only [List.mem_append, Option.mem_toList, Option.map_eq_some_iff] at ha
      rcases ha with ((⟨v, _, rfl⟩ | ⟨v, _, rfl⟩) | ⟨v, _, rfl⟩) | ⟨v, _, rfl⟩
      all_goals exact C39_print_parse X _ v rfl trivial
  · rw [List.map_map]
    show ((ownAttribs e ++ refAttribs set subset cls proc).map (AttribType.asStr ∘ Attribute.attribtype)).Nodup
    rw [← List.map_map]
    exact List.Pairwise.map (S := fun a b => a ≠ b) AttribType.asStr (fun a b hab hc => hab (AttribType.asStr_inj hc)) hdist

/-! ### Data items -/

mutual
/-- The builder that an item amounts to, if `B` gives the attributes. -/
def itemBuilder (B : ElementData → List Attribute) : Item → List Data
  | .text s => [.text s]
  | .comment s => [.comment s]
  | .ref _ => []
  | .node _ e items => [.addElement ⟨e.elementtype, B e, itemsBuilder B items, none, none⟩]
/-- See `itemBuilder`. -/
def itemsBuilder (B : ElementData → List Attribute) : List Item → List Data
  | [] => []
  | i :: is => itemBuilder B i ++ itemsBuilder B is
end

/-- Text that has been read but not yet been delivered, and what it amounts to. -/
inductive Held : Bool → String → List Data → Prop
  | nothing {c} : Held c "" []
  | feed : Held false "\n" []
  | text {s} (h : blank s = false) : Held false (escape s) [.text s]

/-- The node for pending text. -/
def pendNode (p : String) : List XNode := if p = "" then [] else [.text p]

theorem pendNode_events (p : String) : XNode.eventsList (pendNode p) = if p = "" then [] else [.text p] := by
  unfold pendNode; split <;> rfl

theorem eventsList_append : ∀ (xs ys : List XNode), XNode.eventsList (xs ++ ys) = XNode.eventsList xs ++ XNode.eventsList ys
  | [], _ => rfl
  | x :: xs, ys => by simp only [List.cons_append, XNode.eventsList, eventsList_append xs ys, List.append_assoc]

theorem meaningList_join {X : Ext} : ∀ {xs ys : List XNode} {a b : List Data}, XNode.meaningList X xs = some a → XNode.meaningList X ys = some b →
    XNode.meaningList X (xs ++ ys) = some (a ++ b)
  | [], ys, a, b, h, h' => by cases h; exact h'
  | x :: xs, ys, a, b, h, h' => by
    simp only [XNode.meaningList] at h
    cases h1 : x.meaning X with
    | none => rw [h1] at h; cases h
    | some a1 =>
      cases h2 : XNode.meaningList X xs with
      | none => rw [h1, h2] at h; cases h
      | some a2 =>
        rw [h1, h2] at h; cases h
        simp only [List.cons_append, XNode.meaningList, h1, meaningList_join h2 h', bind, Option.bind, List.append_assoc]

theorem pendNode_meaning {X : Ext} {c : Bool} {p : String} {m : List Data} (h : Held c p m) : XNode.meaningList X (pendNode p) = some m := by
  cases h with
  | nothing => rfl
  | feed =>
    have h0 : unescape "\n" = some "\n" := by decide +kernel
    have h1 : "\n".toList.all isWs = true := by decide +kernel
    rw [pendNode, if_neg (by decide)]
    simp only [XNode.meaningList, XNode.meaning, h0, Option.map, unlessBlank, h1, if_true, bind, Option.bind, List.append_nil]
  | text hb =>
    rename_i s
    unfold pendNode
    split
    · rename_i he
      have := C38_unescape_escape s
      rw [he] at this
      have h0 : unescape "" = some "" := by decide +kernel
      rw [h0] at this
      cases this
      cases hb
    · simp only [XNode.meaningList, XNode.meaning, C38_unescape_escape, Option.map, unlessBlank, bind, Option.bind, List.append_nil]
      unfold blank at hb
      rw [if_neg (by rw [hb]; simp)]

/-- The attributes of all elements in an item are read as `B` says. -/
def AttrsBack (X : Ext) (A : ElementData → List (String × String)) (B : ElementData → List Attribute) (i : Item) : Prop :=
  ∀ e, InTree e i → attrsMeaning X e.elementtype (readAttrs [] (A e)) = some (B e, [])

theorem Held.weaken {c : Bool} {p : String} {m : List Data} (h : Held c p m) : Held false p m := by
  cases h with
  | nothing => exact .nothing
  | feed => exact .feed
  | text hb => exact .text hb

theorem newline_held (b : Bool) : Held (!b) (if b then "\n" else "") [] := by cases b <;> first | exact .nothing | exact .feed

theorem readBack_newline (b : Bool) (p : String) (rest : List WEvent) : readBackAux p ((if b then [nl] else []) ++ rest) =
    readBackAux (p ++ if b then "\n" else "") rest := by
  cases b
  · simp
  · simp [nl, readBackAux]

mutual
theorem items_back {X : Ext} {A : ElementData → List (String × String)} {B : ElementData → List Attribute} : ∀ (items : List Item) (last c : Bool) (p : String)
    (m : List Data), Held c p m → Legible c items → (∀ i ∈ items, AttrsBack X A B i) →
    ∃ nodes p' data', (∀ rest, readBackAux p (itemsXml A last items ++ rest) = XNode.eventsList nodes ++ readBackAux p' rest) ∧
      (∃ m', Held false p' m' ∧ XNode.meaningList X nodes = some data' ∧ data' ++ m' = m ++ itemsBuilder B items)
  | [], last, c, p, m, hp, _, _ => ⟨[], p, [], fun rest => rfl, m, hp.weaken, rfl, by simp [itemsBuilder]⟩
  | .text s :: is, last, c, p, m, hp, hl, hA => by
    simp only [Legible] at hl
    obtain ⟨rfl, hb, hl⟩ := hl
    cases hp
    obtain ⟨nodes, p', data', h1, m', h2, h3, h4⟩ := items_back is last false (escape s) [.text s] (.text hb) hl fun i hi => hA i (List.mem_cons_of_mem _ hi)
    refine ⟨nodes, p', data', fun rest => ?_, m', h2, h3, by simpa [itemsBuilder, itemBuilder] using h4⟩
    simp only [itemsXml, itemXml, List.cons_append, List.nil_append, readBackAux]
    rw [show "" ++ escape s = escape s from String.empty_append]
    exact h1 rest
  | .comment s :: is, last, c, p, m, hp, hl, hA => by
    simp only [Legible] at hl
    obtain ⟨he, hb, hl⟩ := hl
    obtain ⟨nodes, p', data', h1, m', h2, h3, h4⟩ := items_back is last true "" [] .nothing hl fun i hi => hA i (List.mem_cons_of_mem _ hi)
    refine ⟨pendNode p ++ .comment s :: nodes, p', m ++ (.comment s :: data'), fun rest => ?_, m', h2, ?_, ?_⟩
    · simp only [itemsXml, itemXml, List.cons_append, List.nil_append, readBackAux, he]
      rw [h1 rest, eventsList_append, pendNode_events]
      simp only [XNode.eventsList, XNode.events, List.cons_append, List.nil_append, List.append_assoc]
    · refine meaningList_join (pendNode_meaning hp) ?_
      simp only [XNode.meaningList, XNode.meaning, h3, unlessBlank, bind, Option.bind]
      unfold blank at hb
      rw [if_neg (by rw [hb]; simp)]
      rfl
    · simpa [itemsBuilder, itemBuilder] using h4
  | .ref k :: is, last, c, p, m, hp, hl, hA => by
    simp only [Legible] at hl
    obtain ⟨nodes, p', data', h1, m', h2, h3, h4⟩ := items_back is last c p m hp hl fun i hi => hA i (List.mem_cons_of_mem _ hi)
    exact ⟨nodes, p', data', fun rest => by simp only [itemsXml, itemXml, List.nil_append]; exact h1 rest, m', h2, h3, by simpa [itemsBuilder, itemBuilder] using h4⟩
  | .node k e items :: is, last, c, p, m, hp, hl, hA => by
    simp only [Legible] at hl
    obtain ⟨x, b, h1, h2, h3⟩ := node_back (.node k e items) (last && is.isEmpty) hl.1 (hA _ (List.mem_cons_self ..)) k e items rfl
    have hheld : Held (endsTight e.elementtype items) (if b then "\n" else "") [] := by
      cases b with
      | false => exact .nothing
      | true =>
        cases ht : endsTight e.elementtype items with
        | true => exact absurd (h3 ht) (by simp)
        | false => exact .feed
    obtain ⟨nodes, p', data', g1, m', g2, g3, g4⟩ := items_back is last _ _ [] hheld hl.2 fun i hi => hA i (List.mem_cons_of_mem _ hi)
    refine ⟨pendNode p ++ x :: nodes, p', m ++ (itemBuilder B (.node k e items) ++ data'), fun rest => ?_, m', g2, ?_, ?_⟩
    · simp only [itemsXml, List.append_assoc]
      rw [h1, g1, eventsList_append, eventsList_append]
      simp only [XNode.eventsList, List.append_assoc, List.append_nil]
    · refine meaningList_join (pendNode_meaning hp) ?_
      simp only [XNode.meaningList, h2, g3, bind, Option.bind]
    · simp only [itemsBuilder, List.append_assoc, g4, List.nil_append]
theorem node_back {X : Ext} {A : ElementData → List (String × String)} {B : ElementData → List Attribute} : ∀ (i : Item) (last : Bool),
    LegibleIn i → AttrsBack X A B i → ∀ k e items, i = .node k e items → ∃ x b, (∀ p rest, readBackAux p (itemXml A last i ++ rest) =
      XNode.eventsList (pendNode p ++ [x]) ++ readBackAux (if b then "\n" else "") rest) ∧
      x.meaning X = some (itemBuilder B i) ∧ (endsTight e.elementtype items = true → b = false)
  | .text s, last, hl, hA, k, e, items, h => nomatch h
  | .comment s, last, hl, hA, k, e, items, h => nomatch h
  | .ref s, last, hl, hA, k, e, items, h => nomatch h
  | .node k e items, last, hl, hA, k', e', items', h => by
    cases h
    have hat := hA e .here
    cases items with
    | nil =>
      refine ⟨.empty e.elementtype.asStr (readAttrs [] (A e)), nlAfterStart e.elementtype, fun p rest => ?_, ?_, fun h => ?_⟩
      · simp only [itemXml, List.isEmpty_nil, if_true, List.cons_append, readBackAux]
        rw [readBack_newline, eventsList_append, pendNode_events]
        simp [XNode.eventsList, XNode.events, String.empty_append]
      · simp only [XNode.meaning, ElementType.fromStr_asStr, hat, bind, Option.bind]
        rfl
      · simpa [endsTight] using h
    | cons i is =>
      simp only [LegibleIn] at hl
      obtain ⟨nodes, p', data', h1, m', h2, h3, h4⟩ := items_back (i :: is) last _ _ [] (newline_held (nlAfterStart e.elementtype)) hl
        fun j hj e' he' => hA e' (.inner hj he')
      refine ⟨.elem e.elementtype.asStr (readAttrs [] (A e)) (nodes ++ pendNode p'), !last && nlAfterEnd e.elementtype, fun p rest => ?_, ?_, fun h => ?_⟩
      · simp only [itemXml, List.isEmpty_cons, Bool.false_eq_true, if_false, List.cons_append, List.nil_append, List.append_assoc, readBackAux]
        rw [readBack_newline, String.empty_append, h1]
        simp only [readBackAux]
        rw [readBack_newline, String.empty_append, eventsList_append, pendNode_events]
        simp only [XNode.eventsList, XNode.events, eventsList_append, pendNode_events, List.append_assoc, List.cons_append, List.nil_append, List.append_nil]
      · have := meaningList_join h3 (pendNode_meaning h2)
        simp only [XNode.meaning, ElementType.fromStr_asStr, hat, bind, Option.bind, this, h4]
        rfl
      · simp only [endsTight, List.isEmpty_cons, Bool.false_eq_true, if_false, Bool.not_eq_true'] at h
        simp [h]
end

/-! ### The run of the parser after the metadata -/

theorem Pinned.same {b d d' : Document} (hp : Pinned b d) (h : SameShape d d') : Pinned b d' :=
  ⟨fun k => (h.shape k).trans (hp.shape k), h.same.processors.trans hp.procs, h.same.active.trans hp.active, fun k x hx => hp.credit k x (by
    unfold getElement at hx ⊢; rw [← h.same.elements]; exact hx)⟩

/-- Declaring what is declared keeps everything in place. -/
theorem applyDeclares_pinned {b : Document} : ∀ (l : List (AnnotationType × Option String)) {d d' : Document}, CInv d → Pinned b d →
    (∀ ts ∈ l, ∃ j procs, shapeOf b j = some (ts.1, ts.2, procs)) → M.forEach applyDeclare l d = (.ok (), d') → Pinned b d'
  | [], d, d', _, hp, _, h => by cases h; exact hp
  | ts :: l, d, d', hi, hp, hs, h => by
    simp only [M.forEach] at h
    obtain ⟨_, d1, h1, h2⟩ := bind_ok h
    have hdoes : Does True (fun _ => True) (applyDeclare ts) fun _ _ => True := by
      unfold applyDeclare
      refine Does.bind (does_declare _ _ _ _) fun k => ?_
      split
      · exact Does.bind (does_addClass _ _) fun _ => Does.pure fun _ _ => trivial
      · exact Does.pure fun _ _ => trivial
    have hst := (hdoes d hi.ix trivial).1
    rw [h1] at hst
    refine applyDeclares_pinned l (hst.clean hi).1 ?_ (fun ts' h' => hs ts' (List.mem_cons_of_mem _ h')) h2
    obtain ⟨j, procs, hj⟩ := hs ts (List.mem_cons_self ..)
    unfold applyDeclare at h1
    obtain ⟨k, da, g1, g2⟩ := bind_ok h1
    rw [declare_served hi.decls.exact hp.shape hp.active hj (.inl rfl)] at g1
    cases g1
    split at g2
    · obtain ⟨c, db, g3, g4⟩ := bind_ok g2
      cases g4
      unfold addClass at g3
      obtain ⟨r, dc, g5, g6⟩ := bind_ok g3
      have : SameShape d dc := by
        unfold callDeclaration at g5
        split at g5
        · rename_i a ha
          cases g5
          refine sameShape_update d j _ fun a' ha' => ?_
          rw [ha] at ha'; cases ha'
          exact ⟨rfl, rfl, rfl⟩
        · cases g5; exact .refl d
      have hd1 : d1 = dc := by
        cases r with
        | none => cases g6
        | some r => unfold M.ofRes at g6; simp only [Prod.mk.injEq] at g6; exact g6.2.symm
      rw [hd1]
      exact hp.same this
    · cases g2; exact hp

/-- Everything that is read after the start tag of the body. -/
theorem rest_runs {X : Ext} {F : Nat} {ps : DocumentProperties} (hps : ps.processor = none) {dm d' : Document} {t : ElementType} {as : List Attribute}
    {rest : List REvent} (hi : CInv dm) (hem : dm.elements = {}) (hc : CleanAttribs as)
    (h : runDoc (parseRest X F ps ⟨t, as, [], none, none⟩ rest) dm = .ok ((), d')) :
    ∃ d1 x, parseElements X F rest [0] d1 = (.ok (), d') ∧ CInv d1 ∧ d1.elements.len = 1 ∧ d1.processors = dm.processors ∧
      d1.getElement 0 = some x ∧ x.parent = none ∧ x.data = [] ∧ ReadsBack dm d1 x ⟨t, as, [], none, none⟩ ∧
      (∀ id k, d1.elements.index.find id = some k → (ElementData.mk t as [] none none).id = some id) ∧
      ∀ b, Pinned b dm → Asks b none ⟨t, as, [], none, none⟩ → (∀ ts ∈ ps.declare, ∃ j procs, shapeOf b j = some (ts.1, ts.2, procs)) → Pinned b d1 := by
  unfold runDoc at h
  rcases hm : parseRest X F ps ⟨t, as, [], none, none⟩ rest dm with ⟨f | u, d3⟩
  · rw [hm] at h; cases h
  rw [hm] at h
  cases h
  unfold parseRest at hm
  obtain ⟨k, da, h1, h2⟩ := bind_ok hm
  have h1 := mapErr_ok h1
  obtain ⟨_, d1, h3, h4⟩ := bind_ok h2
  have h3 := mapErr_ok h3
  obtain ⟨g, dg, h5, h6⟩ := bind_ok h4
  cases h5
  have hfresh : dm.FreshIds (ElementData.id ⟨t, as, [], none, none⟩).toList := by
    cases hid' : ElementData.id ⟨t, as, [], none, none⟩ with
    | none => exact ⟨List.nodup_nil, by simp⟩
    | some i => exact ⟨by simp, fun j _ => by unfold elementKeyById; rw [hem]; rfl⟩
  obtain ⟨l1, l2, l3, l4, x, l5, l6, l7, l8⟩ := leaf (d0 := dm) hi rfl hc rfl (by simp) hfresh h1
  have hlen0 : dm.elements.len = 0 := by rw [hem]; rfl
  have hk0 : k = 0 := by rw [l1, hlen0]
  subst hk0
  have hia := (l2.steps.clean hi).1
  have hse := KeepsElements.applyProperties ps da
  have hst := (does_applyProperties (C := True) ps (fun _ p hp => by rw [hps] at hp; cases hp) da hia.ix trivial).1
  have hpr := applyProperties_procs hps da
  rw [h3] at hse hst hpr
  simp only at hse hst hpr
  obtain ⟨hi1, hm1⟩ := hst.clean hia
  refine ⟨d1, x, ?_, hi1, by rw [hse, l3, hlen0], by rw [hpr, l2.procs], ?_, l6, l7, l8.mono (hia.elem 0 x l5).refs hm1 hst.procMono rfl rfl, ?_, ?_⟩
  · split at h6
    · cases h6
    · exact h6
  · unfold getElement at l5 ⊢; rw [hse]; exact l5
  · intro id k hk
    rw [hse] at hk
    rcases l2.index id k hk with h1 | h1
    · rw [hem] at h1; cases h1
    · simpa using h1
  · intro b hb ha hd
    have hpa := addElem_pinned (ct := none) hi hb hc (by rintro pk pe ⟨⟩) ha hfresh h1
    unfold applyProperties at h3
    rw [hps] at h3
    exact applyDeclares_pinned _ hia hpa hd h3

/-! ### The body as it is written -/

theorem body_written {X : Ext} {F : Nat} {d : Document} (hr : CleanReachable X F d) (hf : d.Forest) (hb : d.Live 0) {G : Nat} {evs m tail : List WEvent}
    (hxml : d.xml X G 0 = .ok evs) (hm : xmlMetadata d G = .ok m) (hev : evs = [.start "FoLiA" [wattr "xmlns" NSFOLIA, wattr "xmlns:xlink" NSXLINK,
      wattr "xml:id" d.id, wattr "version" FOLIAVERSION, wattr "generator" GENERATOR], nl] ++ m ++ tail) :
    ∃ A : ElementData → List (String × String), (∀ k e, d.getElement k = some e → AttrsAre X d e (A e)) ∧
      ∃ e items, Below d 0 e items ∧ tail = itemXml A true (.node 0 e items) ++ [nl, .endTag "FoLiA"] := by
  obtain ⟨e, he⟩ := hb
  obtain ⟨A, hA, items, hbel, N, hN⟩ := C36_exact (X := X) hr hf he (.inr rfl)
  refine ⟨A, hA, e, items, hbel, ?_⟩
  unfold Document.xml at hxml
  rw [hm] at hxml
  cases h2 : xmlElements X d G 0 with
  | error f => rw [h2] at hxml; cases hxml
  | ok b =>
    have h3 := fuelled_mono (f := fun n => xmlElements X d n 0) (xmlElements_next X d 0) h2 (by simp) (Nat.le_max_left G N)
    rw [hN _ (Nat.le_max_right G N)] at h3
    cases h3
    rw [h2] at hxml
    have := Except.ok.inj hxml
    rw [← this] at hev
    simp only [List.append_assoc] at hev
    exact (List.append_cancel_left (List.append_cancel_left hev)).symm

/-- What the parser finds where the body starts. -/
theorem body_found {X : Ext} {A : ElementData → List (String × String)} {B : ElementData → List Attribute} {e : ElementData} {items : List Item}
    (hA : AttrsBack X A B (.node 0 e items)) (hl : LegibleIn (.node 0 e items)) {body : ElementData} {rest : List REvent}
    (h : parseBody X (readBackAux "\n" (itemXml A true (.node 0 e items) ++ [nl, .endTag "FoLiA"])) = .ok (some body, rest)) :
    (e.elementtype = .text ∨ e.elementtype = .speech) ∧ items ≠ [] ∧ body = ⟨e.elementtype, B e, [], none, none⟩ ∧
      ∃ nodes tail, rest = XNode.eventsList nodes ++ .endTag .folia e.elementtype.asStr :: tail ∧ XNode.meaningList X nodes = some (itemsBuilder B items) := by
  cases items with
  | nil =>
    have : ∀ b : Bool, parseBody X (readBackAux "" ((if b then [nl] else []) ++ [nl, .endTag "FoLiA"])) = .error (.err .parse) := by
      intro b
      rw [readBack_newline]
      cases b <;> rfl
    simp only [itemXml, List.isEmpty_nil, if_true, List.cons_append, readBackAux] at h
    rw [if_neg (by decide)] at h
    simp only [List.cons_append, List.nil_append, parseBody] at h
    rw [this] at h
    cases h
  | cons i is =>
    simp only [LegibleIn] at hl
    obtain ⟨nodes, p', data', h1, m', h2, h3, h4⟩ := items_back (i :: is) true _ _ [] (newline_held (nlAfterStart e.elementtype)) hl
      fun j hj e' he' => hA e' (.inner hj he')
    simp only [itemXml, List.isEmpty_cons, Bool.false_eq_true, if_false, List.cons_append, List.nil_append, List.append_assoc, readBackAux, Bool.not_true,
      Bool.false_and] at h
    rw [readBack_newline, String.empty_append, h1] at h
    rw [if_neg (by decide)] at h
    simp only [List.cons_append, List.nil_append, parseBody] at h
    have hat := hA e .here
    have key : ∀ t, bodyOf X t (readAttrs [] (A e)) = .ok (some body) → e.elementtype = t → body = ⟨e.elementtype, B e, [], none, none⟩ := by
      intro t hbo ht
      obtain ⟨as, fs, hm, hbe⟩ := bodyOf_meaning hbo
      rw [← ht, hat] at hm
      cases hm
      rw [hbe, ht]
    have hrest : ∀ t, (bodyOf X t (readAttrs [] (A e))).map (fun b => (b, XNode.eventsList nodes ++ readBackAux p' (.endTag e.elementtype.asStr :: [nl, .endTag "FoLiA"]))) =
        .ok (some body, rest) → bodyOf X t (readAttrs [] (A e)) = .ok (some body) ∧
          rest = XNode.eventsList (nodes ++ pendNode p') ++ .endTag .folia e.elementtype.asStr :: readBackAux "" [nl, .endTag "FoLiA"] := by
      intro t h
      cases hb : bodyOf X t (readAttrs [] (A e)) with
      | error f => rw [hb] at h; cases h
      | ok ob =>
        rw [hb] at h
        cases h
        refine ⟨rfl, ?_⟩
        simp only [readBackAux, eventsList_append, pendNode_events, List.append_assoc]
    have hmean := meaningList_join h3 (pendNode_meaning (X := X) h2)
    rw [h4] at hmean
    split at h
    · rename_i ht
      have ht : e.elementtype = .text := C40_tag_injective _ _ ht.2
      obtain ⟨h5, h6⟩ := hrest _ h
      exact ⟨.inl ht, by simp, key _ h5 ht, _, _, h6, hmean⟩
    · split at h
      · rename_i ht
        have ht : e.elementtype = .speech := C40_tag_injective _ _ ht.2
        obtain ⟨h5, h6⟩ := hrest _ h
        exact ⟨.inr ht, by simp, key _ h5 ht, _, _, h6, hmean⟩
      · cases h

end Folia
