import Verif.Lemmas.AcceptNodes
import Verif.Lemmas.RoundBody
/-! After the metadata, a body that fits is accepted. -/
namespace Folia
open Document

/-! ### Classes of declarations -/

/-- No declaration has more than `n` classes. -/
def ClassesUpTo (n : Nat) (d : Document) : Prop := ∀ k dec st, d.getDeclaration k = some dec → dec.classes = some st → st.items.length ≤ n

theorem ClassesUpTo.update {n : Nat} {d : Document} (h : ClassesUpTo n d) (k : Nat) (f : Declaration → Declaration)
    (hf : ∀ a st, d.getDeclaration k = some a → (f a).classes = some st → st.items.length ≤ n) :
    ClassesUpTo n { d with declarations := d.declarations.update k f } := by
  intro j dec st hj hst
  unfold getDeclaration at hj
  simp only [Store.get_update] at hj
  split at hj
  · rename_i hjk; subst hjk
    cases hb : d.declarations.get j with
    | none => simp [hb] at hj
    | some b =>
      simp only [hb, Option.map_some, Option.some.injEq] at hj
      subst hj
      exact hf b st hb hst
  · exact h j dec st hj hst

theorem linkProcessor_classes (p : Nat) (a : Declaration) : (linkProcessor p a).classes = a.classes := by unfold linkProcessor; split <;> rfl

theorem linkActive_classes {n : Nat} {d : Document} (h : ClassesUpTo n d) (k : Nat) : ClassesUpTo n (linkActive k d) := by
  unfold linkActive
  split
  · exact h.update k _ fun a st ha hs => h k a st ha (by rwa [linkProcessor_classes] at hs)
  · exact h

theorem declare_classes {n : Nat} {d d' : Document} (h : ClassesUpTo n d) {t : AnnotationType} {s al f : Option String} {k : Nat}
    (hd : declare t s al f d = (.ok k, d')) : ClassesUpTo n d' := by
  rcases declare_cases d t s al f with ⟨k, _, heq⟩ | ⟨hno, ⟨k, _, heq⟩ | ⟨_, hadd⟩⟩
  · rw [heq] at hd; cases hd; exact h
  · rw [heq] at hd; cases hd; exact linkActive_classes h k
  · have hgk : d.declarations.getKey (Declaration.new t s al f) = none := hno
    unfold Store.add at hadd
    rw [hgk] at hadd
    simp only at hadd
    split at hadd
    · rename_i heq
      split at heq
      · cases heq
        rw [hadd] at hd; cases hd
        refine linkActive_classes ?_ _
        intro k dec st hk hst
        have hk := Store.get_eq_some.mp hk
        simp only at hk
        rw [List.getElem?_append] at hk
        split at hk
        · exact h k dec st (Store.get_eq_some.mpr hk) hst
        · cases hi : k - d.declarations.items.length with
          | zero => rw [hi] at hk; simp only [List.getElem?_cons_zero, Option.some.injEq] at hk; subst hk; cases hst
          | succ n => rw [hi] at hk; simp at hk
      · cases heq
    · rw [hadd] at hd; cases hd

theorem declare_live {d d' : Document} (hd : DeclsExact d) {t : AnnotationType} {s al f : Option String} {k : Nat} (h : declare t s al f d = (.ok k, d')) :
    ∃ dec, d'.getDeclaration k = some dec := by
  rcases declare_cases d t s al f with ⟨k', hid, heq⟩ | ⟨hid, ⟨k', hdef, heq⟩ | ⟨hdef, hm⟩⟩
  · rw [heq] at h
    cases h
    obtain ⟨dec, hdec, _⟩ := (declarationKeyById_iff hd t s k).mp hid
    exact ⟨dec, hdec⟩
  · rw [heq] at h
    cases h
    obtain ⟨dec, hdec, _⟩ := (declareDefault_some hdef).1.1
    obtain ⟨dec', h1, _⟩ := linkActive_get k d k dec (Store.get_eq_some.mpr hdec)
    exact ⟨dec', h1⟩
  · rcases Store.add_spec cap16 d.declarations (Declaration.new t s al f) with ⟨id, k', h1, h2, hadd⟩ | ⟨hadd, _⟩ | ⟨hf, hc, st, hadd, hi, hg, hx⟩
    · have : id = Declaration.indexId t s := (Option.some.inj h1).symm
      subst this
      simp only [Document.declarationKeyById, Store.idToKey] at hid
      rw [hid] at h2; cases h2
    · rw [hadd] at hm; simp only at hm; rw [hm] at h; cases h
    · rw [hadd] at hm
      simp only at hm
      rw [hm] at h
      cases h
      obtain ⟨dec', h1, _⟩ := linkActive_get d.declarations.items.length { d with declarations := st } d.declarations.items.length
        (Storable.assignKey (Declaration.new t s al f) d.declarations.items.length) (by
          show st.get _ = _
          rw [hg, if_pos rfl])
      exact ⟨dec', h1⟩

theorem addClass_ok {L : List DeclName} {n : Nat} {d : Document} (hr : Room L d) (h : ClassesUpTo n d) (hn : n < cap32) {k : Nat} (hk : ∃ dec, d.getDeclaration k = some dec) (c : String) :
    ∃ r d', addClass k c d = (.ok r, d') ∧ Room L d' ∧ ClassesUpTo (n + 1) d' := by
  obtain ⟨dec, hk⟩ := hk
  have hlen : ∀ st, dec.classes = some st → st.items.length ≤ n := fun st => h k dec st hk
  have hopt : ∃ r st', optAdd cap32 dec.classes c = (.ok r, some st') ∧ st'.items.length ≤ n + 1 := by
    have key : ∀ st : StringStore, st.items.length ≤ n → ∃ r st', (match st.getKey c with
        | some k => ((.ok k, some st) : Res Nat × Option StringStore)
        | none => match st.add cap32 c with
          | (r, st'') => (r, some st'')) = (.ok r, some st') ∧ st'.items.length ≤ n + 1 := by
      intro st hst
      cases hg : st.getKey c with
      | some k => exact ⟨k, st, rfl, by omega⟩
      | none =>
        refine ⟨st.items.length, { items := st.items ++ [some c], index := st.index.insert c st.items.length }, ?_, by simp; omega⟩
        unfold StringStore.add
        simp only [hg]
        rw [if_pos (by omega)]
    unfold optAdd
    cases hcl : dec.classes with
    | none => exact key {} (Nat.zero_le _)
    | some st => exact key st (hlen st hcl)
  obtain ⟨r, st', ho, hst'⟩ := hopt
  have hadd : dec.addClass c = (.ok r, { dec with classes := some st' }) := by unfold Declaration.addClass; rw [ho]
  refine ⟨r, { d with declarations := d.declarations.update k fun _ => { dec with classes := some st' } }, ?_, ?_, ?_⟩
  · unfold addClass
    rw [M.run_bind]
    unfold callDeclaration
    rw [hk]
    simp only [hadd]
    rfl
  · refine hr.update k _ fun a ha => ?_
    rw [hk] at ha; cases ha
    exact ⟨rfl, rfl⟩
  · refine ClassesUpTo.update (fun j dec st h1 h2 => Nat.le_succ_of_le (h j dec st h1 h2)) k _ ?_
    rintro a st _ ⟨⟩
    exact hst'

theorem applyDeclares_ok {L : List DeclName} (hL : L.length ≤ cap16) : ∀ (l : List (AnnotationType × Option String)) {n : Nat} {d : Document}, CInv d → Room L d →
    ClassesUpTo n d → n + l.length ≤ cap32 → (∀ ts ∈ l, ts ∈ L) → ∃ d', M.forEach applyDeclare l d = (.ok (), d') ∧ Room L d'
  | [], _, d, _, hr, _, _, _ => ⟨d, rfl, hr⟩
  | ts :: l, n, d, hi, hr, hc, hn, hm => by
    simp only [List.length_cons] at hn
    have hdoes : Does True (fun _ => True) (applyDeclare ts) fun _ _ => True := by
      unfold applyDeclare
      refine Does.bind (does_declare _ _ _ _) fun k => ?_
      split
      · exact Does.bind (does_addClass _ _) fun _ => Does.pure fun _ _ => trivial
      · exact Does.pure fun _ _ => trivial
    have hone : ∃ d1, applyDeclare ts d = (.ok (), d1) ∧ Room L d1 ∧ ClassesUpTo (n + 1) d1 := by
      obtain ⟨k, d1, h1, h2⟩ := declare_ok hi.decls.exact hr hL (hm ts (List.mem_cons_self ..)) none none
      have h3 := declare_classes hc h1
      have hlive := declare_live hi.decls.exact h1
      unfold applyDeclare
      by_cases hts : ts.2 = some DEFAULT_TEXT_SET
      · obtain ⟨r, d2, g1, g2, g3⟩ := addClass_ok h2 h3 (by omega) hlive "current"
        refine ⟨d2, ?_, g2, g3⟩
        rw [M.run_bind, h1]
        simp only [hts, if_true]
        rw [M.run_bind, g1]
        rfl
      · refine ⟨d1, ?_, h2, fun j dec st q1 q2 => Nat.le_succ_of_le (h3 j dec st q1 q2)⟩
        rw [M.run_bind, h1]
        simp only [hts, if_false]
        rfl
    obtain ⟨d1, h1, h2, h3⟩ := hone
    have hst := (hdoes d hi.ix trivial).1
    rw [h1] at hst
    obtain ⟨d', h4, h5⟩ := applyDeclares_ok hL l (n := n + 1) (hst.clean hi).1 h2 h3 (by omega) fun ts' h => hm ts' (List.mem_cons_of_mem _ h)
    refine ⟨d', ?_, h5⟩
    simp only [M.forEach]
    rw [M.run_bind, h1]
    exact h4

/-! ### The body element -/

theorem encode_untyped {e : ElementData} {ctx : Option Nat} {d : Document} (ht : e.elementtype.annotationtype = none) (hf : e.elementtype ≠ .feature) :
    (encode e ctx d).2 = d := by
  unfold encode
  split
  · have h1 : encodeCore e ctx d = (.ok {}, d) := by
      unfold encodeCore
      rw [ht]
      simp only [if_neg hf]
      rfl
    rw [M.run_bind, h1]
    simp only [M.run_bind, M.run_get]
    rcases encodeLink_cases (encodeExplicit d e {}) d with ⟨_, heq⟩ | ⟨j, p, h2, _, _, heq⟩
    · rw [heq]; rfl
    · have : (encodeExplicit d e {}).dec = none := by unfold encodeExplicit; split <;> (try split) <;> rfl
      rw [this] at h2; cases h2
  · rfl

theorem findId {p : Attribute → Bool} (hp : ∀ a, p a = false → ∀ s, a ≠ .id s) (t t' : ElementType) (data data' : List Data) (k k' q q' : Option Nat) :
    ∀ (as : List Attribute), (ElementData.mk t as data k q).id = (ElementData.mk t' (as.filter p) data' k' q').id
  | [] => rfl
  | a :: as => by
    have ih := findId hp t t' data data' k k' q q' as
    unfold ElementData.id at ih ⊢
    simp only at ih ⊢
    rw [List.filter_cons]
    cases hpa : p a with
    | true =>
      simp only [if_true, List.findSome?_cons]
      split
      · rfl
      · exact ih
    | false =>
      simp only [Bool.false_eq_true, if_false, List.findSome?_cons]
      cases a <;> first | exact ih | exact absurd rfl (hp _ hpa _)

theorem readsBack_id {d0 d : Document} {x b : ElementData} (h : ReadsBack d0 d x b) (hl : ElementGroup.layer.contains b.elementtype = false) : x.id = b.id := by
  rcases h.others with h1 | ⟨h1, _⟩
  · obtain ⟨t, as, data, k, p⟩ := x
    obtain ⟨t', as', data', k', p'⟩ := b
    simp only at h1
    rw [findId (p := (!·.decodable)) (by rintro a ha s rfl; cases ha) t t' data data' k k' p p' as,
      findId (p := (!·.encodable)) (by rintro a ha s rfl; cases ha) t' t' data' data' k' k' p' p' as', h1]
  · rw [hl] at h1; cases h1

/-- A body that fits is accepted. -/
theorem rest_accepts {X : Ext} {ps : DocumentProperties} (hps : ps.processor = none) {L : List DeclName} (hL : L.length ≤ cap16) {dm : Document} {t : ElementType}
    (ht : t = .text ∨ t = .speech) {as : List Attribute} (hi : CInv dm) (hem : dm.elements = {}) (hc : CleanAttribs as) (hr : Room L dm) (hcl : ClassesUpTo 0 dm)
    (hdec : ∀ ts ∈ ps.declare, ts ∈ L) (hdn : ps.declare.length ≤ cap32) {nodes : List XNode} {data : List Data} (hm : XNode.meaningList X nodes = some data)
    (hfit : FitsAll L [t] (ElementData.mk t as [] none none).id.toList data)
    (hids : ((ElementData.mk t as [] none none).id.toList ++ builderIdsList data).Nodup) (hcap : 1 + builderSizeList data ≤ cap32) :
    ∃ N d', ∀ F, N ≤ F → ∀ tag tail, runDoc (parseRest X F ps ⟨t, as, [], none, none⟩ (XNode.eventsList nodes ++ .endTag .folia tag :: tail)) dm = .ok ((), d') := by
  have hta : t.annotationtype = none ∧ t ≠ .feature ∧ ElementGroup.layer.contains t = false := by
    rcases ht with rfl | rfl <;> exact ⟨by decide, by decide, by decide⟩
  have hlen0 : dm.elements.len = 0 := by rw [hem]; rfl
  obtain ⟨k, da, h1, h2⟩ := addElem_ok (L := L) (c := none) (ctx := none) (e := ⟨t, as, [], none, none⟩) hi.decls.exact hr hL hc
    ⟨fun u s _ hu => (by rw [hta.1] at hu; cases hu), fun _ _ hf => absurd hf hta.2.1⟩ (by rintro c' ⟨⟩) (by rw [hlen0]; exact Nat.lt_of_lt_of_le Nat.zero_lt_one (by omega))
  have hda : da.declarations = dm.declarations := by
    have he := encode_untyped (e := ⟨t, as, [], none, none⟩) (ctx := none) (d := dm) hta.1 hta.2.1
    rw [addElem_eq] at h1
    rcases henc : encode ⟨t, as, [], none, none⟩ none dm with ⟨f | e', d'⟩
    · rw [henc] at h1; cases h1
    · rw [henc] at h1 he
      simp only at h1 he
      subst he
      simp only [Prod.mk.injEq] at h1
      rw [← h1.2]
  have hia : CInv da := by
    have := (does_addElemClean (C := True) (e := ⟨t, as, [], none, none⟩) none hc (by simp) rfl dm hi.ix trivial).1
    rw [h1] at this
    exact (this.clean hi).1
  have hca : ClassesUpTo 0 da := fun j dec st hj => hcl j dec st (by unfold getDeclaration at hj ⊢; rw [← hda]; exact hj)
  obtain ⟨d1, h3, hroom⟩ := applyDeclares_ok hL ps.declare hia h2 hca (by omega) hdec
  have hap : applyProperties ps da = (.ok (), d1) := by
    unfold applyProperties
    rw [hps]
    exact h3
  have hsteps : ∀ F evs, parseRest X F ps ⟨t, as, [], none, none⟩ evs dm = parseElements X F evs [0] d1 := by
    intro F evs
    have hne : d1.elements.items.isEmpty = false := by
      have hse := KeepsElements.applyProperties ps da
      rw [hap] at hse
      simp only at hse
      rw [hse]
      obtain ⟨l1, l2, l3, _⟩ := leaf (d0 := dm) hi rfl hc rfl (by simp) (by
        cases hid' : ElementData.id ⟨t, as, [], none, none⟩ with
        | none => exact ⟨List.nodup_nil, by simp⟩
        | some i => exact ⟨by simp, fun j _ => by unfold elementKeyById; rw [hem]; rfl⟩) h1
      cases hit : da.elements.items with
      | nil => unfold Store.len at l3; rw [hit] at l3; simp at l3
      | cons => rfl
    unfold parseRest
    simp only [M.run_bind, M.mapErr, h1, hap, M.run_get, hne, Bool.false_eq_true, if_false]
  have hrun0 : runDoc (parseRest X 0 ps ⟨t, as, [], none, none⟩ []) dm = .ok ((), d1) := by
    unfold runDoc
    rw [hsteps]
    rfl
  obtain ⟨d1', x, r1, r2, r3, r4, r5, r6, r7, r8, r9, _⟩ := rest_runs hps hi hem hc hrun0
  cases r1
  have hst := (runDoc_steps (C := True) (does_parseRest X 0 ps (by intro _ p hp; rw [hps] at hp; cases hp) ⟨t, as, [], none, none⟩ ⟨hc, rfl, rfl⟩ []) hi.ix hrun0).1
  have hidf : IdsFound d1 := hst.idsFound fun k e i hk => by unfold getElement at hk; rw [hem] at hk; simp [Store.get] at hk
  have hone : ∀ k y, d1.getElement k = some y → k = 0 ∧ y = x := by
    intro k y hy
    have : k < d1.elements.len := Store.get_lt hy
    rw [r3] at this
    have hk : k = 0 := by omega
    subst hk
    rw [r5] at hy
    cases hy
    exact ⟨rfl, rfl⟩
  have hlist : ∀ p c, ¬ d1.Lists p c := by
    rintro p c ⟨y, hy, hm⟩
    obtain ⟨_, rfl⟩ := hone p y hy
    rw [r7] at hm
    cases hm
  have hl1 : LinksAgree d1 := by
    refine ⟨fun p c => ⟨fun h => absurd h (hlist p c), ?_⟩, fun p y hy => ?_⟩
    · rintro ⟨y, hy, hm⟩
      obtain ⟨_, rfl⟩ := hone c y hy
      rw [r6] at hm
      cases hm
    · obtain ⟨_, rfl⟩ := hone p y hy
      rw [r7]
      exact List.nodup_nil
  have hprep : Prepared L 0 [] [t] (ElementData.mk t as [] none none).id.toList d1 data := by
    refine ⟨⟨r2, hl1, ⟨fun _ => 0, fun p c h => absurd h (hlist p c)⟩, hidf, hroom⟩, ⟨x, r5, r6⟩, ⟨⟨x, r5, r8.type⟩, trivial⟩, hfit, ?_, ?_, by rw [r3]; exact hcap⟩
    · intro i hid
      exact ⟨0, hidf 0 x i r5 (by rw [readsBack_id r8 hta.2.2]; simpa using hid)⟩
    · refine ⟨(List.nodup_append.mp hids).2.1, fun id hm => ?_⟩
      cases hk : d1.elementKeyById id with
      | none => rfl
      | some k => exact absurd rfl ((List.nodup_append.mp hids).2.2 id (by rw [r9 id k hk]; simp) id hm)
  obtain ⟨N, d', n1, n2, n3⟩ := nodes_admits X hL nodes 0 [] _ _ d1 data hm hprep
  refine ⟨N, d', fun F hF tag tail => ?_⟩
  unfold runDoc
  rw [hsteps, n3 F hF]
  simp only [parseElements, if_true]
  rfl

end Folia
