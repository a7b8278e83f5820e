import Verif.Lemmas.Prefix
/-! Identifiers, truncation and nesting of sources. -/
namespace Folia
open Document

/-- The identifier that an attribute gives. -/
def idAttr : Attribute → Option String
  | .id s => some s
  | _ => none

theorem id_sublist (t : ElementType) (as : List Attribute) (data : List Data) :
    (ElementData.mk t as data none none).id.toList.Sublist (as.filterMap idAttr) := by
  unfold ElementData.id
  simp only
  induction as with
  | nil => exact .refl _
  | cons a as ih =>
    simp only [List.findSome?_cons, List.filterMap_cons]
    cases a
    case id s => exact List.Sublist.cons_cons s (List.nil_sublist _)
    all_goals exact ih

theorem pick_ite {α : Type} {c : Prop} [Decidable c] {x y : Option α} {a : α} {P : Prop} (h : (if c then x else y) = some a) (hx : x = some a → P)
    (hy : y = some a → P) : P := by
  split at h
  · exact hx h
  · exact hy h

theorem parse_idAttr {X : Ext} {k v : String} {a : Attribute} (h : Attribute.parse X k v = some a) :
    idAttr a = if k = "xml:id" then some v else none := by
  unfold Attribute.parse at h
  by_cases hk : k = "xml:id"
  · rw [if_pos hk] at h ⊢; cases h; rfl
  · rw [if_neg hk] at h ⊢
    have hmap : ∀ {α : Type} (o : Option α) (f : α → Attribute), (∀ x, idAttr (f x) = none) → o.map f = some a → idAttr a = none := by
      intro α o f hf ho
      obtain ⟨x, _, rfl⟩ := Option.map_eq_some_iff.mp ho
      exact hf x
    have hsome : ∀ b, idAttr b = none → some b = some a → idAttr a = none := by rintro b hb ⟨⟩; exact hb
    repeat
      refine pick_ite h (by first | exact hsome _ rfl | exact hmap _ _ fun _ => rfl) fun h => ?_
    cases h

theorem parse_xmlId (X : Ext) (v : String) : Attribute.parse X "xml:id" v = some (.id v) := by unfold Attribute.parse; rw [if_pos rfl]

theorem attrsMeaning_ids {X : Ext} {t : ElementType} : ∀ {attrs : List RAttr} {as : List Attribute} {fs : List Data},
    attrsMeaning X t attrs = some (as, fs) → as.filterMap idAttr = attrIds attrs ∧ builderIdsList fs = []
  | [], as, fs, h => by cases h; exact ⟨rfl, by simp only [builderIdsList]⟩
  | .bad :: _, as, fs, h => by cases h
  | .ok k v :: rest, as, fs, h => by
    simp only [attrsMeaning, Option.bind_eq_bind] at h
    cases hu : unescape v with
    | none => rw [hu] at h; cases h
    | some value =>
      cases hm : attrsMeaning X t rest with
      | none => rw [hu, hm] at h; cases h
      | some r =>
        obtain ⟨as', fs'⟩ := r
        obtain ⟨h1, h2⟩ := attrsMeaning_ids hm
        rw [hu, hm] at h
        simp only [Option.bind_some] at h
        unfold attrIds at h1 ⊢
        cases hp : Attribute.parse X k value with
        | some a =>
          rw [hp] at h
          cases h
          refine ⟨?_, h2⟩
          rw [List.filterMap_cons, parse_idAttr hp, List.filterMap_cons, h1]
          by_cases hk : k = "xml:id" <;> simp [hk, hu]
        | none =>
          rw [hp] at h
          have hk : k ≠ "xml:id" := by rintro rfl; rw [parse_xmlId] at hp; cases hp
          simp only at h
          split at h
          · cases h
            refine ⟨?_, ?_⟩
            · rw [List.filterMap_cons, h1]; simp [hk]
            · simp [featureFor, builderIdsList, builderIds, h2, ElementData.id]
          · cases h

mutual
theorem meaning_ids {X : Ext} : ∀ {x : XNode} {data : List Data}, x.meaning X = some data → (builderIdsList data).Sublist x.ids
  | .elem tag attrs children, data, h => by
    simp only [XNode.meaning, Option.bind_eq_bind] at h
    cases ht : ElementType.fromStr tag with
    | none => rw [ht] at h; cases h
    | some t =>
      cases ha : attrsMeaning X t attrs with
      | none => rw [ht] at h; simp only [Option.bind_some, ha] at h; cases h
      | some r =>
        obtain ⟨as, fs⟩ := r
        cases hc : XNode.meaningList X children with
        | none => rw [ht] at h; simp only [Option.bind_some, ha, hc] at h; cases h
        | some ys =>
          rw [ht] at h; simp only [Option.bind_some, ha, hc] at h; cases h
          obtain ⟨h1, h2⟩ := attrsMeaning_ids ha
          simp only [XNode.ids, builderIdsList, builderIds, builderIdsList_append, h2, List.nil_append, List.append_nil, ← h1]
          exact (id_sublist t as _).append (meaningList_ids hc)
  | .empty tag attrs, data, h => by
    simp only [XNode.meaning, Option.bind_eq_bind] at h
    cases ht : ElementType.fromStr tag with
    | none => rw [ht] at h; cases h
    | some t =>
      cases ha : attrsMeaning X t attrs with
      | none => rw [ht] at h; simp only [Option.bind_some, ha] at h; cases h
      | some r =>
        obtain ⟨as, fs⟩ := r
        rw [ht] at h; simp only [Option.bind_some, ha] at h; cases h
        obtain ⟨h1, h2⟩ := attrsMeaning_ids ha
        simp only [XNode.ids, builderIdsList, builderIds, h2, List.append_nil, ← h1]
        exact id_sublist t as _
  | .foreign named tag attrs children, data, h => by
    simp only [XNode.meaning] at h
    simp only [XNode.ids]
    exact meaningList_ids h
  | .foreignEmpty named tag attrs, data, h => by simp only [XNode.meaning] at h; cases h; simp [builderIdsList]
  | .text s, data, h => by
    simp only [XNode.meaning] at h
    obtain ⟨t, _, rfl⟩ := Option.map_eq_some_iff.mp h
    unfold unlessBlank; split <;> simp [builderIdsList]
  | .cdata s, data, h => by
    simp only [XNode.meaning] at h; cases h
    unfold unlessBlank; split <;> simp [builderIdsList]
  | .comment s, data, h => by
    simp only [XNode.meaning] at h; cases h
    unfold unlessBlank; split <;> simp [builderIdsList]
  | .instruction, data, h => by simp only [XNode.meaning] at h; cases h; simp [builderIdsList]
theorem meaningList_ids {X : Ext} : ∀ {xs : List XNode} {data : List Data}, XNode.meaningList X xs = some data →
    (builderIdsList data).Sublist (XNode.idsList xs)
  | [], data, h => by simp only [XNode.meaningList] at h; cases h; simp [builderIdsList]
  | x :: xs, data, h => by
    simp only [XNode.meaningList, Option.bind_eq_bind] at h
    cases h1 : x.meaning X with
    | none => rw [h1] at h; cases h
    | some ys =>
      cases h2 : XNode.meaningList X xs with
      | none => rw [h1, h2] at h; cases h
      | some zs =>
        rw [h1, h2] at h; cases h
        rw [builderIdsList_append]
        simp only [XNode.idsList]
        exact (meaning_ids h1).append (meaningList_ids h2)
end

theorem FreshIds.sublist {d : Document} {a b : List String} (h : d.FreshIds b) (hs : a.Sublist b) : d.FreshIds a :=
  ⟨h.1.sublist hs, fun id hid => h.2 id (hs.subset hid)⟩

theorem Ran.widen {n : Nat} {a b : Document} {f : Nat → List Data} {ids ids' : List String} (h : Ran n a b f ids) (hs : ids.Sublist ids') : Ran n a b f ids' :=
  ⟨h.steps, h.procs, h.old, fun id k hk => (h.index id k hk).imp_right fun h => hs.subset h, h.links, h.ranked⟩

/-! ### Truncation -/

theorem M.run_then {σ α β : Type} {m : M σ α} {f g : α → M σ β} {s s' : σ} {b : β} (h : (m >>= f) s = (.ok b, s'))
    (hg : ∀ a s1 b s', f a s1 = (.ok b, s') → ∃ b' s'', g a s1 = (.ok b', s'')) : ∃ b' s'', (m >>= g) s = (.ok b', s'') := by
  obtain ⟨a, s1, h1, h2⟩ := bind_ok h
  obtain ⟨b', s'', h3⟩ := hg a s1 b s' h2
  exact ⟨b', s'', by rw [M.run_bind, h1]; exact h3⟩

/-- Every beginning of an accepted stream of events in the body is accepted. -/
theorem parseElements_take {X : Ext} {F : Nat} (suf : List REvent) : ∀ (pre : List REvent) (stack : List Nat) (d : Document) (u : Unit) (d' : Document),
    parseElements X F (pre ++ suf) stack d = (.ok u, d') → ∃ u' d'', parseElements X F pre stack d = (.ok u', d'')
  | [], stack, d, u, d', _ => ⟨(), d, rfl⟩
  | .error :: _, _, _, _, _, h => by cases h
  | .other :: pre, stack, d, u, d', h => parseElements_take suf pre stack d u d' h
  | .text s :: pre, stack, d, u, d', h => by
    simp only [List.cons_append, parseElements] at h ⊢
    cases hu : unescape s with
    | none => rw [hu] at h; cases h
    | some t =>
      rw [hu] at h
      simp only at h ⊢
      cases hb : notBlank t with
      | true =>
        rw [hb] at h
        exact M.run_then (m := pushData stack (.text t)) (f := fun _ => parseElements X F (pre ++ suf) stack) (g := fun _ => parseElements X F pre stack)
          h fun _ s1 u s' => parseElements_take suf pre stack s1 u s'
      | false =>
        rw [hb] at h
        exact parseElements_take suf pre stack d u d' h
  | .cdata t :: pre, stack, d, u, d', h => by
    simp only [List.cons_append, parseElements] at h ⊢
    cases hb : notBlank t with
    | true =>
      rw [hb] at h
      exact M.run_then (m := pushData stack (.text t)) (f := fun _ => parseElements X F (pre ++ suf) stack) (g := fun _ => parseElements X F pre stack)
        h fun _ s1 u s' => parseElements_take suf pre stack s1 u s'
    | false =>
      rw [hb] at h
      exact parseElements_take suf pre stack d u d' h
  | .comment t :: pre, stack, d, u, d', h => by
    simp only [List.cons_append, parseElements] at h ⊢
    cases hb : notBlank t with
    | true =>
      rw [hb] at h
      exact M.run_then (m := pushData stack (.comment t)) (f := fun _ => parseElements X F (pre ++ suf) stack) (g := fun _ => parseElements X F pre stack)
        h fun _ s1 u s' => parseElements_take suf pre stack s1 u s'
    | false =>
      rw [hb] at h
      exact parseElements_take suf pre stack d u d' h
  | .empty ns tag attrs :: pre, stack, d, u, d', h => by
    simp only [List.cons_append, parseElements] at h ⊢
    by_cases hn : ns = .folia
    · rw [if_pos hn] at h ⊢
      exact M.run_then h fun _ s1 u s' => parseElements_take suf pre stack s1 u s'
    · rw [if_neg hn] at h ⊢
      exact parseElements_take suf pre stack d u d' h
  | .start ns tag attrs :: pre, stack, d, u, d', h => by
    simp only [List.cons_append, parseElements] at h ⊢
    by_cases hn : ns = .folia
    · rw [if_pos hn] at h ⊢
      exact M.run_then h fun k s1 u s' => parseElements_take suf pre (k :: stack) s1 u s'
    · rw [if_neg hn] at h ⊢
      exact parseElements_take suf pre stack d u d' h
  | .endTag ns tag :: pre, stack, d, u, d', h => by
    simp only [List.cons_append, parseElements] at h ⊢
    by_cases hn : ns = .folia
    · rw [if_pos hn] at h ⊢
      match stack, h with
      | [], h => exact ⟨u, d', h⟩
      | [_], h => exact ⟨u, d', h⟩
      | key :: parent :: below, h =>
        exact M.run_then h fun _ s1 u s' => parseElements_take suf pre (parent :: below) s1 u s'
    · rw [if_neg hn] at h ⊢
      exact parseElements_take suf pre stack d u d' h

/-- An error of the reader before the body is closed makes parsing fail. -/
theorem parseElements_error {X : Ext} {F : Nat} (rest : List REvent) : ∀ (pre : List REvent) (n m : Nat) (stack : List Nat) (d : Document),
    stack.length = n + 1 → bodyDepth n pre = some m → ∃ f d', parseElements X F (pre ++ .error :: rest) stack d = (.error f, d') := by
  intro pre n m stack d hs ho
  suffices h : ∀ u d', parseElements X F (pre ++ .error :: rest) stack d ≠ (.ok u, d') by
    rcases hp : parseElements X F (pre ++ .error :: rest) stack d with ⟨f | u, d'⟩
    · exact ⟨f, d', rfl⟩
    · exact absurd hp (h u d')
  induction pre generalizing n stack d with
  | nil => intro u d' h; cases h
  | cons ev pre ih =>
    intro u d' h
    cases ev with
    | error => cases h
    | other => exact ih n stack d hs (by unfold bodyDepth at ho; exact ho) u d' h
    | text s =>
      have ho : bodyDepth n pre = some m := by unfold bodyDepth at ho; exact ho
      simp only [List.cons_append, parseElements] at h
      cases hu : unescape s with
      | none => rw [hu] at h; cases h
      | some t =>
        rw [hu] at h
        simp only at h
        cases hb : notBlank t with
        | true =>
          rw [hb] at h
          obtain ⟨_, d1, _, h2⟩ := bind_ok (m := pushData stack (.text t)) (f := fun _ => parseElements X F (pre ++ .error :: rest) stack) h
          exact ih n stack d1 hs ho u d' h2
        | false => rw [hb] at h; exact ih n stack d hs ho u d' h
    | cdata t =>
      have ho : bodyDepth n pre = some m := by unfold bodyDepth at ho; exact ho
      simp only [List.cons_append, parseElements] at h
      cases hb : notBlank t with
      | true =>
        rw [hb] at h
        obtain ⟨_, d1, _, h2⟩ := bind_ok (m := pushData stack (.text t)) (f := fun _ => parseElements X F (pre ++ .error :: rest) stack) h
        exact ih n stack d1 hs ho u d' h2
      | false => rw [hb] at h; exact ih n stack d hs ho u d' h
    | comment t =>
      have ho : bodyDepth n pre = some m := by unfold bodyDepth at ho; exact ho
      simp only [List.cons_append, parseElements] at h
      cases hb : notBlank t with
      | true =>
        rw [hb] at h
        obtain ⟨_, d1, _, h2⟩ := bind_ok (m := pushData stack (.comment t)) (f := fun _ => parseElements X F (pre ++ .error :: rest) stack) h
        exact ih n stack d1 hs ho u d' h2
      | false => rw [hb] at h; exact ih n stack d hs ho u d' h
    | empty ns tag attrs =>
      have ho : bodyDepth n pre = some m := by unfold bodyDepth at ho; exact ho
      simp only [List.cons_append, parseElements] at h
      by_cases hn : ns = .folia
      · rw [if_pos hn] at h
        obtain ⟨_, d1, _, h2⟩ := bind_ok h
        exact ih n stack d1 hs ho u d' h2
      · rw [if_neg hn] at h; exact ih n stack d hs ho u d' h
    | start ns tag attrs =>
      simp only [List.cons_append, parseElements] at h
      by_cases hn : ns = .folia
      · subst hn
        rw [if_pos rfl] at h
        obtain ⟨k, d1, _, h2⟩ := bind_ok h
        exact ih (n + 1) (k :: stack) d1 (by simp [hs]) (by simpa only [bodyDepth] using ho) u d' h2
      · rw [if_neg hn] at h
        exact ih n stack d hs (by cases ns <;> first | (exact absurd rfl hn) | (unfold bodyDepth at ho; exact ho)) u d' h
    | endTag ns tag =>
      simp only [List.cons_append, parseElements] at h
      by_cases hn : ns = .folia
      · subst hn
        rw [if_pos rfl] at h
        match n, stack, hs, h, ho with
        | 0, _, _, _, ho => simp [bodyDepth] at ho
        | n + 1, key :: parent :: below, hs, h, ho =>
          obtain ⟨_, d1, _, h2⟩ := bind_ok h
          exact ih n (parent :: below) d1 (by simpa using hs) (by simpa only [bodyDepth] using ho) u d' h2
      · rw [if_neg hn] at h
        exact ih n stack d hs (by cases ns <;> first | (exact absurd rfl hn) | (unfold bodyDepth at ho; exact ho)) u d' h

theorem parseRoot_found {d : Document} : ∀ {evs : List REvent} {r : Document × List REvent}, parseRoot d evs = .ok r →
    ∃ pre attrs, evs = pre ++ .start .folia "FoLiA" attrs :: r.2 ∧ .error ∉ pre
  | [], r, h => by cases h
  | ev :: evs, r, h => by
    have go : ev ≠ .error → parseRoot d evs = .ok r → ∃ pre attrs, ev :: evs = pre ++ .start .folia "FoLiA" attrs :: r.2 ∧ .error ∉ pre := fun hn h => by
      obtain ⟨pre, attrs, h1, h2⟩ := parseRoot_found h
      exact ⟨ev :: pre, attrs, by rw [h1]; rfl, by simp [h2, Ne.symm hn]⟩
    cases ev with
    | error => cases h
    | start ns tag attrs =>
      simp only [parseRoot] at h
      split at h
      · rename_i hc
        obtain ⟨rfl, rfl⟩ := hc
        cases hr : rootAttrs d attrs with
        | error f => rw [hr] at h; cases h
        | ok d' => rw [hr] at h; cases h; exact ⟨[], attrs, rfl, by simp⟩
      · cases h
    | _ => exact go (by simp) h

theorem parseMeta_found : ∀ {evs : List REvent} {d : Document} {st : MetaSt} {r : Document × List REvent}, parseMeta d st evs = .ok r →
    ∃ pre, evs = pre ++ metadataEnd :: r.2 ∧ .error ∉ pre
  | [], d, st, r, h => by cases h
  | ev :: evs, d, st, r, h => by
    have go : ∀ d st, ev ≠ .error → parseMeta d st evs = .ok r → ∃ pre, ev :: evs = pre ++ metadataEnd :: r.2 ∧ .error ∉ pre := fun d st hn h => by
      obtain ⟨pre, h1, h2⟩ := parseMeta_found h
      exact ⟨ev :: pre, by rw [h1]; rfl, by simp [h2, Ne.symm hn]⟩
    cases ev with
    | error => cases h
    | endTag ns tag =>
      simp only [parseMeta] at h
      split at h
      · rename_i hc
        obtain ⟨rfl, rfl⟩ := hc
        cases h; exact ⟨[], rfl, by simp⟩
      · exact go _ _ (by simp) h
    | empty ns tag attrs => simp only [parseMeta] at h; split at h; exact go _ _ (by simp) h; cases h
    | start ns tag attrs => simp only [parseMeta] at h; split at h; exact go _ _ (by simp) h; cases h
    | text s => simp only [parseMeta] at h; split at h; exact go _ _ (by simp) h; cases h
    | _ => exact go _ _ (by simp) h

theorem parseBody_found {X : Ext} : ∀ {evs : List REvent} {r : Option ElementData × List REvent}, parseBody X evs = .ok r →
    ∃ gap tag attrs t, evs = gap ++ .start .folia tag attrs :: r.2 ∧ (∀ ev ∈ gap, isStart ev = false) ∧ bodyTypeOf tag = some t ∧ .error ∉ gap
  | [], r, h => by cases h
  | ev :: evs, r, h => by
    have go : ev ≠ .error → isStart ev = false → parseBody X evs = .ok r → ∃ gap tag attrs t, ev :: evs = gap ++ .start .folia tag attrs :: r.2 ∧
        (∀ ev ∈ gap, isStart ev = false) ∧ bodyTypeOf tag = some t ∧ .error ∉ gap := fun hn hs h => by
      obtain ⟨gap, tag, attrs, t, h0, h1, h2, h3⟩ := parseBody_found h
      exact ⟨ev :: gap, tag, attrs, t, by rw [h0]; rfl, by simpa [hs] using h1, h2, by simp [h3, Ne.symm hn]⟩
    cases ev with
    | error => cases h
    | start ns tag attrs =>
      simp only [parseBody] at h
      have fin : ∀ t, ns = .folia → bodyTypeOf tag = some t → ((bodyOf X t attrs).map fun b => (b, evs)) = .ok r →
          ∃ gap tag' attrs' t, .start ns tag attrs :: evs = gap ++ .start .folia tag' attrs' :: r.2 ∧ (∀ ev ∈ gap, isStart ev = false) ∧
            bodyTypeOf tag' = some t ∧ .error ∉ gap := fun t hn ht hb => by
        cases hbo : bodyOf X t attrs with
        | error f => rw [hbo] at hb; cases hb
        | ok b => rw [hbo] at hb; cases hb; exact ⟨[], tag, attrs, t, by rw [hn]; rfl, by simp, ht, by simp⟩
      split at h
      · rename_i hc; exact fin _ hc.1 (by rw [hc.2]; rfl) h
      · split at h
        · rename_i hc; exact fin _ hc.1 (by rw [hc.2]; decide) h
        · cases h
    | _ => exact go (by simp) rfl h

theorem parse_found {X : Ext} {F : Nat} {ps : DocumentProperties} {evs : List REvent} {d : Document} (h : Document.parse X F ps evs = .ok d) :
    ∃ pre root mid gap tag attrs t rest d1, evs = source (pre ++ .start .folia "FoLiA" root :: mid) gap tag attrs rest ∧
      (∀ ev ∈ gap, isStart ev = false) ∧ bodyTypeOf tag = some t ∧ .error ∉ pre ∧ .error ∉ mid ∧ .error ∉ gap ∧
      parseElements X F rest [0] d1 = (.ok (), d) := by
  unfold Document.parse at h
  simp only [bind, Except.bind] at h
  cases h1 : parseRoot { autodeclare := ps.autodeclare } evs with
  | error f => rw [h1] at h; cases h
  | ok r1 =>
    rw [h1] at h
    simp only at h
    cases h2 : parseMeta r1.1 {} r1.2 with
    | error f => rw [h2] at h; cases h
    | ok r2 =>
      rw [h2] at h
      simp only at h
      cases h3 : parseBody X r2.2 with
      | error f => rw [h3] at h; cases h
      | ok r3 =>
        rw [h3] at h
        obtain ⟨pre, root, e1, n1⟩ := parseRoot_found h1
        obtain ⟨mid, e2, n2⟩ := parseMeta_found h2
        obtain ⟨gap, tag, attrs, t, e3, h4, h5, n3⟩ := parseBody_found h3
        obtain ⟨ob, rest⟩ := r3
        cases ob with
        | none => cases h
        | some b =>
          simp only at h e3
          unfold runDoc at h
          rcases hr : parseRest X F ps b rest r2.1 with ⟨f | u, d'⟩
          · rw [hr] at h; cases h
          · rw [hr] at h
            cases h
            unfold parseRest at hr
            obtain ⟨_, da, _, hr⟩ := bind_ok hr
            obtain ⟨_, db, _, hr⟩ := bind_ok hr
            obtain ⟨_, dc, _, hr⟩ := bind_ok hr
            split at hr
            · cases hr
            · exact ⟨pre, root, mid, gap, tag, attrs, t, rest, dc, by rw [e1, e2, e3]; simp [source], h4, h5, n1, n2, n3, hr⟩

theorem append_split {α : Type} {x : α} : ∀ {a b c d : List α}, a ++ b = c ++ x :: d → x ∉ a → ∃ c', c = a ++ c' ∧ b = c' ++ x :: d
  | [], b, c, d, h, _ => ⟨c, rfl, h⟩
  | y :: a, b, [], d, h, hn => by
    simp only [List.cons_append, List.nil_append, List.cons.injEq] at h
    exact absurd (by rw [h.1]; exact List.mem_cons_self ..) hn
  | y :: a, b, z :: c, d, h, hn => by
    simp only [List.cons_append, List.cons.injEq] at h
    obtain ⟨rfl, h⟩ := h
    obtain ⟨c', h1, h2⟩ := append_split h fun hm => hn (List.mem_cons_of_mem _ hm)
    exact ⟨c', by rw [h1]; rfl, h2⟩

/-- An event is an end tag. -/
def isEnd : REvent → Bool
  | .endTag _ _ => true
  | _ => false

theorem bodyDepth_closed : ∀ {evs : List REvent} {n : Nat}, bodyDepth n evs = none → 0 < evs.countP isEnd
  | [], n, h => by cases n <;> cases h
  | ev :: evs, n, h => by
    rw [List.countP_cons]
    cases ev with
    | endTag ns t => simp [isEnd]
    | start ns t as =>
      have : bodyDepth n evs = none ∨ bodyDepth (n + 1) evs = none := by cases ns <;> (unfold bodyDepth at h; first | exact Or.inl h | exact Or.inr h)
      rcases this with h | h <;> (have := bodyDepth_closed h; omega)
    | _ => have := bodyDepth_closed (n := n) (evs := evs) (by unfold bodyDepth at h; exact h); omega

/-- An error of the reader is only harmless after the body was closed. -/
theorem parse_error {X : Ext} {F : Nat} {ps : DocumentProperties} {read rest : List REvent} {d : Document}
    (h : Document.parse X F ps (read ++ .error :: rest) = .ok d) :
    ∃ header gap tag attrs inside, read = source header gap tag attrs inside ∧ bodyDepth 0 inside = none := by
  obtain ⟨pre, root, mid, gap, tag, attrs, t, body, d1, h1, h2, h3, n1, n2, n3, h4⟩ := parse_found h
  have h1' : (pre ++ .start .folia "FoLiA" root :: mid ++ metadataEnd :: gap ++ [.start .folia tag attrs]) ++ body = read ++ .error :: rest := by
    rw [h1]; simp [source]
  obtain ⟨inside, e1, e2⟩ := append_split h1' (by simp [n1, n2, n3, metadataEnd])
  refine ⟨pre ++ .start .folia "FoLiA" root :: mid, gap, tag, attrs, inside, by rw [e1]; simp only [source, List.append_assoc, List.cons_append, List.nil_append], ?_⟩
  cases ho : bodyDepth 0 inside with
  | none => rfl
  | some m =>
    obtain ⟨f, d', hf⟩ := parseElements_error (X := X) (F := F) rest inside 0 m [0] d1 rfl ho
    rw [e2, hf] at h4
    cases h4

theorem checkEnds_mismatch (ns : Ns) (tag : String) (rest : List REvent) : ∀ (read : List REvent) (opened now : List (Ns × String)),
    nestedOpen opened read = some now → now.head? ≠ some (ns, tag) →
    ∃ rest', checkEnds opened (read ++ .endTag ns tag :: rest) = read ++ .error :: rest'
  | [], opened, now, h, hn => by
    cases h
    match opened, hn with
    | [], _ => exact ⟨_, rfl⟩
    | o :: opened, hn =>
      refine ⟨checkEnds opened rest, ?_⟩
      simp only [List.nil_append, checkEnds]
      rw [if_neg (by simpa using hn)]
  | ev :: read, opened, now, h, hn => by
    have go : nestedOpen opened read = some now → (∀ evs, checkEnds opened (ev :: evs) = ev :: checkEnds opened evs) →
        ∃ rest', checkEnds opened (ev :: read ++ .endTag ns tag :: rest) = ev :: read ++ .error :: rest' := fun h hc => by
      obtain ⟨r, hr⟩ := checkEnds_mismatch ns tag rest read opened now h hn
      exact ⟨r, by rw [List.cons_append, hc, hr]; rfl⟩
    cases ev with
    | start n t as =>
      simp only [nestedOpen] at h
      obtain ⟨r, hr⟩ := checkEnds_mismatch ns tag rest read _ now h hn
      exact ⟨r, by simp only [List.cons_append, checkEnds]; rw [hr]⟩
    | endTag n t =>
      match opened, h with
      | [], h => simp [nestedOpen] at h
      | o :: opened, h =>
        simp only [nestedOpen] at h
        split at h
        · rename_i ho
          obtain ⟨r, hr⟩ := checkEnds_mismatch ns tag rest read _ now h hn
          exact ⟨r, by simp only [List.cons_append, checkEnds]; rw [if_pos ho, hr]⟩
        · cases h
    | empty => exact go (by simpa only [nestedOpen] using h) fun _ => by simp only [checkEnds]
    | text => exact go (by simpa only [nestedOpen] using h) fun _ => by simp only [checkEnds]
    | cdata => exact go (by simpa only [nestedOpen] using h) fun _ => by simp only [checkEnds]
    | comment => exact go (by simpa only [nestedOpen] using h) fun _ => by simp only [checkEnds]
    | other => exact go (by simpa only [nestedOpen] using h) fun _ => by simp only [checkEnds]
    | error => exact go (by simpa only [nestedOpen] using h) fun _ => by simp only [checkEnds]

/-! ### End tags -/

theorem startTag_ran {X : Ext} {tag : String} {attrs : List RAttr} {stack : List Nat} {d d1 : Document} {key : Nat} (hi : CInv d)
    (hf : d.FreshIds (attrIds attrs)) (h : startTag X tag attrs stack d = (.ok key, d1)) :
    ∃ t x, ElementType.fromStr tag = some t ∧ d1.getElement key = some x ∧ x.parent = none ∧ x.elementtype = t ∧
      Ran d.elements.len d d1 (fun _ => []) (attrIds attrs) := by
  unfold startTag at h
  obtain ⟨r, d2, h3, h4⟩ := bind_ok h
  obtain ⟨hq, rfl⟩ := ofRes_run h3
  clear h3
  obtain ⟨t, as, m1, m2, m3⟩ := parseElementTag_meaning hq
  obtain ⟨c1, c2, c3⟩ := tag_clean hq
  obtain ⟨e, cs⟩ := r
  simp only at m2 m3 c1 c2 c3 h4
  obtain ⟨key', da, h5, h6⟩ := bind_ok h4
  have h5 := mapErr_ok h5
  obtain ⟨_, db, h7, h8⟩ := bind_ok h6
  cases h8
  obtain ⟨i1, i2⟩ := attrsMeaning_ids m2
  have hsub : e.id.toList.Sublist (attrIds attrs) := by rw [m3, ← i1]; exact id_sublist t as []
  obtain ⟨l1, l2, l3, l4, x, l5, l6, l7, l8⟩ := leaf (d0 := d2) hi rfl c1 c2 (by rw [m3]; simp) (FreshIds.sublist hf hsub) h5
  have hia := (l2.steps.clean hi).1
  have hkl : key < da.elements.len := Store.get_lt l5
  obtain ⟨ys, hs⟩ := shortcuts_fills (d0 := d2) cs da d1 c3 hia (by rw [l2.procs]) ⟨x, l5⟩ h7
  obtain ⟨xb, hxb, hkb⟩ := hs.ran.old key x hkl l5
  refine ⟨t, xb, m1, hxb, by rw [hkb.parent, l6], by rw [hkb.type, l8.type, m3], ?_⟩
  have hr := (l2.trans (hs.ran.le (m := d2.elements.len) (by omega) (g := fun _ => []) fun j hj => by rw [if_neg (by omega)]))
  rw [i2] at hr
  exact hr.widen (by rw [List.append_nil]; exact hsub)

theorem closeTag_type {F : Nat} {tag : String} {key : Nat} {stack : List Nat} {d d' : Document} {x : ElementData} {u : Unit} (hx : d.getElement key = some x)
    (h : closeTag F tag key stack d = (.ok u, d')) : ElementType.fromStr tag = some x.elementtype := by
  unfold closeTag at h
  obtain ⟨_, dp, h1, h2⟩ := bind_ok h
  obtain ⟨_, dp', h3, h2⟩ := bind_ok h2
  cases h3
  have hu := postAdd_upds F key (some stack) d
  rw [h1] at hu
  rcases hu.elems key with ⟨h4, _⟩ | ⟨y, y', h4, h5, h6⟩
  · rw [hx] at h4; cases h4
  · rw [hx] at h4; cases h4
    rw [h5] at h2
    simp only at h2
    cases ht : ElementType.fromStr tag with
    | none => rw [ht] at h2; cases h2
    | some t =>
      rw [ht] at h2
      simp only at h2
      split at h2
      · cases h2
      · rename_i hne
        rw [← h6.type]
        simp only [ne_eq, Decidable.not_not] at hne
        rw [hne]

/-- The end tag after a path and some nodes belongs to the innermost open element. -/
theorem path_end (X : Ext) (F : Nat) (tag' : String) (rest : List REvent) (last : List XNode) : ∀ (path : List Frame) (top : Nat) (below : List Nat)
    (d d' : Document) (pe : ElementData) (u : Unit), CInv d → d.getElement top = some pe → pe.parent = none →
    d.FreshIds (Frame.ids path ++ XNode.idsList last) →
    parseElements X F (Frame.events path ++ (XNode.eventsList last ++ .endTag .folia tag' :: rest)) (top :: below) d = (.ok u, d') →
    (path = [] → below ≠ [] → ElementType.fromStr tag' = some pe.elementtype) ∧
      ∀ f, path.getLast? = some f → ∃ t, ElementType.fromStr tag' = some t ∧ ElementType.fromStr f.tag = some t
  | [], top, below, d, d', pe, u, hi, ht, hp, hf, h => by
    refine ⟨fun _ hb => ?_, by simp⟩
    obtain ⟨data, d1, h1, h2, h3⟩ := nodes_runs X F last _ top below d d' h
    obtain ⟨⟨ys, hfl⟩, _⟩ := h3 d pe hi rfl ht hp (FreshIds.sublist hf (by
      simp only [Frame.ids, List.flatMap_nil, List.nil_append]; exact meaningList_ids h1))
    obtain ⟨pe', h4, h5⟩ := hfl.ran.old top pe (Store.get_lt ht) ht
    match below, hb with
    | parent :: below, _ =>
      simp only [parseElements, if_true] at h2
      obtain ⟨_, d2, h6, _⟩ := bind_ok h2
      rw [← h5.type]
      exact closeTag_type h4 h6
  | f :: path, top, below, d, d', pe, u, hi, ht, hp, hf, h => by
    refine ⟨by simp, ?_⟩
    simp only [Frame.events, List.flatMap_cons, List.append_assoc, List.cons_append, List.nil_append] at h
    simp only [Frame.ids, List.flatMap_cons, List.append_assoc] at hf
    obtain ⟨data, d1, h1, h2, h3⟩ := nodes_runs X F f.before _ top below d d' h
    have hsub := meaningList_ids h1
    obtain ⟨⟨ys, hfl⟩, _⟩ := h3 d pe hi rfl ht hp (FreshIds.sublist hf (hsub.trans (List.sublist_append_left _ _)))
    have hf1 := hfl.ran.widen hsub |>.fresh hf
    have hi1 := (hfl.ran.steps.clean hi).1
    simp only [parseElements, if_true] at h2
    obtain ⟨key, d2, h4, h5⟩ := bind_ok h2
    obtain ⟨t, x, s1, s2, s3, s4, s5⟩ := startTag_ran hi1 (FreshIds.sublist hf1 (List.sublist_append_left _ _)) h4
    have hi2 := (s5.steps.clean hi1).1
    obtain ⟨r1, r2⟩ := path_end X F tag' rest last path key (top :: below) d2 d' x u hi2 s2 s3 (s5.fresh hf1) h5
    intro g hg
    cases path with
    | nil =>
      simp only [List.getLast?_singleton, Option.some.injEq] at hg
      subst hg
      exact ⟨t, by rw [r1 rfl (by simp), s4], s1⟩
    | cons f' path' => exact r2 g (by rw [List.getLast?_cons_cons] at hg; exact hg)

/-! ### Text -/

theorem storedItems_text {lo : Nat} {d0 d : Document} {par : Option Nat} : ∀ {data ys : List Data}, StoredItems lo d0 d par ys data →
    textItems ys = textItems data
  | [], ys, h => by simp only [StoredItems] at h; subst h; rfl
  | .text s :: rest, ys, h => by
    simp only [StoredItems] at h
    obtain ⟨ys', rfl, h⟩ := h
    simp only [textItems, List.filterMap_cons]
    exact congrArg _ (storedItems_text h)
  | .comment s :: rest, ys, h => by
    simp only [StoredItems] at h
    obtain ⟨ys', rfl, h⟩ := h
    simp only [textItems, List.filterMap_cons]
    exact storedItems_text h
  | .addElement e :: rest, ys, h => by
    simp only [StoredItems] at h
    obtain ⟨c, ys', rfl, _, h⟩ := h
    simp only [textItems, List.filterMap_cons]
    exact storedItems_text h
  | .element _ :: _, ys, h => by simp only [StoredItems] at h
  | .spanReference _ :: _, ys, h => by simp only [StoredItems] at h

theorem textItems_append (a b : List Data) : textItems (a ++ b) = textItems a ++ textItems b := List.filterMap_append ..
theorem textItems_own (data : List Data) : textItems (ownItems data) = textItems data := by
  unfold textItems ownItems
  induction data with
  | nil => rfl
  | cons x xs ih => cases x <;> simp [ih]

theorem storedItems_mem {lo : Nat} {d0 d : Document} {par : Option Nat} : ∀ {data ys : List Data} {e : ElementData}, StoredItems lo d0 d par ys data →
    .addElement e ∈ data → ∃ c, Stored lo d0 d par c e
  | [], ys, e, _, hm => by cases hm
  | .text s :: rest, ys, e, h, hm => by
    simp only [StoredItems] at h
    obtain ⟨ys', rfl, h⟩ := h
    simp only [List.mem_cons, reduceCtorEq, false_or] at hm
    exact storedItems_mem h hm
  | .comment s :: rest, ys, e, h, hm => by
    simp only [StoredItems] at h
    obtain ⟨ys', rfl, h⟩ := h
    simp only [List.mem_cons, reduceCtorEq, false_or] at hm
    exact storedItems_mem h hm
  | .addElement e' :: rest, ys, e, h, hm => by
    simp only [StoredItems] at h
    obtain ⟨c, ys', rfl, h1, h⟩ := h
    simp only [List.mem_cons, DataType.addElement.injEq] at hm
    rcases hm with rfl | hm
    · exact ⟨c, h1⟩
    · exact storedItems_mem h hm
  | .element _ :: _, ys, e, h, _ => by simp only [StoredItems] at h
  | .spanReference _ :: _, ys, e, h, _ => by simp only [StoredItems] at h

theorem textItems_unlessBlank (s : String) : textItems (unlessBlank s (.text s)) = [s].filter fun s => !(s.toList.all isWs) := by
  unfold unlessBlank; cases hb : s.toList.all isWs <;> simp [textItems, hb]

mutual
theorem meaning_text {X : Ext} : ∀ {x : XNode} {data : List Data}, x.meaning X = some data →
    textItems data = x.looseText.filter fun s => !(s.toList.all isWs)
  | .elem tag attrs children, data, h => by
    simp only [XNode.meaning, Option.bind_eq_bind] at h
    simp only [XNode.looseText, List.filter_nil]
    obtain ⟨t, _, h⟩ := Option.bind_eq_some_iff.mp h
    obtain ⟨r, _, h⟩ := Option.bind_eq_some_iff.mp h
    obtain ⟨ys, _, h⟩ := Option.bind_eq_some_iff.mp h
    cases h; rfl
  | .empty tag attrs, data, h => by
    simp only [XNode.meaning, Option.bind_eq_bind] at h
    simp only [XNode.looseText, List.filter_nil]
    obtain ⟨t, _, h⟩ := Option.bind_eq_some_iff.mp h
    obtain ⟨r, _, h⟩ := Option.bind_eq_some_iff.mp h
    cases h; rfl
  | .foreign named tag attrs children, data, h => by
    simp only [XNode.meaning] at h
    simp only [XNode.looseText]
    exact meaningList_text h
  | .foreignEmpty named tag attrs, data, h => by simp only [XNode.meaning] at h; cases h; simp [XNode.looseText, textItems]
  | .text s, data, h => by
    simp only [XNode.meaning] at h
    obtain ⟨t, ht, rfl⟩ := Option.map_eq_some_iff.mp h
    simp only [XNode.looseText, ht, Option.toList_some]
    exact textItems_unlessBlank t
  | .cdata s, data, h => by
    simp only [XNode.meaning] at h; cases h
    simp only [XNode.looseText]
    exact textItems_unlessBlank s
  | .comment s, data, h => by
    simp only [XNode.meaning] at h; cases h
    simp only [XNode.looseText]
    unfold unlessBlank; split <;> rfl
  | .instruction, data, h => by simp only [XNode.meaning] at h; cases h; simp [XNode.looseText, textItems]
theorem meaningList_text {X : Ext} : ∀ {xs : List XNode} {data : List Data}, XNode.meaningList X xs = some data →
    textItems data = (XNode.looseTexts xs).filter fun s => !(s.toList.all isWs)
  | [], data, h => by simp only [XNode.meaningList] at h; cases h; simp [XNode.looseTexts, textItems]
  | x :: xs, data, h => by
    simp only [XNode.meaningList, Option.bind_eq_bind] at h
    obtain ⟨ys, h1, h⟩ := Option.bind_eq_some_iff.mp h
    obtain ⟨zs, h2, h⟩ := Option.bind_eq_some_iff.mp h
    cases h
    rw [textItems_append, meaning_text h1, meaningList_text h2]
    simp only [XNode.looseTexts, List.filter_append]
end

theorem textItems_shortcuts {X : Ext} {t : ElementType} : ∀ {attrs : List RAttr} {as : List Attribute} {fs : List Data},
    attrsMeaning X t attrs = some (as, fs) → textItems fs = []
  | [], as, fs, h => by cases h; rfl
  | .bad :: _, as, fs, h => by cases h
  | .ok k v :: rest, as, fs, h => by
    simp only [attrsMeaning, Option.bind_eq_bind] at h
    obtain ⟨value, _, h⟩ := Option.bind_eq_some_iff.mp h
    obtain ⟨⟨as', fs'⟩, h1, h⟩ := Option.bind_eq_some_iff.mp h
    have := textItems_shortcuts h1
    simp only at h
    split at h
    · cases h; exact this
    · split at h
      · cases h; simpa [textItems, featureFor] using this
      · cases h

theorem meaningList_mem {X : Ext} {x : XNode} : ∀ {xs : List XNode} {data : List Data}, XNode.meaningList X xs = some data → x ∈ xs →
    ∃ ys, x.meaning X = some ys ∧ ∀ y ∈ ys, y ∈ data
  | [], data, _, hm => by cases hm
  | z :: xs, data, h, hm => by
    simp only [XNode.meaningList, Option.bind_eq_bind] at h
    obtain ⟨ys, h1, h⟩ := Option.bind_eq_some_iff.mp h
    obtain ⟨zs, h2, h⟩ := Option.bind_eq_some_iff.mp h
    cases h
    rw [List.mem_cons] at hm
    rcases hm with rfl | hm
    · exact ⟨ys, h1, fun y hy => List.mem_append_left _ hy⟩
    · obtain ⟨ws, h3, h4⟩ := meaningList_mem h2 hm
      exact ⟨ws, h3, fun y hy => List.mem_append_right _ (h4 y hy)⟩

theorem elem_meaning {X : Ext} {tag : String} {attrs : List RAttr} {children : List XNode} {ys : List Data}
    (h : (XNode.elem tag attrs children).meaning X = some ys) : ∃ t as fs zs, ElementType.fromStr tag = some t ∧ attrsMeaning X t attrs = some (as, fs) ∧
      XNode.meaningList X children = some zs ∧ ys = [.addElement ⟨t, as, fs ++ zs, none, none⟩] := by
  simp only [XNode.meaning, Option.bind_eq_bind] at h
  obtain ⟨t, h1, h⟩ := Option.bind_eq_some_iff.mp h
  obtain ⟨⟨as, fs⟩, h2, h⟩ := Option.bind_eq_some_iff.mp h
  obtain ⟨zs, h3, h⟩ := Option.bind_eq_some_iff.mp h
  cases h
  exact ⟨t, as, fs, zs, h1, h2, h3, rfl⟩

/-- Every element of the source is stored. -/
theorem has_stored {X : Ext} {lo : Nat} {d0 d : Document} {tag : String} {attrs : List RAttr} {children xs : List XNode}
    (h : XNode.Has tag attrs children xs) : ∀ {data extra ys : List Data} {par : Option Nat}, XNode.meaningList X xs = some data →
    StoredItems lo d0 d par ys (extra ++ data) → ∃ t as fs zs par' c, ElementType.fromStr tag = some t ∧ attrsMeaning X t attrs = some (as, fs) ∧
      XNode.meaningList X children = some zs ∧ Stored lo d0 d par' c ⟨t, as, fs ++ zs, none, none⟩ := by
  induction h with
  | here hm =>
    intro data extra ys par hd hs
    obtain ⟨ys', h1, h2⟩ := meaningList_mem hd hm
    obtain ⟨t, as, fs, zs, e1, e2, e3, rfl⟩ := elem_meaning h1
    obtain ⟨c, hc⟩ := storedItems_mem hs (List.mem_append_right _ (h2 _ (List.mem_cons_self ..)))
    exact ⟨t, as, fs, zs, par, c, e1, e2, e3, hc⟩
  | inside hm _ ih =>
    intro data extra ys par hd hs
    obtain ⟨ys', h1, h2⟩ := meaningList_mem hd hm
    obtain ⟨t, as, fs, zs, e1, e2, e3, rfl⟩ := elem_meaning h1
    obtain ⟨c, hc⟩ := storedItems_mem hs (List.mem_append_right _ (h2 _ (List.mem_cons_self ..)))
    simp only [Stored] at hc
    obtain ⟨x, _, _, _, _, hc⟩ := hc
    exact ih e3 hc
  | @foreign named tag' attrs' ks xs hm _ ih =>
    intro data extra ys par hd hs
    obtain ⟨pre, suf, rfl⟩ := List.append_of_mem hm
    obtain ⟨a, b, c, hk, heq⟩ : ∃ a b c, XNode.meaningList X ks = some b ∧ data = a ++ b ++ c := by
      clear hs hm ih
      induction pre generalizing data with
      | nil =>
        simp only [List.nil_append, XNode.meaningList, Option.bind_eq_bind] at hd
        obtain ⟨ys, h1, hd⟩ := Option.bind_eq_some_iff.mp hd
        obtain ⟨zs, h2, hd⟩ := Option.bind_eq_some_iff.mp hd
        cases hd
        simp only [XNode.meaning] at h1
        exact ⟨[], ys, zs, h1, rfl⟩
      | cons y pre ih =>
        simp only [List.cons_append, XNode.meaningList, Option.bind_eq_bind] at hd
        obtain ⟨ys, h1, hd⟩ := Option.bind_eq_some_iff.mp hd
        obtain ⟨zs, h2, hd⟩ := Option.bind_eq_some_iff.mp hd
        cases hd
        obtain ⟨a, b, c, h3, rfl⟩ := ih h2
        exact ⟨ys ++ a, b, c, h3, by simp⟩
    subst heq
    have : ∃ ys', StoredItems lo d0 d par ys' b := by
      have h1 : ∀ {u v ys : List Data}, StoredItems lo d0 d par ys (u ++ v) → ∃ y1 y2, StoredItems lo d0 d par y1 u ∧ StoredItems lo d0 d par y2 v := by
        intro u
        induction u with
        | nil => intro v ys h; exact ⟨[], ys, by simp only [StoredItems], h⟩
        | cons z u ih =>
          intro v ys h
          cases z with
          | text s =>
            simp only [List.cons_append, StoredItems] at h ⊢
            obtain ⟨ys', rfl, h⟩ := h
            obtain ⟨y1, y2, h1, h2⟩ := ih h
            exact ⟨_, y2, ⟨y1, rfl, h1⟩, h2⟩
          | comment s =>
            simp only [List.cons_append, StoredItems] at h ⊢
            obtain ⟨ys', rfl, h⟩ := h
            obtain ⟨y1, y2, h1, h2⟩ := ih h
            exact ⟨_, y2, ⟨y1, rfl, h1⟩, h2⟩
          | addElement e =>
            simp only [List.cons_append, StoredItems] at h ⊢
            obtain ⟨c, ys', rfl, h0, h⟩ := h
            obtain ⟨y1, y2, h1, h2⟩ := ih h
            exact ⟨_, y2, ⟨c, y1, rfl, h0, h1⟩, h2⟩
          | element _ => simp only [List.cons_append, StoredItems] at h
          | spanReference _ => simp only [List.cons_append, StoredItems] at h
      obtain ⟨_, y2, _, h2⟩ := h1 hs
      obtain ⟨y3, _, h3, _⟩ := h1 h2
      obtain ⟨_, y4, _, h4⟩ := h1 h3
      exact ⟨y4, h4⟩
    obtain ⟨ys', h3⟩ := this
    exact ih (extra := []) hk h3

end Folia
