import Verif.Source
import Verif.Lemmas.Build
import Verif.Lemmas.Head
/-! Parsing the events of a source tree. -/
namespace Folia
open Document

theorem ownItems_append (a b : List Data) : ownItems (a ++ b) = ownItems a ++ ownItems b := List.filter_append ..
theorem ownItems_refs (refs : List Nat) : ownItems (List.map .spanReference refs) = [] := by
  unfold ownItems; rw [List.filter_eq_nil_iff]
  intro x hx
  obtain ⟨r, _, rfl⟩ := List.mem_map.mp hx
  simp

theorem ReadsBack.ofProcs {d0 d1 d : Document} {x b : ElementData} (h : ReadsBack d0 d x b) (hp : d1.processors = d0.processors) : ReadsBack d1 d x b :=
  ⟨h.type, h.declared, h.set, h.cls, h.feature, fun id p hb hk => h.processor id p hb (by unfold processorKeyById at hk ⊢; rw [← hp]; exact hk), h.others,
    h.unclassed, h.unsubset, h.undeclared, h.uncredited⟩

/-- The element is the same up to references to spans and the appended items `new`. -/
structure Kept (e e' : ElementData) (new : List Data) : Prop where
  type : e'.elementtype = e.elementtype
  key : e'.key = e.key
  parent : e'.parent = e.parent
  attribs : e'.attribs = e.attribs
  data : ownItems e'.data = ownItems e.data ++ new

theorem Kept.refl (e : ElementData) : Kept e e [] := ⟨rfl, rfl, rfl, rfl, by simp⟩
theorem Kept.trans {a b c : ElementData} {n m : List Data} (h : Kept a b n) (h' : Kept b c m) : Kept a c (n ++ m) :=
  ⟨h'.type.trans h.type, h'.key.trans h.key, h'.parent.trans h.parent, h'.attribs.trans h.attribs, by rw [h'.data, h.data, List.append_assoc]⟩
theorem Grown.kept {a b : ElementData} (h : Grown a b) : Kept a b [] := by
  obtain ⟨refs, hd⟩ := h.data
  exact ⟨h.type, h.key, h.parent, h.attribs, by rw [hd, ownItems_append, ownItems_refs]⟩

mutual
theorem stored_mono {lo lo' : Nat} {d0 d d' : Document} (hlo : lo' ≤ lo) (hi : CInv d) (hs : Steps True d d')
    (hk : ∀ j e, lo ≤ j → d.getElement j = some e → ∃ e', d'.getElement j = some e' ∧ Kept e e' []) :
    ∀ (b : ElementData) (k : Nat) (par : Option Nat), Stored lo d0 d par k b → Stored lo' d0 d' par k b
  | ⟨t, as, data, key, p⟩, k, par, h => by
    simp only [Stored] at h ⊢
    obtain ⟨x, h0, h1, h2, h3, h4⟩ := h
    obtain ⟨x', h5, h6⟩ := hk k x h0 h1
    obtain ⟨_, hmono⟩ := hs.clean hi
    refine ⟨x', Nat.le_trans hlo h0, h5, h6.parent.trans h2, h3.mono (hi.elem k x h1).refs hmono hs.procMono h6.type h6.attribs, ?_⟩
    rw [h6.data, List.append_nil]
    exact storedItems_mono hlo hi hs hk data _ _ h4
theorem storedItems_mono {lo lo' : Nat} {d0 d d' : Document} (hlo : lo' ≤ lo) (hi : CInv d) (hs : Steps True d d')
    (hk : ∀ j e, lo ≤ j → d.getElement j = some e → ∃ e', d'.getElement j = some e' ∧ Kept e e' []) :
    ∀ (data ys : List Data) (par : Option Nat), StoredItems lo d0 d par ys data → StoredItems lo' d0 d' par ys data
  | [], ys, par, h => by simp only [StoredItems] at h ⊢; exact h
  | .text s :: rest, ys, par, h => by
    simp only [StoredItems] at h ⊢
    obtain ⟨ys', h1, h2⟩ := h
    exact ⟨ys', h1, storedItems_mono hlo hi hs hk rest ys' par h2⟩
  | .comment s :: rest, ys, par, h => by
    simp only [StoredItems] at h ⊢
    obtain ⟨ys', h1, h2⟩ := h
    exact ⟨ys', h1, storedItems_mono hlo hi hs hk rest ys' par h2⟩
  | .element k :: rest, ys, par, h => by simp only [StoredItems] at h
  | .spanReference k :: rest, ys, par, h => by simp only [StoredItems] at h
  | .addElement e :: rest, ys, par, h => by
    simp only [StoredItems] at h ⊢
    obtain ⟨c, ys', h1, h2, h3⟩ := h
    exact ⟨c, ys', h1, stored_mono hlo hi hs hk e c par h2, storedItems_mono hlo hi hs hk rest ys' par h3⟩
end

theorem storedItems_append {lo : Nat} {d0 d : Document} {par : Option Nat} : ∀ {data ys data' ys' : List Data}, StoredItems lo d0 d par ys data →
    StoredItems lo d0 d par ys' data' → StoredItems lo d0 d par (ys ++ ys') (data ++ data')
  | [], ys, data', ys', h, h' => by simp only [StoredItems] at h; subst h; exact h'
  | .text s :: rest, ys, data', ys', h, h' => by
    simp only [StoredItems, List.cons_append] at h ⊢
    obtain ⟨zs, rfl, h2⟩ := h
    exact ⟨zs ++ ys', rfl, storedItems_append h2 h'⟩
  | .comment s :: rest, ys, data', ys', h, h' => by
    simp only [StoredItems, List.cons_append] at h ⊢
    obtain ⟨zs, rfl, h2⟩ := h
    exact ⟨zs ++ ys', rfl, storedItems_append h2 h'⟩
  | .element k :: rest, ys, data', ys', h, h' => by simp only [StoredItems] at h
  | .spanReference k :: rest, ys, data', ys', h, h' => by simp only [StoredItems] at h
  | .addElement e :: rest, ys, data', ys', h, h' => by
    simp only [StoredItems, List.cons_append] at h ⊢
    obtain ⟨c, zs, rfl, h2, h3⟩ := h
    exact ⟨c, zs ++ ys', rfl, h2, storedItems_append h3 h'⟩

theorem builderIdsList_append : ∀ (a b : List Data), builderIdsList (a ++ b) = builderIdsList a ++ builderIdsList b
  | [], b => by simp [builderIdsList]
  | x :: a, b => by cases x <;> simp [builderIdsList, builderIdsList_append a b]
theorem builderSizeList_append : ∀ (a b : List Data), builderSizeList (a ++ b) = builderSizeList a + builderSizeList b
  | [], b => by simp [builderSizeList]
  | x :: a, b => by cases x <;> simp [builderSizeList, builderSizeList_append a b] <;> omega

/-- The document grew by elements with identifiers among `ids`; the elements below `n` got the items `new`. -/
structure Ran (n : Nat) (d d' : Document) (new : Nat → List Data) (ids : List String) : Prop where
  steps : Steps True d d'
  procs : d'.processors = d.processors
  old : ∀ j e, j < n → d.getElement j = some e → ∃ e', d'.getElement j = some e' ∧ Kept e e' (new j)
  index : ∀ id k, d'.elements.index.find id = some k → d.elements.index.find id = some k ∨ id ∈ ids
  links : LinksAgree d → LinksAgree d'
  ranked : LinksAgree d → Ranked d → Ranked d'

theorem Ran.refl (n : Nat) (d : Document) : Ran n d d (fun _ => []) [] :=
  ⟨.refl d, rfl, fun _ e _ h => ⟨e, h, .refl e⟩, fun _ _ h => Or.inl h, fun h => h, fun _ h => h⟩

theorem Ran.trans {n : Nat} {a b c : Document} {f g : Nat → List Data} {ids ids' : List String} (h : Ran n a b f ids) (h' : Ran n b c g ids') :
    Ran n a c (fun j => f j ++ g j) (ids ++ ids') := by
  refine ⟨h.steps.trans h'.steps, h'.procs.trans h.procs, ?_, ?_, fun hl => h'.links (h.links hl), fun hl hr => h'.ranked (h.links hl) (h.ranked hl hr)⟩
  · intro j e hj he
    obtain ⟨e1, h1, h2⟩ := h.old j e hj he
    obtain ⟨e2, h3, h4⟩ := h'.old j e1 hj h1
    exact ⟨e2, h3, h2.trans h4⟩
  · intro id k hk
    rw [List.mem_append]
    rcases h'.index id k hk with h1 | h1
    · rcases h.index id k h1 with h2 | h2
      · exact Or.inl h2
      · exact Or.inr (Or.inl h2)
    · exact Or.inr (Or.inr h1)

theorem Ran.le {n m : Nat} {a b : Document} {f g : Nat → List Data} {ids : List String} (h : Ran n a b f ids) (hm : m ≤ n)
    (hg : ∀ j, j < m → g j = f j) : Ran m a b g ids :=
  ⟨h.steps, h.procs, fun j e hj he => (by rw [hg j hj]; exact h.old j e (by omega) he), h.index, h.links, h.ranked⟩

theorem Ran.fresh {n : Nat} {a b : Document} {f : Nat → List Data} {ids ids' : List String} (h : Ran n a b f ids) (hf : a.FreshIds (ids ++ ids')) :
    b.FreshIds ids' := by
  obtain ⟨hn, hf⟩ := hf
  rw [List.nodup_append] at hn
  refine ⟨hn.2.1, fun id hid => ?_⟩
  cases hk : b.elementKeyById id with
  | none => rfl
  | some k =>
    rcases h.index id k hk with h1 | h1
    · have := hf id (by simp [hid])
      unfold Document.elementKeyById Store.idToKey at this
      rw [h1] at this; cases this
    · exact absurd rfl (hn.2.2 id h1 id hid)

/-- The items `ys`, which are what `data` describes, were appended to the element `top`. -/
structure Fills (d0 d d' : Document) (top : Nat) (ys data : List Data) : Prop where
  ran : Ran d.elements.len d d' (fun j => if j = top then ys else []) (builderIdsList data)
  items : StoredItems d.elements.len d0 d' (some top) ys data
  size : d'.elements.len = d.elements.len + builderSizeList data

theorem Fills.refl (d0 d : Document) (top : Nat) : Fills d0 d d top [] [] where
  ran := (Ran.refl _ d).le (Nat.le_refl _) fun j _ => by simp
  items := by simp only [StoredItems]
  size := by simp [builderSizeList]

theorem Fills.trans {d0 a b c : Document} {top : Nat} {ys ys' data data' : List Data} (hi : CInv a) (ht : top < a.elements.len)
    (h : Fills d0 a b top ys data) (h' : Fills d0 b c top ys' data') : Fills d0 a c top (ys ++ ys') (data ++ data') := by
  have hlen : a.elements.len ≤ b.elements.len := h.ran.steps.len_mono
  refine ⟨?_, ?_, by rw [builderSizeList_append, h'.size, h.size]; omega⟩
  · rw [builderIdsList_append]
    exact (h.ran.trans (h'.ran.le hlen fun _ _ => rfl)).le (Nat.le_refl _) fun j _ => by split <;> simp
  · refine storedItems_append (storedItems_mono (Nat.le_refl _) (h.ran.steps.clean hi).1 h'.ran.steps ?_ _ _ _ h.items)
      (storedItems_mono hlen ((h'.ran.steps).clean (h.ran.steps.clean hi).1).1 (.refl c) (fun j e _ he => ⟨e, he, .refl e⟩) _ _ _ h'.items)
    intro j e hj he
    obtain ⟨e', h1, h2⟩ := h'.ran.old j e (Store.get_lt he) he
    rw [if_neg (by omega)] at h2
    exact ⟨e', h1, h2⟩

/-! ### Single steps -/

theorem postAdd_ran {F key : Nat} {st : Option (List Nat)} {d d' : Document} {n : Nat} (hn : n ≤ key) (hi : IxOk d)
    (h : postAdd F key st d = (.ok (), d')) : Ran n d d' (fun _ => []) [] := by
  have hu := postAdd_upds F key st d
  have hs := (does_postAdd (C := True) F key st d hi trivial).1
  rw [h] at hu hs
  refine ⟨hs, hu.procs, ?_, fun id k hk => ?_, hu.links, fun _ hr => hu.ranked hr⟩
  · intro j e hj he
    rcases hu.elems j with ⟨h1, _⟩ | ⟨x, x', h1, h2, h3⟩
    · rw [he] at h1; cases h1
    · rw [he] at h1; cases h1
      exact ⟨x', h2, (h3.mono (fix' := False) (fun h => by omega)).grown.kept⟩
  · rw [hu.index] at hk; exact Or.inl hk

/-- Attaching an orphan. -/
theorem attach_ran {p c : Nat} {d d' : Document} {pe ce : ElementData} {n : Nat} (hn : n ≤ c) (hi : IxOk d) (hp : d.getElement p = some pe)
    (hc : d.getElement c = some ce) (hcp : ce.parent = none) (hne : p ≠ c) (hna : LinksAgree d → ¬ d.Above c p)
    (h : attachElement p c d = (.ok (), d')) : Ran n d d' (fun j => if j = p then [.element c] else []) [] ∧
      d'.elements.len = d.elements.len ∧ (∀ j, j ≠ p → j ≠ c → d'.getElement j = d.getElement j) ∧
      d'.getElement c = some { ce with parent := some p } ∧ ∃ pe', d'.getElement p = some pe' ∧ pe'.parent = pe.parent := by
  have hs := (does_attachElement (C := True) p c d hi trivial).1
  rw [h] at hs
  have hrun := attach_run hp hc
  rw [h] at hrun
  simp only [Prod.mk.injEq, true_and, hcp] at hrun
  have hget : ∀ j, d'.getElement j = (((d.elements.update c fun e => { e with parent := some p }).update p fun e => e.push (.element c)).get j) := by
    intro j; rw [hrun]; rfl
  have hp' : d'.getElement p = some (pe.push (.element c)) := by
    rw [hget, Store.get_update, if_pos rfl, Store.get_update, if_neg hne, show d.elements.get p = _ from hp]; rfl
  refine ⟨⟨hs, by rw [hrun], ?_, ?_, ?_, ?_⟩, by rw [hrun]; simp [Store.len], ?_, ?_, pe.push (.element c), hp', rfl⟩
  · intro j e hj he
    by_cases hjp : j = p
    · subst hjp
      rw [hp] at he; cases he
      refine ⟨_, hp', rfl, rfl, rfl, rfl, ?_⟩
      rw [if_pos rfl]
      show ownItems (pe.data ++ [.element c]) = _
      rw [ownItems_append]; rfl
    · refine ⟨e, ?_, ?_⟩
      · rw [hget, Store.get_update, if_neg hjp, Store.get_update, if_neg (by omega)]; exact he
      · rw [if_neg hjp]; exact .refl e
  · intro id k hk
    rw [hrun] at hk
    simp at hk
    exact Or.inl hk
  · intro hl
    obtain ⟨s, h1, _, _, h4⟩ := attach_effect hl hp hc
    rw [h] at h1
    simp only [Prod.mk.injEq, true_and] at h1
    subst h1
    exact attach_links hl ⟨pe, hp⟩ ⟨ce, hc⟩ h4
  · intro hl hr
    obtain ⟨s, h1, _, _, h4⟩ := attach_effect hl hp hc
    rw [h] at h1
    simp only [Prod.mk.injEq, true_and] at h1
    subst h1
    exact attach_ranked hl hr ⟨pe, hp⟩ hne (hna hl) h4
  · intro j hjp hjc
    rw [hget, Store.get_update, if_neg hjp, Store.get_update, if_neg hjc]; rfl
  · rw [hget, Store.get_update, if_neg (Ne.symm hne), Store.get_update, if_pos rfl, show d.elements.get c = _ from hc]; rfl

theorem pushData_ran {top : Nat} {below : List Nat} {x : Data} {d d' : Document} (hx : x.Textual) (hl : d.Live top)
    (h : pushData (top :: below) x d = (.ok (), d')) :
    Ran d.elements.len d d' (fun j => if j = top then [x] else []) [] ∧ d'.elements.len = d.elements.len := by
  have h : ((Except.ok (), { d with elements := d.elements.update top (·.push x) }) : Res Unit × Document) = (.ok (), d') := h
  cases h
  have hown : ∀ data, ownItems (data ++ [x]) = ownItems data ++ [x] := by
    intro data; rw [ownItems_append]; cases x <;> first | rfl | cases hx
  have hkids : ∀ data, kids (data ++ [x]) = kids data := by
    intro data; rw [kids_append]; cases x <;> first | exact List.append_nil _ | cases hx
  have hlists : ∀ p c, ({ d with elements := d.elements.update top (·.push x) } : Document).Lists p c ↔ d.Lists p c := by
    intro p c
    unfold Document.Lists
    rw [getElement_update]
    by_cases hp : p = top
    · subst hp
      cases hg : d.getElement p with
      | none => simp
      | some e => simp only [if_true, Option.map_some, Option.some.injEq, exists_eq_left', ← mem_kids]; show c ∈ kids (e.data ++ [x]) ↔ _; rw [hkids]
    · simp [hp]
  have hpar : ∀ p c, ({ d with elements := d.elements.update top (·.push x) } : Document).HasParent c p ↔ d.HasParent c p := by
    intro p c
    unfold Document.HasParent
    rw [getElement_update]
    by_cases hp : c = top
    · subst hp
      cases hg : d.getElement c with
      | none => simp
      | some e => simp [ElementData.push]
    · simp [hp]
  refine ⟨⟨.single (Prim.pushText d top x hx), rfl, ?_, ?_, ?_, ?_⟩, by simp [Store.len]⟩
  · intro j e _ he
    rw [getElement_update, he]
    by_cases hj : j = top
    · rw [if_pos hj, if_pos hj]; exact ⟨_, rfl, rfl, rfl, rfl, rfl, hown _⟩
    · rw [if_neg hj, if_neg hj]; exact ⟨_, rfl, .refl e⟩
  · intro id k hk; simp at hk; exact Or.inl hk
  · intro hl
    refine ⟨fun p c => by rw [hlists, hpar, hl.agree], fun p e he => ?_⟩
    rw [getElement_update] at he
    by_cases hp : p = top
    · rw [if_pos hp] at he
      obtain ⟨y, h1, rfl⟩ := Option.map_eq_some_iff.mp he
      show (kids (y.data ++ [x])).Nodup
      rw [hkids]; exact hl.once p y h1
    · rw [if_neg hp] at he; exact hl.once p e he
  · rintro _ ⟨r, hr⟩
    exact ⟨r, fun p c hpc => hr p c ((hlists p c).mp hpc)⟩

theorem text_only {d0 d : Document} {par : Option Nat} : ∀ {data ys : List Data}, (∀ x ∈ data, ∃ s, x = .text s) → MaterialisedItems d0 d par ys data → ys = data
  | [], ys, _, h => by simpa only [MaterialisedItems] using h
  | x :: rest, ys, ht, h => by
    obtain ⟨s, rfl⟩ := ht x (List.mem_cons_self ..)
    simp only [MaterialisedItems] at h
    obtain ⟨ys', rfl, h⟩ := h
    rw [text_only (fun x hx => ht x (List.mem_cons_of_mem _ hx)) h]

theorem cleanData_texts : ∀ {data : List Data}, (∀ x ∈ data, ∃ s, x = .text s) → CleanData data ∧ data.any isUnborn = false
  | [], _ => ⟨by simp only [CleanData], rfl⟩
  | x :: rest, h => by
    obtain ⟨s, rfl⟩ := h x (List.mem_cons_self ..)
    obtain ⟨h1, h2⟩ := cleanData_texts fun x hx => h x (List.mem_cons_of_mem _ hx)
    exact ⟨by simp only [CleanData]; exact h1, by simp [isUnborn, h2]⟩

/-- Adding an element without children. -/
theorem leaf {e : ElementData} {ctx : Option Nat} {d0 d d1 : Document} {k : Nat} (hi : CInv d) (hp0 : d.processors = d0.processors)
    (hcl : CleanAttribs e.attribs) (hpar : e.parent = none) (hdata : ∀ x ∈ e.data, ∃ s, x = .text s)
    (hfresh : d.FreshIds e.id.toList) (h : addElem e ctx d = (.ok k, d1)) :
    k = d.elements.len ∧ Ran d.elements.len d d1 (fun _ => []) e.id.toList ∧ d1.elements.len = d.elements.len + 1 ∧
      (∀ j, j ≠ k → d1.getElement j = d.getElement j) ∧
      ∃ x, d1.getElement k = some x ∧ x.parent = none ∧ x.data = e.data ∧ ReadsBack d0 d1 x e := by
  obtain ⟨hcd, hun⟩ := cleanData_texts hdata
  obtain ⟨h1, h2, h3, h4⟩ := text_items (d0 := d) (d := d) hcd hun
  have hids : builderIds e = e.id.toList := by cases e; simp only [builderIds]; simp only at h2; rw [h2, List.append_nil]
  have hb : Born d d d1 k e := born (F := 0) (d1 := d) (d2 := d1) (o := none) (added := []) hi rfl (Nat.le_refl _) ⟨hcl, hpar⟩ (by rw [hids]; exact hfresh)
    ⟨by rw [h2]; exact .refl d, by rw [h4]; exact List.nodup_nil, by rw [h4]; simp, h4.symm, h1, by rw [h3]; rfl, cleanData_not_unborn _ hcd hun⟩
    (Or.inr ⟨rfl, rfl⟩) rfl rfl rfl h rfl
  have hf : ∀ id, e.id = some id → d.elementKeyById id = none := fun id hid => hfresh.2 id (by simp [hid])
  obtain ⟨hk, _, hlen, _, e', henc, hget⟩ := addElem_fresh hf h
  have hx := hget k
  rw [if_pos rfl] at hx
  have hg := hb.grew
  rw [hids] at hg
  obtain ⟨x, ys, refs, _, h5, h6, h7, _, _⟩ := (materialised_eq ..).mp hb.tree
  rw [hx] at h5
  refine ⟨hk, ⟨hg.steps, hg.procs, fun j y _ hy => ?_, hg.index, hg.links, hg.ranked⟩, hlen, fun j hj => by rw [hget, if_neg hj], x, by rw [hx, h5], h6, ?_,
    h7.ofProcs hp0.symm⟩
  · obtain ⟨y', h8, h9⟩ := hg.old j y hy
    exact ⟨y', h8, h9.kept⟩
  · cases h5
    exact (encode_result e ctx d e' (by rw [henc])).2.1

/-! ### Tags -/

theorem featureShortcut_eq {t : ElementType} {k s : String} (h : featureShortcut t k = some s) : s = k ∧ isShortcut t k = true := by
  unfold featureShortcut at h
  rw [List.findSome?_eq_some_iff] at h
  obtain ⟨l1, a, l2, h1, h2, _⟩ := h
  unfold isShortcut
  rw [List.any_eq_true]
  have hm : a ∈ (props t).acceptedData := by rw [h1]; simp
  cases a with
  | group g => cases h2
  | type a =>
    simp only at h2
    split at h2
    · rename_i hf
      cases hs : (props a).subset with
      | none => rw [hs] at h2; cases h2
      | some s' =>
        rw [hs] at h2
        simp only at h2
        split at h2
        · rename_i hk
          cases h2
          exact ⟨hk, _, hm, by simp only [hf, Bool.true_and, hs, hk, beq_self_eq_true]⟩
        · cases h2
    · cases h2

theorem featureShortcut_none {t : ElementType} {k : String} (h : featureShortcut t k = none) : isShortcut t k = false := by
  unfold featureShortcut at h
  rw [List.findSome?_eq_none_iff] at h
  unfold isShortcut
  rw [List.any_eq_false]
  intro a ha
  have := h a ha
  cases a with
  | group g => simp
  | type a =>
    simp only at this ⊢
    intro hc
    rw [Bool.and_eq_true, beq_iff_eq] at hc
    rw [if_pos hc.1, hc.2] at this
    simp at this

/-- The parser reads attributes by their meaning, and fails exactly if they have none. -/
theorem parseAttributes_meaning (X : Ext) (t : ElementType) : ∀ as : List RAttr,
    match attrsMeaning X t as with
    | some (as', fs) => ∃ cs, parseAttributes X t as = .ok (as', cs) ∧ cs.map DataType.addElement = fs
    | none => ∃ f, parseAttributes X t as = .error f
  | [] => ⟨[], rfl, rfl⟩
  | .bad :: _ => ⟨_, rfl⟩
  | .ok k v :: rest => by
    have ih := parseAttributes_meaning X t rest
    simp only [attrsMeaning, parseAttributes]
    cases hu : unescape v with
    | none => exact ⟨_, rfl⟩
    | some value =>
      simp only [Option.bind_eq_bind, Option.bind_some]
      cases hm : attrsMeaning X t rest with
      | none =>
        rw [hm] at ih
        obtain ⟨f, hf⟩ := ih
        simp only [Option.bind_none, hf]
        split
        · exact ⟨_, rfl⟩
        · split <;> exact ⟨_, rfl⟩
      | some r =>
        obtain ⟨as', fs⟩ := r
        rw [hm] at ih
        obtain ⟨cs, h1, h2⟩ := ih
        simp only [Option.bind_some, h1]
        cases hp : Attribute.parse X k value with
        | some a => exact ⟨cs, rfl, h2⟩
        | none =>
          simp only
          cases hs : featureShortcut t k with
          | some s =>
            obtain ⟨rfl, h3⟩ := featureShortcut_eq hs
            simp only [h3, if_true]
            exact ⟨shortcutFeature s value :: cs, rfl, by rw [List.map_cons, h2]; rfl⟩
          | none =>
            rw [featureShortcut_none hs]
            exact ⟨_, rfl⟩

theorem parseElementTag_meaning {X : Ext} {tag : String} {attrs : List RAttr} {r : ElementData × List ElementData}
    (h : asParseError (parseElementTag X tag attrs) = .ok r) : ∃ t as, ElementType.fromStr tag = some t ∧
      attrsMeaning X t attrs = some (as, r.2.map .addElement) ∧ r.1 = { elementtype := t, attribs := as, data := [], key := none, parent := none } := by
  have h := asParseError_ok h
  unfold parseElementTag at h
  cases ht : ElementType.fromStr tag with
  | none => rw [ht] at h; cases h
  | some t =>
    rw [ht] at h
    simp only at h
    have hm := parseAttributes_meaning X t attrs
    cases ha : attrsMeaning X t attrs with
    | none =>
      rw [ha] at hm
      obtain ⟨f, hf⟩ := hm
      rw [hf] at h
      cases f <;> cases h
    | some q =>
      obtain ⟨as, fs⟩ := q
      rw [ha] at hm
      obtain ⟨cs, h1, h2⟩ := hm
      rw [h1] at h
      cases h
      subst h2; exact ⟨t, as, rfl, ha, rfl⟩

theorem storedItems_texts {lo : Nat} {d0 d : Document} {par : Option Nat} : ∀ {data : List Data}, (∀ x ∈ data, ∃ s, x = .text s) →
    StoredItems lo d0 d par (ownItems data) data ∧ builderIdsList data = [] ∧ builderSizeList data = 0
  | [], _ => ⟨by simp only [StoredItems]; rfl, by simp only [builderIdsList], by simp only [builderSizeList]⟩
  | x :: rest, h => by
    obtain ⟨s, rfl⟩ := h x (List.mem_cons_self ..)
    obtain ⟨h1, h2, h3⟩ := storedItems_texts (lo := lo) (d0 := d0) (d := d) (par := par) fun x hx => h x (List.mem_cons_of_mem _ hx)
    exact ⟨by simp only [StoredItems]; exact ⟨_, rfl, h1⟩, by simp only [builderIdsList]; exact h2, by simp only [builderSizeList]; exact h3⟩

theorem not_above_leaf {d : Document} (hl : LinksAgree d) {c p : Nat} (hno : ∀ x, ¬ d.Lists c x) : ¬ d.Above c p := by
  intro h
  induction h with
  | parent hp => exact hno _ ((hl.agree _ _).mpr hp)
  | up _ _ ih => exact ih

theorem not_above_orphan {d : Document} {c p : Nat} {pe : ElementData} (hp : d.getElement p = some pe) (hn : pe.parent = none) : ¬ d.Above c p := by
  intro h
  have : ∃ q, d.HasParent p q := by cases h <;> exact ⟨_, by assumption⟩
  obtain ⟨q, e, h1, h2⟩ := this
  rw [hp] at h1; cases h1
  rw [hn] at h2; cases h2

/-- An element that is complete. -/
theorem assemble {d0 d d' : Document} {top key : Nat} {e x : ElementData}
    (hran : Ran d.elements.len d d' (fun j => if j = top then [.element key] else []) (builderIds e)) (hlo : d.elements.len ≤ key)
    (hx : d'.getElement key = some x) (hpar : x.parent = some top) (hrb : ReadsBack d0 d' x e)
    (hit : StoredItems d.elements.len d0 d' (some key) (ownItems x.data) e.data) (hsize : d'.elements.len = d.elements.len + builderSize e) :
    Fills d0 d d' top [.element key] [.addElement e] where
  ran := by simp only [builderIdsList, List.append_nil]; exact hran
  items := by
    simp only [StoredItems]
    refine ⟨key, [], rfl, ?_, rfl⟩
    cases e
    simp only [Stored]
    exact ⟨x, hlo, hx, hpar, hrb, hit⟩
  size := by simp only [builderSizeList]; exact hsize

theorem builderIds_eq (e : ElementData) : builderIds e = e.id.toList ++ builderIdsList e.data := by cases e; simp [builderIds]
theorem builderSize_eq (e : ElementData) : builderSize e = builderSizeList e.data + 1 := by cases e; simp [builderSize]

theorem shortcuts_fills {d0 : Document} {key : Nat} : ∀ (cs : List ElementData) (d d' : Document), (∀ c ∈ cs, ∃ s v, c = shortcutFeature s v) → CInv d →
    d.processors = d0.processors → d.Live key → addShortcuts key cs d = (.ok (), d') → ∃ ys, Fills d0 d d' key ys (cs.map .addElement)
  | [], d, d', _, _, _, _, h => by cases h; exact ⟨[], .refl d0 d key⟩
  | c :: cs, d, d', hcs, hi, hp, ⟨ke, hk⟩, h => by
    obtain ⟨s, v, hc⟩ := hcs c (List.mem_cons_self ..)
    have hcl : CleanAttribs c.attribs := by
      subst hc
      intro a ha
      simp only [shortcutFeature, ElementData.withChildren, ElementData.withAttribs, ElementData.new, ElementData.push, List.foldl_cons,
        List.foldl_nil, List.mem_cons, List.not_mem_nil, or_false] at ha
      rcases ha with rfl | rfl <;> rfl
    have hdt : c.data = [.text v] := by subst hc; rfl
    have hid : c.id = none := by subst hc; rfl
    have hpar : c.parent = none := by subst hc; rfl
    clear hc
    obtain ⟨_, d1, h1, h⟩ := bind_ok (m := _) (f := fun _ => addShortcuts key cs) h
    obtain ⟨ck, da, h2, h1⟩ := bind_ok h1
    obtain ⟨l1, l2, l3, l4, x, l5, l6, l7, l8⟩ := leaf hi hp hcl hpar (by rw [hdt]; simp) (by rw [hid]; exact ⟨List.nodup_nil, by simp⟩) h2
    have hia := (l2.steps.clean hi).1
    have hkl : key < d.elements.len := Store.get_lt hk
    have hka : da.getElement key = some ke := by rw [l4 key (by omega), hk]
    obtain ⟨a1, a2, a3, a4, _⟩ := attach_ran (n := d.elements.len) (by omega) hia.ix hka l5 l6 (by omega)
      (fun hl => not_above_leaf hl (by
        rintro y ⟨z, hz, hy⟩
        rw [l5] at hz; cases hz
        rw [l7, hdt] at hy; simp at hy)) h1
    obtain ⟨hi1, hm1⟩ := a1.steps.clean hia
    have hf : Fills d0 d d1 key [.element ck] [.addElement c] := by
      refine assemble (x := { x with parent := some key }) ?_ (by omega) a4 rfl
        (l8.mono (hia.elem ck x l5).refs hm1 a1.steps.procMono rfl rfl) ?_ ?_
      · have := (l2.trans a1).le (Nat.le_refl _) (g := fun j => if j = key then [.element ck] else []) fun j _ => by simp
        rw [builderIds_eq, hid, hdt]
        simpa [builderIdsList, hid] using this
      · show StoredItems _ _ _ _ (ownItems x.data) _
        rw [l7]
        exact (storedItems_texts (by rw [hdt]; simp)).1
      · rw [a2, l3, builderSize_eq, hdt]; simp [builderSizeList]
    obtain ⟨ys, hf'⟩ := shortcuts_fills (d0 := d0) cs d1 d' (fun c hc => hcs c (List.mem_cons_of_mem _ hc)) hi1
      (by rw [a1.procs, l2.procs, hp]) ((a1.steps.liveMono.elems key ⟨ke, hka⟩)) h
    exact ⟨_, hf.trans hi hkl hf'⟩

theorem idOf_withData {t : ElementType} {as : List Attribute} {data data' : List Data} : (ElementData.mk t as data none none).id = (ElementData.mk t as data' none none).id := rfl

/-- Complete an element with start and end tag: it was added, filled, finished and attached. -/
theorem close_fills {F : Nat} {d0 d da db dc d' : Document} {top key : Nat} {st : Option (List Nat)} {t : ElementType} {as : List Attribute}
    {x pe : ElementData} {ys data : List Data} (hi : CInv d)
    (hck : key = d.elements.len) (hrun : Ran d.elements.len d da (fun _ => []) (ElementData.mk t as [] none none).id.toList)
    (hlen : da.elements.len = d.elements.len + 1) (hx : da.getElement key = some x) (hxp : x.parent = none) (hxd : x.data = [])
    (hrb : ReadsBack d0 da x ⟨t, as, [], none, none⟩) (hfill : Fills d0 da db key ys data) (htop : d.getElement top = some pe) (hpe : pe.parent = none)
    (hpost : postAdd F key st db = (.ok (), dc)) (hatt : attachElement top key dc = (.ok (), d')) :
    Fills d0 d d' top [.element key] [.addElement ⟨t, as, data, none, none⟩] := by
  have hia := (hrun.steps.clean hi).1
  have hib := (hfill.ran.steps.clean hia).1
  have htl : top < d.elements.len := Store.get_lt htop
  have hpr := postAdd_ran (n := d.elements.len) (Nat.le_of_eq hck.symm) hib.ix hpost
  obtain ⟨hic, hmc⟩ := hpr.steps.clean hib
  have hr1 := (hrun.trans (hfill.ran.le (m := d.elements.len) (by omega) (g := fun _ => []) fun j hj => by rw [if_neg (by omega)])).trans hpr
  obtain ⟨pc, hpc, hpk⟩ := hr1.old top pe htl htop
  have hu := postAdd_upds F key st db
  rw [hpost] at hu
  obtain ⟨xb, hxb, hkb⟩ := hfill.ran.old key x (by omega) hx
  obtain ⟨xc, hxc, hxu⟩ : ∃ xc, dc.getElement key = some xc ∧ Upd xb xc xb.parent True := by
    rcases hu.elems key with ⟨h1, _⟩ | ⟨y, y', h1, h2, h3⟩
    · rw [hxb] at h1; cases h1
    · rw [hxb] at h1; cases h1
      exact ⟨y', h2, h3.mono fun _ => trivial⟩
  have hxcp : xc.parent = none := by rw [hxu.parent, hkb.parent, hxp]
  have hpcp : pc.parent = none := by rw [hpk.parent, hpe]
  obtain ⟨a1, a2, a3, a4, _⟩ := attach_ran (n := d.elements.len) (Nat.le_of_eq hck.symm) hic.ix hpc hxc hxcp (by omega)
    (fun _ => not_above_orphan hpc hpcp) hatt
  obtain ⟨hi', hm'⟩ := a1.steps.clean hic
  have hrbb : ReadsBack d0 db xb ⟨t, as, data, none, none⟩ :=
    ((hrb.mono (hia.elem key x hx).refs (hfill.ran.steps.clean hia).2 hfill.ran.steps.procMono hkb.type hkb.attribs).congr
      (b' := ⟨t, as, data, none, none⟩) rfl rfl)
  have hrbc := readsBack_upd hib hpr.steps hxb hrbb hxu
  have hown : ownItems xc.data = ys := by
    obtain ⟨refs, hr⟩ := hxu.data
    rw [hr, ownItems_append, ownItems_refs, List.append_nil, hkb.data, hxd, if_pos rfl]; rfl
  refine assemble (x := { xc with parent := some top }) ?_ (Nat.le_of_eq hck.symm) a4 rfl
    (hrbc.mono (hic.elem key xc hxc).refs hm' a1.steps.procMono rfl rfl) ?_ ?_
  · have := (hr1.trans a1).le (Nat.le_refl _) (g := fun j => if j = top then [.element key] else []) fun j _ => by simp
    rw [builderIds_eq]
    simpa [idOf_withData (data := data) (data' := [])] using this
  · show StoredItems _ _ _ _ (ownItems xc.data) data
    rw [hown]
    refine storedItems_mono (lo := da.elements.len) (by omega) hib (hpr.steps.trans a1.steps) ?_ _ _ _ hfill.items
    intro j e hj he
    rcases hu.elems j with ⟨h1, _⟩ | ⟨y, y', h1, h2, h3⟩
    · rw [he] at h1; cases h1
    · rw [he] at h1; cases h1
      refine ⟨y', ?_, (h3.mono (fix' := False) (fun h => by omega)).grown.kept⟩
      rw [a3 j (by omega) (by omega), h2]
  · rw [a2, hu.len, hfill.size, hlen, builderSize_eq]
    show _ = _ + (builderSizeList data + 1)
    omega

/-- Complete an element written as an empty tag: it was added, attached, filled and finished. -/
theorem empty_fills {F : Nat} {d0 d da db dc d' : Document} {top key : Nat} {st : Option (List Nat)} {t : ElementType} {as : List Attribute}
    {x pe : ElementData} {data : List Data} (hi : CInv d) (hck : key = d.elements.len)
    (hrun : Ran d.elements.len d da (fun _ => []) (ElementData.mk t as [] none none).id.toList)
    (hother : ∀ j, j ≠ key → da.getElement j = d.getElement j)
    (hlen : da.elements.len = d.elements.len + 1) (hx : da.getElement key = some x) (hxp : x.parent = none) (hxd : x.data = [])
    (hrb : ReadsBack d0 da x ⟨t, as, [], none, none⟩) (htop : d.getElement top = some pe) (hpe : pe.parent = none)
    (hatt : attachElement top key da = (.ok (), db))
    (hfill : CInv db → db.processors = da.processors → db.Live key → ∃ ys, Fills d0 db dc key ys data)
    (hpost : postAdd F key st dc = (.ok (), d')) :
    Fills d0 d d' top [.element key] [.addElement ⟨t, as, data, none, none⟩] := by
  have hia := (hrun.steps.clean hi).1
  have htl : top < d.elements.len := Store.get_lt htop
  have htopa : da.getElement top = some pe := by rw [hother top (by omega), htop]
  obtain ⟨a1, a2, a3, a4, _⟩ := attach_ran (n := d.elements.len) (Nat.le_of_eq hck.symm) hia.ix htopa hx hxp (by omega)
    (fun _ => not_above_orphan htopa hpe) hatt
  obtain ⟨hib, hmb⟩ := a1.steps.clean hia
  obtain ⟨ys, hfill⟩ := hfill hib a1.procs ⟨_, a4⟩
  obtain ⟨hic, hmc⟩ := hfill.ran.steps.clean hib
  have hpr := postAdd_ran (n := d.elements.len) (Nat.le_of_eq hck.symm) hic.ix hpost
  have hu := postAdd_upds F key st dc
  rw [hpost] at hu
  have hkl : key < db.elements.len := Store.get_lt a4
  obtain ⟨xc, hxc, hkc⟩ := hfill.ran.old key _ hkl a4
  obtain ⟨x', hx', hxu⟩ : ∃ x', d'.getElement key = some x' ∧ Upd xc x' xc.parent True := by
    rcases hu.elems key with ⟨h1, _⟩ | ⟨y, y', h1, h2, h3⟩
    · rw [hxc] at h1; cases h1
    · rw [hxc] at h1; cases h1
      exact ⟨y', h2, h3.mono fun _ => trivial⟩
  have hrbb : ReadsBack d0 db { x with parent := some top } ⟨t, as, data, none, none⟩ :=
    (hrb.mono (x' := { x with parent := some top }) (hia.elem key x hx).refs hmb a1.steps.procMono rfl rfl).congr (b' := ⟨t, as, data, none, none⟩) rfl rfl
  have hrbc : ReadsBack d0 dc xc ⟨t, as, data, none, none⟩ :=
    hrbb.mono (hib.elem key _ a4).refs hmc hfill.ran.steps.procMono hkc.type hkc.attribs
  refine assemble (x := x') ?_ (Nat.le_of_eq hck.symm) hx' (by rw [hxu.parent, hkc.parent]) (readsBack_upd hic hpr.steps hxc hrbc hxu) ?_ ?_
  · have := (((hrun.trans a1).trans (hfill.ran.le (m := d.elements.len) (by omega) (g := fun _ => []) fun j hj => by rw [if_neg (by omega)])).trans hpr).le
      (Nat.le_refl _) (g := fun j => if j = top then [.element key] else []) fun j _ => by simp
    rw [builderIds_eq]
    simpa [idOf_withData (data := data) (data' := [])] using this
  · have hown : ownItems x'.data = ys := by
      obtain ⟨refs, hr⟩ := hxu.data
      rw [hr, ownItems_append, ownItems_refs, List.append_nil, hkc.data, if_pos rfl]
      show ownItems x.data ++ ys = ys
      rw [hxd]; rfl
    rw [hown]
    refine storedItems_mono (lo := db.elements.len) (by omega) hic hpr.steps ?_ _ _ _ hfill.items
    intro j e hj he
    rcases hu.elems j with ⟨h1, _⟩ | ⟨y, y', h1, h2, h3⟩
    · rw [he] at h1; cases h1
    · rw [he] at h1; cases h1
      exact ⟨y', h2, (h3.mono (fix' := False) (fun h => by omega)).grown.kept⟩
  · rw [hu.len, hfill.size, a2, hlen, builderSize_eq]
    show _ = _ + (builderSizeList data + 1)
    omega

theorem text_fills {d0 d d' : Document} {top : Nat} {below : List Nat} {x : Data} (hx : x.Textual) (hl : d.Live top)
    (h : pushData (top :: below) x d = (.ok (), d')) : Fills d0 d d' top [x] [x] := by
  obtain ⟨h1, h2⟩ := pushData_ran hx hl h
  refine ⟨?_, ?_, ?_⟩
  · cases x <;> first | (simp only [builderIdsList]; exact h1) | cases hx
  · cases x <;> first | (simp only [StoredItems]; exact ⟨[], rfl, rfl⟩) | cases hx
  · cases x <;> first | (simp only [builderSizeList]; exact h2) | cases hx

theorem notBlank_eq (s : String) : notBlank s = !(s.toList.all isWs) := by
  unfold notBlank
  rw [List.not_all_eq_any_not]

theorem foreignNs_ne (b : Bool) : foreignNs b ≠ .folia := by cases b <;> decide

theorem postAdd_pinned {b d d' : Document} {F key : Nat} {st : Option (List Nat)} (hp : Pinned b d) (h : postAdd F key st d = (.ok (), d')) : Pinned b d' := by
  have hu := postAdd_upds F key st d
  have hk := KeepsHead.postAdd F key st d
  rw [h] at hu hk
  have hac : d'.activeProcessor = d.activeProcessor := by
    have hk : SameHead d d' := hk
    unfold SameHead at hk
    rw [hk]
  refine hp.elements hu.decls hu.procs hac fun j x' hx' => ?_
  rcases hu.elems j with ⟨_, h1⟩ | ⟨y, y', h1, h2, h3⟩
  · rw [hx'] at h1; cases h1
  · rw [hx'] at h2; cases h2
    refine ⟨y, h1, h3.type, ?_⟩
    rcases h3.attribs with h4 | ⟨_, h4, _⟩
    · exact Or.inl h4
    · exact Or.inr h4

theorem update_keeps {d : Document} {s : Store ElementData} {k : Nat} {f : ElementData → ElementData}
    (hf : ∀ x, (f x).elementtype = x.elementtype ∧ (f x).attribs = x.attribs)
    (hs : ∀ j x', s.get j = some x' → ∃ x, d.getElement j = some x ∧ x'.elementtype = x.elementtype ∧ x'.attribs = x.attribs) :
    ∀ j x', (s.update k f).get j = some x' → ∃ x, d.getElement j = some x ∧ x'.elementtype = x.elementtype ∧ x'.attribs = x.attribs := by
  intro j x' hx'
  rw [Store.get_update] at hx'
  split at hx'
  · rename_i hj; subst hj
    cases hy : s.get j with
    | none => rw [hy] at hx'; cases hx'
    | some y =>
      rw [hy] at hx'; cases hx'
      obtain ⟨x, h1, h2, h3⟩ := hs j y hy
      exact ⟨x, h1, (hf y).1.trans h2, (hf y).2.trans h3⟩
  · exact hs j x' hx'

theorem unlink_keeps (c : Nat) (x : ElementData) : (unlink c x).elementtype = x.elementtype ∧ (unlink c x).attribs = x.attribs := by
  unfold unlink
  split
  · exact ⟨rfl, rfl⟩
  · exact ⟨rfl, rfl⟩

theorem attach_pinned {b d d' : Document} {p c : Nat} {pe ce : ElementData} (hp : Pinned b d) (h1 : d.getElement p = some pe) (h2 : d.getElement c = some ce)
    (h : attachElement p c d = (.ok (), d')) : Pinned b d' := by
  rw [attach_run h1 h2] at h
  cases h
  have hbase : ∀ j x', d.elements.get j = some x' → ∃ x, d.getElement j = some x ∧ x'.elementtype = x.elementtype ∧ x'.attribs = x.attribs :=
    fun j x' hx' => ⟨x', hx', rfl, rfl⟩
  have h3 := update_keeps (k := p) (f := fun e => e.push (.element c)) (fun _ => ⟨rfl, rfl⟩)
    (update_keeps (k := c) (f := fun e => { e with parent := some p }) (fun _ => ⟨rfl, rfl⟩) hbase)
  refine hp.elements rfl rfl rfl fun j x' hx' => ?_
  suffices ∃ x, d.getElement j = some x ∧ x'.elementtype = x.elementtype ∧ x'.attribs = x.attribs by
    obtain ⟨x, q1, q2, q3⟩ := this
    exact ⟨x, q1, q2, Or.inl q3⟩
  unfold getElement at hx'
  simp only at hx'
  cases hcp : ce.parent with
  | none => rw [hcp] at hx'; exact h3 j x' hx'
  | some old => rw [hcp] at hx'; exact update_keeps (unlink_keeps c) h3 j x' hx'

theorem pushData_pinned {b d d' : Document} {top : Nat} {below : List Nat} {x : Data} (hp : Pinned b d)
    (h : pushData (top :: below) x d = (.ok (), d')) : Pinned b d' := by
  have h : ((Except.ok (), { d with elements := d.elements.update top (·.push x) }) : Res Unit × Document) = (.ok (), d') := h
  cases h
  refine hp.elements rfl rfl rfl fun j x' hx' => ?_
  obtain ⟨x, q1, q2, q3⟩ := update_keeps (d := d) (s := d.elements) (k := top) (f := (·.push x)) (fun _ => ⟨rfl, rfl⟩) (fun j x' hx' => ⟨x', hx', rfl, rfl⟩) j x' hx'
  exact ⟨x, q1, q2, Or.inl q3⟩

theorem shortcuts_pinned {b : Document} {key : Nat} {kt : ElementType} : ∀ (cs : List ElementData) (d d' : Document), (∀ c ∈ cs, ∃ s v, c = shortcutFeature s v) →
    CInv d → Pinned b d → (∃ ke, d.getElement key = some ke ∧ ke.elementtype = kt) → AsksItems b kt (cs.map .addElement) →
    addShortcuts key cs d = (.ok (), d') → Pinned b d'
  | [], d, d', _, _, hp, _, _, h => by cases h; exact hp
  | c :: cs, d, d', hcs, hi, hp, ⟨ke, hk, hkt⟩, ha, h => by
    obtain ⟨s, v, hc⟩ := hcs c (List.mem_cons_self ..)
    have hcl : CleanAttribs c.attribs := by
      subst hc
      intro a ha
      simp only [shortcutFeature, ElementData.withChildren, ElementData.withAttribs, ElementData.new, ElementData.push, List.foldl_cons,
        List.foldl_nil, List.mem_cons, List.not_mem_nil, or_false] at ha
      rcases ha with rfl | rfl <;> rfl
    have hdt : c.data = [.text v] := by subst hc; rfl
    have hid : c.id = none := by subst hc; rfl
    have hpar : c.parent = none := by subst hc; rfl
    clear hc
    obtain ⟨_, d1, h1, h2⟩ := bind_ok (m := _) (f := fun _ => addShortcuts key cs) h
    obtain ⟨ck, da, h3, h4⟩ := bind_ok h1
    have hfresh : d.FreshIds c.id.toList := by rw [hid]; exact ⟨List.nodup_nil, by simp⟩
    obtain ⟨l1, l2, l3, l4, x, l5, l6, l7, l8⟩ := leaf hi rfl hcl hpar (by rw [hdt]; simp) hfresh h3
    have hia := (l2.steps.clean hi).1
    have hkl : key < d.elements.len := Store.get_lt hk
    have hka : da.getElement key = some ke := by rw [l4 key (by omega), hk]
    have hask : Asks b (some kt) c ∧ AsksItems b kt (cs.map .addElement) := by
      simp only [List.map_cons, AsksItems] at ha
      refine ⟨?_, ha.2⟩
      have := ha.1
      cases c
      simp only [AsksTree] at this
      exact this.1
    have hpa := addElem_pinned (ct := some kt) hi hp hcl (by rintro pk pe ⟨⟩ hpe; rw [hk] at hpe; cases hpe; rw [hkt]) hask.1 hfresh h3
    have hp1 := attach_pinned hpa hka l5 h4
    obtain ⟨a1, a2, a3, a4, pe', a5, _⟩ := attach_ran (n := d.elements.len) (by omega) hia.ix hka l5 l6 (by omega)
      (fun hl => not_above_leaf hl (by
        rintro y ⟨z, hz, hy⟩
        rw [l5] at hz; cases hz
        rw [l7, hdt] at hy; simp at hy)) h4
    obtain ⟨ke', b1, b2⟩ := a1.old key ke hkl hka
    exact shortcuts_pinned cs d1 d' (fun c hc => hcs c (List.mem_cons_of_mem _ hc)) (a1.steps.clean hia).1 hp1 ⟨ke', b1, b2.type.trans hkt⟩ hask.2 h2

/-- What a successful run over the events of some nodes does. -/
def RunsTo (X : Ext) (F : Nat) (rest : List REvent) (top : Nat) (below : List Nat) (d d' : Document) (m : Option (List Data)) : Prop :=
  ∃ data d1, m = some data ∧ parseElements X F rest (top :: below) d1 = (.ok (), d') ∧
    ∀ d0 pe, CInv d → d.processors = d0.processors → d.getElement top = some pe → pe.parent = none → d.FreshIds (builderIdsList data) →
      (∃ ys, Fills d0 d d1 top ys data) ∧ ∀ b, Pinned b d → AsksItems b pe.elementtype data → Pinned b d1

theorem runsTo_nothing {X : Ext} {F : Nat} {rest : List REvent} {top : Nat} {below : List Nat} {d d' : Document}
    (h : parseElements X F rest (top :: below) d = (.ok (), d')) : RunsTo X F rest top below d d' (some []) :=
  ⟨[], d, rfl, h, fun d0 _ _ _ _ _ _ => ⟨⟨[], .refl d0 d top⟩, fun _ hb _ => hb⟩⟩

theorem runsTo_text {X : Ext} {F : Nat} {rest : List REvent} {top : Nat} {below : List Nat} {d d' : Document} {s : String} {x : Data} (hx : x.Textual)
    (h : (do if notBlank s then pushData (top :: below) x
             parseElements X F rest (top :: below)) d = (.ok (), d')) : RunsTo X F rest top below d d' (some (unlessBlank s x)) := by
  unfold unlessBlank
  rw [notBlank_eq] at h
  cases hb : s.toList.all isWs with
  | true =>
    rw [hb] at h
    exact runsTo_nothing h
  | false =>
    rw [hb] at h
    obtain ⟨_, d1, h1, h2⟩ := bind_ok (m := pushData (top :: below) x) (f := fun _ => parseElements X F rest (top :: below)) h
    exact ⟨[x], d1, rfl, h2, fun d0 pe _ _ ht _ _ => ⟨⟨[x], text_fills hx ⟨pe, ht⟩ h1⟩, fun _ hb _ => pushData_pinned hb h1⟩⟩

theorem tag_clean {X : Ext} {tag : String} {attrs : List RAttr} {r : ElementData × List ElementData}
    (h : asParseError (parseElementTag X tag attrs) = .ok r) : CleanAttribs r.1.attribs ∧ r.1.parent = none ∧ ∀ c ∈ r.2, ∃ s v, c = shortcutFeature s v :=
  ⟨(parseElementTag_clean h).1, (parseElementTag_clean h).2.2⟩

theorem ofRes_run {σ α : Type} {f : σ → Res α} {s s' : σ} {a : α} (h : M.ofRes f s = (.ok a, s')) : f s = .ok a ∧ s' = s := by
  unfold M.ofRes at h
  simp only [Prod.mk.injEq] at h
  exact ⟨h.1, h.2.symm⟩

mutual
theorem node_runs (X : Ext) (F : Nat) : ∀ (x : XNode) (rest : List REvent) (top : Nat) (below : List Nat) (d d' : Document),
    parseElements X F (x.events ++ rest) (top :: below) d = (.ok (), d') → RunsTo X F rest top below d d' (x.meaning X)
  | .text s, rest, top, below, d, d', h => by
    simp only [XNode.events, List.cons_append, List.nil_append, parseElements] at h
    simp only [XNode.meaning]
    cases hu : unescape s with
    | none => rw [hu] at h; cases h
    | some t =>
      rw [hu] at h
      exact runsTo_text trivial h
  | .cdata s, rest, top, below, d, d', h => by
    simp only [XNode.events, List.cons_append, List.nil_append, parseElements] at h
    simp only [XNode.meaning]
    exact runsTo_text trivial h
  | .comment s, rest, top, below, d, d', h => by
    simp only [XNode.events, List.cons_append, List.nil_append, parseElements] at h
    simp only [XNode.meaning]
    exact runsTo_text trivial h
  | .instruction, rest, top, below, d, d', h => by
    simp only [XNode.events, List.cons_append, List.nil_append, parseElements] at h
    simp only [XNode.meaning]
    exact runsTo_nothing h
  | .foreignEmpty named tag attrs, rest, top, below, d, d', h => by
    simp only [XNode.events, List.cons_append, List.nil_append, parseElements, if_neg (foreignNs_ne named)] at h
    simp only [XNode.meaning]
    exact runsTo_nothing h
  | .foreign named tag attrs children, rest, top, below, d, d', h => by
    simp only [XNode.events, List.cons_append, List.append_assoc, parseElements, if_neg (foreignNs_ne named)] at h
    simp only [XNode.meaning]
    obtain ⟨data, d1, h1, h2, h3⟩ := nodes_runs X F children _ top below d d' h
    simp only [List.nil_append, parseElements, if_neg (foreignNs_ne named)] at h2
    exact ⟨data, d1, h1, h2, h3⟩
  | .empty tag attrs, rest, top, below, d, d', h => by
    simp only [XNode.events, List.cons_append, List.nil_append, parseElements, if_true] at h
    simp only [XNode.meaning]
    obtain ⟨_, d1, h1, h2⟩ := bind_ok h
    unfold emptyTag at h1
    obtain ⟨r, d2, h3, h4⟩ := bind_ok h1
    obtain ⟨hq, rfl⟩ := ofRes_run h3
    clear h3
    obtain ⟨t, as, m1, m2, m3⟩ := parseElementTag_meaning hq
    obtain ⟨c1, c2, c3⟩ := tag_clean hq
    obtain ⟨e, cs⟩ := r
    simp only at m2 m3 c1 c2 c3 h4
    obtain ⟨key, da, h5, h6⟩ := bind_ok h4
    have h5 := mapErr_ok h5
    obtain ⟨_, db, h7, h8⟩ := bind_ok (m := attachElement top key) (f := fun _ => addShortcuts key cs >>= fun _ => postAdd F key (some (top :: below))) h6
    obtain ⟨_, dc, h9, h10⟩ := bind_ok h8
    rw [m1]
    simp only [Option.bind_eq_bind, Option.bind_some, m2]
    refine ⟨_, d1, rfl, h2, ?_⟩
    intro d0 pe hi hp ht hpe hf
    subst m3
    have hids : (ElementData.mk t as (cs.map .addElement) none none).id.toList ++ (builderIdsList (cs.map .addElement)) =
        builderIdsList [.addElement ⟨t, as, cs.map .addElement, none, none⟩] := by simp [builderIdsList, builderIds]
    rw [← hids] at hf
    have hf1 : d2.FreshIds (ElementData.mk t as [] none none).id.toList :=
      ⟨(List.nodup_append.mp hf.1).1, fun id hid => hf.2 id (List.mem_append_left _ hid)⟩
    obtain ⟨l1, l2, l3, l4, x, l5, l6, l7, l8⟩ := leaf hi hp c1 c2 (by simp) hf1 h5
    refine ⟨⟨_, empty_fills hi l1 l2 l4 l3 l5 l6 l7 l8 ht hpe h7 (fun ib pb lb => ?_) h10⟩, fun b hb hask => ?_⟩
    · exact shortcuts_fills cs db dc c3 ib (by rw [pb, l2.procs, hp]) lb h9
    · simp only [AsksItems, AsksTree, and_true] at hask
      have htl : top < d2.elements.len := Store.get_lt ht
      have hia := (l2.steps.clean hi).1
      have htopa : da.getElement top = some pe := by rw [l4 top (by omega), ht]
      have hpa := addElem_pinned (ct := some pe.elementtype) hi hb c1 (by rintro pk pe' ⟨⟩ hpe'; rw [ht] at hpe'; cases hpe'; rfl)
        ⟨fun a s h1 h2 h3 => hask.1.typed a s h1 h2 h3, fun a s c h1 h2 h3 h4 h5 => hask.1.feature a s c h1 h2 h3 h4 h5⟩ hf1 h5
      have hpb := attach_pinned hpa htopa l5 h7
      obtain ⟨a1, a2, a3, a4, _⟩ := attach_ran (n := d2.elements.len) (Nat.le_of_eq l1.symm) hia.ix htopa l5 l6 (by omega)
        (fun _ => not_above_orphan htopa hpe) h7
      exact postAdd_pinned (shortcuts_pinned cs db dc c3 (a1.steps.clean hia).1 hpb ⟨_, a4, l8.type⟩ hask.2 h9) h10
  | .elem tag attrs children, rest, top, below, d, d', h => by
    simp only [XNode.events, List.cons_append, List.append_assoc, parseElements, if_true] at h
    simp only [XNode.meaning]
    obtain ⟨key, d1, h1, h2⟩ := bind_ok h
    unfold startTag at h1
    obtain ⟨r, d2, h3, h4⟩ := bind_ok h1
    obtain ⟨hq, rfl⟩ := ofRes_run h3
    clear h3
    obtain ⟨t, as, m1, m2, m3⟩ := parseElementTag_meaning hq
    obtain ⟨c1, c2, c3⟩ := tag_clean hq
    obtain ⟨e, cs⟩ := r
    simp only at m2 m3 c1 c2 c3 h4
    obtain ⟨key', da, h5, h6⟩ := bind_ok h4
    have h5 := mapErr_ok h5
    obtain ⟨_, db, h7, h8⟩ := bind_ok h6
    cases h8
    obtain ⟨ks, dc, h9, h10, h11⟩ := nodes_runs X F children _ key (top :: below) d1 d' h2
    simp only [List.nil_append, parseElements, if_true] at h10
    obtain ⟨_, de, h12, h13⟩ := bind_ok h10
    unfold closeTag at h12
    obtain ⟨_, dp, h14, h15⟩ := bind_ok h12
    obtain ⟨_, dp', h16, h15⟩ := bind_ok h15
    cases h16
    rw [m1]
    simp only [Option.bind_eq_bind, Option.bind_some, m2, h9]
    refine ⟨_, de, rfl, h13, ?_⟩
    intro d0 pe hi hp ht hpe hf
    subst m3
    have hids : (ElementData.mk t as [] none none).id.toList ++ (builderIdsList (cs.map .addElement) ++ builderIdsList ks) =
        builderIdsList [.addElement ⟨t, as, cs.map .addElement ++ ks, none, none⟩] := by
      simp [builderIdsList, builderIds, builderIdsList_append, idOf_withData (data := cs.map .addElement ++ ks) (data' := [])]
    rw [← hids] at hf
    have hf1 : d2.FreshIds (ElementData.mk t as [] none none).id.toList :=
      ⟨(List.nodup_append.mp hf.1).1, fun id hid => hf.2 id (List.mem_append_left _ hid)⟩
    obtain ⟨l1, l2, l3, l4, x, l5, l6, l7, l8⟩ := leaf hi hp c1 c2 (by simp) hf1 h5
    have hia := (l2.steps.clean hi).1
    have hkl : key < da.elements.len := Store.get_lt l5
    obtain ⟨ys, hs⟩ := shortcuts_fills (d0 := d0) cs da d1 c3 hia (by rw [l2.procs, hp]) ⟨x, l5⟩ h7
    have hib := (hs.ran.steps.clean hia).1
    obtain ⟨xb, hxb, hkb⟩ := hs.ran.old key x hkl l5
    obtain ⟨⟨zs, hk⟩, hpk⟩ := h11 d0 xb hib (by rw [hs.ran.procs, l2.procs, hp]) hxb (by rw [hkb.parent, l6]) (hs.ran.fresh (l2.fresh hf))
    have hfill := hs.trans hia hkl hk
    have hatt : attachElement top key dp = (.ok (), de) := by
      cases hg : dp.getElement key with
      | none => rw [hg] at h15; cases h15
      | some e =>
        rw [hg] at h15
        simp only [m1] at h15
        split at h15
        · cases h15
        · exact h15
    refine ⟨⟨_, close_fills hi l1 l2 l3 l5 l6 l7 l8 hfill ht hpe h14 hatt⟩, fun b hb hask => ?_⟩
    simp only [AsksItems, AsksTree, and_true] at hask
    rw [asksItems_append] at hask
    have htl : top < d2.elements.len := Store.get_lt ht
    have hpa := addElem_pinned (ct := some pe.elementtype) hi hb c1 (by rintro pk pe' ⟨⟩ hpe'; rw [ht] at hpe'; cases hpe'; rfl)
      ⟨fun a s h1 h2 h3 => hask.1.typed a s h1 h2 h3, fun a s c h1 h2 h3 h4 h5 => hask.1.feature a s c h1 h2 h3 h4 h5⟩ hf1 h5
    have hp1 := shortcuts_pinned cs da d1 c3 hia hpa ⟨x, l5, l8.type⟩ hask.2.1 h7
    have hp2 := hpk b hp1 (by rw [hkb.type, l8.type]; exact hask.2.2)
    have hp3 := postAdd_pinned hp2 h14
    have hic := (hk.ran.steps.clean hib).1
    have hpr := postAdd_ran (n := d2.elements.len) (Nat.le_of_eq l1.symm) hic.ix h14
    obtain ⟨pt, hpt, _⟩ := ((l2.trans (hfill.ran.le (m := d2.elements.len) (by omega) (g := fun _ => []) fun j hj => by rw [if_neg (by omega)])).trans hpr).old
      top pe htl ht
    obtain ⟨pk, hpk', _⟩ := hfill.ran.old key x hkl l5
    obtain ⟨pk2, hpk2⟩ := (hpr.steps.liveMono.elems key ⟨pk, hpk'⟩)
    exact attach_pinned hp3 hpt hpk2 hatt
theorem nodes_runs (X : Ext) (F : Nat) : ∀ (xs : List XNode) (rest : List REvent) (top : Nat) (below : List Nat) (d d' : Document),
    parseElements X F (XNode.eventsList xs ++ rest) (top :: below) d = (.ok (), d') → RunsTo X F rest top below d d' (XNode.meaningList X xs)
  | [], rest, top, below, d, d', h => by
    simp only [XNode.eventsList, List.nil_append] at h
    simp only [XNode.meaningList]
    exact runsTo_nothing h
  | x :: xs, rest, top, below, d, d', h => by
    simp only [XNode.eventsList, List.append_assoc] at h
    simp only [XNode.meaningList]
    obtain ⟨data, d1, h1, h2, h3⟩ := node_runs X F x _ top below d d' h
    obtain ⟨data', d2, h4, h5, h6⟩ := nodes_runs X F xs rest top below d1 d' h2
    rw [h1, h4]
    refine ⟨data ++ data', d2, rfl, h5, ?_⟩
    intro d0 pe hi hp ht hpe hf
    rw [builderIdsList_append] at hf
    have hf1 : d.FreshIds (builderIdsList data) := ⟨(List.nodup_append.mp hf.1).1, fun id hid => hf.2 id (List.mem_append_left _ hid)⟩
    obtain ⟨⟨ys, h7⟩, hp7⟩ := h3 d0 pe hi hp ht hpe hf1
    have htl : top < d.elements.len := Store.get_lt ht
    obtain ⟨pe', h8, h9⟩ := h7.ran.old top pe htl ht
    obtain ⟨⟨zs, h10⟩, hp10⟩ := h6 d0 pe' (h7.ran.steps.clean hi).1 (by rw [h7.ran.procs, hp]) h8 (by rw [h9.parent, hpe]) (h7.ran.fresh hf)
    refine ⟨⟨_, h7.trans hi htl h10⟩, fun b hb hask => ?_⟩
    rw [asksItems_append] at hask
    exact hp10 b (hp7 b hb hask.1) (by rw [h9.type]; exact hask.2)
end

end Folia
