import Verif.Lemmas.Single
/-! Word references and the references back to spans. -/
namespace Folia
open Document

theorem foldl_last {f : Option String → Attribute → Option String} (hf : ∀ acc a, f acc a = (idrefOf a).or acc) (as : List Attribute) (acc : Option String) :
    as.foldl f acc = ((as.filterMap idrefOf).getLast?).or acc := by
  induction as generalizing acc with
  | nil => rfl
  | cons a as ih =>
    rw [List.foldl_cons, ih, hf, List.filterMap_cons]
    cases ha : idrefOf a with
    | none => simp
    | some s =>
      simp only [List.getLast?_cons]
      cases List.getLast? _ <;> rfl

theorem lastIdref_eq (e : ElementData) : e.lastIdref = refersTo e := by
  unfold ElementData.lastIdref refersTo
  rw [foldl_last, Option.or_none]
  intro acc a
  cases a <;> rfl

theorem idrefs_filter {as : List Attribute} {keep : Attribute → Bool} (h : ∀ s, keep (.idref s) = true) :
    (as.filter keep).filterMap idrefOf = as.filterMap idrefOf := by
  induction as with
  | nil => rfl
  | cons a as ih =>
    cases hk : keep a with
    | true => rw [List.filter_cons_of_pos hk, List.filterMap_cons, List.filterMap_cons, ih]
    | false =>
      rw [List.filter_cons_of_neg (by simp [hk]), ih]
      cases a with
      | idref s => rw [h] at hk; cases hk
      | _ => rfl

theorem refersTo_readsBack {d0 d : Document} {x b : ElementData} (h : ReadsBack d0 d x b) (ht : b.elementtype = .wordReference) : refersTo x = refersTo b := by
  rcases h.others with h1 | ⟨h1, _⟩
  · unfold refersTo
    rw [← idrefs_filter (as := x.attribs) (keep := (!·.decodable)) (fun _ => rfl), h1, idrefs_filter (fun _ => rfl)]
  · rw [ht] at h1; cases h1

/-- What `post_add` does to the data of elements. -/
theorem postAdd_data {F key : Nat} {d d' : Document} {x : ElementData} (hx : d.getElement key = some x) (h : postAdd F key none d = (.ok (), d')) :
    (x.elementtype = .wordReference ∧ ∃ id sk t te, refersTo x = some id ∧ spanKey d F key none = .ok (some sk) ∧ d.elementKeyById id = some t ∧
      d.getElement t = some te ∧ d' = { d with elements := d.elements.update t fun e => e.push (.spanReference sk) }) ∨
    (x.elementtype ≠ .wordReference ∧ ∀ j, (d'.getElement j).map (·.data) = (d.getElement j).map (·.data)) := by
  unfold postAdd at h
  simp only [M.run_bind, M.run_get, hx] at h
  split at h
  · rename_i hw
    left
    refine ⟨hw, ?_⟩
    rw [lastIdref_eq] at h
    cases hid : refersTo x with
    | none => rw [hid] at h; cases h
    | some id =>
      rw [hid] at h
      simp only [M.run_bind, M.run_ofRes] at h
      cases hsk : spanKey d F key none with
      | error f => rw [hsk] at h; cases h
      | ok o =>
        rw [hsk] at h
        cases o with
        | none => cases h
        | some sk =>
          simp only [M.run_bind, M.run_get] at h
          cases ht : d.elementKeyById id with
          | none => rw [ht] at h; cases h
          | some t =>
            rw [ht] at h
            simp only [M.run_bind, M.run_get] at h
            cases hte : d.getElement t with
            | none => rw [hte] at h; cases h
            | some te =>
              rw [hte] at h
              simp only [updElement, M.run_modify, Prod.mk.injEq, true_and] at h
              exact ⟨id, sk, t, te, rfl, rfl, ht, hte, h.symm⟩
  · rename_i hw
    right
    refine ⟨hw, fun j => ?_⟩
    split at h
    · simp only [M.run_bind, M.run_ofRes] at h
      cases hl : layerDecl d F key x.elementtype with
      | error f => rw [hl] at h; cases h
      | ok o =>
        rw [hl] at h
        cases o with
        | none => cases h; rfl
        | some dk =>
          simp only [updElement, M.run_modify, Prod.mk.injEq, true_and] at h
          rw [← h]
          show Option.map _ (Store.get (Store.update d.elements key _) j) = _
          rw [Store.get_update]
          split
          · show _ = Option.map _ (d.elements.get j)
            cases d.elements.get j <;> rfl
          · rfl
    · cases h; rfl

/-- The number of references to the span `k` in the element `j`. -/
def refsAt (d : Document) (k j : Nat) : Nat := ((d.getElement j).map fun e => spanRefs k e.data).getD 0

theorem refsAt_congr {d d' : Document} {j : Nat} (h : (d'.getElement j).map (·.data) = (d.getElement j).map (·.data)) (k : Nat) : refsAt d' k j = refsAt d k j := by
  unfold refsAt
  have : ∀ o : Option ElementData, o.map (fun e => spanRefs k e.data) = (o.map (·.data)).map (spanRefs k) := by intro o; cases o <;> rfl
  rw [this, this, h]

theorem refsAt_push {d : Document} {t : Nat} {te : ElementData} (ht : d.getElement t = some te) (k j : Nat) :
    refsAt { d with elements := d.elements.update t fun e => e.push (.spanReference k) } k j = refsAt d k j + if j = t then 1 else 0 := by
  unfold refsAt
  rw [getElement_update]
  split
  · rename_i hj
    subst hj
    rw [ht]
    simp [ElementData.push, spanRefs]
  · simp

theorem span_not_wref (t : ElementType) (h : ElementGroup.span.contains t = true) : t ≠ .wordReference := by
  rintro rfl; cases h

/-- The span of a word reference whose parent is a span. -/
theorem spanKey_parent {d : Document} {F c ck : Nat} {x cke : ElementData} {sk : Nat} (hx : d.getElement c = some x) (hp : x.parent = some ck)
    (hck : d.getElement ck = some cke) (hs : ElementGroup.span.contains cke.elementtype = true) (h : spanKey d F c none = .ok (some sk)) : sk = ck := by
  unfold spanKey at h
  simp only at h
  cases F with
  | zero => cases h
  | succ n =>
    unfold ancNext at h
    simp only [hx, hp] at h
    have hm : spanSelector.matches d (.element ck) = .ok true := by
      have : spanSelector.matches d (.element ck) = SelCore.matchesElement spanSelector.core d cke := by
        show SelCore.matches spanSelector.core d (.element ck) = _
        unfold SelCore.matches
        simp only [hck]
        rfl
      rw [this]
      show andAlso (.ok (ElementGroup.span.contains cke.elementtype)) _ = _
      rw [hs]
      rfl
    rw [hm] at h
    simp only [hck] at h
    cases h
    rfl

theorem adopt_refs {F ck c : Nat} {d d' : Document} {x cke : ElementData} (hx : d.getElement c = some x) (hck : d.getElement ck = some cke)
    (hne : c ≠ ck) (hs : ElementGroup.span.contains cke.elementtype = true) (h : adopt F ck c d = (.ok (), d')) :
    (x.elementtype = .wordReference ∧ ∃ id t, refersTo x = some id ∧ d.elementKeyById id = some t ∧ d.Live t ∧
      ∀ j, refsAt d' ck j = refsAt d ck j + if j = t then 1 else 0) ∨
    (x.elementtype ≠ .wordReference ∧ ∀ j, refsAt d' ck j = refsAt d ck j) := by
  unfold adopt at h
  simp only [M.run_bind, updElement, M.run_modify] at h
  have hx1 : Document.getElement { d with elements := d.elements.update c fun e => { e with parent := some ck } } c = some { x with parent := some ck } := by
    rw [getElement_update, if_pos rfl, hx]; rfl
  have hck1 : Document.getElement { d with elements := d.elements.update c fun e => { e with parent := some ck } } ck = some cke := by
    rw [getElement_update, if_neg (Ne.symm hne), hck]
  have hdata : ∀ k j, refsAt { d with elements := d.elements.update c fun e => { e with parent := some ck } } k j = refsAt d k j := by
    intro k j
    apply refsAt_congr
    rw [getElement_update]
    split
    · cases d.getElement j <;> rfl
    · rfl
  rcases postAdd_data hx1 h with ⟨h1, id, sk, t, te, h2, h3, h4, h5, h6⟩ | ⟨h1, h2⟩
  · left
    have hsk := spanKey_parent hx1 rfl hck1 hs h3
    subst hsk
    refine ⟨h1, id, t, h2, ?_, ?_, fun j => ?_⟩
    · unfold elementKeyById Store.idToKey at h4 ⊢
      simpa using h4
    · rw [getElement_update] at h5
      split at h5
      · rename_i hj
        cases hg : d.getElement t with
        | none => rw [hg] at h5; cases h5
        | some y => exact ⟨y, hg⟩
      · exact ⟨te, h5⟩
    · rw [h6, refsAt_push h5, hdata]
  · right
    exact ⟨h1, fun j => by rw [refsAt_congr (h2 j), hdata]⟩

/-- The state of a document in which some of the new children have been adopted. -/
def Ready (d1 d : Document) (cs : List Nat) : Prop := ∀ c ∈ cs, ∀ x1, d1.getElement c = some x1 → ∃ x, d.getElement c = some x ∧
  x.elementtype = x1.elementtype ∧ (x.elementtype = .wordReference → x.attribs = x1.attribs)

theorem Ready.upds {d1 d d' : Document} {cs : List Nat} {par : Nat → Option Nat → Option Nat} {fix : Nat → Prop} (h : Ready d1 d cs) (hu : Upds d d' par fix) :
    Ready d1 d' cs := by
  intro c hc x1 hx1
  obtain ⟨x, h1, h2, h3⟩ := h c hc x1 hx1
  rcases hu.elems c with ⟨h4, _⟩ | ⟨y, y', h4, h5, h6⟩
  · rw [h1] at h4; cases h4
  · rw [h1] at h4; cases h4
    refine ⟨y', h5, h6.type.trans h2, fun hw => ?_⟩
    rw [h6.type] at hw
    rcases h6.attribs with h7 | ⟨_, h7, _⟩
    · rw [h7, h3 hw]
    · rw [hw] at h7; cases h7

/-- Adopting the children of a span. -/
theorem adoptAll_refs {F ck : Nat} {d0 d1 : Document} : ∀ (data ys : List Data) (d d' : Document) (cke : ElementData),
    MaterialisedItems d0 d1 none ys data → Ready d1 d (kids ys) → d.getElement ck = some cke → ck ∉ kids ys →
    ElementGroup.span.contains cke.elementtype = true → M.forEach (adopt F ck) (kids ys) d = (.ok (), d') →
    (∀ j, refsAt d' ck j = refsAt d ck j + wordRefs d j data) ∧
    ∀ w, .addElement w ∈ data → w.elementtype = .wordReference → ∃ id t, refersTo w = some id ∧ d.elementKeyById id = some t ∧ d.Live t
  | [], ys, d, d', cke, hm, _, _, _, _, h => by
    simp only [MaterialisedItems] at hm
    subst hm
    cases h
    exact ⟨fun j => rfl, nofun⟩
  | .text s :: rest, ys, d, d', cke, hm, hr, hck, hn, hs, h => by
    simp only [MaterialisedItems] at hm
    obtain ⟨ys', rfl, hm⟩ := hm
    obtain ⟨h1, h2⟩ := adoptAll_refs rest ys' d d' cke hm hr hck hn hs h
    refine ⟨fun j => ?_, fun w hw => h2 w ((List.mem_cons.mp hw).resolve_left nofun)⟩
    rw [h1]; simp [wordRefs]
  | .comment s :: rest, ys, d, d', cke, hm, hr, hck, hn, hs, h => by
    simp only [MaterialisedItems] at hm
    obtain ⟨ys', rfl, hm⟩ := hm
    obtain ⟨h1, h2⟩ := adoptAll_refs rest ys' d d' cke hm hr hck hn hs h
    refine ⟨fun j => ?_, fun w hw => h2 w ((List.mem_cons.mp hw).resolve_left nofun)⟩
    rw [h1]; simp [wordRefs]
  | .element s :: rest, ys, d, d', cke, hm, hr, hck, hn, hs, h => by simp only [MaterialisedItems] at hm
  | .spanReference s :: rest, ys, d, d', cke, hm, hr, hck, hn, hs, h => by simp only [MaterialisedItems] at hm
  | .addElement e :: rest, ys, d, d', cke, hm, hr, hck, hn, hs, h => by
    simp only [MaterialisedItems] at hm
    obtain ⟨c, ys', rfl, hc, hm⟩ := hm
    have hk : kids (.element c :: ys') = c :: kids ys' := rfl
    rw [hk] at hr hn h
    simp only [M.forEach] at h
    obtain ⟨_, dm, h1, h⟩ := bind_ok h
    obtain ⟨x1, _, _, _, hx1, _, hrb, _⟩ := (materialised_eq ..).mp hc
    obtain ⟨x, hx, hxt, hxa⟩ := hr c (by simp) x1 hx1
    have hu := adopt_upds F ck c d
    rw [h1] at hu
    have hck' : ∃ cke', dm.getElement ck = some cke' ∧ cke'.elementtype = cke.elementtype := by
      rcases hu.elems ck with ⟨h4, _⟩ | ⟨y, y', h4, h5, h6⟩
      · rw [hck] at h4; cases h4
      · rw [hck] at h4; cases h4; exact ⟨y', h5, h6.type⟩
    obtain ⟨cke', hck', hct⟩ := hck'
    have hix : ∀ id, dm.elementKeyById id = d.elementKeyById id := by
      intro id; unfold elementKeyById Store.idToKey; rw [hu.index]
    have hlive : ∀ t, dm.Live t → d.Live t := by
      rintro t ⟨y, hy⟩
      rcases hu.elems t with ⟨_, h4⟩ | ⟨z, _, h4, _⟩
      · rw [hy] at h4; cases h4
      · exact ⟨z, h4⟩
    obtain ⟨h2, h3⟩ := adoptAll_refs rest ys' dm d' cke' hm (Ready.upds (fun c hc => hr c (by simp [hc])) hu) hck'
      (fun hm => hn (by simp [hm])) (by rw [hct]; exact hs) h
    have hw : wordRefs dm = wordRefs d := by
      funext j data
      unfold wordRefs
      congr 1
      funext y
      cases y with
      | addElement w =>
        have : dm.elementKeyById = d.elementKeyById := funext hix
        simp only [this]
      | _ => rfl
    have hne : c ≠ ck := fun h => hn (by simp [h])
    rcases adopt_refs hx hck hne hs h1 with ⟨h4, id, t, h5, h6, h7, h8⟩ | ⟨h4, h5⟩
    · have het : e.elementtype = .wordReference := by rw [← hrb.type, ← hxt]; exact h4
      have hre : refersTo e = some id := by
        rw [← refersTo_readsBack hrb het, ← h5]
        unfold refersTo
        rw [hxa h4]
      refine ⟨fun j => ?_, fun w hw' hwt => ?_⟩
      · rw [h2, h8, hw]
        have : wordRefs d j (.addElement e :: rest) = wordRefs d j rest + if j = t then 1 else 0 := by
          unfold wordRefs
          rw [List.countP_cons]
          congr 1
          simp only [het, hre, Option.bind_some, h6, beq_self_eq_true, Bool.true_and]
          by_cases hj : j = t
          · subst hj; simp
          · simp [hj, Ne.symm hj]
        rw [this]
        omega
      · rcases List.mem_cons.mp hw' with hw' | hw'
        · cases hw'; exact ⟨id, t, hre, h6, h7⟩
        · obtain ⟨id', t', a, b, c⟩ := h3 w hw' hwt
          exact ⟨id', t', a, by rw [← hix]; exact b, hlive t' c⟩
    · have het : e.elementtype ≠ .wordReference := by rw [← hrb.type, ← hxt]; exact h4
      refine ⟨fun j => ?_, fun w hw' hwt => ?_⟩
      · rw [h2, h5, hw]
        have : wordRefs d j (.addElement e :: rest) = wordRefs d j rest := by
          unfold wordRefs
          rw [List.countP_cons]
          simp [het]
        rw [this]
      · rcases List.mem_cons.mp hw' with hw' | hw'
        · cases hw'; exact absurd hwt het
        · obtain ⟨id', t', a, b, c⟩ := h3 w hw' hwt
          exact ⟨id', t', a, by rw [← hix]; exact b, hlive t' c⟩

theorem refsAt_unknown {d : Document} (hi : CInv d) {k : Nat} (hk : d.getElement k = none) (j : Nat) : refsAt d k j = 0 := by
  unfold refsAt
  cases hj : d.getElement j with
  | none => rfl
  | some e =>
    simp only [Option.map_some, Option.getD_some]
    unfold spanRefs
    rw [List.countP_eq_zero]
    intro x hx
    cases x with
    | spanReference i =>
      simp only [beq_iff_eq]
      rintro rfl
      obtain ⟨y, hy, _⟩ := (hi.elem j e hj).data _ hx
      rw [hk] at hy; cases hy
    | _ => simp

/-- A span that was added with word references is referred back to by exactly the elements that its word references refer to. -/
theorem span_refs {F p k : Nat} {e : ElementData} {d d' : Document} (hi : CInv d) (hp : d.Live p) (hc : CleanBuilder e)
    (hf : d.FreshIds (builderIds e)) (hs : ElementGroup.span.contains e.elementtype = true) (h : addElementTo F p e d = (.ok k, d')) :
    (∀ j, refsAt d' k j = wordRefs d' j e.data) ∧
    ∀ w, .addElement w ∈ e.data → w.elementtype = .wordReference → ∃ id t, refersTo w = some id ∧ d'.elementKeyById id = some t ∧ d'.Live t := by
  have hlive' := h
  unfold addElementTo at h
  obtain ⟨r1, d1, h1, h⟩ := bind_ok h
  obtain ⟨ck', d2, h2, h⟩ := bind_ok h
  have h2 := mapErr_ok h2
  have h : (adoptAll F ck' r1.2 >>= fun _ => attachElement p ck' >>= fun _ => postAdd F ck' none >>= fun _ => pure ck') d2 = (.ok k, d') := by
    cases hr : r1.2 with
    | none => rw [hr] at h; exact h
    | some gs => rw [hr] at h; exact h
  obtain ⟨_, d3, h3, h⟩ := bind_ok h
  obtain ⟨_, d4, h4, h⟩ := bind_ok h
  obtain ⟨_, d5, h5, h⟩ := bind_ok h
  cases h
  have hids : builderIds e = e.id.toList ++ builderIdsList e.data := by cases e; simp [builderIds]
  have hfl : d.FreshIds (builderIdsList e.data) := by
    have hf := hf
    rw [hids] at hf
    exact ⟨(List.nodup_append.mp hf.1).2.1, fun i h => hf.2 i (by simp [h])⟩
  obtain ⟨added, hk, ho, ht, ha, hpa⟩ := addChildren_ok F e d d d1 r1 hi rfl (Nat.le_refl _) hc hfl h1
  obtain ⟨hi1, _⟩ := hk.grew.steps.clean hi
  have hfr1 : ∀ id, r1.1.id = some id → d1.elementKeyById id = none := by
    intro id hid
    rw [id_congr ha] at hid
    have hf' : d.FreshIds (builderIdsList e.data ++ e.id.toList) := by
      rw [hids] at hf
      refine ⟨?_, fun i h => hf.2 i (by simp only [List.mem_append] at h ⊢; exact h.symm)⟩
      exact (List.perm_append_comm.nodup_iff).mp hf.1
    exact (hk.grew.fresh hf').2 id (by simp [hid])
  obtain ⟨hck, _, hlen2, _, e', henc, hget⟩ := addElem_fresh hfr1 h2
  have hres := encode_result r1.1 (some p) d1 e' (by rw [henc])
  have hcke : d2.getElement k = some { e' with key := some k } := by rw [hget, if_pos rfl]
  have hcks : ElementGroup.span.contains e'.elementtype = true := by rw [hres.1, ht]; exact hs
  have hnone1 : d1.getElement k = none := by
    rw [hck]
    cases hg : d1.getElement d1.elements.len with
    | none => rfl
    | some y => exact absurd (Store.get_lt hg) (by show ¬ d1.elements.len < d1.elements.len; omega)
  have hnk : k ∉ kids r1.1.data := by
    intro hm
    obtain ⟨_, ce, h6, _⟩ := hk.new k hm
    rw [hnone1] at h6; cases h6
  have hzero : ∀ j, refsAt d2 k j = 0 := by
    intro j
    by_cases hj : j = k
    · subst hj
      unfold refsAt
      rw [hcke]
      simp only [Option.map_some, Option.getD_some]
      unfold spanRefs
      rw [List.countP_eq_zero]
      intro x hx
      cases x with
      | spanReference i =>
        simp only [beq_iff_eq]
        rintro rfl
        rw [hres.2.1] at hx
        obtain ⟨y, hy, _⟩ := hk.live _ hx
        rw [hnone1] at hy; cases hy
      | _ => simp
    · rw [← refsAt_unknown hi1 hnone1 j]
      unfold refsAt
      rw [hget, if_neg hj]
  have hready : Ready d1 d2 (kids r1.1.data) := by
    intro c hc' x1 hx1
    refine ⟨x1, ?_, rfl, fun _ => rfl⟩
    rw [hget, if_neg (by rintro rfl; exact hnk hc'), hx1]
  have hall : (∀ j, refsAt d3 k j = refsAt d2 k j + wordRefs d2 j e.data) ∧
      ∀ w, .addElement w ∈ e.data → w.elementtype = .wordReference → ∃ id t, refersTo w = some id ∧ d2.elementKeyById id = some t ∧ d2.Live t := by
    refine adoptAll_refs (F := F) e.data r1.1.data d2 d3 _ hk.items hready hcke hnk hcks ?_
    rw [← hk.added]
    rcases ho with ho | ⟨ho, hnil⟩
    · rw [ho] at h3; exact h3
    · rw [ho] at h3; rw [hnil]; cases h3; rfl
  have hu3 := adoptAll_upds ho h3
  obtain ⟨pe, hpe⟩ := hp
  obtain ⟨pe1, hpe1, _⟩ := hk.grew.old p pe hpe
  have hpk : p ≠ k := by rintro rfl; rw [hnone1] at hpe1; cases hpe1
  have live3 : ∀ j y, d2.getElement j = some y → ∃ y', d3.getElement j = some y' ∧ y'.elementtype = y.elementtype := by
    intro j y hy
    rcases hu3.elems j with ⟨h6, _⟩ | ⟨z, z', h6, h7, h8⟩
    · rw [hy] at h6; cases h6
    · rw [hy] at h6; cases h6; exact ⟨z', h7, h8.type⟩
  obtain ⟨x3, hx3, hx3t⟩ := live3 k _ hcke
  obtain ⟨pe3, hpe3, _⟩ := live3 p pe1 (by rw [hget, if_neg hpk]; exact hpe1)
  have hrun := attach_run hpe3 hx3
  rw [h4] at hrun
  simp only [Prod.mk.injEq, true_and] at hrun
  have hx3p : x3.parent = none := by
    rcases hu3.elems k with ⟨h6, _⟩ | ⟨z, z', h6, h7, h8⟩
    · rw [hcke] at h6; cases h6
    · rw [hx3] at h7; cases h7
      rw [hcke] at h6; cases h6
      rw [h8.parent, if_neg (by rw [hk.added]; exact hnk)]
      show e'.parent = none
      rw [hres.2.2.2, hpa]
      cases e
      simp only [CleanBuilder] at hc
      exact hc.2.2
  rw [hx3p] at hrun
  simp only at hrun
  have hget4 : ∀ j, d4.getElement j = (d3.getElement j).map fun y =>
      if j = p then y.push (.element k) else if j = k then { y with parent := some p } else y := by
    intro j
    rw [hrun]
    show Store.get (Store.update (Store.update _ _ _) _ _) j = _
    rw [Store.get_update, Store.get_update]
    show (if j = p then Option.map _ (if j = k then Option.map _ (d3.getElement j) else d3.getElement j) else
      if j = k then Option.map _ (d3.getElement j) else d3.getElement j) = _
    by_cases hjp : j = p
    · subst hjp; simp [hpk]
    · by_cases hjc : j = k
      · subst hjc; simp [hjp]
      · simp [hjp, hjc]
  have hrefs4 : ∀ j, refsAt d4 k j = refsAt d3 k j := by
    intro j
    unfold refsAt
    rw [hget4]
    cases d3.getElement j with
    | none => rfl
    | some y =>
      simp only [Option.map_some, Option.getD_some]
      split
      · simp [ElementData.push, spanRefs]
      · split <;> rfl
  have hx4 : ∃ x4, d4.getElement k = some x4 ∧ x4.elementtype = e.elementtype := by
    have := hget4 k
    rw [hx3] at this
    simp only [Option.map_some, if_neg (Ne.symm hpk), if_true] at this
    exact ⟨_, this, by rw [← ht, ← hres.1]; exact hx3t⟩
  obtain ⟨x4, hx4, hx4t⟩ := hx4
  have hrefs5 : ∀ j, refsAt d' k j = refsAt d4 k j := by
    rcases postAdd_data hx4 h5 with ⟨h6, _⟩ | ⟨_, h6⟩
    · rw [hx4t] at h6; exact absurd h6 (span_not_wref _ hs)
    · exact fun j => refsAt_congr (h6 j) k
  have hu5 := postAdd_upds F k none d4
  rw [h5] at hu5
  have hix : d'.elements.index = d2.elements.index := by
    rw [show d'.elements.index = d4.elements.index from hu5.index, hrun]
    simp only [Store.update_index]
    exact hu3.index
  have hkey : ∀ id, d'.elementKeyById id = d2.elementKeyById id := by intro id; unfold elementKeyById Store.idToKey; rw [hix]
  have hw : wordRefs d' = wordRefs d2 := by
    funext j data
    unfold wordRefs
    congr 1
    funext y
    cases y with
    | addElement w =>
      have : d'.elementKeyById = d2.elementKeyById := funext hkey
      simp only [this]
    | _ => rfl
  refine ⟨fun j => by rw [hrefs5, hrefs4, hall.1, hzero, hw, Nat.zero_add], fun w hw1 hw2 => ?_⟩
  obtain ⟨id, t, h6, h7, y, h8⟩ := hall.2 w hw1 hw2
  refine ⟨id, t, h6, by rw [hkey]; exact h7, ?_⟩
  obtain ⟨y3, h9, _⟩ := live3 t y h8
  have h10 := hget4 t
  rw [h9, Option.map_some] at h10
  rcases hu5.elems t with ⟨h11, _⟩ | ⟨_, z, _, h12, _⟩
  · rw [h10] at h11; cases h11
  · exact ⟨z, h12⟩

theorem back_references {F p k : Nat} {e : ElementData} {d d' : Document} (hi : CInv d) (hp : d.Live p) (hc : CleanBuilder e)
    (hf : d.FreshIds (builderIds e)) (hs : ElementGroup.span.contains e.elementtype = true) (h : addElementTo F p e d = (.ok k, d')) :
    (∀ j y, d'.getElement j = some y → spanRefs k y.data = wordRefs d' j e.data) ∧
    ∀ w, .addElement w ∈ e.data → w.elementtype = .wordReference →
      ∃ id t y, refersTo w = some id ∧ d'.elementKeyById id = some t ∧ d'.getElement t = some y ∧ .spanReference k ∈ y.data := by
  obtain ⟨h1, h2⟩ := span_refs hi hp hc hf hs h
  have hcount : ∀ j y, d'.getElement j = some y → spanRefs k y.data = wordRefs d' j e.data := by
    intro j y hy
    have := h1 j
    unfold refsAt at this
    rw [hy] at this
    exact this
  refine ⟨hcount, fun w hw ht => ?_⟩
  obtain ⟨id, t, h3, h4, y, hy⟩ := h2 w hw ht
  refine ⟨id, t, y, h3, h4, hy, ?_⟩
  have hpos : 0 < spanRefs k y.data := by
    rw [hcount t y hy]
    unfold wordRefs
    rw [List.countP_pos_iff]
    exact ⟨_, hw, by simp [ht, h3, h4]⟩
  unfold spanRefs at hpos
  rw [List.countP_pos_iff] at hpos
  obtain ⟨x, hx, hx2⟩ := hpos
  cases x with
  | spanReference i => simp only [beq_iff_eq] at hx2; subst hx2; exact hx
  | _ => cases hx2

/-- Adding a layer does not use up identifiers. -/
theorem layer_fresh {F : Nat} {d d1 : Document} {ids : List String} (hi : CInv d) (hf : d.FreshIds ids)
    (h : d1 = d ∨ ∃ holder lt set lk, AddsTo F d d1 holder (layerBuilder lt set) lk) : CInv d1 ∧ d1.FreshIds ids := by
  rcases h with rfl | ⟨holder, lt, set, lk, h1⟩
  · exact ⟨hi, hf⟩
  · obtain ⟨hlc, hli⟩ := layerBuilder_clean lt set
    have hp1 := h1.planted hi hlc (by rw [hli]; exact ⟨List.nodup_nil, by simp⟩)
    refine ⟨(hp1.steps.clean hi).1, hf.1, fun id hid => ?_⟩
    cases hk : d1.elementKeyById id with
    | none => rfl
    | some k =>
      rcases hp1.index id k hk with h3 | h3
      · exact absurd ((show d.elementKeyById id = some k from h3).symm.trans (hf.2 id hid)) (by simp)
      · rw [hli] at h3; cases h3

end Folia
