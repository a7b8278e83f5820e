import Verif.Lemmas.Safe
import Verif.Serialiser
import Verif.Text
import Verif.Props.Elements
/-! Reading methods that do not panic: selection, text and writing. -/
namespace Folia
open Document

/-! ### Selection -/

theorem elementKeys_safe {d : Document} : ∀ (is : List SelectItem), (∀ i ∈ is, DataLive d i.data) → NoPanic (elementKeys d is)
  | [], _ => .ok _
  | i :: is, h => by
    have hi := h i (List.mem_cons_self ..)
    have ih := elementKeys_safe is fun j hj => h j (List.mem_cons_of_mem _ hj)
    unfold elementKeys
    split
    all_goals first
      | exact ih
      | skip
    all_goals
      rename_i k hk
      rw [hk] at hi
      obtain ⟨e, he⟩ : ∃ e, d.getElement k = some e := by first | exact hi | exact hi.imp fun _ h => h.1
      rw [he]
      exact ih.map

theorem selCollect_safe {cfg : SelCfg} (hi : CInv cfg.doc) (hn : cfg.inclusive = false) : ∀ (n : Nat) (st : SelState), StackLive cfg.doc st →
    NoPanic (selCollect cfg n st) ∧ ∀ is, selCollect cfg n st = .ok is → ∀ i ∈ is, DataLive cfg.doc i.data
  | 0, _, _ => ⟨.fuel, nofun⟩
  | n + 1, st, hs => by
    have h := step_safe hi hn hs
    unfold selCollect
    rcases hst : step cfg st with ⟨o, st'⟩
    rw [hst] at h
    obtain ⟨h1, h2⟩ := h
    cases o with
    | yield i =>
      obtain ⟨h3, h4⟩ := selCollect_safe hi hn n st' h1
      refine ⟨h3.map, fun is his => ?_⟩
      simp only at his
      cases hr : selCollect cfg n st' with
      | error f => rw [hr] at his; cases his
      | ok js =>
        rw [hr] at his
        cases his
        intro j hj
        rcases List.mem_cons.mp hj with rfl | hj
        · exact h2
        · exact h4 js hr j hj
    | again => exact selCollect_safe hi hn n st' h1
    | done => exact ⟨.ok _, fun is his => by cases his; exact fun _ hj => nomatch hj⟩
    | fault f => exact ⟨fun h => h2 (by cases h; rfl), nofun⟩

theorem selectByKey_safe {d : Document} (hi : CInv d) (F : Nat) {key : Nat} (hk : d.Live key) (s : Selector) (r : Recursion) (refs : Bool) :
    NoPanic (selectByKey d F key s r false refs) := by
  unfold selectByKey
  obtain ⟨h1, h2⟩ := selCollect_safe (cfg := { doc := d, selector := s, recursion := r, inclusive := false, spanreferences := refs }) hi rfl F _ (init_live hk)
  exact h1.bind fun is his => elementKeys_safe is (h2 is his)

theorem selectFirst_safe {d : Document} (hi : CInv d) (F : Nat) {key : Nat} (hk : d.Live key) (s : Selector) (r : Recursion) : NoPanic (selectFirst d F key s r) :=
  (selNextElement_safe (cfg := { doc := d, selector := s, recursion := r, inclusive := false, spanreferences := true }) hi rfl F F _ (init_live hk)).2.1

/-! ### Text -/

theorem textDelimiter_safe (d : Document) (retain : Bool) : ∀ n e, NoPanic (textDelimiter d retain n e)
  | 0, _ => .fuel
  | n + 1, e => by
    unfold textDelimiter
    repeat' split
    all_goals first
      | exact .ok _
      | exact textDelimiter_safe d retain n _

theorem containerText_safe (d : Document) {rec : ElementData → Res String} (h : ∀ c, NoPanic (rec c)) : ∀ data text, NoPanic (containerText d rec data text) := by
  intro data
  induction data with
  | nil => intro text; unfold containerText; exact .ok _
  | cons x xs ih =>
    intro text
    cases x with
    | element k =>
      simp only [containerText]
      cases d.getElement k with
      | none => exact ih _
      | some c =>
        simp only
        have := h c
        split
        · cases hr : rec c with
          | ok part => exact ih _
          | error f => rw [hr] at this; exact this.of_error
        · exact ih _
    | _ => simp only [containerText]; exact ih _

theorem addPart_safe {rec : ElementData → Option String → Res String} {delim : ElementData → Res String} (h : ∀ c p, NoPanic (rec c p))
    (h' : ∀ c, NoPanic (delim c)) (c : ElementData) (acc : TextAcc) : NoPanic (addPart rec delim c acc) := by
  unfold addPart
  have h1 := h c (some acc.delimiter)
  have h2 := h' c
  cases hr : rec c (some acc.delimiter) with
  | ok part =>
    cases hd : delim c with
    | ok s => exact .ok _
    | error f => cases f with
      | err k => exact .ok _
      | panic => exact absurd hd h2
      | fuel => exact .fuel
  | error f => cases f with
    | err k => exact .ok _
    | panic => exact absurd hr h1
    | fuel => exact .fuel

theorem structText_safe (d : Document) (hres : ∀ e : ElementData, ∃ o, e.resolve d = .ok o) {rec : ElementData → Option String → Res String}
    {delim : ElementData → Res String} (h : ∀ c p, NoPanic (rec c p)) (h' : ∀ c, NoPanic (delim c)) :
    ∀ data acc, NoPanic (structText d rec delim data acc) := by
  intro data
  induction data with
  | nil => intro acc; unfold structText; exact .ok _
  | cons x xs ih =>
    intro acc
    have hpart : ∀ c, NoPanic (match addPart rec delim c acc with
        | .ok acc' => structText d rec delim xs acc'
        | .error f => .error f) := by
      intro c
      have := addPart_safe h h' c acc
      cases hp : addPart rec delim c acc with
      | ok acc' => exact ih _
      | error f => rw [hp] at this; exact this.of_error
    cases x with
    | element k =>
      simp only [structText]
      cases d.getElement k with
      | none => exact ih _
      | some c =>
        simp only
        split
        · exact hpart c
        · split
          · obtain ⟨o, ho⟩ := hres c
            rw [ho]
            cases o with
            | none => exact ih _
            | some t => exact hpart t
          · split <;> exact ih _
    | _ => simp only [structText]; exact ih _

theorem finishText_safe {rec : ElementData → Option String → Res String} (h : ∀ c p, NoPanic (rec c p)) (acc : TextAcc) (prev : Option String) :
    NoPanic (finishText rec acc prev) := by
  unfold finishText
  have hcases : ∀ r : Res String, NoPanic r → NoPanic (match r with
      | .error f => (.error f : Res String)
      | .ok text => if text.isEmpty then .error (.err .noText) else match prev with
        | some p => .ok (p ++ text)
        | none => .ok text) := by
    intro r hr
    cases r with
    | error f => exact hr.of_error
    | ok t =>
      simp only
      repeat' split
      all_goals nofun
  refine hcases _ ?_
  split
  · rename_i c _
    split
    · have := h c none
      cases hr : rec c none with
      | ok s => exact .ok _
      | error f => cases f with
        | err k => exact .ok _
        | panic => exact absurd hr this
        | fuel => exact .fuel
    · exact .ok _
  · exact .ok _

theorem textByKey_safe (d : Document) (hres : ∀ e : ElementData, ∃ o, e.resolve d = .ok o) (set cls : Nat) (retain : Bool) :
    ∀ (n : Nat) (strict : Bool) (e : ElementData) (prev : Option String), NoPanic (textByKey d set cls retain strict n e prev)
  | 0, _, _, _ => by unfold textByKey; exact .fuel
  | n + 1, strict, e, prev => by
    have ih := textByKey_safe d hres set cls retain n
    unfold textByKey
    split
    · exact containerText_safe d (fun c => ih strict c none) _ _
    · split
      · exact .err _
      · have := structText_safe d hres (rec := fun c p => textByKey d set cls retain false n c p) (delim := fun c => textDelimiter d retain n c)
          (fun c p => ih false c p) (fun c => textDelimiter_safe d retain n c) e.data {}
        split
        · rename_i f hf
          rw [hf] at this
          exact this.of_error
        · exact finishText_safe (fun c p => ih false c p) _ _

theorem classKey_safe (d : Document) (dk : Nat) (c : String) : NoPanic (d.classKey dk c) := by
  unfold Document.classKey
  split
  · exact .okOr _ _
  · exact .err _

/-! ### Writing -/

theorem alreadyReturned_iteration (st : SelState) (k : Nat) : (alreadyReturned st k).2.iteration = st.iteration := by
  unfold alreadyReturned
  simp only
  repeat' split
  all_goals rfl

theorem stepStack_iteration (cfg : SelCfg) (st : SelState) : (stepStack cfg st).2.iteration = st.iteration := by
  have h : ∀ (st1 : SelState) (k : Nat) (r : Bool × SelState), alreadyReturned st1 k = r → r.2.iteration = st1.iteration := by
    intro st1 k r hr
    rw [← hr, alreadyReturned_iteration]
  unfold stepStack
  simp only
  repeat' split
  all_goals first
    | rfl
    | (rename_i hx; exact h _ _ _ hx)

theorem selCollect_plain_safe {d : Document} (hi : CInv d) (s : Selector) (r : Recursion) (incl refs : Bool) : ∀ (n : Nat) (st : SelState), 0 < st.iteration →
    StackLive d st → NoPanic (selCollect { doc := d, selector := s, recursion := r, inclusive := incl, spanreferences := refs } n st)
  | 0, _, _, _ => .fuel
  | n + 1, st, hit, hs => by
    have hstep : step { doc := d, selector := s, recursion := r, inclusive := incl, spanreferences := refs } st =
        stepStack { doc := d, selector := s, recursion := r, inclusive := incl, spanreferences := refs } { st with iteration := st.iteration + 1 } := by
      unfold step
      simp only
      rw [if_neg (by intro h; have := h.1; omega), if_neg (by intro h; have := h.2; omega)]
    have h := stepStack_safe (cfg := { doc := d, selector := s, recursion := r, inclusive := incl, spanreferences := refs })
      (st := { st with iteration := st.iteration + 1 }) hi hs
    have hit' : 0 < (stepStack { doc := d, selector := s, recursion := r, inclusive := incl, spanreferences := refs } { st with iteration := st.iteration + 1 }).2.iteration := by
      rw [stepStack_iteration]
      exact Nat.succ_pos _
    unfold selCollect
    rw [hstep]
    rcases hst : stepStack _ _ with ⟨o, st'⟩
    rw [hst] at h hit'
    obtain ⟨h1, h2⟩ := h
    cases o with
    | yield i => exact (selCollect_plain_safe hi s r incl refs n st' hit' h1).map
    | again => exact selCollect_plain_safe hi s r incl refs n st' hit' h1
    | done => exact .ok _
    | fault f => exact fun h => h2 (by cases h; rfl)

theorem closeTags_safe : ∀ n st, NoPanic (closeTags n st)
  | 0, _ => .ok _
  | _ + 1, [] => .err _
  | n + 1, (tag, t) :: st => by
    have := closeTags_safe n st
    unfold closeTags
    cases h : closeTags n st with
    | error f => rw [h] at this; exact this.of_error
    | ok a => exact .ok _

theorem xmlItem_safe {X : Ext} {d : Document} {mask : List Bool} (h : ∀ k e, d.getElement k = some e → ∃ as, elementAttrs X d mask e = .ok as)
    (item : Data) (st : List OpenTag) : NoPanic (xmlItem X d mask item st) := by
  unfold xmlItem
  split
  · split
    · exact .ok _
    · rename_i e he
      obtain ⟨as, ha⟩ := h _ e he
      rw [ha]
      simp only
      split <;> exact .ok _
  all_goals exact .ok _

theorem xmlLoop_safe {X : Ext} {d : Document} {mask : List Bool} (h : ∀ k e, d.getElement k = some e → ∃ as, elementAttrs X d mask e = .ok as) :
    ∀ (is : List SelectItem) (prev : Nat) (st : List OpenTag), NoPanic (xmlLoop X d mask is prev st)
  | [], _, _ => .ok _
  | i :: is, prev, st => by
    unfold xmlLoop
    have h1 := closeTags_safe (prev - i.depth) st
    cases hc : closeTags (prev - i.depth) st with
    | error f => rw [hc] at h1; exact h1.of_error
    | ok a =>
      obtain ⟨evs, st1⟩ := a
      have h2 := xmlItem_safe h i.data st1
      simp only
      cases hx : xmlItem X d mask i.data st1 with
      | error f => rw [hx] at h2; exact h2.of_error
      | ok b =>
        obtain ⟨evs', st2⟩ := b
        exact (xmlLoop_safe h is i.depth st2).map

theorem concatRes_safe {α : Type} {f : α → Res (List WEvent)} (h : ∀ a, NoPanic (f a)) : ∀ l, NoPanic (concatRes f l)
  | [] => .ok _
  | a :: as => by
    unfold concatRes
    have := h a
    cases hf : f a with
    | error e => rw [hf] at this; exact this.of_error
    | ok evs => exact (concatRes_safe h as).map

theorem xmlProcessor_safe (d : Document) : ∀ n k, NoPanic (xmlProcessor d n k)
  | 0, _ => .fuel
  | n + 1, k => by
    unfold xmlProcessor
    split
    · exact .ok _
    · split
      · exact .ok _
      · exact (concatRes_safe (xmlProcessor_safe d n) _).map

/-- The first item of a tree is found: the element has no other parent, or its parent lists it. -/
def Listed (d : Document) (key : Nat) : Prop :=
  ∃ e, d.getElement key = some e ∧ ∀ p, e.parent = some p → p ≠ key → ∃ pe, d.getElement p = some pe ∧ .element key ∈ pe.data

theorem startItem_ok {d : Document} {key : Nat} {e : ElementData} (h : ∀ p, e.parent = some p → p ≠ key → ∃ pe, d.getElement p = some pe ∧ .element key ∈ pe.data) :
    ∃ r, startItem d key e = .ok r := by
  unfold startItem
  cases hp : e.parent with
  | none => exact ⟨_, if_pos rfl⟩
  | some p =>
    by_cases hne : p = key
    · exact ⟨_, if_pos hne⟩
    · obtain ⟨pe, h1, h2⟩ := h p hp hne
      simp only [if_neg hne, h1]
      cases hx : pe.index key with
      | none =>
        unfold ElementData.index at hx
        rw [List.findIdx?_eq_none_iff] at hx
        have := hx _ h2
        simp [DataType.isElem] at this
      | some i =>
        unfold ElementData.index at hx
        obtain ⟨h3, -⟩ := List.findIdx?_eq_some_iff_findIdx_eq.mp hx
        simp only [List.getElem?_eq_getElem h3]
        exact ⟨_, rfl⟩

theorem xmlElements_safe {X : Ext} {F : Nat} {d : Document} (hr : CleanReachable X F d) (G : Nat) {key : Nat} (h : Listed d key) :
    NoPanic (xmlElements X d G key) := by
  obtain ⟨e, he, hp⟩ := h
  unfold xmlElements
  refine NoPanic.bind ?_ fun is _ => xmlLoop_safe (C12_serialisable hr).1 is 0 []
  cases G with
  | zero => exact .fuel
  | succ n =>
    obtain ⟨⟨pk, item⟩, hs⟩ := startItem_ok hp
    obtain ⟨b, hm⟩ := matches_ok hr.cinv.encoded .allData item
    have hlive := init_live (d := d) (key := key) ⟨e, he⟩
    have hstep : step { doc := d, selector := .allData, recursion := .always, inclusive := true, spanreferences := false } (.init key) =
        if b then (.yield { data := item, parentKey := pk, cursor := 0, depth := 0 }, { SelState.init key with iteration := 1 })
        else stepStack { doc := d, selector := .allData, recursion := .always, inclusive := true, spanreferences := false } { SelState.init key with iteration := 1 } := by
      unfold step SelState.init
      simp only [he, hs, hm]
      rw [if_neg (by decide), if_pos (by decide)]
      cases b <;> rfl
    unfold selCollect
    rw [hstep]
    cases b with
    | true => exact (selCollect_plain_safe hr.cinv _ _ _ _ n { SelState.init key with iteration := 1 } Nat.one_pos hlive).map
    | false =>
      rw [if_neg (by decide)]
      have h1 := stepStack_safe (cfg := { doc := d, selector := .allData, recursion := .always, inclusive := true, spanreferences := false })
        (st := { SelState.init key with iteration := 1 }) hr.cinv hlive
      have h2 := stepStack_iteration { doc := d, selector := .allData, recursion := .always, inclusive := true, spanreferences := false } { SelState.init key with iteration := 1 }
      rcases hst : stepStack _ _ with ⟨o, st'⟩
      rw [hst] at h1 h2
      have h3 : 0 < st'.iteration := by rw [h2]; exact Nat.one_pos
      obtain ⟨h1, h4⟩ := h1
      cases o with
      | yield i => exact (selCollect_plain_safe hr.cinv _ _ _ _ n st' h3 h1).map
      | again => exact selCollect_plain_safe hr.cinv _ _ _ _ n st' h3 h1
      | done => exact .ok _
      | fault f => exact fun h => h4 (by cases h; rfl)

theorem xmlMetadata_safe {X : Ext} {F : Nat} {d : Document} (hr : CleanReachable X F d) (G : Nat) : NoPanic (xmlMetadata d G) := by
  unfold xmlMetadata
  obtain ⟨evs, h⟩ := (C12_serialisable hr).2
  rw [h]
  exact NoPanic.bind (.ok evs) fun _ _ => NoPanic.bind (concatRes_safe (xmlProcessor_safe d G) d.chain).map fun _ _ => .ok _

end Folia
