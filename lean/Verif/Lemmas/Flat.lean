import Verif.Lemmas.Matches
/-! Selection without recursion: works for all documents, whatever the links are. -/
namespace Folia
open Document

theorem CInv.encoded {d : Document} (h : CInv d) : Encoded d := by
  intro k e he a ha
  obtain ⟨plain, enc, h1, h2, _⟩ := (h.elem k e he).refs
  rw [h1, List.mem_append] at ha
  rcases ha with ha | ha
  · exact (h2 a ha).1
  · unfold encRefs at ha
    simp only [List.mem_append] at ha
    rcases ha with ha | ha | ha | ha <;>
      (simp only [Option.mem_toList, Option.map_eq_some_iff] at ha; obtain ⟨_, _, rfl⟩ := ha; rfl)

theorem flat_items {d : Document} : ∀ {data : List Data}, (∀ x ∈ data, DataLive d x) → ∃ items : List Item, data = items.map Item.data
  | [], _ => ⟨[], rfl⟩
  | x :: xs, h => by
    obtain ⟨items, hi⟩ := flat_items (data := xs) fun y hy => h y (by simp [hy])
    have hx := h x (by simp)
    cases x with
    | text s => exact ⟨.text s :: items, by simp [hi, Item.data]⟩
    | comment s => exact ⟨.comment s :: items, by simp [hi, Item.data]⟩
    | spanReference k => exact ⟨.ref k :: items, by simp [hi, Item.data]⟩
    | element k => obtain ⟨e, _⟩ := hx; exact ⟨.node k e [] :: items, by simp [hi, Item.data]⟩
    | addElement e => cases hx

theorem preorder_no (k : Nat) (t : ElementType) (n : Nat) : ∀ (is : List Item) (i : Nat),
    (preorder Recursion.no.eval k t i n is).map (·.data) = is.map Item.data
  | [], i => by simp [preorder]
  | x :: xs, i => by simp [preorder, Recursion.eval, preorder_no k t n xs]

theorem matches_ref (d : Document) (s : Selector) (k : Nat) : s.matches d (.spanReference k) = s.matches d (.element k) := by
  have : ∀ (cs : List SelCore) (c : SelCore), matchesChain d (.spanReference k) c cs = matchesChain d (.element k) c cs := by
    intro cs
    induction cs with
    | nil => intro c; rfl
    | cons c' cs ih => intro c; unfold matchesChain; rw [ih]; rfl
  exact this _ _

theorem FirstSuch.skip {P : Nat → Prop} {l : List Nat} {o : Option Nat} {x : Nat} (hx : ¬ P x) (h : FirstSuch P l o) : FirstSuch P (x :: l) o := by
  cases h with
  | none h => exact .none fun y hy => by rcases List.mem_cons.mp hy with rfl | hy; exact hx; exact h y hy
  | some h1 h2 h3 =>
    refine .some (pre := x :: _) (by rw [h1]; rfl) h2 fun y hy => ?_
    rcases List.mem_cons.mp hy with rfl | hy
    · exact hx
    · exact h3 y hy

theorem FirstSuch.congr {P Q : Nat → Prop} {l : List Nat} {o : Option Nat} (h : FirstSuch P l o) (hpq : ∀ x ∈ l, P x ↔ Q x) : FirstSuch Q l o := by
  cases h with
  | none h => exact .none fun y hy => fun hq => h y hy ((hpq y hy).mpr hq)
  | some h1 h2 h3 =>
    subst h1
    exact .some rfl ((hpq _ (by simp)).mp h2) fun y hy hq => h3 y hy ((hpq y (by simp [hy])).mpr hq)

theorem FirstSuch.unique {P : Nat → Prop} {l : List Nat} {o o' : Option Nat} (h : FirstSuch P l o) (h' : FirstSuch P l o') : o = o' := by
  cases h with
  | none h =>
    cases h' with
    | none => rfl
    | some h1 h2 h3 => exact absurd h2 (h _ (by rw [h1]; simp))
  | some h1 h2 h3 =>
    cases h' with
    | none h => exact absurd h2 (h _ (by rw [h1]; simp))
    | some g1 g2 g3 =>
      rw [h1] at g1
      rcases List.append_eq_append_iff.mp g1 with ⟨as, e1, e2⟩ | ⟨bs, e1, e2⟩
      · cases as with
        | nil => simp only [List.nil_append, List.cons.injEq] at e2; rw [e2.1]
        | cons a as =>
          simp only [List.cons_append, List.cons.injEq] at e2
          exact absurd h2 (e2.1 ▸ g3 a (by rw [e1]; simp))
      · cases bs with
        | nil => simp only [List.nil_append, List.cons.injEq] at e2; rw [e2.1]
        | cons a as =>
          simp only [List.cons_append, List.cons.injEq] at e2
          exact absurd g2 (e2.1 ▸ h3 a (by rw [e1]; simp))

theorem FirstSuch.append {P : Nat → Prop} {l : List Nat} {x : Nat} (h : FirstSuch P l (Option.some x)) (r : List Nat) :
    FirstSuch P (l ++ r) (Option.some x) := by
  cases h with
  | @some pre post _ h1 h2 h3 => exact .some (pre := pre) (post := post ++ r) (by rw [h1]; simp) h2 h3

theorem FirstSuch.snoc {P : Nat → Prop} {l : List Nat} (h : FirstSuch P l Option.none) {x : Nat} (hx : P x) (r : List Nat) :
    FirstSuch P (l ++ x :: r) (Option.some x) := by
  cases h with
  | none h => exact .some rfl hx h

theorem itemKey_data (i : SelectItem) : itemKey i = dataKey i.data := by
  rcases i with ⟨d, _, _, _⟩
  cases d <;> rfl

/-- Leaving out repeated spans keeps the first element. -/
theorem first_head {d : Document} {s : Selector} : ∀ {l : List SelectItem}, (∀ i ∈ l, ∃ b, s.matches d i.data = .ok b) →
    FirstSuch (fun x => s.matches d (.element x) = .ok true) (l.filterMap itemKey) ((firstOccurrences d [] (chosen d s l)).filterMap itemKey).head?
  | [], _ => .none (by simp)
  | i :: is, h => by
    have ih := first_head (l := is) fun j hj => h j (by simp [hj])
    have hk : ∀ x, itemKey i = some x → s.matches d (.element x) = s.matches d i.data := by
      intro x hx
      rcases itemKey_eq_some.mp hx with hd | hd <;> rw [hd]
      rw [matches_ref]
    obtain ⟨b, hb⟩ := h i (by simp)
    cases b with
    | false =>
      rw [chosen_cons_false hb]
      cases hx : itemKey i with
      | none => rw [List.filterMap_cons_none hx]; exact ih
      | some x => rw [List.filterMap_cons_some hx]; exact ih.skip (by rw [hk x hx, hb]; intro h; cases h)
    | true =>
      rw [chosen_cons_true hb]
      unfold firstOccurrences
      cases hx : itemKey i with
      | none =>
        rw [List.filterMap_cons_none hx]
        cases hsp : spanOf d i.data with
        | some k => rw [itemKey_spanOf hsp] at hx; cases hx
        | none => simp only; rw [List.filterMap_cons_none hx]; exact ih
      | some x =>
        rw [List.filterMap_cons_some hx]
        have hP : s.matches d (.element x) = .ok true := by rw [hk x hx, hb]
        cases hsp : spanOf d i.data with
        | some k => simp only [List.not_mem_nil, if_false]; rw [List.filterMap_cons_some hx]; exact .some (pre := []) rfl hP (by simp)
        | none => simp only; rw [List.filterMap_cons_some hx]; exact .some (pre := []) rfl hP (by simp)

/-- The elements found without recursion are the matching ones among the data items of the element itself. -/
theorem select_flat {d : Document} (hi : CInv d) {k : Nat} {e : ElementData} (he : d.getElement k = some e)
    (s : Selector) (hs : s.matchable = true) :
    ∃ keys N, (∀ G, N ≤ G → select d G k s .no = .ok keys ∧ selectFirst d G k s .no = .ok keys.head?) ∧
      (∀ x, x ∈ keys ↔ (.element x ∈ e.data ∨ .spanReference x ∈ e.data) ∧ s.matches d (.element x) = .ok true) ∧
      FirstSuch (fun x => s.matches d (.element x) = .ok true) (e.data.filterMap dataKey) keys.head? := by
  have hdl := (hi.elem k e he).data
  obtain ⟨items, hitems⟩ := flat_items hdl
  let cfg : SelCfg := { doc := d, selector := s, recursion := .no, inclusive := false, spanreferences := true }
  let pre := preorder Recursion.no.eval k e.elementtype 0 1 items
  let out := results cfg [] pre
  have hpre : ∀ y, y ∈ e.data ↔ ∃ i ∈ pre, i.data = y := by
    intro y
    rw [hitems, ← preorder_no k e.elementtype 1 items 0, List.mem_map]
  have hp : Pending d .no (SelState.init k).stack pre (rounds items) := by
    have := Pending.cons (r := .no) (c := 0) (rem := items) he (by simpa using hitems) (by simp [Recursion.eval]) .nil
    simpa [SelState.init] using this
  have hm : ∀ i ∈ pre, ∃ b, s.matches d i.data = .ok b := fun i _ => matches_ok hi.encoded s i.data
  have hlive : ∀ i ∈ pre, ∀ x, itemKey i = some x → ∃ e, d.getElement x = some e := by
    intro i hi x hx
    have := hdl i.data ((hpre _).mpr ⟨i, hi, rfl⟩)
    rcases itemKey_eq_some.mp hx with h | h <;> rw [h] at this
    · exact this
    · exact this.imp fun _ h => h.1
  have hsub : ∀ i ∈ out, i ∈ pre ∧ s.matches d i.data = .ok true := fun i hi => mem_chosen.mp (firstOccurrences_mem hi)
  refine ⟨out.filterMap itemKey, rounds items + 1, fun G hG => ⟨?_, ?_⟩, fun x => ⟨?_, ?_⟩, ?_⟩
  · unfold select selectByKey
    rw [selCollect_ordinary (cfg := cfg) (n := rounds items) (by omega) hp (S := []) (seenRep_init k) hm (.inr ⟨hs, rfl⟩)]
    exact elementKeys_eq fun i hi => hlive i (hsub i hi).1
  · exact selNextElement_ordinary (cfg := cfg) (n := rounds items) (by omega) (by omega) hp (S := []) (seenRep_init k) hm (.inr ⟨hs, rfl⟩) hlive
  · intro hx
    obtain ⟨y, hy, hyx⟩ := List.mem_filterMap.mp hx
    obtain ⟨h1, h2⟩ := hsub y hy
    have := (hpre y.data).mpr ⟨y, h1, rfl⟩
    rcases itemKey_eq_some.mp hyx with h | h <;> rw [h] at this h2
    · exact ⟨.inl this, h2⟩
    · exact ⟨.inr this, matches_ref d s x ▸ h2⟩
  · rintro ⟨hx, hmx⟩
    obtain ⟨i, hi, hix⟩ : ∃ i ∈ pre, i.data = .element x ∨ i.data = .spanReference x := by
      rcases hx with hx | hx
      · obtain ⟨i, hi, h⟩ := (hpre _).mp hx; exact ⟨i, hi, .inl h⟩
      · obtain ⟨i, hi, h⟩ := (hpre _).mp hx; exact ⟨i, hi, .inr h⟩
    have hmi : s.matches d i.data = .ok true := by
      rcases hix with h | h <;> rw [h]
      · exact hmx
      · rw [matches_ref]; exact hmx
    have hik : itemKey i = some x := itemKey_eq_some.mpr hix
    rcases firstOccurrences_complete (d := d) (S := []) (mem_chosen.mpr ⟨hi, hmi⟩) with h | ⟨x', h3, h4 | ⟨z, h4, h5⟩⟩
    · exact List.mem_filterMap.mpr ⟨_, h, hik⟩
    · cases h4
    · have hx' : x' = x := by
        have := itemKey_spanOf h3
        rw [hik] at this
        exact (Option.some.inj this).symm
      exact List.mem_filterMap.mpr ⟨z, h4, hx' ▸ itemKey_spanOf h5⟩

  · have := first_head hm
    rwa [show pre.filterMap itemKey = e.data.filterMap dataKey by
      rw [hitems, ← preorder_no k e.elementtype 1 items 0, List.filterMap_map]
      exact congrArg (fun f => pre.filterMap f) (funext itemKey_data)] at this

end Folia
