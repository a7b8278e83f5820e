import Verif.Lemmas.View
/-! What the selection iterator yields. -/
namespace Folia
open Document

/-! ### The duplicate bookkeeping is a set of keys -/

/-- The bits of the iterator represent the set `S`. -/
def SeenRep (st : SelState) (S : List Nat) : Prop := ∀ k, k ∈ S ↔ st.returnedOffset ≤ k ∧ st.returned[k - st.returnedOffset]? = some true

theorem seenRep_init (key : Nat) : SeenRep (.init key) [] := by intro k; simp [SelState.init]

theorem alreadyReturned_spec {st : SelState} {S : List Nat} (h : SeenRep st S) (key : Nat) :
    (alreadyReturned st key).1 = decide (key ∈ S) ∧ SeenRep (alreadyReturned st key).2 (if key ∈ S then S else key :: S) ∧
    (alreadyReturned st key).2.stack = st.stack ∧ (alreadyReturned st key).2.iteration = st.iteration := by
  unfold alreadyReturned
  obtain ⟨stack, iteration, ret, o⟩ := st
  have hoff : ∃ off, (if (ret.isEmpty && o == 0) = true then key else o) = off ∧
      (ret ≠ [] → off = o) ∧ (∀ k, k ∈ S ↔ off ≤ k ∧ ret[k - off]? = some true) := by
    split
    · rename_i hc
      simp only [Bool.and_eq_true, List.isEmpty_iff, beq_iff_eq] at hc
      refine ⟨key, rfl, fun hn => absurd hc.1 hn, fun k => ?_⟩
      have := h k
      rw [this, hc.1]
      simp
    · exact ⟨o, rfl, fun _ => rfl, h⟩
  obtain ⟨off, h1, _, h3⟩ := hoff
  simp only
  rw [h1]
  by_cases hlt : key < off
  · rw [if_pos hlt]
    have hns : key ∉ S := fun hm => by have := (h3 key).mp hm; omega
    refine ⟨by simp [hns], ?_, rfl, rfl⟩
    rw [if_neg hns]
    intro k
    simp only [List.mem_cons, h3]
    by_cases hk : k = key
    · subst hk; simp
    · by_cases hk2 : key < k
      · have : k - key = (k - key - 1) + 1 := by omega
        rw [this, List.getElem?_cons_succ, List.getElem?_append]
        simp only [List.length_replicate, List.getElem?_replicate]
        by_cases hk3 : k < off
        · rw [if_pos (by omega), if_pos (by omega)]
          simp [hk]; omega
        · rw [if_neg (by omega)]
          have : k - key - 1 - (off - key - 1) = k - off := by omega
          rw [this]
          simp [hk]; omega
      · simp [hk]; omega
  · rw [if_neg hlt]
    by_cases hge : key - off ≥ ret.length
    · rw [if_pos hge]
      have hns : key ∉ S := fun hm => by
        have h4 := ((h3 key).mp hm).2
        rw [List.getElem?_eq_none (by omega)] at h4
        cases h4
      refine ⟨by simp [hns], ?_, rfl, rfl⟩
      rw [if_neg hns]
      intro k
      simp only [List.mem_cons, h3, List.getElem?_set, List.length_append, List.length_replicate]
      by_cases hk : k = key
      · subst hk
        simp
        omega
      · by_cases hko : off ≤ k
        · rw [if_neg (by omega), List.getElem?_append]
          simp only [hk, hko, false_or, true_and]
          split
          · rfl
          · rename_i hl
            rw [List.getElem?_eq_none (by omega), List.getElem?_replicate]
            split <;> simp
        · simp [hk, hko]
    · rw [if_neg hge]
      have hb : key - off < ret.length := by omega
      rw [List.getElem?_eq_getElem hb]
      cases hr : ret[key - off] with
      | true =>
        have hs : key ∈ S := (h3 key).mpr ⟨by omega, by rw [List.getElem?_eq_getElem hb, hr]⟩
        refine ⟨by simp [hs], ?_, rfl, rfl⟩
        rw [if_pos hs]
        exact h3
      | false =>
        have hns : key ∉ S := fun hm => by
          have h4 := ((h3 key).mp hm).2
          rw [List.getElem?_eq_getElem hb, hr] at h4
          cases h4
        refine ⟨by simp [hns], ?_, rfl, rfl⟩
        rw [if_neg hns]
        intro k
        simp only [List.mem_cons, h3, List.getElem?_set]
        by_cases hk : k = key
        · subst hk; simp; omega
        · by_cases hko : off ≤ k
          · rw [if_neg (by omega)]; simp [hk, hko]
          · simp [hk, hko]

/-! ### Rounds needed -/

mutual
/-- The number of rounds the iterator needs for a list of items. -/
def rounds : List Item → Nat
  | [] => 1
  | x :: xs => roundsIn x + rounds xs + 1
/-- The number of rounds for what is below an item. -/
def roundsIn : Item → Nat
  | .node _ _ items => rounds items
  | _ => 0
end

/-! ### The stack -/

/-- The stack of the iterator stands for the items that are still to come, `n` bounds the remaining rounds. -/
inductive Pending (d : Document) (r : Recursion) : List (Nat × Nat) → List SelectItem → Nat → Prop
  | nil : Pending d r [] [] 0
  | cons {k c : Nat} {e : ElementData} {rem : List Item} {rest : List (Nat × Nat)} {out : List SelectItem} {n : Nat} :
      d.getElement k = some e → e.data.drop c = rem.map Item.data → (r.eval e.elementtype = true → ShowsAll d rem) → Pending d r rest out n →
      Pending d r ((k, c) :: rest) (preorder r.eval k e.elementtype c (rest.length + 1) rem ++ out) (rounds rem + n)

/-- The result of an iteration, given the items that are visited. -/
def results (cfg : SelCfg) (seen : List Nat) (out : List SelectItem) : List SelectItem :=
  if cfg.spanreferences then firstOccurrences cfg.doc seen (chosen cfg.doc cfg.selector out) else chosen cfg.doc cfg.selector out

theorem chosen_cons_true {d : Document} {s : Selector} {i : SelectItem} {is : List SelectItem} (h : s.matches d i.data = .ok true) :
    chosen d s (i :: is) = i :: chosen d s is := by simp [chosen, h]

theorem chosen_cons_false {d : Document} {s : Selector} {i : SelectItem} {is : List SelectItem} (h : s.matches d i.data = .ok false) :
    chosen d s (i :: is) = chosen d s is := by simp [chosen, h]

theorem results_cons_false {cfg : SelCfg} {seen : List Nat} {i : SelectItem} {is : List SelectItem}
    (h : cfg.selector.matches cfg.doc i.data = .ok false) : results cfg seen (i :: is) = results cfg seen is := by
  simp only [results, chosen_cons_false h]

/-- One round that visits an item: what `stepStack` does after the stack was updated. -/
def visitItem (cfg : SelCfg) (i : SelectItem) (st1 : SelState) : StepOut × SelState :=
  match cfg.selector.matches cfg.doc i.data with
  | .error f => (.fault f, st1)
  | .ok false => (.again, st1)
  | .ok true =>
    if cfg.spanreferences then
      match spanOf cfg.doc i.data with
      | some k => match alreadyReturned st1 k with
        | (true, st2) => (.again, st2)
        | (false, st2) => (.yield i, st2)
      | none => (.yield i, st1)
    else (.yield i, st1)

theorem visitItem_spec {cfg : SelCfg} {i : SelectItem} {st1 : SelState} {S : List Nat} (hS : SeenRep st1 S) {b : Bool}
    (hm : cfg.selector.matches cfg.doc i.data = .ok b) :
    ∃ st2 S', SeenRep st2 S' ∧ st2.stack = st1.stack ∧ st2.iteration = st1.iteration ∧
      ((visitItem cfg i st1 = (.again, st2) ∧ ∀ is, results cfg S (i :: is) = results cfg S' is) ∨
       (visitItem cfg i st1 = (.yield i, st2) ∧ ∀ is, results cfg S (i :: is) = i :: results cfg S' is)) := by
  unfold visitItem
  rw [hm]
  cases b with
  | false => exact ⟨st1, S, hS, rfl, rfl, .inl ⟨rfl, fun is => results_cons_false hm⟩⟩
  | true =>
    simp only
    by_cases hsp : cfg.spanreferences = true
    · rw [if_pos hsp]
      cases hk : spanOf cfg.doc i.data with
      | none =>
        refine ⟨st1, S, hS, rfl, rfl, .inr ⟨rfl, fun is => ?_⟩⟩
        simp only [results, hsp, if_true, chosen_cons_true hm, firstOccurrences, hk]
      | some k =>
        obtain ⟨h1, h2, h3, h4⟩ := alreadyReturned_spec hS k
        cases ha : alreadyReturned st1 k with
        | mk b st2 =>
          rw [ha] at h1 h2 h3 h4
          by_cases hmem : k ∈ S
          · rw [if_pos hmem] at h2
            simp only [hmem, decide_true] at h1
            subst h1
            refine ⟨st2, S, h2, h3, h4, .inl ⟨by simp only [ha], fun is => ?_⟩⟩
            simp only [results, hsp, if_true, chosen_cons_true hm, firstOccurrences, hk, hmem]
          · rw [if_neg hmem] at h2
            simp only [hmem, decide_false] at h1
            subst h1
            refine ⟨st2, k :: S, h2, h3, h4, .inr ⟨by simp only [ha], fun is => ?_⟩⟩
            simp only [results, hsp, if_true, chosen_cons_true hm, firstOccurrences, hk, hmem, if_false]
    · rw [if_neg hsp]
      refine ⟨st1, S, hS, rfl, rfl, .inr ⟨rfl, fun is => ?_⟩⟩
      simp only [results, hsp, chosen_cons_true hm, Bool.false_eq_true, if_false]

theorem getElement?_of_drop {α : Type} {l : List α} {c : Nat} {x : α} {xs : List α} (h : l.drop c = x :: xs) : l[c]? = some x ∧ l.drop (c + 1) = xs := by
  have h1 : (l.drop c)[0]? = some x := by rw [h]; rfl
  rw [List.getElem?_drop] at h1
  refine ⟨by simpa using h1, ?_⟩
  rw [← List.drop_drop, h]; rfl

/-- The stack after visiting an item that is recursed into. -/
def pushChild (x : Data) (stack : List (Nat × Nat)) : List (Nat × Nat) :=
  match x with
  | .element k => (k, 0) :: stack
  | _ => stack

theorem stepStack_visit {cfg : SelCfg} {st : SelState} {key c : Nat} {rest : List (Nat × Nat)} (hst : st.stack = (key, c) :: rest) {parent : ElementData}
    (hp : cfg.doc.getElement key = some parent) {item : Data} (hx : parent.data[c]? = some item) :
    stepStack cfg st = visitItem cfg { data := item, parentKey := key, cursor := c, depth := rest.length + 1 }
      { st with stack := if cfg.recursion.eval parent.elementtype then
            (pushChild item ((key, c + 1) :: rest))
          else (key, c + 1) :: rest } := by
  unfold stepStack visitItem
  rw [hst]
  simp only [hp, hx, List.length_cons]
  cases item with
  | element k =>
    simp only [spanOf]
    cases cfg.selector.matches cfg.doc (.element k) with
    | error f => rfl
    | ok b =>
      cases b with
      | false => rfl
      | true =>
        simp only
        split
        · cases cfg.doc.getElement k with
          | none => rfl
          | some e =>
            simp only
            split <;> rfl
        · rfl
  | text s => rfl
  | comment s => rfl
  | addElement e => rfl
  | spanReference k => rfl

theorem stepStack_again {cfg : SelCfg} {st : SelState} {key c : Nat} {rest : List (Nat × Nat)} (hst : st.stack = (key, c) :: rest) {parent : ElementData}
    (hp : cfg.doc.getElement key = some parent) (hx : parent.data[c]? = none) : stepStack cfg st = (.again, { st with stack := rest }) := by
  unfold stepStack
  rw [hst]
  simp only [hp, hx]

theorem stepStack_done {cfg : SelCfg} {st : SelState} (hst : st.stack = []) : stepStack cfg st = (.done, st) := by
  unfold stepStack; rw [hst]

/-- One round of the iterator after the first call. -/
theorem round {cfg : SelCfg} {st : SelState} {out : List SelectItem} {n : Nat} (hp : Pending cfg.doc cfg.recursion st.stack out n)
    {S : List Nat} (hS : SeenRep st S) (hm : ∀ i ∈ out, ∃ b, cfg.selector.matches cfg.doc i.data = .ok b) :
    (out = [] ∧ n = 0 ∧ st.stack = [] ∧ stepStack cfg st = (.done, st)) ∨
    ∃ st2 S2 out2 n2, SeenRep st2 S2 ∧ Pending cfg.doc cfg.recursion st2.stack out2 n2 ∧ n2 < n ∧ st2.iteration = st.iteration ∧
      (∀ i ∈ out2, i ∈ out) ∧
      ((stepStack cfg st = (.again, st2) ∧ results cfg S out = results cfg S2 out2) ∨
       ∃ i, i ∈ out ∧ stepStack cfg st = (.yield i, st2) ∧ results cfg S out = i :: results cfg S2 out2) := by
  generalize hstk : st.stack = stk at hp
  cases hp with
  | nil => exact .inl ⟨rfl, rfl, rfl, stepStack_done hstk⟩
  | @cons k c e rem rest out n he hd hs hrest =>
    right
    cases rem with
    | nil =>
      have hx : e.data[c]? = none := by
        rw [List.getElem?_eq_none_iff]
        exact List.drop_eq_nil_iff.mp hd
      refine ⟨{ st with stack := rest }, S, out, n, hS, hrest, by simp [rounds], rfl, ?_, .inl ⟨stepStack_again hstk he hx, ?_⟩⟩
      · intro i hi; simp [preorder, hi]
      · simp [preorder]
    | cons x xs =>
      obtain ⟨hx, hd'⟩ := getElement?_of_drop hd
      have hvis := stepStack_visit (cfg := cfg) hstk he hx
      have hsame : Pending cfg.doc cfg.recursion ((k, c + 1) :: rest)
          (preorder cfg.recursion.eval k e.elementtype (c + 1) (rest.length + 1) xs ++ out) (rounds xs + n) := .cons he hd' (fun h => (hs h).2) hrest
      obtain ⟨b, hb⟩ := hm { data := x.data, parentKey := k, cursor := c, depth := rest.length + 1 } (by simp [preorder])
      have hnext : ∃ n2, Pending cfg.doc cfg.recursion (if cfg.recursion.eval e.elementtype then
            (pushChild x.data ((k, c + 1) :: rest))
          else (k, c + 1) :: rest)
          ((if cfg.recursion.eval e.elementtype then inside cfg.recursion.eval (rest.length + 1) x else []) ++
            (preorder cfg.recursion.eval k e.elementtype (c + 1) (rest.length + 1) xs ++ out)) n2 ∧ n2 ≤ roundsIn x + (rounds xs + n) := by
        split
        · rename_i hev
          cases x with
          | node k' e' items =>
            obtain ⟨h1, h2, h3⟩ := (hs hev).1
            exact ⟨_, .cons (c := 0) h1 (by simpa using h2) (fun _ => h3) hsame, by simp [roundsIn]⟩
          | _ => exact ⟨_, hsame, by omega⟩
        · exact ⟨_, hsame, by omega⟩
      obtain ⟨n2, hnext, hn2⟩ := hnext
      obtain ⟨st2, S2, h1, h2, h3, h4⟩ := visitItem_spec (st1 := { st with stack := if cfg.recursion.eval e.elementtype then
            (pushChild x.data ((k, c + 1) :: rest))
          else (k, c + 1) :: rest }) (S := S) (by exact hS) hb
      refine ⟨st2, S2, _, n2, h1, by rw [h2]; exact hnext, by simp only [rounds]; omega, h3, ?_, ?_⟩
      · intro i hi
        simp only [preorder, List.mem_append, List.mem_cons] at hi ⊢
        rcases hi with hi | hi | hi
        · exact .inl (.inr (.inl hi))
        · exact .inl (.inr (.inr hi))
        · exact .inr hi
      · rw [hvis]
        rcases h4 with ⟨h4, h5⟩ | ⟨h4, h5⟩
        · exact .inl ⟨h4, by simp only [preorder, List.cons_append, List.append_assoc]; exact h5 _⟩
        · exact .inr ⟨_, by simp [preorder], h4, by simp only [preorder, List.cons_append, List.append_assoc]; exact h5 _⟩

theorem step_later {cfg : SelCfg} {st : SelState} (hi : st.iteration ≠ 0) : step cfg st = stepStack cfg { st with iteration := st.iteration + 1 } := by
  unfold step
  simp [hi]

/-- Running the iterator to the end, after the first call. -/
theorem selCollect_later {cfg : SelCfg} {F n : Nat} (hF : n < F) {st : SelState} {out : List SelectItem}
    (hp : Pending cfg.doc cfg.recursion st.stack out n) {S : List Nat} (hS : SeenRep st S)
    (hm : ∀ i ∈ out, ∃ b, cfg.selector.matches cfg.doc i.data = .ok b) (hi : st.iteration ≠ 0) :
    selCollect cfg F st = .ok (results cfg S out) := by
  induction F generalizing n st out S with
  | zero => omega
  | succ F ih =>
    unfold selCollect
    rw [step_later hi]
    rcases round (st := { st with iteration := st.iteration + 1 }) (by exact hp) (by exact hS) hm with ⟨rfl, rfl, _, h⟩ | ⟨st2, S2, out2, n2, h1, h2, h3, h4, h5, h6⟩
    · rw [h]; simp [results, chosen, firstOccurrences]
    · have hi2 : st2.iteration ≠ 0 := by rw [h4]; simp
      have hrec := ih (by omega) h2 h1 (fun i hi => hm i (h5 i hi)) hi2
      rcases h6 with ⟨h6, h7⟩ | ⟨i, _, h6, h7⟩
      · rw [h6, h7]; exact hrec
      · rw [h6, h7]; simp only [hrec]; rfl

/-! ### From the first call -/

theorem step_first {cfg : SelCfg} {st : SelState} (hi : st.iteration = 0) (hm : cfg.selector.matchable = true) (hinc : cfg.inclusive = false) :
    step cfg st = stepStack cfg { st with iteration := 1 } := by
  unfold step
  simp [hi, hm, hinc]

theorem step_unmatchable {cfg : SelCfg} {st : SelState} (hi : st.iteration = 0) (hm : cfg.selector.matchable = false) :
    step cfg st = (.done, { st with iteration := 1 }) := by
  unfold step
  simp [hi, hm]

/-- The next round is an ordinary one. -/
def Ordinary (cfg : SelCfg) (st : SelState) : Prop := st.iteration ≠ 0 ∨ (cfg.selector.matchable = true ∧ cfg.inclusive = false)

theorem step_ordinary {cfg : SelCfg} {st : SelState} (ho : Ordinary cfg st) : step cfg st = stepStack cfg { st with iteration := st.iteration + 1 } := by
  by_cases hi : st.iteration = 0
  · rcases ho with ho | ho
    · exact absurd hi ho
    · rw [step_first hi ho.1 ho.2, hi]
  · exact step_later hi

theorem selCollect_step {cfg : SelCfg} {F n : Nat} (hF : n < F) {st st' : SelState} {out : List SelectItem} (hstep : step cfg st = stepStack cfg st')
    (hi : st'.iteration ≠ 0) (hp : Pending cfg.doc cfg.recursion st'.stack out n) {S : List Nat} (hS : SeenRep st' S)
    (hm : ∀ i ∈ out, ∃ b, cfg.selector.matches cfg.doc i.data = .ok b) : selCollect cfg F st = .ok (results cfg S out) := by
  cases F with
  | zero => omega
  | succ F =>
    unfold selCollect
    rw [hstep]
    rcases round hp hS hm with ⟨rfl, rfl, _, h⟩ | ⟨st2, S2, out2, n2, h1, h2, h3, h4, h5, h6⟩
    · rw [h]; simp [results, chosen, firstOccurrences]
    · have hrec := selCollect_later (F := F) (by omega) h2 h1 (fun i hi => hm i (h5 i hi)) (h4 ▸ hi)
      rcases h6 with ⟨h6, h7⟩ | ⟨i, _, h6, h7⟩
      · rw [h6, h7]; exact hrec
      · rw [h6, h7]; simp only [hrec]; rfl

theorem selCollect_ordinary {cfg : SelCfg} {F n : Nat} (hF : n < F) {st : SelState} {out : List SelectItem}
    (hp : Pending cfg.doc cfg.recursion st.stack out n) {S : List Nat} (hS : SeenRep st S)
    (hm : ∀ i ∈ out, ∃ b, cfg.selector.matches cfg.doc i.data = .ok b) (ho : Ordinary cfg st) :
    selCollect cfg F st = .ok (results cfg S out) :=
  selCollect_step hF (step_ordinary ho) (by simp) hp hS hm

/-- The items below an element are what the stack of a new iterator stands for. -/
theorem pending_init {d : Document} {r : Recursion} {k : Nat} {e : ElementData} {items : List Item} (h : Below d k e items) :
    Pending d r (SelState.init k).stack (preorder r.eval k e.elementtype 0 1 items) (rounds items) := by
  obtain ⟨h1, h2, h3⟩ := below_iff.mp h
  have := Pending.cons (r := r) (c := 0) h1 (by simpa using h2) (fun _ => h3) .nil
  simpa [SelState.init] using this

theorem results_nil {cfg : SelCfg} {S : List Nat} : results cfg S [] = [] := by simp [results, chosen, firstOccurrences]

/-- One call of `next`. -/
theorem selNext_ordinary {cfg : SelCfg} {F n : Nat} (hF : n < F) {st : SelState} {out : List SelectItem}
    (hp : Pending cfg.doc cfg.recursion st.stack out n) {S : List Nat} (hS : SeenRep st S)
    (hm : ∀ i ∈ out, ∃ b, cfg.selector.matches cfg.doc i.data = .ok b) (ho : Ordinary cfg st) :
    ∃ st2 S2 out2 n2, SeenRep st2 S2 ∧ Pending cfg.doc cfg.recursion st2.stack out2 n2 ∧ Ordinary cfg st2 ∧ (∀ i ∈ out2, i ∈ out) ∧
      ((selNext cfg F st = (.ok none, st2) ∧ results cfg S out = [] ∧ st2.stack = [] ∧ n2 ≤ n) ∨
       ∃ i, i ∈ out ∧ selNext cfg F st = (.ok (some i), st2) ∧ results cfg S out = i :: results cfg S2 out2 ∧ n2 < n) := by
  induction F generalizing n st out S with
  | zero => omega
  | succ F ih =>
    unfold selNext
    rw [step_ordinary ho]
    rcases round (st := { st with iteration := st.iteration + 1 }) (by exact hp) (by exact hS) hm with ⟨rfl, rfl, h0, h⟩ | ⟨st2, S2, out2, n2, h1, h2, h3, h4, h5, h6⟩
    · rw [h]
      exact ⟨{ st with iteration := st.iteration + 1 }, S, [], 0, hS, hp, .inl (by simp), fun _ h => h,
        .inl ⟨rfl, by simp [results, chosen, firstOccurrences], h0, Nat.le_refl _⟩⟩
    · have ho2 : Ordinary cfg st2 := .inl (by rw [h4]; simp)
      rcases h6 with ⟨h6, h7⟩ | ⟨i, hi, h6, h7⟩
      · obtain ⟨st3, S3, out3, n3, g1, g2, g3, g4, g5⟩ := ih (by omega) h2 h1 (fun i hi => hm i (h5 i hi)) ho2
        rw [h6, h7]
        refine ⟨st3, S3, out3, n3, g1, g2, g3, fun i hi => h5 i (g4 i hi), ?_⟩
        rcases g5 with ⟨g5, g6, g7, g8⟩ | ⟨i, hi, g5, g6, g7⟩
        · exact .inl ⟨g5, g6, g7, by omega⟩
        · exact .inr ⟨i, h5 i hi, g5, g6, by omega⟩
      · rw [h6, h7]
        exact ⟨st2, S2, out2, n2, h1, h2, ho2, h5, .inr ⟨i, hi, rfl, rfl, h3⟩⟩

/-- The key of the element or span that the item refers to. -/
def itemKey (i : SelectItem) : Option Nat :=
  match i.data with
  | .element k | .spanReference k => some k
  | _ => none

theorem elementKeys_eq {d : Document} {is : List SelectItem} (h : ∀ i ∈ is, ∀ k, itemKey i = some k → ∃ e, d.getElement k = some e) :
    elementKeys d is = .ok (is.filterMap itemKey) := by
  induction is with
  | nil => rfl
  | cons i is ih =>
    have ih := ih fun j hj => h j (by simp [hj])
    have hi := h i (by simp)
    have hk : itemKey i = match i.data with
      | .element k | .spanReference k => some k
      | _ => none := rfl
    rw [List.filterMap_cons]
    unfold elementKeys
    cases hd : i.data <;> simp only [hd] at hk <;> simp only [hk]
    case element | spanReference =>
      obtain ⟨e, he⟩ := hi _ hk
      simp only [he, ih]; rfl
    all_goals exact ih

theorem results_mem {cfg : SelCfg} {S : List Nat} {out : List SelectItem} {i : SelectItem} (h : i ∈ results cfg S out) : i ∈ out := by
  have hf : ∀ {l : List SelectItem} {S : List Nat}, i ∈ firstOccurrences cfg.doc S l → i ∈ l := by
    intro l
    induction l with
    | nil => intro S h; exact h
    | cons x xs ih =>
      intro S h
      unfold firstOccurrences at h
      split at h
      · split at h
        · exact List.mem_cons_of_mem _ (ih h)
        · rcases List.mem_cons.mp h with rfl | h
          · simp
          · exact List.mem_cons_of_mem _ (ih h)
      · rcases List.mem_cons.mp h with rfl | h
        · simp
        · exact List.mem_cons_of_mem _ (ih h)
  have hc : ∀ {l : List SelectItem}, i ∈ chosen cfg.doc cfg.selector l → i ∈ l := fun h => (List.mem_filter.mp h).1
  unfold results at h
  split at h
  · exact hc (hf h)
  · exact hc h

/-- The first element that a new iterator yields. -/
theorem selNextElement_ordinary {cfg : SelCfg} {F m n : Nat} (hF : n < F) (hm1 : n < m) {st : SelState} {out : List SelectItem}
    (hp : Pending cfg.doc cfg.recursion st.stack out n) {S : List Nat} (hS : SeenRep st S)
    (hm : ∀ i ∈ out, ∃ b, cfg.selector.matches cfg.doc i.data = .ok b) (ho : Ordinary cfg st)
    (hl : ∀ i ∈ out, ∀ k, itemKey i = some k → ∃ e, cfg.doc.getElement k = some e) :
    (selNextElement cfg F m st).1 = .ok ((results cfg S out).filterMap itemKey).head? := by
  induction m generalizing n st out S with
  | zero => omega
  | succ m ih =>
    unfold selNextElement
    obtain ⟨st2, S2, out2, n2, h1, h2, h3, h4, h5⟩ := selNext_ordinary hF hp hS hm ho
    rcases h5 with ⟨h5, h6, _, _⟩ | ⟨i, hi, h5, h6, h7⟩
    · rw [h5, h6]; rfl
    · rw [h5, h6]
      have hrec := ih (n := n2) (by omega) (by omega) h2 h1 (fun i hi => hm i (h4 i hi)) h3 (fun i hi => hl i (h4 i hi))
      have hk : itemKey i = match i.data with
        | .element k | .spanReference k => some k
        | _ => none := rfl
      rw [List.filterMap_cons]
      cases hd : i.data <;> simp only [hd] at hk <;> simp only [hk, hd]
      case element | spanReference => obtain ⟨e, he⟩ := hl i hi _ hk; simp only [he]; rfl
      all_goals exact hrec

end Folia
