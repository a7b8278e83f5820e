import Verif.Lemmas.Elements
import Verif.Lemmas.Matches
import Verif.Lemmas.Flat
import Verif.Lemmas.AcceptEncode
/-! Methods that do not panic. -/
namespace Folia
open Document

/-- A result that is not a panic. -/
def NoPanic {α : Type} (r : Res α) : Prop := r ≠ .error .panic

theorem NoPanic.ok {α : Type} (a : α) : NoPanic (.ok a : Res α) := nofun
theorem NoPanic.err {α : Type} (k : ErrKind) : NoPanic (.error (.err k) : Res α) := nofun
theorem NoPanic.fuel {α : Type} : NoPanic (.error .fuel : Res α) := nofun
theorem NoPanic.of_error {α β : Type} {f : Fault} (h : NoPanic (.error f : Res α)) : NoPanic (.error f : Res β) := by
  intro h'; cases h'; exact h rfl
theorem NoPanic.okOr {α : Type} (k : ErrKind) (o : Option α) : NoPanic (Folia.okOr k o) := by
  cases o <;> nofun
theorem NoPanic.map {α β : Type} {r : Res α} {f : α → β} (h : NoPanic r) : NoPanic (r.map f) := by
  cases r with
  | ok a => exact .ok _
  | error e => exact h.of_error

theorem NoPanic.bind {α β : Type} {r : Res α} {f : α → Res β} (h : NoPanic r) (h' : ∀ a, r = .ok a → NoPanic (f a)) : NoPanic (r >>= f) := by
  cases r with
  | ok a => exact h' a rfl
  | error e => exact h.of_error

/-- The method does not panic when started in a clean document that satisfies `P`. -/
def Safe (P : Document → Prop) {α : Type} (m : M Document α) : Prop := ∀ d, CInv d → P d → NoPanic (m d).1

/-- The method does not panic, whatever the document. -/
def Never {α : Type} (m : M Document α) : Prop := ∀ d, NoPanic (m d).1

namespace Never
variable {α β : Type}
theorem pure (a : α) : Never (Pure.pure a : M Document α) := fun _ => .ok a
theorem err (k : ErrKind) : Never (M.err k : M Document α) := fun _ => .err k
theorem get : Never (M.get : M Document Document) := fun d => .ok d
theorem modify (f : Document → Document) : Never (M.modify f) := fun _ => .ok ()
theorem ofRes {f : Document → Res α} (h : ∀ d, NoPanic (f d)) : Never (M.ofRes f) := h
theorem bind {m : M Document α} {f : α → M Document β} (h : Never m) (h' : ∀ a, Never (f a)) : Never (m >>= f) := by
  intro d
  rw [M.run_bind]
  have := h d
  rcases hm : m d with ⟨e | a, d'⟩
  · rw [hm] at this; exact NoPanic.of_error this
  · exact h' a d'
theorem mapErr (k : ErrKind) {m : M Document α} (h : Never m) : Never (M.mapErr k m) := by
  intro d
  have := h d
  unfold M.mapErr
  rcases hm : m d with ⟨e | a, d'⟩
  · rw [hm] at this
    cases e with
    | err => exact .err _
    | panic => exact (this rfl).elim
    | fuel => exact .fuel
  · exact .ok a
theorem forEach {f : α → M Document Unit} (h : ∀ a, Never (f a)) : ∀ l, Never (M.forEach f l)
  | [] => pure ()
  | a :: as => bind (h a) fun _ => forEach h as
theorem safe {P : Document → Prop} {m : M Document α} (h : Never m) : Safe P m := fun d _ _ => h d
end Never

namespace Safe
variable {α β : Type} {P : Document → Prop} {Q : α → Document → Prop}
theorem pre {P' : Document → Prop} {m : M Document α} (h : Safe P m) (hp : ∀ d, P' d → P d) : Safe P' m := fun d hi hd => h d hi (hp d hd)
theorem bind {m : M Document α} {f : α → M Document β} (hm : Does True P m Q) (h : Safe P m) (h' : ∀ a, Safe (Q a) (f a)) : Safe P (m >>= f) := by
  intro d hi hd
  obtain ⟨h1, h2⟩ := hm d hi.ix hd
  have hn := h d hi hd
  rw [M.run_bind]
  rcases hmd : m d with ⟨e | a, d'⟩
  · rw [hmd] at hn; exact NoPanic.of_error hn
  · rw [hmd] at h1 h2
    exact h' a d' (h1.clean hi).1 (h2 a rfl)
theorem mapErr (k : ErrKind) {m : M Document α} (h : Safe P m) : Safe P (M.mapErr k m) := by
  intro d hi hd
  have := h d hi hd
  unfold M.mapErr
  rcases hm : m d with ⟨e | a, d'⟩
  · rw [hm] at this
    cases e with
    | err => exact .err _
    | panic => exact (this rfl).elim
    | fuel => exact .fuel
  · exact .ok a
theorem ofRes {f : Document → Res α} (h : ∀ d, CInv d → P d → NoPanic (f d)) : Safe P (M.ofRes f) := h
theorem getBind {f : Document → M Document β} (h : ∀ d0, Safe (fun d => d0 = d ∧ P d) (f d0)) : Safe P (M.get >>= f) :=
  bind Does.get Never.get.safe h
theorem ofResBind {f : Document → Res α} {g : α → M Document β} (h : ∀ d, CInv d → P d → NoPanic (f d))
    (h' : ∀ a, Safe (fun d => f d = .ok a ∧ P d) (g a)) : Safe P (M.ofRes f >>= g) :=
  bind (Does.ofRes f) (ofRes h) h'
theorem forEach {f : α → M Document Unit} {K : Document → Prop} (l : List α) (hd : ∀ a ∈ l, Does True K (f a) fun _ => K)
    (h : ∀ a ∈ l, Safe K (f a)) : Safe K (M.forEach f l) := by
  induction l with
  | nil => exact (Never.pure ()).safe
  | cons a as ih =>
    exact bind (hd a (by simp)) (h a (by simp)) fun _ => ih (fun b hb => hd b (by simp [hb])) fun b hb => h b (by simp [hb])
theorem void {m : M Document α} (hd : Does True P m Q) (h : Safe P m) : Safe P m.void := bind hd h fun _ => (Never.pure ()).safe
end Safe

/-! ### Iterators -/

/-- The keys on the stack of the iterator exist. -/
def StackLive (d : Document) (st : SelState) : Prop := ∀ x ∈ st.stack, d.Live x.1

/-- One step is no panic, keeps the stack alive, and what it yields is alive. -/
def StepSafe (d : Document) (r : StepOut × SelState) : Prop :=
  StackLive d r.2 ∧ match r.1 with
    | .yield i => DataLive d i.data
    | .fault f => f ≠ .panic
    | _ => True

theorem alreadyReturned_stack (st : SelState) (k : Nat) : (alreadyReturned st k).2.stack = st.stack := by
  unfold alreadyReturned
  simp only
  repeat' split
  all_goals rfl

theorem stepStack_safe {cfg : SelCfg} {st : SelState} (hi : CInv cfg.doc) (hs : StackLive cfg.doc st) : StepSafe cfg.doc (stepStack cfg st) := by
  unfold stepStack
  split
  · exact ⟨hs, trivial⟩
  · rename_i key cursor rest hst
    have hrest : ∀ x ∈ rest, cfg.doc.Live x.1 := fun x hx => hs x (by rw [hst]; simp [hx])
    have hkey : cfg.doc.Live key := hs (key, cursor) (by rw [hst]; simp)
    split
    · rename_i hn
      obtain ⟨e, he⟩ := hkey
      rw [hn] at he; cases he
    · rename_i parent hp
      split
      · exact ⟨hrest, trivial⟩
      · rename_i item hitem
        have hlive : DataLive cfg.doc item := (hi.elem key parent hp).data item (List.mem_of_getElem? hitem)
        have hst1 : ∀ (stk : List (Nat × Nat)), stk = (if cfg.recursion.eval parent.elementtype then
            match item with
            | .element k => (k, 0) :: (key, cursor + 1) :: rest
            | _ => (key, cursor + 1) :: rest
          else (key, cursor + 1) :: rest) → ∀ x ∈ stk, cfg.doc.Live x.1 := by
          have hbase : ∀ x ∈ (key, cursor + 1) :: rest, cfg.doc.Live x.1 := by
            intro x hx
            rcases List.mem_cons.mp hx with rfl | hx
            · exact hkey
            · exact hrest x hx
          rintro stk rfl
          split
          · split
            · intro x hx
              rcases List.mem_cons.mp hx with rfl | hx
              · exact hlive
              · exact hbase x hx
            · exact hbase
          · exact hbase
        simp only
        obtain ⟨b, hb⟩ := matches_ok hi.encoded cfg.selector item
        rw [hb]
        cases b with
        | false => exact ⟨hst1 _ rfl, trivial⟩
        | true =>
          simp only
          split
          · split
            · rename_i k
              split
              · rename_i st2 h2
                have hk := (congrArg (fun r => r.2.stack) h2).symm
                simp only [alreadyReturned_stack] at hk
                exact ⟨by intro x hx; rw [hk] at hx; exact hst1 _ rfl x hx, trivial⟩
              · rename_i st2 h2
                have hk := (congrArg (fun r => r.2.stack) h2).symm
                simp only [alreadyReturned_stack] at hk
                exact ⟨by intro x hx; rw [hk] at hx; exact hst1 _ rfl x hx, hlive⟩
            · rename_i k
              split
              · split
                · split
                  · rename_i st2 h2
                    have hk := (congrArg (fun r => r.2.stack) h2).symm
                    simp only [alreadyReturned_stack] at hk
                    exact ⟨by intro x hx; rw [hk] at hx; exact hst1 _ rfl x hx, trivial⟩
                  · rename_i st2 h2
                    have hk := (congrArg (fun r => r.2.stack) h2).symm
                    simp only [alreadyReturned_stack] at hk
                    exact ⟨by intro x hx; rw [hk] at hx; exact hst1 _ rfl x hx, hlive⟩
                · exact ⟨hst1 _ rfl, hlive⟩
              · exact ⟨hst1 _ rfl, hlive⟩
            · exact ⟨hst1 _ rfl, hlive⟩
          · exact ⟨hst1 _ rfl, hlive⟩

theorem step_safe {cfg : SelCfg} {st : SelState} (hi : CInv cfg.doc) (hn : cfg.inclusive = false) (hs : StackLive cfg.doc st) :
    StepSafe cfg.doc (step cfg st) := by
  unfold step
  simp only
  split
  · exact ⟨hs, trivial⟩
  · rw [if_neg (by rw [hn]; simp)]
    exact stepStack_safe hi hs

theorem selNext_safe {cfg : SelCfg} (hi : CInv cfg.doc) (hn : cfg.inclusive = false) : ∀ (n : Nat) (st : SelState), StackLive cfg.doc st →
    StackLive cfg.doc (selNext cfg n st).2 ∧ NoPanic (selNext cfg n st).1 ∧ ∀ i, (selNext cfg n st).1 = .ok (some i) → DataLive cfg.doc i.data
  | 0, st, hs => ⟨hs, .fuel, nofun⟩
  | n + 1, st, hs => by
    have h := step_safe hi hn hs
    unfold selNext
    rcases hst : step cfg st with ⟨o, st'⟩
    rw [hst] at h
    obtain ⟨h1, h2⟩ := h
    cases o with
    | yield i => exact ⟨h1, .ok _, fun j hj => by cases hj; exact h2⟩
    | again => exact selNext_safe hi hn n st' h1
    | done => exact ⟨h1, .ok _, nofun⟩
    | fault f => exact ⟨h1, fun h => h2 (by cases h; rfl), nofun⟩

theorem selNextElement_safe {cfg : SelCfg} (hi : CInv cfg.doc) (hn : cfg.inclusive = false) (F : Nat) : ∀ (n : Nat) (st : SelState), StackLive cfg.doc st →
    StackLive cfg.doc (selNextElement cfg F n st).2 ∧ NoPanic (selNextElement cfg F n st).1 ∧
    ∀ k, (selNextElement cfg F n st).1 = .ok (some k) → cfg.doc.Live k
  | 0, st, hs => ⟨hs, .fuel, nofun⟩
  | n + 1, st, hs => by
    obtain ⟨h1, h2, h3⟩ := selNext_safe hi hn F st hs
    unfold selNextElement
    rcases hst : selNext cfg F st with ⟨r, st'⟩
    rw [hst] at h1 h2 h3
    cases r with
    | error f => exact ⟨h1, h2.of_error, nofun⟩
    | ok o =>
      cases o with
      | none => exact ⟨h1, .ok _, nofun⟩
      | some i =>
        have hl := h3 i rfl
        have hget : ∀ k, cfg.doc.Live k → StackLive cfg.doc (match cfg.doc.getElement k with
              | some _ => ((.ok (some k) : Res (Option Nat)), st')
              | none => (.error .panic, st')).2 ∧ NoPanic (match cfg.doc.getElement k with
              | some _ => ((.ok (some k) : Res (Option Nat)), st')
              | none => (.error .panic, st')).1 ∧ ∀ k', (match cfg.doc.getElement k with
              | some _ => ((.ok (some k) : Res (Option Nat)), st')
              | none => (.error .panic, st')).1 = .ok (some k') → cfg.doc.Live k' := by
          rintro k ⟨e, he⟩
          rw [he]
          exact ⟨h1, .ok _, fun k' hk' => by cases hk'; exact ⟨e, he⟩⟩
        simp only
        cases hd : i.data with
        | element k => rw [hd] at hl; exact hget k hl
        | spanReference k => rw [hd] at hl; exact hget k (hl.imp fun _ h => h.1)
        | text | comment | addElement => exact selNextElement_safe hi hn F n st' h1

theorem init_live {d : Document} {key : Nat} (h : d.Live key) : StackLive d (.init key) := by
  intro x hx
  simp only [SelState.init, List.mem_singleton] at hx
  subst hx
  exact h

theorem declarationKeyU_ok {d : Document} (hi : Encoded d) {k : Nat} {e : ElementData} (he : d.getElement k = some e) : ∃ o, e.declarationKeyU = .ok o := by
  have h := hi k e he
  have : ∀ (f : Attribute → Option Nat) (as : List Attribute), (∀ a ∈ as, a.encodable = false) → ∃ o, ElementData.keyAttr f as = .ok o := by
    intro f as
    induction as with
    | nil => exact fun _ => ⟨none, rfl⟩
    | cons a as ih =>
      intro h
      unfold ElementData.keyAttr
      split
      · exact ⟨_, rfl⟩
      · rw [h a (by simp)]
        exact ih fun b hb => h b (by simp [hb])
  unfold ElementData.declarationKeyU ElementData.declarationKey
  obtain ⟨o, ho⟩ := this _ e.attribs h
  exact ⟨o, by rw [ho]; rfl⟩

theorem layerSearch_safe {cfg : SelCfg} (hi : CInv cfg.doc) (hn : cfg.inclusive = false) (F : Nat) (t : ElementType) : ∀ (n : Nat) (st : SelState),
    StackLive cfg.doc st → NoPanic (layerSearch cfg F t n st)
  | 0, _, _ => .fuel
  | n + 1, st, hs => by
    obtain ⟨h1, h2, h3⟩ := selNextElement_safe hi hn F F st hs
    unfold layerSearch
    rcases hst : selNextElement cfg F F st with ⟨r, st'⟩
    rw [hst] at h1 h2 h3
    cases r with
    | error f => exact h2.of_error
    | ok o =>
      cases o with
      | none => exact .ok _
      | some k =>
        obtain ⟨e, he⟩ := h3 k rfl
        simp only [he]
        split
        · obtain ⟨o, ho⟩ := declarationKeyU_ok hi.encoded he
          rw [ho]
          cases o with
          | none => exact layerSearch_safe hi hn F t n st' h1
          | some dk => exact .ok _
        · exact layerSearch_safe hi hn F t n st' h1

theorem fromQuery_safe (d : Document) (q : Query) : NoPanic (Selector.fromQuery d q) := by
  unfold Selector.fromQuery
  simp only [bind, Except.bind, pure, Except.pure, throw, throwThe, MonadExceptOf.throw]
  generalize (match q.set with
    | .is s => encodeSet d _ (some s)
    | .any => Cmp.any
    | .some => Cmp.some
    | .none => encodeSet d _ none
    | .unmatchable => Cmp.unmatchable) = set
  cases q.subset with
  | is sub =>
    simp only
    split
    · split
      · split <;> exact .ok _
      · exact .ok _
    · exact .err _
  | any | some | none | unmatchable => exact .ok _

theorem layerDecl_safe {d : Document} (hi : CInv d) (F : Nat) {key : Nat} (hk : d.Live key) (t : ElementType) : NoPanic (layerDecl d F key t) := by
  unfold layerDecl
  have := fromQuery_safe d { elementgroup := .is .span, set := .some }
  cases hs : Selector.fromQuery d { elementgroup := .is .span, set := .some } with
  | error f => rw [hs] at this; exact this.of_error
  | ok sel => exact layerSearch_safe (cfg := { doc := d, selector := sel, recursion := .always, inclusive := false, spanreferences := true }) hi rfl F t F _ (init_live hk)

theorem ancNext_safe {d : Document} (hi : CInv d) (s : Selector) (r : Recursion) : ∀ n key, NoPanic (ancNext d s r n key)
  | 0, _ => .fuel
  | n + 1, key => by
    unfold ancNext
    split
    · exact .ok _
    · rename_i e he
      split
      · exact .ok _
      · rename_i p hp
        obtain ⟨pe, hpe⟩ := (hi.elem key e he).parent p hp
        obtain ⟨b, hb⟩ := matches_ok hi.encoded s (.element p)
        rw [hb]
        cases b with
        | true => simp only [hpe]; exact .ok _
        | false =>
          simp only [hpe]
          split
          · exact ancNext_safe hi s r n p
          · exact .ok _

theorem ancCollect_safe {d : Document} (hi : CInv d) (s : Selector) (r : Recursion) : ∀ n key, NoPanic (ancCollect d s r n key)
  | 0, _ => .fuel
  | n + 1, key => by
    unfold ancCollect
    split
    · exact .ok _
    · rename_i e he
      split
      · exact .ok _
      · rename_i p hp
        obtain ⟨pe, hpe⟩ := (hi.elem key e he).parent p hp
        obtain ⟨b, hb⟩ := matches_ok hi.encoded s (.element p)
        rw [hb]
        cases b with
        | true => simp only [hpe]; exact (ancCollect_safe hi s r n p).map
        | false =>
          simp only [hpe]
          split
          · exact ancCollect_safe hi s r n p
          · exact .ok _

theorem commonAncestors_safe {d : Document} (hi : CInv d) (F : Nat) (s : Selector) : ∀ (keys result : List Nat), NoPanic (commonAncestors d F s result keys) := by
  intro keys
  induction keys with
  | nil => intro result; unfold commonAncestors; exact .ok _
  | cons k ks ih =>
    intro result
    unfold commonAncestors
    have hc : NoPanic (commonStep d F s result k) := by
      unfold commonStep
      split
      · exact .ok _
      · have := ancCollect_safe hi s .always F k
        unfold ancestors
        split
        · rename_i f hf; rw [hf] at this; exact this.of_error
        · split <;> exact .ok _
    cases hcs : commonStep d F s result k with
    | error f => rw [hcs] at hc; exact hc.of_error
    | ok r => exact ih r

theorem firstMatch_safe {d : Document} (hi : CInv d) (s : Selector) : ∀ ks, NoPanic (firstMatch d s ks)
  | [] => .ok _
  | k :: ks => by
    unfold firstMatch
    obtain ⟨b, hb⟩ := matches_ok hi.encoded s (.element k)
    rw [hb]
    cases b with
    | true => exact .ok _
    | false => exact firstMatch_safe hi s ks

theorem spanKey_safe {d : Document} (hi : CInv d) (F key : Nat) (stack : Option (List Nat)) : NoPanic (spanKey d F key stack) := by
  unfold spanKey
  split
  · exact firstMatch_safe hi _ _
  · exact ancNext_safe hi _ _ _ _

theorem getLayerKey_safe {d : Document} (hi : CInv d) (F key : Nat) (t : AnnotationType) (set : Option String) : NoPanic (getLayerKey d F key t set) := by
  unfold getLayerKey
  cases hl : t.layertype with
  | none => exact .err _
  | some lt =>
    rw [okOr]
    refine NoPanic.bind (.ok _) fun _ _ => NoPanic.bind (fromQuery_safe d _) fun sel _ => ?_
    split
    · rename_i e he
      exact (selNextElement_safe (cfg := { doc := d, selector := sel, recursion := .no, inclusive := false, spanreferences := true }) hi rfl F F _
        (init_live ⟨e, he⟩)).2.1
    · exact .ok _

end Folia
