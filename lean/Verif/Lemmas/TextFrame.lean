import Verif.Lemmas.TextSim
import Verif.Lemmas.Annotate
import Verif.Lemmas.AcceptNodes
/-! Adding elements that are not part of the text. -/
namespace Folia
open Document

/-- The last element among the data. -/
def LastChild (data : List Data) (c : Nat) : Prop := ∃ pre post, data = pre ++ .element c :: post ∧ ∀ k, .element k ∉ post

/-- The text delimiter of the element `j` is that of the element `y`: its type has none and its last child takes it from `y`. -/
inductive TakesDelimiter (d : Document) : Nat → Nat → Prop
  | refl {j} : TakesDelimiter d j j
  | last {j e c y} : d.getElement j = some e → (props e.elementtype).textdelimiter = none → LastChild e.data c → TakesDelimiter d c y → TakesDelimiter d j y

theorem last_or_none : ∀ (data : List Data), (∀ k, .element k ∉ data) ∨ ∃ c, LastChild data c
  | [] => .inl (by simp)
  | x :: xs => by
    rcases last_or_none xs with h | ⟨c, pre, post, h1, h2⟩
    · cases x with
      | element k => exact .inr ⟨k, [], xs, rfl, h⟩
      | _ => exact .inl (by intro k hk; rcases List.mem_cons.mp hk with h' | h'; · cases h'
                            · exact h k h')
    · exact .inr ⟨c, x :: pre, post, by rw [h1]; rfl, h2⟩

theorem lastChild_none {d : Document} : ∀ {data : List Data}, (∀ k, .element k ∉ data) → lastChild d data = none
  | [], _ => rfl
  | x :: xs, h => by
    have := lastChild_none (d := d) (data := xs) fun k hk => h k (List.mem_cons_of_mem _ hk)
    simp only [lastChild, this]
    cases x with
    | element k => exact absurd (List.mem_cons_self ..) (h k)
    | _ => rfl

theorem lastChild_last {d : Document} {data : List Data} {c : Nat} {ce : ElementData} (h : LastChild data c) (hc : d.getElement c = some ce) :
    lastChild d data = some ce := by
  obtain ⟨pre, post, rfl, h2⟩ := h
  induction pre with
  | nil => simp only [List.nil_append, lastChild, lastChild_none h2, hc]
  | cons x xs ih => simp only [List.cons_append, lastChild, ih]

theorem LastChild.refs {data : List Data} {c : Nat} (h : LastChild data c) (refs : List Nat) : LastChild (data ++ List.map .spanReference refs) c := by
  obtain ⟨pre, post, rfl, h2⟩ := h
  refine ⟨pre, post ++ List.map .spanReference refs, by simp, fun k hk => ?_⟩
  rcases List.mem_append.mp hk with hk | hk
  · exact h2 k hk
  · obtain ⟨_, _, h⟩ := List.mem_map.mp hk
    cases h

theorem LastChild.unrefs {data : List Data} {c : Nat} {refs : List Nat} (h : LastChild (data ++ List.map .spanReference refs) c) : LastChild data c := by
  rcases last_or_none data with hn | ⟨c', hc'⟩
  · obtain ⟨pre, post, h1, _⟩ := h
    have : DataType.element c ∈ data ++ List.map .spanReference refs := by rw [h1]; simp
    rcases List.mem_append.mp this with h | h
    · exact absurd h (hn c)
    · obtain ⟨_, _, h⟩ := List.mem_map.mp h
      cases h
  · have h' := hc'.refs refs
    obtain ⟨pre, post, h1, h2⟩ := h
    obtain ⟨pre', post', h3, h4⟩ := h'
    have : c = c' := by
      rw [h1] at h3
      rcases List.append_eq_append_iff.mp h3 with ⟨as, h5, h6⟩ | ⟨as, h5, h6⟩
      · cases as with
        | nil => simp at h6; exact h6.1
        | cons a as =>
          simp only [List.cons_append, List.cons.injEq] at h6
          exact absurd (by rw [h6.2]; simp) (h2 c')
      · cases as with
        | nil => simp at h6; exact h6.1.symm
        | cons a as =>
          simp only [List.cons_append, List.cons.injEq] at h6
          exact absurd (by rw [h6.2]; simp) (h4 c)
    rw [this]
    exact hc'

theorem LastChild.mem {data : List Data} {c : Nat} (h : LastChild data c) : .element c ∈ data := by
  obtain ⟨pre, post, rfl, _⟩ := h
  simp

theorem getById_ix {d : Document} (hix : IxOk d) (i : String) : d.getElementById i = .ok ((d.elementKeyById i).bind d.getElement) := by
  unfold getElementById elementKeyById Store.getById Store.idToKey
  cases hf : d.elements.index.find i with
  | none => rfl
  | some k =>
    obtain ⟨e, he⟩ := hix.elems i k hf
    have he : d.elements.get k = some e := he
    simp only [he, Option.bind_some]
    show _ = Except.ok (d.getElement k)
    rw [show d.getElement k = some e from he]

theorem Steps.found {C : Prop} {d d' : Document} (h : Steps C d d') {i : String} {k : Nat} (hk : d.elements.index.find i = some k) : d'.elements.index.find i = some k :=
  Steps.lift (R := fun a b => a.elements.index.find i = some k → b.elements.index.find i = some k) (fun _ h => h) (fun f g h => g (f h))
    (fun hp hk => hp.found_mono hk) h hk

/-- The same key in both documents. -/
def Both (d d' : Document) (e e' : ElementData) : Prop := ∃ j, d.getElement j = some e ∧ d'.getElement j = some e'

theorem items_refs {R : ElementData → ElementData → Prop} {d d' : Document} {more : Bool} : ∀ (refs : List Nat), TextItems R d d' more [] (List.map .spanReference refs)
  | [] => .nil
  | _ :: rs => .right .span (items_refs rs)

theorem items_same {R : ElementData → ElementData → Prop} {d d' : Document} {more : Bool} {tail : List Data} (ht : TextItems R d d' more [] tail) :
    ∀ {data : List Data}, (∀ k, .element k ∈ data → ∃ e e', d.getElement k = some e ∧ d'.getElement k = some e' ∧ R e e') →
    TextItems R d d' more data (data ++ tail)
  | [], _ => ht
  | .text s :: xs, h => .text (items_same ht fun k hk => h k (List.mem_cons_of_mem _ hk))
  | .comment s :: xs, h => .left .comment (.right .comment (items_same ht fun k hk => h k (List.mem_cons_of_mem _ hk)))
  | .spanReference s :: xs, h => .left .span (.right .span (items_same ht fun k hk => h k (List.mem_cons_of_mem _ hk)))
  | .addElement s :: xs, h => .left .pending (.right .pending (items_same ht fun k hk => h k (List.mem_cons_of_mem _ hk)))
  | .element k :: xs, h => by
    obtain ⟨e, e', h1, h2, h3⟩ := h k (List.mem_cons_self ..)
    exact .element h1 h2 h3 (items_same ht fun k hk => h k (List.mem_cons_of_mem _ hk))

theorem items_append {R : ElementData → ElementData → Prop} {d d' : Document} {more : Bool} {ys : List Data} (h : TextItems R d d' more [] ys) :
    ∀ {xs : List Data}, TextItems R d d' more [] xs → TextItems R d d' more [] (xs ++ ys) := by
  intro xs h'
  generalize hz : ([] : List Data) = z at h'
  induction h' with
  | nil => exact h
  | text => cases hz
  | element => cases hz
  | left => cases hz
  | right hs _ ih => subst hz; exact .right hs (ih rfl)
  | inert h1 h2 h3 _ ih => subst hz; exact .inert h1 h2 h3 (ih rfl)

theorem added_sim {d d' : Document} (hi : CInv d) {p k : Nat} {e pe : ElementData} (hpl : Planted d d' p k e) (hpe : d.getElement p = some pe)
    (hrefs : ∀ j x i, d.getElement j = some x → x.elementtype = .wordReference → x.idref = some i → i ∉ builderIds e)
    (h1 : Heard pe.elementtype → Inert e.elementtype ∧ (props pe.elementtype).textcontainer = false)
    (h2 : (props pe.elementtype).textdelimiter = none → ∀ j x, d.getElement j = some x → Heard x.elementtype → ¬ TakesDelimiter d j p) :
    TextSim (Both d d') d d' := by
  have hsame : ∀ {j x x'}, d.getElement j = some x → d'.getElement j = some x' → x'.elementtype = x.elementtype ∧ x'.attribs = x.attribs ∧
      (j ≠ p → ∃ refs, x'.data = x.data ++ List.map .spanReference refs) := by
    intro j x x' hj hj'
    by_cases hjp : j = p
    · subst hjp
      obtain ⟨pe0, pe', _, _, a1, a2, a3, _, _, a4, _⟩ := hpl.spec.parent
      rw [hj] at a1; cases a1
      rw [hj'] at a2; cases a2
      exact ⟨a3, a4, fun h => absurd rfl h⟩
    · obtain ⟨x2, b1, b2⟩ := hpl.spec.others j x hj hjp
      rw [hj'] at b1; cases b1
      exact ⟨b2.type, b2.attribs, fun _ => b2.data⟩
  have hforth : ∀ {j x}, d.getElement j = some x → ∃ x', d'.getElement j = some x' := by
    intro j x hj
    by_cases hjp : j = p
    · subst hjp
      obtain ⟨_, pe', _, _, _, a2, _⟩ := hpl.spec.parent
      exact ⟨_, a2⟩
    · obtain ⟨x2, b1, _⟩ := hpl.spec.others j x hj hjp
      exact ⟨_, b1⟩
  have hboth : ∀ {j x}, d.getElement j = some x → ∀ c, .element c ∈ x.data → ∃ e e', d.getElement c = some e ∧ d'.getElement c = some e' ∧ Both d d' e e' := by
    intro j x hj c hc
    obtain ⟨ce, hce⟩ := (hi.elem j x hj).data _ hc
    obtain ⟨ce', hce'⟩ := hforth hce
    exact ⟨ce, ce', hce, hce', c, hce, hce'⟩
  have hdel : DelimSim (fun e e' => ∃ j, d.getElement j = some e ∧ d'.getElement j = some e' ∧
      ((props pe.elementtype).textdelimiter = none → ¬ TakesDelimiter d j p)) d d' := by
    refine ⟨?_, ?_, ?_⟩
    · rintro x x' ⟨j, a1, a2, _⟩
      exact (hsame a1 a2).1
    · rintro x x' ⟨j, a1, a2, _⟩
      simp only [ElementData.attrib, (hsame a1 a2).2.1]
    · rintro x x' ⟨j, a1, a2, a3⟩ ht
      have hjp : j ≠ p := by
        rintro rfl
        rw [a1] at hpe; cases hpe
        exact a3 ht .refl
      obtain ⟨refs, hdata⟩ := (hsame a1 a2).2.2 hjp
      rw [hdata]
      rcases last_or_none x.data with hn | ⟨c, hc⟩
      · rw [lastChild_none hn, lastChild_none]
        · exact .none
        · intro c hc
          rcases List.mem_append.mp hc with hc | hc
          · exact hn c hc
          · obtain ⟨_, _, h⟩ := List.mem_map.mp hc
            cases h
      · obtain ⟨ce, ce', b1, b2, _⟩ := hboth a1 c hc.mem
        rw [lastChild_last hc b1, lastChild_last (hc.refs refs) b2]
        exact .some ⟨c, b1, b2, fun hn ht' => a3 hn (.last a1 ht hc ht')⟩
  refine ⟨?_, ?_, ?_, ?_⟩
  · rintro x x' ⟨j, a1, a2⟩
    exact (hsame a1 a2).1
  · rintro x x' ⟨j, a1, a2⟩ hh retain n
    exact hdel.delimiter retain n ⟨j, a1, a2, fun hn => h2 hn j x a1 hh⟩
  · rintro x x' ⟨j, a1, a2⟩ hh
    by_cases hjp : j = p
    · subst hjp
      rw [a1] at hpe; cases hpe
      obtain ⟨c1, c2⟩ := h1 hh
      refine ⟨true, ?_, fun _ => c2⟩
      obtain ⟨_, _, refs, refs', b1, b2, _, _, _, _, b3⟩ := hpl.spec.parent
      rw [a1] at b1; cases b1
      rw [a2] at b2; cases b2
      rw [b3, List.append_assoc, List.append_assoc]
      refine items_same (items_append ?_ (items_refs refs)) (hboth a1)
      have ht := (materialised_eq ..).mp hpl.spec.tree
      obtain ⟨y, _, _, _, hy, _, hrb, _⟩ := ht
      exact .inert rfl hy (by rw [hrb.type]; exact c1) (items_refs refs')
    · obtain ⟨refs, hdata⟩ := (hsame a1 a2).2.2 hjp
      rw [hdata]
      exact ⟨false, items_same (items_refs refs) (hboth a1), by intro h; cases h⟩
  · rintro x x' ⟨j, a1, a2⟩ hw
    have hid : x'.idref = x.idref := by simp only [ElementData.idref, (hsame a1 a2).2.1]
    have hix' : IxOk d' := (hpl.steps.clean hi).1.ix
    simp only [ElementData.resolve, hid]
    cases hr : x.idref with
    | none => exact ⟨none, none, rfl, rfl, .none⟩
    | some i =>
      simp only [getById_ix hi.ix, getById_ix hix']
      cases hk : d.elementKeyById i with
      | none =>
        have hk' : d'.elementKeyById i = none := by
          cases hk' : d'.elementKeyById i with
          | none => rfl
          | some t =>
            rcases hpl.index i t hk' with h | h
            · have hk : d.elements.index.find i = none := hk
              rw [hk] at h; cases h
            · exact absurd h (hrefs j x i a1 hw hr)
        rw [hk']
        exact ⟨none, none, rfl, rfl, .none⟩
      | some t =>
        have hk' : d'.elementKeyById i = some t := hpl.steps.found hk
        rw [hk']
        obtain ⟨y, hy⟩ := hi.ix.elems i t hk
        obtain ⟨y', hy'⟩ := hforth hy
        exact ⟨some y, some y', by simp [hy], by simp [hy'], .some ⟨t, hy, hy'⟩⟩

end Folia
