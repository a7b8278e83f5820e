import Verif.Lemmas.AcceptWhole
import Verif.Lemmas.BodyChecks
/-! Writing never fails, and checks that decide, for concrete documents, whether they can be read. -/
namespace Folia
open Document

theorem annotators_total {d : Document} : ∀ (ps : List Nat), (∀ p ∈ ps, d.ProcLive p) → ∃ evs, xmlAnnotators d ps = .ok evs
  | [], _ => ⟨[], rfl⟩
  | p :: ps, h => by
    obtain ⟨x, hx⟩ := h p (List.mem_cons_self ..)
    obtain ⟨evs, he⟩ := annotators_total ps fun q hq => h q (List.mem_cons_of_mem _ hq)
    exact ⟨_, by simp only [xmlAnnotators, hx, he]; rfl⟩

theorem declarationList_total {d : Document} : ∀ (l : List (Option Declaration)), (∀ dec, some dec ∈ l → ∀ p ∈ dec.processors, d.ProcLive p) →
    ∃ evs, xmlDeclarationList d l = .ok evs
  | [], _ => ⟨[], rfl⟩
  | none :: rest, h => declarationList_total rest fun dec hd => h dec (List.mem_cons_of_mem _ hd)
  | some dec :: rest, h => by
    obtain ⟨evs2, h2⟩ := declarationList_total rest fun dec hd => h dec (List.mem_cons_of_mem _ hd)
    obtain ⟨evs1, h1⟩ := annotators_total dec.processors (h dec (List.mem_cons_self ..))
    have : ∃ evs, xmlDeclaration d dec = .ok evs := by
      unfold xmlDeclaration
      split
      · exact ⟨_, rfl⟩
      · rw [h1]; exact ⟨_, rfl⟩
    obtain ⟨evs, he⟩ := this
    exact ⟨_, by simp only [xmlDeclarationList, he, h2]; rfl⟩

/-- The metadata can always be written. -/
theorem metadata_total {X : Ext} {F : Nat} {d : Document} (hr : CleanReachable X F d) (hp : d.ProvForest) : ∃ N m, ∀ G, N ≤ G → xmlMetadata d G = .ok m := by
  obtain ⟨ts, hts, _, _⟩ := C50_written hr hp
  have hwr : ∃ N, ∀ G, N ≤ G → concatRes (xmlProcessor d G) d.chain = .ok (procsXml ts) := xmlProcessors_tree ts d.chain none 0 hts
  obtain ⟨N, hN⟩ := hwr
  obtain ⟨decs, hdec⟩ := declarationList_total (d := d) d.declarations.items fun dec hd p hp => by
    obtain ⟨k, hk⟩ := List.mem_iff_getElem?.mp hd
    exact (hr.cinv.decls.ok k dec (Store.get_eq_some.mpr hk)).4 p hp
  have hat : ∃ m, xmlMetadata d N = .ok m := by
    unfold xmlMetadata xmlDeclarations xmlProvenance
    rw [hdec, hN N (Nat.le_refl _)]
    exact ⟨_, rfl⟩
  obtain ⟨m, hm⟩ := hat
  refine ⟨N, m, fun G hG => ?_⟩
  rw [← hm]
  unfold xmlMetadata xmlProvenance
  rw [hN G hG, hN N (Nat.le_refl _)]

/-! ### Checks -/

/-- `RefersBack` as a check. -/
def refers (above : List ElementType) (known : List String) (e : ElementData) : Bool := (match e.lastIdref with
    | some i => decide (i ∈ known)
    | none => false) && above.any fun t => ElementGroup.span.contains t

theorem refers_sound {above : List ElementType} {known : List String} {e : ElementData} (h : refers above known e = true) : RefersBack above known e := by
  unfold refers at h
  simp only [Bool.and_eq_true] at h
  refine ⟨?_, List.any_eq_true.mp h.2⟩
  have h1 := h.1
  split at h1
  · rename_i i hi
    exact ⟨i, hi, of_decide_eq_true h1⟩
  · cases h1

mutual
/-- `Readable` as a check. -/
def readable (above : List ElementType) (known : List String) : Item → Bool
  | .node k e items =>
    (!decide (e.elementtype = .wordReference) || refers above (known ++ identsOf (.node k e items)) e) &&
    (!decide (e.elementtype = .feature) || (match above with
      | c :: _ => c.annotationtype.isSome
      | [] => false)) && readableAll (e.elementtype :: above) (known ++ e.id.toList) items
  | .text _ => true
  | .comment _ => true
  | .ref _ => true
/-- `ReadableAll` as a check. -/
def readableAll (above : List ElementType) (known : List String) : List Item → Bool
  | [] => true
  | x :: xs => readable above known x && readableAll above (known ++ identsOf x) xs
end

mutual
theorem readable_sound : ∀ (i : Item) (above : List ElementType) (known : List String), readable above known i = true → Readable above known i
  | .text _, _, _, _ => by simp only [Readable]
  | .comment _, _, _, _ => by simp only [Readable]
  | .ref _, _, _, _ => by simp only [Readable]
  | .node k e items, above, known, h => by
    simp only [readable, Bool.and_eq_true, Bool.or_eq_true, Bool.not_eq_true', decide_eq_false_iff_not] at h
    simp only [Readable]
    refine ⟨fun ht => refers_sound (h.1.1.resolve_left fun hn => hn ht), fun ht _ => ?_, readableAll_sound items _ _ h.2⟩
    have h1 := h.1.2.resolve_left fun hn => hn ht
    cases above with
    | nil => cases h1
    | cons c cs => exact ⟨c, _, rfl, (Option.isSome_iff_exists.mp h1).choose_spec⟩
theorem readableAll_sound : ∀ (items : List Item) (above : List ElementType) (known : List String), readableAll above known items = true → ReadableAll above known items
  | [], _, _, _ => by simp only [ReadableAll]
  | i :: is, above, known, h => by
    simp only [readableAll, Bool.and_eq_true] at h
    simp only [ReadableAll]
    exact ⟨readable_sound i _ _ h.1, readableAll_sound is _ _ h.2⟩
end

/-- The body of a concrete document can be read. -/
def bodyReadable (d : Document) (n : Nat) : Bool := match treeAt d n 0 with
  | some (.node _ e items) => readable [] [] (.node 0 e items) && !items.isEmpty && (decide (e.elementtype = .text) || decide (e.elementtype = .speech))
  | _ => false

theorem bodyReadable_sound {d : Document} {n : Nat} (h : bodyReadable d n = true) {e : ElementData} {items : List Item} (hb : Below d 0 e items) :
    Readable [] [] (.node 0 e items) ∧ items ≠ [] ∧ (e.elementtype = .text ∨ e.elementtype = .speech) := by
  unfold bodyReadable at h
  split at h
  · rename_i k e1 items1 hi
    obtain ⟨h1, h2⟩ := treeAt_shows n 0 hi
    have := shows_unique h1 hb h2
    cases this
    simp only [Bool.and_eq_true, Bool.or_eq_true, decide_eq_true_eq, Bool.not_eq_true'] at h
    refine ⟨readable_sound _ _ _ h.1.1, ?_, h.2⟩
    rintro rfl
    cases h.1.2
  · cases h

/-- `Encodes` as a check. -/
def encodes (L : List DeclName) (c : Option ElementType) (e : ElementData) : Bool := !e.encodable || (match e.elementtype.annotationtype, e.set with
  | _, .error _ => false
  | some t, .ok s => decide ((t, s) ∈ L)
  | none, .ok s => !decide (e.elementtype = .feature) || (match c.bind ElementType.annotationtype with
    | some t => decide ((t, s) ∈ L)
    | none => false))

theorem encodes_sound {L : List DeclName} {c : Option ElementType} {e : ElementData} (h : encodes L c e = true) : Encodes L c e := by
  unfold encodes at h
  rw [Bool.or_eq_true, Bool.not_eq_true'] at h
  refine ⟨fun t s h1 h2 h3 => ?_, fun h1 h2 h3 => ?_⟩
  · rw [h1, h2, h3] at h
    exact of_decide_eq_true (h.resolve_left (by decide))
  · rw [h1, h2] at h
    have h5 := h.resolve_left (by decide)
    cases hs : e.set with
    | error f => rw [hs] at h5; cases h5
    | ok s =>
      rw [hs] at h5
      simp only [h3, decide_true, Bool.not_true, Bool.false_or] at h5
      cases c with
      | none => cases h5
      | some c =>
        cases hc : c.annotationtype with
        | none => simp only [Option.bind_some, hc] at h5; cases h5
        | some t =>
          simp only [Option.bind_some, hc] at h5
          exact ⟨c, t, rfl, hc, fun s' hs' => by cases hs'; exact of_decide_eq_true h5⟩

mutual
/-- `Fits` as a check. -/
def fits (L : List DeclName) (above : List ElementType) (known : List String) : ElementData → Bool
  | ⟨t, as, data, k, p⟩ => encodes L above.head? ⟨t, as, data, k, p⟩ &&
      fitsAll L (t :: above) (known ++ (ElementData.mk t as data k p).id.toList) data &&
      (!decide (t = .wordReference) || refers above (known ++ builderIds ⟨t, as, data, k, p⟩) ⟨t, as, data, k, p⟩)
/-- `FitsAll` as a check. -/
def fitsAll (L : List DeclName) (above : List ElementType) (known : List String) : List Data → Bool
  | [] => true
  | .addElement e :: rest => fits L above known e && fitsAll L above (known ++ builderIds e) rest
  | .text _ :: rest => fitsAll L above known rest
  | .comment _ :: rest => fitsAll L above known rest
  | .element _ :: rest => fitsAll L above known rest
  | .spanReference _ :: rest => fitsAll L above known rest
end

mutual
theorem fits_sound (L : List DeclName) : ∀ (e : ElementData) (above : List ElementType) (known : List String), fits L above known e = true → Fits L above known e
  | ⟨t, as, data, k, p⟩, above, known, h => by
    simp only [fits, Bool.and_eq_true, Bool.or_eq_true, Bool.not_eq_true', decide_eq_false_iff_not] at h
    simp only [Fits]
    exact ⟨encodes_sound h.1.1, fitsAll_sound L data _ _ h.1.2, fun ht => refers_sound (h.2.resolve_left fun hn => hn ht)⟩
theorem fitsAll_sound (L : List DeclName) : ∀ (data : List Data) (above : List ElementType) (known : List String), fitsAll L above known data = true → FitsAll L above known data
  | [], _, _, _ => by simp only [FitsAll]
  | .addElement e :: rest, above, known, h => by
    simp only [fitsAll, Bool.and_eq_true] at h
    simp only [FitsAll]
    exact ⟨fits_sound L e _ _ h.1, fitsAll_sound L rest _ _ h.2⟩
  | .text _ :: rest, above, known, h => by simp only [fitsAll] at h; simp only [FitsAll]; exact fitsAll_sound L rest _ _ h
  | .comment _ :: rest, above, known, h => by simp only [fitsAll] at h; simp only [FitsAll]; exact fitsAll_sound L rest _ _ h
  | .element _ :: rest, above, known, h => by simp only [fitsAll] at h; simp only [FitsAll]; exact fitsAll_sound L rest _ _ h
  | .spanReference _ :: rest, above, known, h => by simp only [fitsAll] at h; simp only [FitsAll]; exact fitsAll_sound L rest _ _ h
end

end Folia
