import Verif.Props.Query
import Verif.Props.Builders
import Verif.Props.Declarations
import Verif.Lemmas.Flat
import Verif.Lemmas.Single
/-! C13: features are found through their annotation. -/
namespace Folia
open Document

/-- `f` is a feature with subset `sub` in the declaration `x`. -/
def IsFeature (d : Document) (x : Declaration) (sub : String) (f : ElementData) : Prop :=
  f.elementtype = .feature ∧ f.getSubset d = .ok (some sub) ∧
    ∃ y, f.getDeclaration d = .ok (some y) ∧ y.annotationtype = x.annotationtype ∧ y.set = x.set

/-- `get_features` on an annotation returns exactly the features of this subset below it that share its declaration, and never fails. -/
theorem C13_get_features {X : Ext} {F : Nat} {d : Document} (hr : CleanReachable X F d) {p : Nat} {e : ElementData} (he : d.getElement p = some e)
    {x : Declaration} (hx : e.getDeclaration d = .ok (some x)) (ha : e.elementtype.annotationtype = some x.annotationtype) (sub : String) :
    ∃ keys N, (∀ G, N ≤ G → getFeatures d G p e (.is sub) = .ok keys) ∧
      ∀ c, c ∈ keys ↔ (.element c ∈ e.data ∨ .spanReference c ∈ e.data) ∧ ∃ f, d.getElement c = some f ∧ IsFeature d x sub f := by
  obtain ⟨dec, cls, subset, proc, hrep⟩ := C27_reports hr he
  have hd := hrep.getDec
  rw [hx] at hd; cases hd
  have hset : e.getSet d = .ok x.set := hrep.getSet
  obtain ⟨v, hv, hq⟩ : ∃ v, ((v = .none ∧ x.set = none) ∨ ∃ s, v = .is s ∧ x.set = some s) ∧
      featureQuery d e (.is sub) = .ok { elementtype := .is .feature, contexttype := .is e.elementtype, set := v, subset := .is sub } := by
    unfold featureQuery
    rw [hset]
    cases x.set with
    | none => exact ⟨.none, .inl ⟨rfl, rfl⟩, rfl⟩
    | some s => exact ⟨.is s, .inr ⟨s, rfl, rfl⟩, rfl⟩
  have hdecl : ∃ k y, d.getDeclaration k = some y ∧ y.annotationtype = x.annotationtype ∧ y.set = x.set := by
    unfold ElementData.getDeclaration at hx
    cases hk : e.declarationKeyU with
    | error f => rw [hk] at hx; cases hx
    | ok o =>
      rw [hk] at hx
      cases o with
      | none => cases hx
      | some dk => exact ⟨dk, x, by injection hx, rfl, rfl⟩
  obtain ⟨s, h0, hm, hmat⟩ := C27_subset_query hr { elementtype := .is .feature, contexttype := .is e.elementtype, set := v, subset := .is sub }
    rfl rfl ha (sv := x.set) hv hdecl
  obtain ⟨keys, N, h1, h2, _⟩ := select_flat hr.cinv he s (hm rfl rfl)
  refine ⟨keys, N, fun G hG => ?_, fun c => ?_⟩
  · unfold getFeatures
    rw [hq]
    show (unwrapRes (Selector.fromQuery d _) >>= fun s => select d G p s .no) = _
    rw [h0]
    exact (h1 G hG).1
  · rw [h2]
    refine and_congr_right fun hc => ?_
    have hdl := (hr.cinv.elem p e he).data
    obtain ⟨f, hf⟩ : ∃ f, d.getElement c = some f := by
      rcases hc with hc | hc
      · exact hdl _ hc
      · exact (hdl _ hc).imp fun _ h => h.1
    obtain ⟨dec', cls', subset', proc', hrep'⟩ := C27_reports hr hf
    rw [hmat c f _ _ _ _ hf hrep']
    constructor
    · rintro ⟨_, g1, ⟨y, rfl, g2, g3⟩, rfl, _⟩
      exact ⟨f, hf, by injection g1, hrep'.getSub, y, hrep'.getDec, g2, g3⟩
    · rintro ⟨f', hf', g1, g2, y, g3, g4, g5⟩
      rw [hf] at hf'; cases hf'
      have := hrep'.getDec
      rw [g3] at this; cases this
      have := hrep'.getSub
      rw [g2] at this; cases this
      exact ⟨trivial, by rw [g1]; rfl, ⟨y, rfl, g4, g5⟩, rfl, trivial, trivial⟩

/-- The declaration that a feature is resolved to. -/
theorem encode_feature {e e' : ElementData} {p : Nat} {d d1 : Document} (ht : e.elementtype = .feature) (hen : e.encodable = true)
    (hc : CleanAttribs e.attribs) (h : encode e (some p) d = (.ok e', d1)) :
    ∃ pe t s dk, d.getElement p = some pe ∧ pe.elementtype.annotationtype = some t ∧ e.set = .ok s ∧ (declare t s none none d).1 = .ok dk ∧
      ∀ x : ElementData, x.attribs = e'.attribs → x.declarationKeyU = .ok (some dk) := by
  unfold encode at h
  rw [if_pos hen] at h
  obtain ⟨enc, d5, h5, h⟩ := bind_ok h
  obtain ⟨_, d6, h6, h⟩ := bind_ok h
  cases h6
  obtain ⟨_, d7, h7', h⟩ := bind_ok h
  cases h
  unfold encodeCore at h5
  rw [ht, feature_untyped] at h5
  simp only [if_true] at h5
  unfold encodeFeature at h5
  obtain ⟨pe, h8, h5⟩ := ofRes_bind h5
  obtain ⟨t, h9, h5⟩ := ofRes_bind h5
  obtain ⟨s, h8', h5⟩ := ofRes_bind h5
  obtain ⟨dk, d9, h10, h5⟩ := bind_ok h5
  obtain ⟨ck', d10, h11, h5⟩ := bind_ok h5
  obtain ⟨sk', d11, h12, h5⟩ := bind_ok h5
  cases h5
  have h8 : d.getElement p = some pe := by
    unfold okOr at h8
    split at h8
    · rename_i a ha; cases h8; exact ha
    · cases h8
  have h9 : pe.elementtype.annotationtype = some t := by
    unfold expect at h9
    split at h9
    · rename_i a ha; cases h9; exact ha
    · cases h9
  refine ⟨pe, t, s, dk, h8, h9, unwrapRes_ok h8', by rw [h10], fun x hx => ?_⟩
  rw [encodedAttribs_eq] at hx
  have hpl : PlainAttribs (e.attribs.filter (!·.encodable)) := by
    intro a h
    rw [List.mem_filter] at h
    exact ⟨by simpa using h.2, hc a h.1⟩
  rw [(keysU_of_refs hx hpl).1, (encodeExplicit_fields _ e _).1]

/-- A declaration found by `declare`. -/
theorem declare_known {d : Document} (hd : DeclsExact d) {dk : Nat} {x : Declaration} (hx : d.getDeclaration dk = some x) {s : Option String}
    (h : s = x.set ∨ (s = none ∧ ∀ j y, d.getDeclaration j = some y → y.annotationtype = x.annotationtype → j = dk)) {k : Nat}
    (hk : (declare x.annotationtype s none none d).1 = .ok k) : k = dk := by
  have hid := fun k => declarationKeyById_iff hd x.annotationtype s k
  rcases declare_cases d x.annotationtype s none none with ⟨k', h1, heq⟩ | ⟨h1, ⟨k', hdef, heq⟩ | ⟨hdef, hm⟩⟩
  · rw [heq] at hk; cases hk
    obtain ⟨y, g1, g2, g3⟩ := (hid k).mp h1
    rcases h with rfl | ⟨_, h⟩
    · exact declarations_unique hd g1 hx g2 g3
    · exact h k y g1 g2
  · rw [heq] at hk; cases hk
    rcases h with rfl | ⟨_, h⟩
    · rw [(hid dk).mpr ⟨x, hx, rfl, rfl⟩] at h1; cases h1
    · obtain ⟨⟨⟨y, g1, g2⟩, _⟩, _⟩ := declareDefault_some hdef
      exact h k y (Store.get_eq_some.mpr g1) g2
  · exfalso
    rcases h with rfl | ⟨rfl, h⟩
    · rw [(hid dk).mpr ⟨x, hx, rfl, rfl⟩] at h1; cases h1
    · have ho : OnlyDeclaration d.declarations.items x.annotationtype dk :=
        ⟨⟨x, Store.get_eq_some.mp hx, rfl⟩, fun j y hj hy => h j y (Store.get_eq_some.mpr hj) hy⟩
      unfold declareDefault at hdef
      rw [(getDefaultKey_iff _ _ _).mpr ho] at hdef
      simp only [hx] at hdef
      cases hdef

/-- A feature added to an annotation is found by `get_features` on this annotation, unless the stores of the declaration are full.

Missing for the full claim: a feature without a set of its own is resolved to the only declaration of the type of the annotation. If there are
several, it gets a declaration without set and is not found, see the counterexample. -/
theorem C13_found_partial {X : Ext} {F : Nat} {d d' : Document} (hr : CleanReachable X F d) {p k : Nat} {pe e : ElementData} {s c : String}
    (hp : d.getElement p = some pe) {dk : Nat} {x : Declaration} (hdk : pe.declarationKeyU = .ok (some dk)) (hx : d.getDeclaration dk = some x)
    (ha : pe.elementtype.annotationtype = some x.annotationtype) (hn : d.NewBuilder e) (ht : e.elementtype = .feature)
    (hz : builderSizeList e.data = 0) (hs : e.subset = .ok (some s)) (hc : e.cls = .ok (some c))
    (hset : e.set = .ok x.set ∨ (e.set = .ok none ∧ ∀ j y, d.getDeclaration j = some y → y.annotationtype = x.annotationtype → j = dk))
    (h : addElementTo F p e d = (.ok k, d')) :
    ∃ pe' keys N, d'.getElement p = some pe' ∧ (∀ G, N ≤ G → getFeatures d' G p pe' (.is s) = .ok keys) ∧
      (k ∈ keys ∨ ∃ dec, d'.getDeclaration dk = some dec ∧
        ((∃ st, dec.subsets = some st ∧ 65536 ≤ st.len) ∨ ∃ st, dec.subclasses = some st ∧ 4294967296 ≤ st.len)) := by
  have hps : (d.getElement p).isSome := by rw [hp]; rfl
  have hr' : CleanReachable X F d' := by
    have := CleanReachable.op (.addElementTo p e) hr hn.1
    rwa [show ((Op.addElementTo p e).run F d).2 = d' by simp [Op.run, M.void, M.run_bind, h]] at this
  have hen : e.encodable = true := by
    cases hb : e.encodable with
    | true => rfl
    | false => exact absurd hs (plain_none hb s).2.2.1
  have hca : CleanAttribs e.attribs := by have := hn.1; cases e; simp only [CleanBuilder] at this; exact this.1
  have hpl := planted hr.cinv ⟨pe, hp⟩ hn.1 hn.2 h
  obtain ⟨e', d1, f, h1, h2, h3, h4, _⟩ := single_ok ⟨pe, hp⟩ hn.2 hz h
  have h4 : f.attribs = e'.attribs := by
    rcases h4 with h4 | ⟨_, h4⟩
    · exact h4
    · rw [hen] at h4; cases h4
  obtain ⟨pe0, t, s', dk', g1, g2, g3, g4, g5⟩ := encode_feature ht hen hca h1
  rw [hp] at g1; cases g1
  rw [ha] at g2; cases g2
  have hdk' : dk' = dk := by
    refine declare_known hr.cinv.decls.exact hx ?_ g4
    rcases hset with hset | ⟨hset, hu⟩ <;> rw [hset] at g3 <;> cases g3
    · exact .inl rfl
    · exact .inr ⟨rfl, hu⟩
  subst hdk'
  obtain ⟨x', hx', hxe⟩ := (hpl.steps.clean hr.cinv).2 dk' x hx
  have hfd : f.getDeclaration d' = .ok (some x') := by
    unfold ElementData.getDeclaration
    rw [g5 f h4]
    exact congrArg Except.ok hx'
  obtain ⟨pe1, pe', refs, refs', i1, i2, i3, i4, i5, i6, i7⟩ := hpl.spec.parent
  rw [hp] at i1; cases i1
  have hpd : pe'.getDeclaration d' = .ok (some x') := by
    have : pe'.declarationKeyU = .ok (some dk') := by
      unfold ElementData.declarationKeyU ElementData.declarationKey at hdk ⊢
      rw [i6]; exact hdk
    unfold ElementData.getDeclaration
    rw [this]
    exact congrArg Except.ok hx'
  obtain ⟨keys, N, j1, j2⟩ := C13_get_features hr' i2 hpd (by rw [i3, ha, hxe.type]) s
  refine ⟨pe', keys, N, i2, j1, ?_⟩
  obtain ⟨f', k1, k2⟩ := C13_feature_reads_back hr hps hn ht hs hc h
  rw [h2] at k1; cases k1
  rcases k2 with ⟨k2, _⟩ | ⟨dec, k2, k3⟩
  · exact .inl ((j2 k).mpr ⟨.inl (by rw [i7]; simp), f, h2, h3.trans ht, k2, x', hfd, rfl, rfl⟩)
  · rw [hfd] at k2; cases k2
    exact .inr ⟨x', hx', k3⟩

/-- The part-of-speech annotation of the sample document, its declaration, and a feature without a set. -/
example : CleanReachable Sample.X Sample.F Sample.doc ∧ (Sample.doc.getElement 6).map (fun e => (e.elementtype, e.declarationKeyU)) = some (.posAnnotation, .ok (some 2)) ∧
    (Sample.doc.getDeclaration 2).map (fun x => (x.annotationtype, x.set)) = some (.POS, some "brown") ∧
    (∀ j y, Sample.doc.getDeclaration j = some y → y.annotationtype = .POS → j = 2) ∧
    Sample.feature.set = .ok none ∧ (addElementTo Sample.F 6 Sample.feature Sample.doc).1 = .ok 12 := by
  refine ⟨Sample.doc_clean, by decide +kernel, by decide +kernel, fun j y hj hy => ?_, by decide +kernel, by decide +kernel⟩
  exact ((getDefaultKey_iff _ _ 2).mp (by decide +kernel : getDefaultKey Sample.doc.declarations.items .POS = some 2)).2 j y (Store.get_eq_some.mp hj) hy

theorem M.void_snd {σ α : Type} (m : M σ α) (s : σ) : (m.void s).2 = (m s).2 := by
  unfold M.void
  rw [M.run_bind]
  rcases m s with ⟨e | a, s'⟩ <;> rfl

/-- The sample document with a second set for parts of speech. -/
def Sample.twoSets : Document := (declare .POS (some "other") none none Sample.doc).2

theorem Sample.twoSets_clean : CleanReachable Sample.X Sample.F Sample.twoSets := by
  have := CleanReachable.op (.declare .POS (some "other") none none) Sample.doc_clean trivial
  rwa [show ((Op.declare .POS (some "other") none none).run Sample.F Sample.doc).2 = Sample.twoSets from M.void_snd _ _] at this

/-- With a second set declared for parts of speech, a feature without a set of its own is added under an annotation, reports its subset and
class, and is not found by `get_features` on this annotation (which returns the older feature 7 only). -/
theorem C13_two_sets_counterexample : Sample.twoSets.NewBuilder Sample.feature ∧ (addElementTo Sample.F 6 Sample.feature Sample.twoSets).1 = .ok 12 ∧
    ((addElementTo Sample.F 6 Sample.feature Sample.twoSets).2.getElement 12).map (fun f => (f.parent, f.getSubset (addElementTo Sample.F 6 Sample.feature Sample.twoSets).2))
      = some (some 6, .ok (some "number")) ∧
    ((addElementTo Sample.F 6 Sample.feature Sample.twoSets).2.getElement 6).map
      (fun e => getFeatures (addElementTo Sample.F 6 Sample.feature Sample.twoSets).2 100 6 e (.is "number")) = some (.ok [7]) :=
  ⟨by decide +kernel, by decide +kernel, by decide +kernel, by decide +kernel⟩

/-- The same call finds the feature if its set is the only one, or named. -/
example : ((addElementTo Sample.F 6 Sample.feature Sample.doc).2.getElement 6).map
      (fun e => getFeatures (addElementTo Sample.F 6 Sample.feature Sample.doc).2 100 6 e (.is "number")) = some (.ok [7, 12]) ∧
    ((addElementTo Sample.F 6 (Sample.feature.setAttrib (.set "brown")) Sample.twoSets).2.getElement 6).map
      (fun e => getFeatures (addElementTo Sample.F 6 (Sample.feature.setAttrib (.set "brown")) Sample.twoSets).2 100 6 e (.is "number")) = some (.ok [7, 12]) :=
  ⟨by decide +kernel, by decide +kernel⟩

end Folia
