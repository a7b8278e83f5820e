import Verif.Lemmas.HeadRead
/-! Helper lemmas about the metadata loop of the parser on the parts of a source. -/
namespace Folia
open Document

/-- One step of the metadata loop. -/
def mStep : Document × MetaSt → REvent → Res (Document × MetaSt)
  | _, .error => .error (.err .xml)
  | s, .empty ns tag as => metaEmpty s.1 s.2 ns tag as
  | s, .start ns tag as => metaStart s.1 s.2 ns tag as
  | s, .text t => match unescape t with
    | some t => .ok (s.1, { s.2 with text := some t })
    | none => .error (.err .xml)
  | s, .endTag ns tag => .ok (metaEnd s.1 s.2 ns tag)
  | s, .cdata _ => .ok s
  | s, .comment _ => .ok s
  | s, .other => .ok s

/-- Several steps. -/
def mRun : Document × MetaSt → List REvent → Res (Document × MetaSt)
  | s, [] => .ok s
  | s, e :: es => match mStep s e with
    | .ok s' => mRun s' es
    | .error f => .error f

theorem mRun_cons {s r : Document × MetaSt} {e : REvent} {es : List REvent} (h : mRun s (e :: es) = .ok r) : ∃ m, mStep s e = .ok m ∧ mRun m es = .ok r := by
  simp only [mRun] at h
  cases hm : mStep s e with
  | error f => rw [hm] at h; cases h
  | ok m => rw [hm] at h; exact ⟨m, rfl, h⟩

theorem mRun_append : ∀ (a : List REvent) {b : List REvent} {s r : Document × MetaSt}, mRun s (a ++ b) = .ok r → ∃ m, mRun s a = .ok m ∧ mRun m b = .ok r
  | [], _, s, _, h => ⟨s, rfl, h⟩
  | e :: es, b, s, r, h => by
    obtain ⟨m, h1, h2⟩ := mRun_cons h
    obtain ⟨m', h3, h4⟩ := mRun_append es h2
    refine ⟨m', ?_, h4⟩
    simp only [mRun, h1, h3]

theorem parseMeta_mRun : ∀ (evs : List REvent) {rest : List REvent} {d : Document} {st : MetaSt} {r : Document × List REvent}, (.endTag .folia "metadata" ∉ evs) →
    parseMeta d st (evs ++ rest) = .ok r → ∃ s, mRun (d, st) evs = .ok s ∧ parseMeta s.1 s.2 rest = .ok r
  | [], _, d, st, _, _, h => ⟨(d, st), rfl, h⟩
  | e :: es, rest, d, st, r, hn, h => by
    simp only [List.mem_cons, not_or] at hn
    cases e with
    | error => cases h
    | empty ns tag as =>
      simp only [List.cons_append, parseMeta] at h
      cases hm : metaEmpty d st ns tag as with
      | error f => rw [hm] at h; cases h
      | ok m =>
        rw [hm] at h
        obtain ⟨s, h1, h2⟩ := parseMeta_mRun es hn.2 h
        exact ⟨s, by simp only [mRun, mStep, hm]; exact h1, h2⟩
    | start ns tag as =>
      simp only [List.cons_append, parseMeta] at h
      cases hm : metaStart d st ns tag as with
      | error f => rw [hm] at h; cases h
      | ok m =>
        rw [hm] at h
        obtain ⟨s, h1, h2⟩ := parseMeta_mRun es hn.2 h
        exact ⟨s, by simp only [mRun, mStep, hm]; exact h1, h2⟩
    | text t =>
      simp only [List.cons_append, parseMeta] at h
      cases hm : unescape t with
      | none => rw [hm] at h; cases h
      | some m =>
        rw [hm] at h
        obtain ⟨s, h1, h2⟩ := parseMeta_mRun es hn.2 h
        exact ⟨s, by simp only [mRun, mStep, hm]; exact h1, h2⟩
    | endTag ns tag =>
      simp only [List.cons_append, parseMeta] at h
      rw [if_neg (by rintro ⟨rfl, rfl⟩; exact hn.1 rfl)] at h
      obtain ⟨s, h1, h2⟩ := parseMeta_mRun es hn.2 h
      exact ⟨s, by simp only [mRun, mStep]; exact h1, h2⟩
    | cdata t => obtain ⟨s, h1, h2⟩ := parseMeta_mRun es hn.2 h; exact ⟨s, by simp only [mRun, mStep]; exact h1, h2⟩
    | comment t => obtain ⟨s, h1, h2⟩ := parseMeta_mRun es hn.2 h; exact ⟨s, by simp only [mRun, mStep]; exact h1, h2⟩
    | other => obtain ⟨s, h1, h2⟩ := parseMeta_mRun es hn.2 h; exact ⟨s, by simp only [mRun, mStep]; exact h1, h2⟩

/-! ### What is in between -/

theorem mStep_pad {d : Document} {st : MetaSt} {e : REvent} {s : Document × MetaSt} (hp : e.Pad) (h : mStep (d, st) e = .ok s) : ∃ tx, s = (d, { st with text := tx }) := by
  cases e with
  | text t =>
    simp only [mStep] at h
    cases hu : unescape t with
    | none => rw [hu] at h; cases h
    | some v => rw [hu] at h; cases h; exact ⟨_, rfl⟩
  | cdata t => cases h; exact ⟨st.text, rfl⟩
  | comment t => cases h; exact ⟨st.text, rfl⟩
  | other => cases h; exact ⟨st.text, rfl⟩
  | error => cases hp
  | start => cases hp
  | empty => cases hp
  | endTag => cases hp

theorem mRun_one {s r : Document × MetaSt} {e : REvent} (h : mRun s [e] = .ok r) : mStep s e = .ok r := by
  obtain ⟨m, h1, h2⟩ := mRun_cons h
  cases h2; exact h1

theorem mRun_pads : ∀ (es : List REvent) {d : Document} {st : MetaSt} {s : Document × MetaSt}, (∀ e ∈ es, e.Pad) → mRun (d, st) es = .ok s →
    ∃ tx, s = (d, { st with text := tx })
  | [], _, st, _, _, h => by cases h; exact ⟨st.text, rfl⟩
  | e :: es, d, st, s, hp, h => by
    obtain ⟨m, h1, h2⟩ := mRun_cons h
    obtain ⟨tx, rfl⟩ := mStep_pad (hp e (List.mem_cons_self ..)) h1
    obtain ⟨tx2, rfl⟩ := mRun_pads es (fun e he => hp e (List.mem_cons_of_mem _ he)) h2
    exact ⟨tx2, rfl⟩

/-! ### Processors -/

theorem addSubs_append (par : Nat) : ∀ (a b : List ProcTree) {d d1 d2 : Document}, addSubprocessors par a d = (.ok (), d1) → addSubprocessors par b d1 = (.ok (), d2) →
    addSubprocessors par (a ++ b) d = (.ok (), d2)
  | [], _, _, _, _, h1, h2 => by
    simp only [addSubprocessors] at h1
    cases h1; exact h2
  | t :: ts, b, d, d1, d2, h1, h2 => by
    simp only [addSubprocessors] at h1
    obtain ⟨k, d3, h3, h4⟩ := bind_ok h1
    simp only [List.cons_append, addSubprocessors]
    rw [M.run_bind, h3]
    exact addSubs_append par ts b h4 h2

theorem addProcs_append : ∀ (a b : List ProcTree) {d d1 d2 : Document}, addProcessors a d = (.ok (), d1) → addProcessors b d1 = (.ok (), d2) →
    addProcessors (a ++ b) d = (.ok (), d2)
  | [], _, _, _, _, h1, h2 => by
    simp only [addProcessors] at h1
    cases h1; exact h2
  | t :: ts, b, d, d1, d2, h1, h2 => by
    simp only [addProcessors] at h1
    obtain ⟨k, d3, h3, h4⟩ := bind_ok h1
    simp only [List.cons_append, addProcessors]
    rw [M.run_bind, h3]
    exact addProcs_append ts b h4 h2

theorem addSub_join {parent k : Nat} {p : Processor} {ts : List ProcTree} {d d2 d' : Document} (h : addSubprocessor parent (.node p []) d = (.ok k, d2))
    (h' : addSubprocessors k ts d2 = (.ok (), d')) : addSubprocessor parent (.node p ts) d = (.ok k, d') := by
  simp only [addSubprocessor] at h ⊢
  obtain ⟨k', d1, h1, h⟩ := bind_ok h
  obtain ⟨_, d3, h2, h⟩ := bind_ok h
  cases h
  rw [M.run_bind, h1]
  simp only
  rw [M.run_bind, h2]
  simp only
  rw [M.run_bind, h']
  rfl

theorem addProc_join {k : Nat} {p : Processor} {ts : List ProcTree} {d d2 d' : Document} (h : addProcessor (.node p []) d = (.ok k, d2))
    (h' : addSubprocessors k ts d2 = (.ok (), d')) : addProcessor (.node p ts) d = (.ok k, d') := by
  simp only [addProcessor] at h ⊢
  obtain ⟨k', d1, h1, h⟩ := bind_ok h
  obtain ⟨_, d3, h2, h⟩ := bind_ok h
  cases h
  rw [M.run_bind, h1]
  simp only
  rw [M.run_bind, h2]
  simp only
  rw [M.run_bind, h']
  rfl

theorem mStep_procEmpty {d : Document} {st : MetaSt} {as : List RAttr} {s : Document × MetaSt} (hp : st.prov = true) (h : mStep (d, st) (.empty .folia "processor" as) = .ok s) :
    ∃ k d', addParsedProcessor st (procOf as) d = (.ok k, d') ∧ s = (d', st) := by
  simp only [mStep] at h
  unfold metaEmpty at h
  rw [if_pos ⟨rfl, rfl, hp⟩] at h
  cases hq : asParseError (parseProcessor {} as) with
  | error f => rw [hq] at h; cases h
  | ok p =>
    rw [hq] at h
    simp only [Bind.bind, Except.bind] at h
    cases hr : runDoc (addParsedProcessor st p) d with
    | error f => rw [hr] at h; cases h
    | ok r =>
      rw [hr] at h; cases h
      have := parseProcessor_procOf (asParseError_ok hq)
      exact ⟨r.1, r.2, by rw [← this]; exact runDoc_inv hr, rfl⟩

theorem mStep_procStart {d : Document} {st : MetaSt} {as : List RAttr} {s : Document × MetaSt} (hp : st.prov = true) (h : mStep (d, st) (.start .folia "processor" as) = .ok s) :
    ∃ k d', addParsedProcessor st (procOf as) d = (.ok k, d') ∧ s = (d', { st with procStack := k :: st.procStack }) := by
  simp only [mStep] at h
  unfold metaStart at h
  rw [if_pos rfl, if_neg (by decide), if_neg (by decide), if_neg (by decide), if_neg (by decide), if_neg (by decide), if_pos ⟨rfl, hp⟩] at h
  cases hq : asParseError (parseProcessor {} as) with
  | error f => rw [hq] at h; cases h
  | ok p =>
    rw [hq] at h
    simp only [Bind.bind, Except.bind] at h
    cases hr : runDoc (addParsedProcessor st p) d with
    | error f => rw [hr] at h; cases h
    | ok r =>
      rw [hr] at h; cases h
      have := parseProcessor_procOf (asParseError_ok hq)
      exact ⟨r.1, r.2, by rw [← this]; exact runDoc_inv hr, rfl⟩

theorem mStep_procEnd {d : Document} {st : MetaSt} {s : Document × MetaSt} (hp : st.prov = true) (h : mStep (d, st) (.endTag .folia "processor") = .ok s) :
    s = (d, { st with procStack := st.procStack.tail }) := by
  simp only [mStep] at h
  unfold metaEnd at h
  rw [if_pos rfl, if_neg (by decide), if_neg (by decide), if_neg (by decide), if_pos ⟨rfl, hp⟩] at h
  cases h; rfl

theorem addSubs_one {par k : Nat} {t : ProcTree} {d d' : Document} (h : addSubprocessor par t d = (.ok k, d')) : addSubprocessors par [t] d = (.ok (), d') := by
  simp only [addSubprocessors]
  rw [M.run_bind, h]
  rfl

theorem addProcs_one {k : Nat} {t : ProcTree} {d d' : Document} (h : addProcessor t d = (.ok k, d')) : addProcessors [t] d = (.ok (), d') := by
  simp only [addProcessors]
  rw [M.run_bind, h]
  rfl

mutual
theorem mRun_sub : ∀ (n : PNode) {d : Document} {st : MetaSt} {s : Document × MetaSt} {par : Nat} {below : List Nat}, n.Padded → st.prov = true →
    st.procStack = par :: below → mRun (d, st) n.events = .ok s → addSubprocessors par n.trees d = (.ok (), s.1) ∧ ∃ tx, s.2 = { st with text := tx }
  | .empty as, d, st, s, par, below, _, hp, hst, h => by
    simp only [PNode.events] at h
    obtain ⟨k, d', h1, rfl⟩ := mStep_procEmpty hp (mRun_one h)
    have h2 := mapErr_ok h1
    rw [hst] at h2
    simp only [PNode.trees]
    exact ⟨addSubs_one h2, st.text, rfl⟩
  | .pad e, d, st, s, par, below, hpad, hp, hst, h => by
    simp only [PNode.events] at h
    simp only [PNode.Padded] at hpad
    obtain ⟨tx, rfl⟩ := mStep_pad hpad (mRun_one h)
    simp only [PNode.trees]
    exact ⟨rfl, tx, rfl⟩
  | .full as subs, d, st, s, par, below, hpad, hp, hst, h => by
    simp only [PNode.events] at h
    simp only [PNode.Padded] at hpad
    rw [List.cons_append] at h
    obtain ⟨m, h1, h2⟩ := mRun_cons h
    obtain ⟨k, d', h3, rfl⟩ := mStep_procStart hp h1
    obtain ⟨m2, h4, h5⟩ := mRun_append _ h2
    obtain ⟨h6, tx, h7⟩ := mRun_subs subs (par := k) (below := st.procStack) hpad (by exact hp) rfl h4
    obtain ⟨d2, st2⟩ := m2
    simp only at h6 h7
    subst h7
    have := mStep_procEnd (by exact hp) (mRun_one h5)
    subst this
    have h8 := mapErr_ok h3
    rw [hst] at h8
    simp only [PNode.trees]
    exact ⟨addSubs_one (addSub_join h8 h6), tx, rfl⟩
theorem mRun_subs : ∀ (ns : List PNode) {d : Document} {st : MetaSt} {s : Document × MetaSt} {par : Nat} {below : List Nat}, PNode.PaddedList ns → st.prov = true →
    st.procStack = par :: below → mRun (d, st) (PNode.eventsList ns) = .ok s → addSubprocessors par (PNode.treesList ns) d = (.ok (), s.1) ∧ ∃ tx, s.2 = { st with text := tx }
  | [], d, st, s, par, below, _, _, _, h => by
    simp only [PNode.eventsList] at h
    cases h
    simp only [PNode.treesList]
    exact ⟨rfl, st.text, rfl⟩
  | n :: ns, d, st, s, par, below, hpad, hp, hst, h => by
    simp only [PNode.eventsList] at h
    simp only [PNode.PaddedList] at hpad
    obtain ⟨m, h1, h2⟩ := mRun_append _ h
    obtain ⟨d1, st1⟩ := m
    obtain ⟨h3, tx, h4⟩ := mRun_sub n hpad.1 hp hst h1
    simp only at h3 h4
    subst h4
    obtain ⟨h5, tx2, h6⟩ := mRun_subs ns hpad.2 (by exact hp) (by exact hst) h2
    simp only [PNode.treesList]
    exact ⟨addSubs_append par _ _ h3 h5, tx2, h6⟩
end

theorem mRun_proc (n : PNode) {d : Document} {st : MetaSt} {s : Document × MetaSt} (hpad : n.Padded) (hp : st.prov = true) (hst : st.procStack = [])
    (h : mRun (d, st) n.events = .ok s) : addProcessors n.trees d = (.ok (), s.1) ∧ ∃ tx, s.2 = { st with text := tx } := by
  cases n with
  | empty as =>
    simp only [PNode.events] at h
    obtain ⟨k, d', h1, rfl⟩ := mStep_procEmpty hp (mRun_one h)
    have h2 := mapErr_ok h1
    rw [hst] at h2
    simp only [PNode.trees]
    exact ⟨addProcs_one h2, st.text, rfl⟩
  | pad e =>
    simp only [PNode.events] at h
    simp only [PNode.Padded] at hpad
    obtain ⟨tx, rfl⟩ := mStep_pad hpad (mRun_one h)
    simp only [PNode.trees]
    exact ⟨rfl, tx, rfl⟩
  | full as subs =>
    simp only [PNode.events] at h
    simp only [PNode.Padded] at hpad
    rw [List.cons_append] at h
    obtain ⟨m, h1, h2⟩ := mRun_cons h
    obtain ⟨k, d', h3, rfl⟩ := mStep_procStart hp h1
    obtain ⟨m2, h4, h5⟩ := mRun_append _ h2
    obtain ⟨h6, tx, h7⟩ := mRun_subs subs (par := k) (below := st.procStack) hpad (by exact hp) rfl h4
    obtain ⟨d2, st2⟩ := m2
    simp only at h6 h7
    subst h7
    have := mStep_procEnd (by exact hp) (mRun_one h5)
    subst this
    have h8 := mapErr_ok h3
    rw [hst] at h8
    simp only [PNode.trees]
    exact ⟨addProcs_one (addProc_join h8 h6), tx, rfl⟩

theorem mRun_procs : ∀ (ns : List PNode) {d : Document} {st : MetaSt} {s : Document × MetaSt}, PNode.PaddedList ns → st.prov = true →
    st.procStack = [] → mRun (d, st) (PNode.eventsList ns) = .ok s → addProcessors (PNode.treesList ns) d = (.ok (), s.1) ∧ ∃ tx, s.2 = { st with text := tx }
  | [], d, st, s, _, _, _, h => by
    simp only [PNode.eventsList] at h
    cases h
    simp only [PNode.treesList]
    exact ⟨rfl, st.text, rfl⟩
  | n :: ns, d, st, s, hpad, hp, hst, h => by
    simp only [PNode.eventsList] at h
    simp only [PNode.PaddedList] at hpad
    obtain ⟨m, h1, h2⟩ := mRun_append _ h
    obtain ⟨d1, st1⟩ := m
    obtain ⟨h3, tx, h4⟩ := mRun_proc n hpad.1 hp hst h1
    simp only at h3 h4
    subst h4
    obtain ⟨h5, tx2, h6⟩ := mRun_procs ns hpad.2 (by exact hp) (by exact hst) h2
    simp only [PNode.treesList]
    exact ⟨addProcs_append _ _ h3 h5, tx2, h6⟩

/-! ### Declarations -/

theorem mRun_annotators : ∀ (anns : List ANode) {d : Document} {st : MetaSt} {s : Document × MetaSt} {dk : Nat}, (∀ a ∈ anns, ∀ e, a = .pad e → e.Pad) → st.decls = true →
    st.decKey = some dk → mRun (d, st) (anns.map ANode.event) = .ok s →
    ∃ tx, s = (d, { st with text := tx, annotators := st.annotators ++ (anns.filterMap ANode.processor).map fun id => (dk, id) })
  | [], d, st, s, dk, _, _, _, h => by
    cases h
    exact ⟨st.text, by simp⟩
  | .pad e :: anns, d, st, s, dk, hpad, hd, hk, h => by
    obtain ⟨m, h1, h2⟩ := mRun_cons h
    obtain ⟨tx, rfl⟩ := mStep_pad (hpad _ (List.mem_cons_self ..) e rfl) h1
    obtain ⟨tx2, rfl⟩ := mRun_annotators anns (dk := dk) (fun a ha => hpad a (List.mem_cons_of_mem _ ha)) (by exact hd) (by first | exact hk | rfl) h2
    exact ⟨tx2, rfl⟩
  | .annotator as :: anns, d, st, s, dk, hpad, hd, hk, h => by
    obtain ⟨m, h1, h2⟩ := mRun_cons h
    simp only [ANode.event, mStep] at h1
    unfold metaEmpty at h1
    rw [if_neg (by rintro ⟨_, h, _⟩; exact absurd h (by decide)), if_pos ⟨rfl, rfl, hd⟩] at h1
    simp only [Bind.bind, Except.bind] at h1
    cases hf : forAttrs (fun k v acc => if k = "processor" then some v else acc) as (none : Option String) with
    | error f => rw [hf] at h1; cases h1
    | ok pid =>
      have hv := forAttrs_value (fun o : Option String => o) "processor" (fun _ _ _ => rfl) as hf
      rw [Option.or_none] at hv
      rw [hf, hk] at h1
      cases pid with
      | none =>
        cases h1
        obtain ⟨tx2, rfl⟩ := mRun_annotators anns (dk := dk) (fun a ha => hpad a (List.mem_cons_of_mem _ ha)) (by exact hd) (by first | exact hk | rfl) h2
        have hp : ANode.processor (.annotator as) = _ := hv.symm
        exact ⟨tx2, by simp [hp, hk]⟩
      | some id =>
        cases h1
        obtain ⟨tx2, rfl⟩ := mRun_annotators anns (dk := dk) (fun a ha => hpad a (List.mem_cons_of_mem _ ha)) (by exact hd) (by first | exact hk | rfl) h2
        have hp : ANode.processor (.annotator as) = _ := hv.symm
        exact ⟨tx2, by simp [hp, hk]⟩

/-- The declaration that the parser makes. -/
def SourceDecl.stored (s : SourceDecl) (n : Nat) : Declaration := { Declaration.new s.type s.set s.alias s.format with key := some n }

/-- The declarations as the parser stores them. -/
def srcDecls : Nat → List SourceDecl → List (Option Declaration)
  | _, [] => []
  | n, s :: rest => some (s.stored n) :: srcDecls (n + 1) rest

/-- The annotators as the parser collects them. -/
def srcAnnots : Nat → List SourceDecl → List (Nat × String)
  | _, [] => []
  | n, s :: rest => s.annotators.map (fun id => (n, id)) ++ srcAnnots (n + 1) rest

theorem srcDecls_get : ∀ (l : List SourceDecl) (n j : Nat), (srcDecls n l)[j]? = l[j]?.map fun s => some (s.stored (n + j))
  | [], n, j => by simp [srcDecls]
  | s :: rest, n, 0 => by simp [srcDecls]
  | s :: rest, n, j + 1 => by
    simp only [srcDecls, List.getElem?_cons_succ]
    rw [srcDecls_get rest (n + 1) j]
    congr 1
    funext s
    rw [show n + 1 + j = n + (j + 1) by omega]

theorem annotated_src (d : Document) : ∀ (l : List SourceDecl) (n j : Nat), annotated d (srcAnnots n l) j =
    if j < n then [] else match l[j - n]? with
      | some s => s.annotators.filterMap d.processorKeyById
      | none => []
  | [], n, j => by simp [srcAnnots, annotated]
  | s :: rest, n, j => by
    rw [srcAnnots, annotated_append, annotated_names, annotated_src d rest (n + 1) j]
    by_cases h1 : n = j
    · subst h1; simp
    · by_cases h2 : j < n
      · rw [if_neg h1, if_pos (by omega), if_pos h2]; rfl
      · rw [if_neg h1, if_neg (by omega), if_neg h2, show j - n = (j - (n + 1)) + 1 by omega, List.getElem?_cons_succ]; rfl

theorem mRun_decl {t : AnnotationType} {as : List RAttr} {anns : List ANode} {d : Document} {st : MetaSt} {s : Document × MetaSt}
    (hpad : ∀ a ∈ anns, ∀ e, a = .pad e → e.Pad) (hd : st.decls = true) (hx : DeclsExact d)
    (hn : ∀ j a, d.getDeclaration j = some a → ¬ (a.annotationtype = t ∧ a.set = attrValue as "set")) (hcap : d.declarations.len < cap16)
    (h : mRun (d, st) (DNode.declaration t as anns).events = .ok s) :
    ∃ ds tx dk, s = ({ d with declarations := ds }, { st with text := tx, decKey := dk, annotators := st.annotators ++ (anns.filterMap ANode.processor).map fun id => (d.declarations.len, id) }) ∧
      ds.items = d.declarations.items ++ [some (SourceDecl.stored ⟨t, attrValue as "set", attrValue as "alias", attrValue as "format", anns.filterMap ANode.processor⟩ d.declarations.len)] ∧
      ds.Exact Declaration.key := by
  simp only [DNode.events] at h
  rw [List.cons_append] at h
  obtain ⟨m, h1, h2⟩ := mRun_cons h
  obtain ⟨m2, h3, h4⟩ := mRun_append _ h2
  have hne := declTag_ne (Declaration.new t none none none)
  have htag : declTag (Declaration.new t none none none) = t.asStr ++ "-annotation" := rfl
  rw [htag] at hne
  simp only [List.mem_cons, List.not_mem_nil, or_false, not_or] at hne
  obtain ⟨n1, n2, n3, n4, n5, n6, n7⟩ := hne
  simp only [mStep] at h1
  unfold metaStart at h1
  rw [if_pos rfl, if_neg n1, if_neg n2, if_neg n3, if_neg n4, if_neg n5, if_neg (fun h => n6 h.1), if_pos hd] at h1
  cases hq : asParseError (parseDeclaration (t.asStr ++ "-annotation") as) with
  | error f => rw [hq] at h1; cases h1
  | ok dec =>
    rw [hq] at h1
    simp only [Bind.bind, Except.bind] at h1
    have hdec := parseDeclaration_read (asParseError_ok hq)
    obtain ⟨ds, e1, e2, e3⟩ := addDeclaration_fresh (d := d) (dec := dec) hx (by rw [hdec]; exact hn) hcap
    rw [runDoc_ok (mapErr_run e1)] at h1
    cases h1
    obtain ⟨tx, rfl⟩ := mRun_annotators anns (dk := d.declarations.len) hpad (by exact hd) rfl h3
    have h5 := mRun_one h4
    simp only [mStep] at h5
    unfold metaEnd at h5
    rw [if_pos rfl, if_neg n4, if_neg n2, if_neg n3, if_neg (fun h => n6 h.1), if_neg n5, if_neg (fun h => n7 h.1), if_pos (by exact hd)] at h5
    cases h5
    refine ⟨ds, tx, none, rfl, ?_, e3⟩
    rw [e2, hdec]; rfl

theorem mRun_decls : ∀ (ns : List DNode) {d : Document} {st : MetaSt} {s : Document × MetaSt}, (∀ n ∈ ns, n.Padded) → st.decls = true → st.prov = false → DeclsExact d →
    ((ns.filterMap DNode.decl).map fun s => (s.type, s.set)).Nodup →
    (∀ j a, d.getDeclaration j = some a → ∀ s ∈ ns.filterMap DNode.decl, ¬ (a.annotationtype = s.type ∧ a.set = s.set)) →
    d.declarations.len + (ns.filterMap DNode.decl).length ≤ cap16 → mRun (d, st) (ns.flatMap DNode.events) = .ok s →
    ∃ ds tx dk, s = ({ d with declarations := ds }, { st with text := tx, decKey := dk, annotators := st.annotators ++ srcAnnots d.declarations.len (ns.filterMap DNode.decl) }) ∧
      ds.items = d.declarations.items ++ srcDecls d.declarations.len (ns.filterMap DNode.decl) ∧ ds.Exact Declaration.key
  | [], d, st, s, _, _, _, hx, _, _, _, h => by
    cases h
    exact ⟨d.declarations, st.text, st.decKey, by simp [srcAnnots], by simp [srcDecls], hx⟩
  | .pad e :: ns, d, st, s, hpad, hd, hp, hx, hnd, hf, hcap, h => by
    rw [List.flatMap_cons] at h
    obtain ⟨m, h1, h2⟩ := mRun_append _ h
    have : (DNode.pad e).Padded := hpad _ (List.mem_cons_self ..)
    obtain ⟨tx, rfl⟩ := mStep_pad this (mRun_one h1)
    obtain ⟨ds, tx2, dk, h3, h4, h5⟩ := mRun_decls ns (fun n hn => hpad n (List.mem_cons_of_mem _ hn)) (by exact hd) (by exact hp) hx hnd hf hcap h2
    exact ⟨ds, tx2, dk, h3, h4, h5⟩
  | .declaration t as anns :: ns, d, st, s, hpad, hd, hp, hx, hnd, hf, hcap, h => by
    rw [List.flatMap_cons] at h
    obtain ⟨m, h1, h2⟩ := mRun_append _ h
    have hfm : (DNode.declaration t as anns :: ns).filterMap DNode.decl =
      ⟨t, attrValue as "set", attrValue as "alias", attrValue as "format", anns.filterMap ANode.processor⟩ :: ns.filterMap DNode.decl := by
      rw [List.filterMap_cons]; rfl
    rw [hfm] at hnd hf hcap ⊢
    rw [List.map_cons, List.nodup_cons] at hnd
    rw [List.length_cons] at hcap
    have hpn : (DNode.declaration t as anns).Padded := hpad _ (List.mem_cons_self ..)
    obtain ⟨ds, tx, dk, rfl, h4, h5⟩ := mRun_decl hpn hd hx (fun j a ha => hf j a ha _ (List.mem_cons_self ..)) (by omega) h1
    have hlen : ds.len = d.declarations.len + 1 := by
      show ds.items.length = d.declarations.items.length + 1
      rw [h4, List.length_append]; rfl
    obtain ⟨ds2, tx2, dk2, rfl, h7, h8⟩ := mRun_decls ns (d := { d with declarations := ds }) (fun n hn => hpad n (List.mem_cons_of_mem _ hn)) (by exact hd) (by exact hp) h5 hnd.2 (by
      intro j a ha s hs
      have ha : ds.get j = some a := ha
      unfold Store.get at ha
      rw [h4] at ha
      by_cases hj : j < d.declarations.items.length
      · rw [List.getElem?_append_left hj] at ha
        exact hf j a ha s (List.mem_cons_of_mem _ hs)
      · rw [List.getElem?_append_right (by omega)] at ha
        by_cases hj0 : j - d.declarations.items.length = 0
        · rw [hj0] at ha
          cases ha
          rintro ⟨ha1, ha2⟩
          exact hnd.1 (List.mem_map.mpr ⟨s, hs, by
            have e1 : t = s.type := ha1
            have e2 : attrValue as "set" = s.set := ha2
            rw [← e1, ← e2]⟩)
        · rw [List.getElem?_eq_none (by simp; omega)] at ha
          cases ha) (by show ds.len + _ ≤ _; rw [hlen]; omega) h2
    refine ⟨ds2, tx2, dk2, ?_, ?_, h8⟩
    · show _ = _
      simp only [hlen, srcAnnots, List.append_assoc]
    · rw [h7]
      show ds.items ++ srcDecls ds.len _ = _
      rw [hlen, h4, List.append_assoc]
      rfl

/-! ### Values -/

/-- Inserting pairs one after the other. -/
def putValues (m data : List (String × String)) : List (String × String) := data.foldl (fun m kv => mapInsert m kv.1 kv.2) m

theorem mapInsert_find {α : Type} (k k' : String) (v : α) : ∀ m : List (String × α), mapFind (mapInsert m k v) k' = if k = k' then some v else mapFind m k'
  | [] => by simp [mapInsert, mapFind]
  | (a, b) :: rest => by
    simp only [mapInsert]
    by_cases h : a = k
    · rw [if_pos h]
      subst h
      simp only [mapFind]
      split <;> rfl
    · rw [if_neg h]
      simp only [mapFind]
      rw [mapInsert_find k k' v rest]
      by_cases h1 : a = k'
      · rw [if_pos h1, if_pos h1, if_neg (by rintro rfl; exact h h1)]
      · rw [if_neg h1, if_neg h1]

theorem putValues_find (k : String) : ∀ (data m : List (String × String)), mapFind (putValues m data) k =
    ((data.filterMap fun kv => if kv.1 = k then some kv.2 else none).getLast?).or (mapFind m k)
  | [], m => by simp [putValues]
  | (a, b) :: rest, m => by
    have : putValues m ((a, b) :: rest) = putValues (mapInsert m a b) rest := rfl
    rw [this, putValues_find k rest, mapInsert_find, List.filterMap_cons]
    by_cases h : a = k
    · simp only [if_pos h, List.getLast?_cons]
      cases List.getLast? _ <;> rfl
    · simp only [if_neg h]

theorem mRun_values : ∀ (ns : List VNode) {d : Document} {st : MetaSt} {s : Document × MetaSt}, (∀ n ∈ ns, n.Padded) → st.submeta = none →
    mRun (d, st) (ns.flatMap VNode.events) = .ok s →
    s.1 = { d with metadata := { d.metadata with data := putValues d.metadata.data (ns.filterMap VNode.pair) } }
  | [], d, st, s, _, _, h => by cases h; rfl
  | .pad e :: ns, d, st, s, hpad, hs, h => by
    rw [List.flatMap_cons] at h
    obtain ⟨m, h1, h2⟩ := mRun_append _ h
    have : (VNode.pad e).Padded := hpad _ (List.mem_cons_self ..)
    obtain ⟨tx, rfl⟩ := mStep_pad this (mRun_one h1)
    exact mRun_values ns (fun n hn => hpad n (List.mem_cons_of_mem _ hn)) (by exact hs) h2
  | .value as (some t) :: ns, d, st, s, hpad, hs, h => by
    rw [List.flatMap_cons] at h
    obtain ⟨m, h1, h2⟩ := mRun_append _ h
    have hk : metaKey as ≠ none := hpad _ (List.mem_cons_self ..)
    simp only [VNode.events] at h1
    obtain ⟨m1, h3, h1⟩ := mRun_cons h1
    obtain ⟨m2, h4, h1⟩ := mRun_cons h1
    have h5 := mRun_one h1
    simp only [mStep] at h3
    unfold metaStart at h3
    rw [if_pos rfl, if_neg (by decide), if_neg (by decide), if_neg (by decide), if_neg (by decide), if_pos rfl] at h3
    simp only [Bind.bind, Except.bind] at h3
    split at h3
    · cases h3
    · rename_i st' hst'
      have := forAttrs_key as hst'
      subst this
      cases h3
      simp only [mStep] at h4
      cases hu : unescape t with
      | none => rw [hu] at h4; cases h4
      | some v =>
        rw [hu] at h4
        cases h4
        simp only [mStep] at h5
        unfold metaEnd at h5
        rw [if_pos rfl, if_neg (by decide), if_neg (by decide), if_neg (by decide), if_neg (by rintro ⟨h, _⟩; exact absurd h (by decide)), if_pos rfl] at h5
        cases hkk : metaKey as with
        | none => exact absurd hkk hk
        | some k =>
          rw [hkk] at h5
          simp only [Option.some_or, metaValue, hs] at h5
          cases h5
          rw [mRun_values ns (fun n hn => hpad n (List.mem_cons_of_mem _ hn)) rfl h2]
          rw [List.filterMap_cons]
          simp only [VNode.pair, hkk, hu, putValues, List.foldl_cons]
  | .value as none :: ns, d, st, s, hpad, hs, h => by
    rw [List.flatMap_cons] at h
    obtain ⟨m, h1, h2⟩ := mRun_append _ h
    simp only [VNode.events] at h1
    obtain ⟨m1, h3, h1⟩ := mRun_cons h1
    have h5 := mRun_one h1
    simp only [mStep] at h3
    unfold metaStart at h3
    rw [if_pos rfl, if_neg (by decide), if_neg (by decide), if_neg (by decide), if_neg (by decide), if_pos rfl] at h3
    simp only [Bind.bind, Except.bind] at h3
    split at h3
    · cases h3
    · rename_i st' hst'
      have := forAttrs_key as hst'
      subst this
      cases h3
      simp only [mStep] at h5
      unfold metaEnd at h5
      rw [if_pos rfl, if_neg (by decide), if_neg (by decide), if_neg (by decide), if_neg (by rintro ⟨h, _⟩; exact absurd h (by decide)), if_pos rfl] at h5
      simp only [metaValue] at h5
      cases h5
      exact mRun_values ns (fun n hn => hpad n (List.mem_cons_of_mem _ hn)) (by exact hs) h2

end Folia
