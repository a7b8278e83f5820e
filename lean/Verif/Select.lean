import Verif.Query
/-! Iterators (`src/select.rs`). -/
namespace Folia

/-- The fields of `SelectIterator` (src/select.rs:315-333) that never change. -/
structure SelCfg where
  doc : Document
  selector : Selector
  recursion : Recursion
  inclusive : Bool
  spanreferences : Bool

/-- The changing fields of `SelectIterator` (src/select.rs:315-333). The top of the stack is the head of the list. -/
structure SelState where
  stack : List (Nat × Nat)
  iteration : Nat := 0
  returned : List Bool := []
  returnedOffset : Nat := 0
  deriving DecidableEq

/-- `SelectItem` (src/select.rs:365-370). -/
structure SelectItem where
  data : Data
  parentKey : Nat
  cursor : Nat
  depth : Nat

/-- `SelectIterator::new` (src/select.rs:338-351): the initial state for a start element. -/
def SelState.init (key : Nat) : SelState := { stack := [(key, 0)] }

/-- `SelectIterator::already_returned` (src/select.rs:463-502). -/
def alreadyReturned (st : SelState) (key : Nat) : Bool × SelState :=
  let off := if st.returned.isEmpty && st.returnedOffset == 0 then key else st.returnedOffset
  if key < off then
    let l := off - key
    (false, { st with returned := true :: (List.replicate (l - 1) false ++ st.returned), returnedOffset := key })
  else if key - off ≥ st.returned.length then
    let grown := st.returned ++ List.replicate (key - off + 1 - st.returned.length) false
    (false, { st with returned := grown.set (key - off) true, returnedOffset := off })
  else
    match st.returned[key - off]? with
    | some true => (true, { st with returnedOffset := off })
    | _ => (false, { st with returned := st.returned.set (key - off) true, returnedOffset := off })

/-- What one round of the body of `next` does: return an item, call itself again, return `None`, or fail. -/
inductive StepOut where
  | yield (i : SelectItem)
  | again
  | done
  | fault (f : Fault)

/-- The item for the start element (src/select.rs:391-405): `parent_key` and the reference to the element as held by its parent, or
the store's `root` (always `Element(0)`) if there is no other parent. -/
def startItem (d : Document) (key : Nat) (e : ElementData) : Res (Nat × Data) :=
  let parentKey := match e.parent with
    | some p => p
    | none => key
  if parentKey = key then .ok (parentKey, .element 0)
  else match d.getElement parentKey with
    | some p => match p.index key with
      | some i => match p.data[i]? with
        | some x => .ok (parentKey, x)
        | none => .error .panic
      | none => .error .panic
    | none => .error .panic

/-- The part of `next` that pops the stack (src/select.rs:410-455). -/
def stepStack (cfg : SelCfg) (st : SelState) : StepOut × SelState :=
  match st.stack with
  | [] => (.done, st)
  | (key, cursor) :: rest =>
    match cfg.doc.getElement key with
    | none => (.fault .panic, { st with stack := rest })
    | some parent =>
      match parent.data[cursor]? with
      | none => (.again, { st with stack := rest })
      | some item =>
        let stack1 := (key, cursor + 1) :: rest
        let depth := stack1.length
        let stack2 := if cfg.recursion.eval parent.elementtype then
            match item with
            | .element k => (k, 0) :: stack1
            | _ => stack1
          else stack1
        let st1 := { st with stack := stack2 }
        let out : StepOut := .yield { data := item, parentKey := key, cursor, depth }
        match cfg.selector.matches cfg.doc item with
        | .error f => (.fault f, st1)
        | .ok false => (.again, st1)
        | .ok true =>
          if cfg.spanreferences then
            match item with
            | .spanReference k =>
              match alreadyReturned st1 k with
              | (true, st2) => (.again, st2)
              | (false, st2) => (out, st2)
            | .element k =>
              match cfg.doc.getElement k with
              | some e =>
                if ElementGroup.span.contains e.elementtype then
                  match alreadyReturned st1 k with
                  | (true, st2) => (.again, st2)
                  | (false, st2) => (out, st2)
                else (out, st1)
              | none => (out, st1)
            | _ => (out, st1)
          else (out, st1)

/-- One round of the body of `SelectIterator::next` (src/select.rs:382-456). -/
def step (cfg : SelCfg) (st0 : SelState) : StepOut × SelState :=
  let st := { st0 with iteration := st0.iteration + 1 }
  if st.iteration = 1 ∧ cfg.selector.matchable = false then (.done, st)
  else if cfg.inclusive = true ∧ st.iteration = 1 then
    match st.stack with
    | (key, _) :: _ => match cfg.doc.getElement key with
      | some e => match startItem cfg.doc key e with
        | .error f => (.fault f, st)
        | .ok (parentKey, item) => match cfg.selector.matches cfg.doc item with
          | .error f => (.fault f, st)
          | .ok true => (.yield { data := item, parentKey, cursor := 0, depth := 0 }, st)
          | .ok false => stepStack cfg st
      | none => stepStack cfg st
    | [] => stepStack cfg st
  else stepStack cfg st

/-- `SelectIterator::next` (src/select.rs:382-456); the fuel bounds its self-calls. -/
def selNext (cfg : SelCfg) : Nat → SelState → Res (Option SelectItem) × SelState
  | 0, st => (.error .fuel, st)
  | n + 1, st => match step cfg st with
    | (.yield i, st') => (.ok (some i), st')
    | (.again, st') => selNext cfg n st'
    | (.done, st') => (.ok none, st')
    | (.fault f, st') => (.error f, st')

/-- A `for` loop over a `SelectIterator` up to the first `None`, collecting the items; the fuel bounds the total number of rounds. -/
def selCollect (cfg : SelCfg) : Nat → SelState → Res (List SelectItem)
  | 0, _ => .error .fuel
  | n + 1, st => match step cfg st with
    | (.yield i, st') => (selCollect cfg n st').map (i :: ·)
    | (.again, st') => selCollect cfg n st'
    | (.done, _) => .ok []
    | (.fault f, _) => .error f

/-- `SelectElementsIterator::next` (src/select.rs:583-599): the key of the next element. The fuel bounds the skipping of other items
and each inner call. -/
def selNextElement (cfg : SelCfg) (F : Nat) : Nat → SelState → Res (Option Nat) × SelState
  | 0, st => (.error .fuel, st)
  | n + 1, st => match selNext cfg F st with
    | (.ok (some i), st') => match i.data with
      | .element k | .spanReference k => match cfg.doc.getElement k with
        | some _ => (.ok (some k), st')
        | none => (.error .panic, st')
      | _ => selNextElement cfg F n st'
    | (.ok none, st') => (.ok none, st')
    | (.error f, st') => (.error f, st')

/-- The keys of the elements among the items (`SelectElementsIterator`, src/select.rs:583-599), panicking on missing elements. -/
def elementKeys (d : Document) : List SelectItem → Res (List Nat)
  | [] => .ok []
  | i :: is => match i.data with
    | .element k | .spanReference k => match d.getElement k with
      | some _ => (elementKeys d is).map (k :: ·)
      | none => .error .panic
    | _ => elementKeys d is

/-- `SelectElements::select_by_key` run to the end (src/select.rs:621-623). -/
def selectByKey (d : Document) (F : Nat) (key : Nat) (s : Selector) (r : Recursion) (inclusive spanreferences : Bool) :
    Res (List Nat) := do
  let items ← selCollect { doc := d, selector := s, recursion := r, inclusive, spanreferences } F (.init key)
  elementKeys d items

/-- `SelectElements::select` on an element (src/select.rs:630-632). -/
def select (d : Document) (F : Nat) (key : Nat) (s : Selector) (r : Recursion) : Res (List Nat) :=
  selectByKey d F key s r false true

/-- First result of `SelectElements::select` on an element. -/
def selectFirst (d : Document) (F : Nat) (key : Nat) (s : Selector) (r : Recursion) : Res (Option Nat) :=
  (selNextElement { doc := d, selector := s, recursion := r, inclusive := false, spanreferences := true } F F (.init key)).1

/-- `AncestorIterator::next` (src/select.rs:661-679): the matching ancestor's key, which is also the iterator's new position
(`None` leaves the iterator where the search stopped). The fuel bounds the self-calls. -/
def ancNext (d : Document) (s : Selector) (r : Recursion) : Nat → Nat → Res (Option Nat)
  | 0, _ => .error .fuel
  | n + 1, key => match d.getElement key with
    | none => .ok none
    | some e => match e.parent with
      | none => .ok none
      | some p => match s.matches d (.element p) with
        | .error f => .error f
        | .ok true => match d.getElement p with
          | some _ => .ok (some p)
          | none => .error .panic
        | .ok false => match d.getElement p with
          | none => .error .panic
          | some pe => if r.eval pe.elementtype then ancNext d s r n p else .ok none

/-- A `for` loop over an `AncestorIterator` (src/select.rs:661-679); the fuel bounds the number of elements visited. -/
def ancCollect (d : Document) (s : Selector) (r : Recursion) : Nat → Nat → Res (List Nat)
  | 0, _ => .error .fuel
  | n + 1, key => match d.getElement key with
    | none => .ok []
    | some e => match e.parent with
      | none => .ok []
      | some p => match s.matches d (.element p) with
        | .error f => .error f
        | .ok true => match d.getElement p with
          | some _ => (ancCollect d s r n p).map (p :: ·)
          | none => .error .panic
        | .ok false => match d.getElement p with
          | none => .error .panic
          | some pe => if r.eval pe.elementtype then ancCollect d s r n p else .ok []

/-- `Document::ancestors_by_key` and `Element::ancestors` (src/select.rs:698-707) run to the end. -/
def ancestors (d : Document) (F : Nat) (key : Nat) (s : Selector) : Res (List Nat) := ancCollect d s .always F key

/-- One sibling of `common_ancestors` (src/select.rs:711-720). -/
def commonStep (d : Document) (F : Nat) (s : Selector) (result : List Nat) (sibling : Nat) : Res (List Nat) :=
  match d.getElement sibling with
  | none => .ok result
  | some _ => match ancestors d F sibling s with
    | .error f => .error f
    | .ok anc => if result.isEmpty then .ok anc else .ok (result.filter (anc.contains ·))

/-- `Document::common_ancestors` (src/select.rs:709-722). -/
def commonAncestors (d : Document) (F : Nat) (s : Selector) : List Nat → List Nat → Res (List Nat)
  | result, [] => .ok result
  | result, k :: ks => match commonStep d F s result k with
    | .error f => .error f
    | .ok r => commonAncestors d F s r ks

/-! ### High-level lookups of `Element` (src/element.rs:526-615) -/

/-- `Element::get_elements` (src/element.rs:541-543); a query error is a panic. `get_annotations` (535-537) is the case
`t = annotationtype.elementtype()`. -/
def getElements (d : Document) (F : Nat) (key : Nat) (t : ElementType) (set : Cmp String) (r : Recursion) : Res (List Nat) := do
  let s ← unwrapRes (Selector.fromQuery d { elementtype := .is t, set })
  select d F key s r

/-- `Element::get_element` (src/element.rs:547-553). -/
def getFirstElement (d : Document) (F : Nat) (key : Nat) (t : ElementType) (set : Cmp String) (r : Recursion) : Res (Option Nat) := do
  let s ← unwrapRes (Selector.fromQuery d { elementtype := .is t, set })
  selectFirst d F key s r

/-- `Element::get_annotation` (src/element.rs:529-531). -/
def getAnnotation (d : Document) (F : Nat) (key : Nat) (t : AnnotationType) (set : Cmp String) (r : Recursion) : Res (Option Nat) :=
  getFirstElement d F key t.elementtype set r

/-- The query of `Element::get_features` (src/element.rs:559-568). -/
def featureQuery (d : Document) (e : ElementData) (subset : Cmp String) : Res Query := do
  let set ← e.getSet d
  return { elementtype := .is .feature, contexttype := .is e.elementtype,
           set := match set with
             | some s => .is s
             | none => .none,
           subset }

/-- `Element::get_features` (src/element.rs:557-570). -/
def getFeatures (d : Document) (F : Nat) (key : Nat) (e : ElementData) (subset : Cmp String) : Res (List Nat) := do
  let q ← featureQuery d e subset
  let s ← unwrapRes (Selector.fromQuery d q)
  select d F key s .no

/-- `Element::get_ancestors` (src/element.rs:605-607); `get_ancestor` (587-593) is its first result. -/
def getAncestors (d : Document) (F : Nat) (key : Nat) (t : ElementType) (set : Cmp String) : Res (List Nat) := do
  let s ← unwrapRes (Selector.fromQuery d { elementtype := .is t, set })
  ancestors d F key s

/-- `Element::get_ancestors_by_group` (src/element.rs:611-613). -/
def getAncestorsByGroup (d : Document) (F : Nat) (key : Nat) (g : ElementGroup) (set : Cmp String) : Res (List Nat) := do
  let s ← unwrapRes (Selector.fromQuery d { elementgroup := .is g, set })
  ancestors d F key s

end Folia
