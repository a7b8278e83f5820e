import Verif.Store
import Verif.Attrib
import Verif.Types
/-! Declarations, processors and metadata (`src/metadata.rs`). -/
namespace Folia

/-- `Declaration` (src/metadata.rs:21-31). `ClassStore` and `SubsetStore` (lines 181-236) are string stores that differ only in the key
type. -/
structure Declaration where
  key : Option Nat := none
  annotationtype : AnnotationType
  set : Option String := none
  alias : Option String := none
  format : Option String := none
  processors : List Nat := []
  classes : Option StringStore := none
  subsets : Option StringStore := none
  subclasses : Option StringStore := none
  deriving DecidableEq

/-- An optional string store that is created on first use (src/metadata.rs:85-94, 98-107, 111-120). -/
def optAdd (cap : Nat) (st : Option StringStore) (s : String) : Res Nat × Option StringStore :=
  let st' := match st with
    | some x => x
    | none => {}
  match st'.getKey s with
  | some k => (.ok k, some st')
  | none => match st'.add cap s with
    | (r, st'') => (r, some st'')

/-- Lookup in an optional string store (src/metadata.rs:57-80). -/
def optGet (st : Option StringStore) (k : Nat) : Option String :=
  match st with
  | some x => x.get k
  | none => none

/-- Key lookup in an optional string store (src/metadata.rs:124-151). -/
def optKey (st : Option StringStore) (s : String) : Option Nat :=
  match st with
  | some x => x.getKey s
  | none => none

namespace Declaration

/-- `Declaration::new` (src/metadata.rs:35-37). -/
def new (annotationtype : AnnotationType) (set alias format : Option String) : Declaration :=
  { annotationtype, set, alias, format }

/-- `Declaration::default_processor` (src/metadata.rs:40-46). -/
def defaultProcessor (d : Declaration) : Option Nat :=
  match d.processors with
  | [p] => some p
  | _ => none

/-- `Declaration::index_id` (src/metadata.rs:49-55). -/
def indexId (t : AnnotationType) (set : Option String) : String :=
  match set with
  | some s => t.asStr ++ "/" ++ s
  | none => t.asStr

/-- `Declaration::get_class` (src/metadata.rs:57-63). -/
def getClass (d : Declaration) (k : Nat) : Option String := optGet d.classes k
/-- `Declaration::get_subset` (src/metadata.rs:65-71). -/
def getSubset (d : Declaration) (k : Nat) : Option String := optGet d.subsets k
/-- `Declaration::get_subclass` (src/metadata.rs:74-80). -/
def getSubclass (d : Declaration) (k : Nat) : Option String := optGet d.subclasses k

/-- `Declaration::add_class` (src/metadata.rs:85-94). -/
def addClass (d : Declaration) (s : String) : Res Nat × Declaration :=
  match optAdd cap32 d.classes s with
  | (r, st) => (r, { d with classes := st })
/-- `Declaration::add_subset` (src/metadata.rs:98-107). -/
def addSubset (d : Declaration) (s : String) : Res Nat × Declaration :=
  match optAdd cap16 d.subsets s with
  | (r, st) => (r, { d with subsets := st })
/-- `Declaration::add_subclass` (src/metadata.rs:111-120). -/
def addSubclass (d : Declaration) (s : String) : Res Nat × Declaration :=
  match optAdd cap32 d.subclasses s with
  | (r, st) => (r, { d with subclasses := st })

/-- `Declaration::class_key` (src/metadata.rs:124-131). -/
def classKey (d : Declaration) (s : String) : Option Nat := optKey d.classes s
/-- `Declaration::subset_key` (src/metadata.rs:134-141). -/
def subsetKey (d : Declaration) (s : String) : Option Nat := optKey d.subsets s
/-- `Declaration::subclass_key` (src/metadata.rs:144-151). -/
def subclassKey (d : Declaration) (s : String) : Option Nat := optKey d.subclasses s

end Declaration

/-- `Storable for Declaration` (src/metadata.rs:154-169). -/
instance : Storable Declaration where
  maybeId d := some (Declaration.indexId d.annotationtype d.set)
  assignKey d k := { d with key := some k }

/-- `HashMap<AnnotationType,usize>` counting (src/metadata.rs:251-260) as a function. -/
def typeCount (items : List (Option Declaration)) : AnnotationType → Nat :=
  items.foldl (fun cnt d => match d with
    | some d => fun t => if t = d.annotationtype then cnt t + 1 else cnt t
    | none => cnt) (fun _ => 0)

/-- `DeclarationStore::default_mask` (src/metadata.rs:250-270). -/
def defaultMask (items : List (Option Declaration)) : List Bool :=
  items.map fun d => match d with
    | some d => typeCount items d.annotationtype == 1
    | none => false

/-- The `filter_map` over `enumerate` of src/metadata.rs:275-285; `i` is the index of the first item. -/
def matchingIndices (t : AnnotationType) : Nat → List (Option Declaration) → List Nat
  | _, [] => []
  | i, some d :: rest => if d.annotationtype = t then i :: matchingIndices t (i + 1) rest else matchingIndices t (i + 1) rest
  | i, none :: rest => matchingIndices t (i + 1) rest

/-- `DeclarationStore::get_default_key` (src/metadata.rs:274-291). The cast `as DecKey` is the identity below 2^16, which the store
guarantees. -/
def getDefaultKey (items : List (Option Declaration)) (t : AnnotationType) : Option Nat :=
  match matchingIndices t 0 items with
  | [k] => some k
  | _ => none

/-- `Metadata` (src/metadata.rs:542-546). `data` is a `HashMap`; the order of the list stands for its arbitrary iteration order. -/
structure Metadata where
  data : List (String × String) := []
  src : Option String := none
  metadatatype : Option String := none
  deriving DecidableEq

/-- `HashMap::insert` on a map with observable iteration: replaces the value of an existing key. -/
def mapInsert {α : Type} (m : List (String × α)) (k : String) (v : α) : List (String × α) :=
  match m with
  | [] => [(k, v)]
  | (k', v') :: rest => if k' = k then (k, v) :: rest else (k', v') :: mapInsert rest k v

/-- `HashMap::get`. -/
def mapFind {α : Type} (m : List (String × α)) (k : String) : Option α :=
  match m with
  | [] => none
  | (k', v) :: rest => if k' = k then some v else mapFind rest k

/-- `Processor` (src/metadata.rs:361-382). `pending_processors` (a construction-time field) is modelled as the builder tree
`ProcTree` below; the processor's own `metadata` is never read or written by the library and is left out. -/
structure Processor where
  id : String := ""
  name : String := ""
  processortype : ProcessorType := .auto
  version : String := ""
  foliaVersion : String := ""
  documentVersion : String := ""
  command : String := ""
  host : String := ""
  user : String := ""
  begindatetime : Option DateTime := none
  enddatetime : Option DateTime := none
  processors : List Nat := []
  src : String := ""
  format : String := ""
  resourcelink : String := ""
  parent : Option Nat := none
  key : Option Nat := none
  deriving DecidableEq

/-- `Storable for Processor` (src/metadata.rs:522-536). -/
instance : Storable Processor where
  maybeId p := some p.id
  assignKey p k := { p with key := some k }

/-- A processor together with its `pending_processors` (src/metadata.rs:381, 500-506). -/
inductive ProcTree where
  | node (p : Processor) (pending : List ProcTree)

/-- `Processor::with_existing_subprocessor` (src/metadata.rs:496-499): only the list of the new processor is extended. -/
def ProcTree.withExistingSubprocessor : ProcTree → Nat → ProcTree
  | .node p pending, k => .node { p with processors := p.processors ++ [k] } pending

/-- `Processor::with_new_subprocessor` (src/metadata.rs:500-506). -/
def ProcTree.withNewSubprocessor : ProcTree → ProcTree → ProcTree
  | .node p pending, t => .node p (pending ++ [t])

end Folia
