import Verif.Base
/-! Keyed stores (`src/store.rs`). -/
namespace Folia

/-- `HashMap<String,Key>` used as an index. Only lookups are observable, so it is an association list in which the newest entry
shadows older ones. -/
abbrev Index := List (String × Nat)

/-- `HashMap::get`. -/
def Index.find (ix : Index) (id : String) : Option Nat :=
  match ix with
  | [] => none
  | (k, v) :: rest => if k = id then some v else Index.find rest id

/-- `HashMap::insert`. -/
def Index.insert (ix : Index) (id : String) (k : Nat) : Index := (id, k) :: ix

/-- The data of a type implementing `Store` (src/store.rs:40-50): `items` and `index`. -/
structure Store (α : Type) where
  items : List (Option α) := []
  index : Index := []

/-- `Storable` (src/store.rs:15-36): optional identifier and key assignment. `encodable` is handled by the callers. -/
class Storable (α : Type) where
  maybeId : α → Option String
  assignKey : α → Nat → α

namespace Store
variable {α : Type}

/-- `Store::get` (src/store.rs:106-112). -/
def get (s : Store α) (key : Nat) : Option α :=
  match s.items[key]? with
  | some (some a) => some a
  | _ => none

/-- `Store::get_key` (src/store.rs:85-94). -/
def getKey [Storable α] (s : Store α) (item : α) : Option Nat :=
  match Storable.maybeId item with
  | some id => s.index.find id
  | none => none

/-- `Store::len` (src/store.rs:101-103). -/
def len (s : Store α) : Nat := s.items.length

/-- `Store::add` (src/store.rs:57-81) after the optional call of `encode`; `cap` is the number of values of the key type
(`Key::try_from(len)` fails from `cap` on). -/
def add [Storable α] (cap : Nat) (s : Store α) (item : α) : Res Nat × Store α :=
  match s.getKey item with
  | some key => (.ok key, s)
  | none =>
    if s.items.length < cap then
      let key := s.items.length
      let index := match Storable.maybeId item with
        | some id => s.index.insert id key
        | none => s.index
      (.ok key, { items := s.items ++ [some (Storable.assignKey item key)], index := index })
    else (.error (.err .internal), s)

/-- `Store::id_to_key` (src/store.rs:124-126). -/
def idToKey (s : Store α) (id : String) : Option Nat := s.index.find id

/-- `Store::get_by_id` (src/store.rs:130-134): panics if the index refers to a missing item. -/
def getById (s : Store α) (id : String) : Res (Option α) :=
  match s.idToKey id with
  | none => .ok none
  | some key => match s.get key with
    | some a => .ok (some a)
    | none => .error .panic

/-- Writing through the reference returned by `Store::get_mut` (src/store.rs:115-121): does nothing if there is no such item. -/
def update (s : Store α) (key : Nat) (f : α → α) : Store α :=
  match s.items[key]? with
  | some (some a) => { s with items := s.items.set key (some (f a)) }
  | _ => s

end Store

/-- The data of a type implementing `StringStore` (src/store.rs:146-155). -/
structure StringStore where
  items : List (Option String) := []
  index : Index := []
  deriving DecidableEq

namespace StringStore

/-- `StringStore::get_key` (src/store.rs:173-175). -/
def getKey (s : StringStore) (item : String) : Option Nat := s.index.find item

/-- `StringStore::add` (src/store.rs:158-170). -/
def add (cap : Nat) (s : StringStore) (item : String) : Res Nat × StringStore :=
  match s.getKey item with
  | some key => (.ok key, s)
  | none =>
    if s.items.length < cap then
      (.ok s.items.length, { items := s.items ++ [some item], index := s.index.insert item s.items.length })
    else (.error (.err .internal), s)

/-- `StringStore::get` (src/store.rs:187-193). -/
def get (s : StringStore) (key : Nat) : Option String :=
  match s.items[key]? with
  | some (some a) => some a
  | _ => none

/-- `StringStore::len` (src/store.rs:182-184). -/
def len (s : StringStore) : Nat := s.items.length

end StringStore
end Folia
