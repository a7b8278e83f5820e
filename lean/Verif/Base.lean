/-! Outcomes of Rust functions and the state monad of mutating methods. -/
namespace Folia

/-- The variants of `FoliaError` (src/error.rs:9-31). The payload (message text) is not modelled. -/
inductive ErrKind where
  | io | xml | parse | serialisation | incomplete | validation | internal | encode | key | query | type | noText | index
  deriving DecidableEq, Repr

/-- Everything that can prevent a Rust function from returning a value: an `Err(FoliaError)`, a panic
(`unwrap`/`expect`/`unreachable!`/index out of bounds), or running out of the fuel that bounds the model's unrolling of an
unbounded Rust loop or recursion. -/
inductive Fault where
  | err (k : ErrKind)
  | panic
  | fuel
  deriving DecidableEq, Repr

/-- Result of a function that does not mutate. -/
abbrev Res (α : Type) := Except Fault α

instance {α : Type} [DecidableEq α] : DecidableEq (Res α)
  | .ok a, .ok b => decidable_of_iff (a = b) ⟨congrArg _, Except.ok.inj⟩
  | .error a, .error b => decidable_of_iff (a = b) ⟨congrArg _, Except.error.inj⟩
  | .ok _, .error _ => isFalse nofun
  | .error _, .ok _ => isFalse nofun

/-- A method on `&mut σ`: the new state is present also when the method fails, because the caller still owns the value. -/
def M (σ α : Type) := σ → Res α × σ

namespace M
variable {σ α β : Type}

/-- Return without touching the state. -/
protected def pure (a : α) : M σ α := fun s => (.ok a, s)
/-- Sequencing with the `?` operator: a fault ends the method, keeping the state reached so far. -/
protected def bind (m : M σ α) (f : α → M σ β) : M σ β := fun s =>
  match m s with
  | (.ok a, s') => f a s'
  | (.error e, s') => (.error e, s')

instance : Monad (M σ) where
  pure := M.pure
  bind := M.bind

/-- Fail with a fault. -/
def throw (e : Fault) : M σ α := fun s => (.error e, s)
/-- Return an `Err`. -/
def err (k : ErrKind) : M σ α := throw (.err k)
/-- Read the state. -/
def get : M σ σ := fun s => (.ok s, s)
/-- Replace the state. -/
def set (s : σ) : M σ Unit := fun _ => (.ok (), s)
/-- Update the state. -/
def modify (f : σ → σ) : M σ Unit := fun s => (.ok (), f s)
/-- A read-only computation that can fault (`?` on a `Result` of a `&self` method). -/
def ofRes (r : σ → Res α) : M σ α := fun s => (r s, s)
/-- Run a method without propagating its `Err` (for `if let Ok(..)` and `match`); panics and exhausted fuel still propagate. -/
def attempt (m : M σ α) : M σ (Option α) := fun s =>
  match m s with
  | (.ok a, s') => (.ok (some a), s')
  | (.error (.err _), s') => (.ok none, s')
  | (.error e, s') => (.error e, s')
/-- `map_err`: replace the variant of an `Err`. -/
def mapErr (k : ErrKind) (m : M σ α) : M σ α := fun s =>
  match m s with
  | (.error (.err _), s') => (.error (.err k), s')
  | r => r
/-- `for x in list { .. ? }`. -/
def forEach (f : α → M σ Unit) : List α → M σ Unit
  | [] => pure ()
  | a :: as => do f a; forEach f as

@[simp] theorem run_pure (a : α) (s : σ) : (pure a : M σ α) s = (.ok a, s) := rfl
@[simp] theorem run_throw (e : Fault) (s : σ) : (throw e : M σ α) s = (.error e, s) := rfl
@[simp] theorem run_err (k : ErrKind) (s : σ) : (err k : M σ α) s = (.error (.err k), s) := rfl
@[simp] theorem run_get (s : σ) : (get : M σ σ) s = (.ok s, s) := rfl
@[simp] theorem run_set (s s' : σ) : (set s' : M σ Unit) s = (.ok (), s') := rfl
@[simp] theorem run_modify (f : σ → σ) (s : σ) : modify f s = (.ok (), f s) := rfl
@[simp] theorem run_ofRes (r : σ → Res α) (s : σ) : ofRes r s = (r s, s) := rfl
theorem run_bind (m : M σ α) (f : α → M σ β) (s : σ) :
    (m >>= f) s = match m s with | (.ok a, s') => f a s' | (.error e, s') => (.error e, s') := rfl

end M

/-- `Option::ok_or(err)?` on a read-only value. -/
def okOr {α : Type} (k : ErrKind) : Option α → Res α
  | some a => .ok a
  | none => .error (.err k)

/-- `Option::expect` / `unwrap`. -/
def expect {α : Type} : Option α → Res α
  | some a => .ok a
  | none => .error .panic

/-- `DEFAULT_TEXT_SET` (src/common.rs:7). -/
def DEFAULT_TEXT_SET : String := "https://raw.githubusercontent.com/proycon/folia/master/setdefinitions/text.foliaset.ttl"
/-- `NSFOLIA` (src/common.rs:1). -/
def NSFOLIA : String := "http://ilk.uvt.nl/folia"
/-- `NSXLINK` (src/common.rs:2). -/
def NSXLINK : String := "http://www.w3.org/1999/xlink"
/-- `FOLIAVERSION` (src/common.rs:4). -/
def FOLIAVERSION : String := "2.1.0"
/-- `GENERATOR` (src/common.rs:5). -/
def GENERATOR : String := "folia-rust"

/-- Number of values of the `u16` key types `DecKey`, `ProcKey`, `SubsetKey` (src/types.rs:13-18). -/
def cap16 : Nat := 2 ^ 16
/-- Number of values of the `u32` key types `ElementKey`, `ClassKey` (src/types.rs:10-21). -/
def cap32 : Nat := 2 ^ 32

end Folia
