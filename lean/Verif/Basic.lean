/-!
# Strings, outcomes and small helpers shared by the model

Everything here is a plain total function. Strings are lists of Unicode scalar
values (`Char`), because the Rust code mixes character and byte positions and both
are easy to express over lists of characters.
-/

namespace XmlDom

/-- A Rust `String`/`&str` as its sequence of Unicode scalar values. -/
abbrev Str := List Char

open Lean in
/-- `c! "abc"` is the character list `['a', 'b', 'c']`, spelled out so that the kernel
can compute with it. -/
macro "c! " s:str : term => do
  let cs ← s.getString.toList.mapM fun c =>
    pure (⟨Syntax.mkCharLit c⟩ : TSyntax `term)
  let arr := cs.toArray
  `([$arr,*])

/-- The DOM error enumeration, `/repo/src/shared/error.rs` 24-61. -/
inductive DomError
  | indexSize | stringSize | hierarchyRequest | wrongDocument | invalidCharacter
  | noDataAllowed | noModificationAllowed | notFound | notSupported | inUseAttribute
  | invalidState | syntax | invalidModification | namespace | invalidAccess
  deriving DecidableEq, Repr

/-- Why a Rust panic happened. Only the fact that it is a panic matters to the
properties; the kind documents the source of the panic. -/
inductive PanicKind
  /-- `unwrap`/`expect` on `None` or `Err` -/
  | unwrap
  /-- `RefCell` already borrowed -/
  | borrow
  /-- string slice off a char boundary or out of range -/
  | slice
  /-- integer overflow with overflow checks on -/
  | overflow
  /-- vector index out of bounds -/
  | index
  /-- an explicit `panic!` or failed `assert!` -/
  | explicit
  deriving DecidableEq, Repr

/-- The outcome of a modelled call: a Rust `Ok`/plain value, a Rust `Err`, a panic, or
unbounded recursion (which overflows the stack of the real program). -/
inductive Outcome (α : Type)
  | ok (a : α)
  | err (e : DomError)
  | panic (k : PanicKind)
  | diverge
  deriving DecidableEq, Repr

namespace Outcome

/-- Rust's `?`/sequencing on outcomes. -/
@[inline] def bind {α β : Type} (x : Outcome α) (f : α → Outcome β) : Outcome β :=
  match x with
  | ok a => f a
  | err e => err e
  | panic k => panic k
  | diverge => diverge

@[simp] theorem bind_ok {α β : Type} (a : α) (f : α → Outcome β) : (ok a).bind f = f a := rfl
@[simp] theorem bind_err {α β : Type} (e : DomError) (f : α → Outcome β) :
    (err e : Outcome α).bind f = err e := rfl
@[simp] theorem bind_panic {α β : Type} (k : PanicKind) (f : α → Outcome β) :
    (panic k : Outcome α).bind f = panic k := rfl
@[simp] theorem bind_diverge {α β : Type} (f : α → Outcome β) :
    (diverge : Outcome α).bind f = diverge := rfl

/-- Apply a function to the value of a successful outcome. -/
@[inline] def map {α β : Type} (f : α → β) (x : Outcome α) : Outcome β :=
  x.bind fun a => ok (f a)

@[simp] theorem map_ok {α β : Type} (a : α) (f : α → β) : (ok a).map f = ok (f a) := rfl
@[simp] theorem map_err {α β : Type} (e : DomError) (f : α → β) :
    (err e : Outcome α).map f = err e := rfl
@[simp] theorem map_panic {α β : Type} (k : PanicKind) (f : α → β) :
    (panic k : Outcome α).map f = panic k := rfl
@[simp] theorem map_diverge {α β : Type} (f : α → β) :
    (diverge : Outcome α).map f = diverge := rfl

/-- `Result::unwrap`: an error becomes a panic. -/
@[inline] def unwrap {α : Type} (x : Outcome α) : Outcome α :=
  match x with
  | err _ => panic .unwrap
  | x => x

/-- The call returned (a value or an error), it neither panicked nor ran forever. -/
def Returns {α : Type} : Outcome α → Prop
  | ok _ => True
  | err _ => True
  | panic _ => False
  | diverge => False

/-- The call panicked. -/
def Panics {α : Type} : Outcome α → Prop
  | panic _ => True
  | _ => False

/-- The call returned a Rust `Err`. -/
def IsErr {α : Type} : Outcome α → Prop
  | err _ => True
  | _ => False

/-- The call returned a value. -/
def IsOk {α : Type} : Outcome α → Prop
  | ok _ => True
  | _ => False

instance {α : Type} (x : Outcome α) : Decidable x.Returns := by
  cases x <;> unfold Returns <;> infer_instance
instance {α : Type} (x : Outcome α) : Decidable x.Panics := by
  cases x <;> unfold Panics <;> infer_instance
instance {α : Type} (x : Outcome α) : Decidable x.IsErr := by
  cases x <;> unfold IsErr <;> infer_instance
instance {α : Type} (x : Outcome α) : Decidable x.IsOk := by
  cases x <;> unfold IsOk <;> infer_instance

@[simp] theorem returns_ok {α : Type} (a : α) : (ok a).Returns := trivial
@[simp] theorem returns_err {α : Type} (e : DomError) : (err e : Outcome α).Returns := trivial
@[simp] theorem not_returns_panic {α : Type} (k : PanicKind) :
    ¬ (panic k : Outcome α).Returns := id
@[simp] theorem not_returns_diverge {α : Type} : ¬ (diverge : Outcome α).Returns := id
@[simp] theorem panics_panic {α : Type} (k : PanicKind) : (panic k : Outcome α).Panics := trivial
@[simp] theorem not_panics_ok {α : Type} (a : α) : ¬ (ok a).Panics := id
@[simp] theorem not_panics_err {α : Type} (e : DomError) : ¬ (err e : Outcome α).Panics := id
@[simp] theorem not_panics_diverge {α : Type} : ¬ (diverge : Outcome α).Panics := id
@[simp] theorem isErr_err {α : Type} (e : DomError) : (err e : Outcome α).IsErr := trivial
@[simp] theorem not_isErr_ok {α : Type} (a : α) : ¬ (ok a).IsErr := id
@[simp] theorem not_isErr_panic {α : Type} (k : PanicKind) : ¬ (panic k : Outcome α).IsErr := id
@[simp] theorem not_isErr_diverge {α : Type} : ¬ (diverge : Outcome α).IsErr := id
@[simp] theorem isOk_ok {α : Type} (a : α) : (ok a).IsOk := trivial
@[simp] theorem not_isOk_err {α : Type} (e : DomError) : ¬ (err e : Outcome α).IsOk := id
@[simp] theorem not_isOk_panic {α : Type} (k : PanicKind) : ¬ (panic k : Outcome α).IsOk := id
@[simp] theorem not_isOk_diverge {α : Type} : ¬ (diverge : Outcome α).IsOk := id

end Outcome

/-! ## Byte positions (Rust string offsets are UTF-8 byte offsets) -/

/-- `str::len`: the number of UTF-8 bytes. -/
def byteLen : Str → Nat
  | [] => 0
  | c :: cs => c.utf8Size + byteLen cs

/-- Split at a byte offset. `none` when the offset is past the end or inside a
character, which is when Rust slicing panics. -/
def splitAtByte : Nat → Str → Option (Str × Str)
  | 0, s => some ([], s)
  | _ + 1, [] => none
  | n + 1, c :: cs =>
    if c.utf8Size ≤ n + 1 then
      match splitAtByte (n + 1 - c.utf8Size) cs with
      | some (a, b) => some (c :: a, b)
      | none => none
    else none

/-- `str::split(sep)` for a single character separator: the pieces between the
separators, always at least one piece. -/
def splitOn (sep : Char) : Str → List Str
  | [] => [[]]
  | c :: cs =>
    if c = sep then [] :: splitOn sep cs
    else match splitOn sep cs with
      | [] => [[c]]
      | p :: ps => (c :: p) :: ps

/-- Lower-case ASCII letters only, `str::to_ascii_lowercase`. -/
def asciiLower (c : Char) : Char :=
  if 'A' ≤ c ∧ c ≤ 'Z' then Char.ofNat (c.toNat + 32) else c

/-- `char::is_ascii_uppercase` -/
def isAsciiUpper (c : Char) : Bool := decide ('A' ≤ c ∧ c ≤ 'Z')
/-- `char::is_ascii_lowercase` -/
def isAsciiLower (c : Char) : Bool := decide ('a' ≤ c ∧ c ≤ 'z')
/-- `char::is_ascii_digit` -/
def isAsciiDigit (c : Char) : Bool := decide ('0' ≤ c ∧ c ≤ '9')

/-! ## Hash maps as association lists

`HashMap::insert`, `remove` and `get`. The list order carries no meaning: every
function of the model that iterates over a map first applies an arbitrary permutation
chosen by the environment. -/

/-- `HashMap::get` -/
def mapGet {κ ν : Type} [DecidableEq κ] (k : κ) : List (κ × ν) → Option ν
  | [] => none
  | (k', v) :: m => if k' = k then some v else mapGet k m

/-- `HashMap::remove` -/
def mapRemove {κ ν : Type} [DecidableEq κ] (k : κ) (m : List (κ × ν)) : List (κ × ν) :=
  m.filter fun e => decide (e.1 ≠ k)

/-- `HashMap::insert` -/
def mapInsert {κ ν : Type} [DecidableEq κ] (k : κ) (v : ν) (m : List (κ × ν)) :
    List (κ × ν) :=
  (k, v) :: mapRemove k m

end XmlDom
