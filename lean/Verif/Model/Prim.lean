/-!
# Primitive types shared by the whole model

Nothing in this file models a particular function of `/repo`; it fixes how Rust values and
outcomes are represented.
-/

namespace Rescan

/-- Rust `u8`. -/
abbrev U8 := BitVec 8
/-- Rust `u16` (storage of `Flags`, src/lib.rs:135). -/
abbrev U16 := BitVec 16
/-- Rust `u32` where individual bits matter (`PosFlags`, src/parser/position.rs:7).  `u32` values
that are only counted or compared are `Nat` with explicit range checks. -/
abbrev U32 := BitVec 32
/-- Rust `u64`. -/
abbrev U64 := BitVec 64

/-- Rust `&str`: a sequence of Unicode scalar values (Lean's `Char` is exactly that set). -/
abbrev Str := List Char

/-- Rust `str::len`: the length in bytes of the UTF-8 encoding. -/
def utf8Len (s : Str) : Nat := (s.map Char.utf8Size).sum

/-- Cargo build profile.  `debug` has `debug_assert!` and integer-overflow checks enabled (both
panic); `release` disables both (overflow wraps). -/
inductive Profile where
  | debug
  | release
deriving DecidableEq, Repr

/-- src/util/compile_error.rs:17-26 `ErrorKind`. -/
inductive ErrorKind where
  | parse
  | locatedParse
  | resourceLimit
  | other
deriving DecidableEq, Repr

/-- src/util/compile_error.rs:5-13 `CompileError`. -/
structure CompileError where
  kind : ErrorKind
  reason : String
  index : Option Nat
deriving DecidableEq, Repr

/-- Outcome of a Rust call returning `Result<α, ε>`.  Besides the two `Result` variants the call may
panic.  `timeout` is not a Rust outcome: it says that a loop of the model used up its iteration
bound (`fuel`); a Rust loop diverges iff its model times out for every bound.  Rust functions that
return no `Result` never use `err`. -/
inductive Outcome (ε α : Type) where
  | ok (a : α)
  | err (e : ε)
  | panic (msg : String)
  | timeout
deriving DecidableEq, Repr

/-- Outcome of a Rust call returning `Result<α, CompileError>`. -/
abbrev Res (α : Type) := Outcome CompileError α

namespace Outcome

variable {ε α β : Type}

/-- Sequencing: the `?` operator, with panics propagating. -/
def bind (x : Outcome ε α) (f : α → Outcome ε β) : Outcome ε β :=
  match x with
  | .ok a => f a
  | .err e => .err e
  | .panic m => .panic m
  | .timeout => .timeout

instance : Monad (Outcome ε) where
  pure := Outcome.ok
  bind := Outcome.bind

/-- Does the call return `Ok`? -/
def isOk : Outcome ε α → Bool
  | .ok _ => true
  | _ => false

/-- Does the call return `Err`? -/
def isErr : Outcome ε α → Bool
  | .err _ => true
  | _ => false

/-- Does the call panic? -/
def isPanic : Outcome ε α → Bool
  | .panic _ => true
  | _ => false

/-- `Option::expect` / `Result::expect`: panic with `msg` on `None`. -/
def expect (o : Option α) (msg : String) : Outcome ε α :=
  match o with
  | some a => .ok a
  | none => .panic msg

end Outcome

/-- Rust's `assert!` on a condition: panic with `msg` unless `b`. -/
def rassert {ε : Type} (b : Bool) (msg : String) : Outcome ε Unit :=
  if b then .ok () else .panic msg

/-- Rust's `debug_assert!`: checked only in the debug profile. -/
def rdebugAssert {ε : Type} (p : Profile) (b : Bool) (msg : String) : Outcome ε Unit :=
  if p = .debug ∧ b = false then .panic msg else .ok ()

/-- `u64::count_ones` (std): the number of one bits. -/
def countOnes (w : U64) : Nat := (List.range 64).countP (fun i => w.getLsbD i)

/-- `u64::trailing_zeros` (std): the number of zero bits below the lowest one bit, 64 for zero. -/
def trailingZeros (w : U64) : Nat := ((List.range 64).find? (fun i => w.getLsbD i)).getD 64

/-- `u64::leading_zeros` (std): the number of zero bits above the highest one bit, 64 for zero. -/
def leadingZeros (w : U64) : Nat := ((List.range 64).find? (fun i => w.getLsbD (63 - i))).getD 64

/-- A Rust `HashMap`/`BTreeMap` used only through keyed lookup: an association list. -/
def alookup {α β : Type} [DecidableEq α] (m : List (α × β)) (k : α) : Option β :=
  (m.find? (fun e => e.1 == k)).map Prod.snd

/-- `HashSet::insert` (std) on a set held as a duplicate-free list. -/
def setInsert {α : Type} [DecidableEq α] (s : List α) (x : α) : List α :=
  if x ∈ s then s else s ++ [x]

/-- `HashSet::extend` (std). -/
def setExtend {α : Type} [DecidableEq α] (s t : List α) : List α :=
  t.foldl setInsert s

end Rescan
