import Verif.Model.Compiler
/-! # Aliasing: the unsafe code of src/nfagraph/ng.rs under Stacked Borrows

Rust has no settled aliasing rules.  This is the model implemented by Miri as "Stacked Borrows" (Jung et al., POPL 2020,
with the later treatment of `!Unpin` types): every place in memory has a stack of items, each with a tag, a permission and
perhaps a protector; every pointer has a tag; an access through a tag needs an item with that tag that allows it and removes
or disables the items above that it clashes with.

Memory here is one `Ng` in its box, in three places that the code borrows separately: the field `rm`, the field `smwr`, and
the other fields together.  References to the box itself, to literals, graphs and expressions are in other memory and are
left out.  The values are those of `Ng` (`Model/Compiler.lean`); this file adds the tags. -/
namespace Rescan
namespace Borrows

/-- What an item allows. -/
inductive Perm where
  | unique
  | sharedRW
  | sharedRO
  | disabled
deriving DecidableEq

/-- Reading or writing. -/
inductive Access where
  | read
  | write
deriving DecidableEq

/-- An item of a borrow stack: the tag of a pointer, what it allows, and the call that protects it, if any. -/
structure Item where
  tag : Nat
  perm : Perm
  protector : Option Nat
deriving DecidableEq

/-- Does a permission allow an access? -/
def Perm.grants : Perm → Access → Bool
  | .disabled, _ => false
  | .sharedRO, .write => false
  | _, _ => true

/-- A stack, bottom first. -/
abbrev Stack := List Item

/-- The topmost item with this tag that allows the access, with what lies below and above it. -/
def granting (t : Nat) (k : Access) : Stack → Option (Stack × Item × Stack)
  | [] => none
  | x :: xs =>
    match granting t k xs with
    | some (b, g, a) => some (x :: b, g, a)
    | none => if x.tag = t ∧ x.perm.grants k = true then some ([], x, xs) else none

/-- What a write through an item leaves of the items above: shared read-write items directly above one of that kind. -/
def keptByWrite (g : Item) (above : Stack) : Stack :=
  if g.perm = .sharedRW then above.takeWhile (fun x => x.perm == .sharedRW) else []

/-- What a write removes. -/
def poppedByWrite (g : Item) (above : Stack) : Stack :=
  if g.perm = .sharedRW then above.dropWhile (fun x => x.perm == .sharedRW) else above

/-- Is the item protected by a call that has not returned? -/
def Item.isProtected (calls : List Nat) (x : Item) : Bool :=
  match x.protector with
  | none => false
  | some c => calls.contains c

/-- An access to one place through a tag; `none` is undefined behaviour. -/
def access (calls : List Nat) (t : Nat) (k : Access) (s : Stack) : Option Stack :=
  match granting t k s with
  | none => none
  | some (b, g, a) =>
    match k with
    | .write =>
      if (poppedByWrite g a).any (Item.isProtected calls) then none
      else some (b ++ g :: keptByWrite g a)
    | .read =>
      if a.any (fun x => x.perm == .unique && x.isProtected calls) then none
      else some (b ++ g :: a.map (fun x => if x.perm = .unique then { x with perm := .disabled } else x))

/-- Making a pointer with tag `x.tag` from one with tag `t`.  With an access `k` the access is made and the new item goes
on top; without, the new item (shared read-write) goes above the items that a write through `t` leaves. -/
def retag (calls : List Nat) (t : Nat) (k : Option Access) (x : Item) (s : Stack) : Option Stack :=
  match k with
  | some k => (access calls t k s).map (fun s => s ++ [x])
  | none =>
    match granting t .write s with
    | none => none
    | some (b, g, a) => some (b ++ g :: keptByWrite g a ++ x :: poppedByWrite g a)

/-! ## Memory -/

/-- The places of src/nfagraph/ng.rs:17-31 `Ng`: `rm`, `smwr` and all other fields. -/
inductive Place where
  | rm
  | smwr
  | rest
deriving DecidableEq

/-- The stacks, the next unused tag and call, and the calls that have not returned. -/
structure Mem where
  stacks : Place → Stack
  next : Nat
  calls : List Nat

/-- Changes the stacks of some places; undefined if one of the changes is. -/
def onPlaces (ps : List Place) (f : Stack → Option Stack) (st : Place → Stack) : Option (Place → Stack) :=
  match ps with
  | [] => some st
  | q :: qs =>
    match f (st q) with
    | none => none
    | some s => onPlaces qs f (fun r => if r = q then s else st r)

/-- A computation that may have undefined behaviour (`none`), and otherwise gives a result and the memory. -/
def M (α : Type) := Mem → Option (Res α × Mem)

namespace M

/-- Nothing but a value. -/
protected def pure {α : Type} (a : α) : M α := fun m => some (.ok a, m)

/-- One after the other, stopping at errors and panics. -/
protected def bind {α β : Type} (x : M α) (f : α → M β) : M β := fun m =>
  match x m with
  | none => none
  | some (.ok a, m) => f a m
  | some (.err e, m) => some (.err e, m)
  | some (.panic e, m) => some (.panic e, m)
  | some (.timeout, m) => some (.timeout, m)

instance : Monad M where
  pure := M.pure
  bind := M.bind

/-- A computation that does not touch the memory. -/
def lift {α : Type} (x : Res α) : M α := fun m => some (x, m)

/-- A read or write of places through a pointer. -/
def touch (ps : List Place) (t : Nat) (k : Access) : M Unit := fun m =>
  (onPlaces ps (access m.calls t k) m.stacks).map (fun st => (.ok (), { m with stacks := st }))

/-- A new pointer to places, from an old one. -/
def reborrow (ps : List Place) (t : Nat) (k : Option Access) (perm : Perm) (protector : Option Nat) : M Nat := fun m =>
  (onPlaces ps (retag m.calls t k ⟨m.next, perm, protector⟩) m.stacks).map
    (fun st => (.ok m.next, { m with stacks := st, next := m.next + 1 }))

/-- A function call: it counts as not returned until `f` is done, in whatever way. -/
def inCall {α : Type} (f : Nat → M α) : M α := fun m =>
  match f m.next { m with next := m.next + 1, calls := m.next :: m.calls } with
  | none => none
  | some (r, m') => some (r, { m' with calls := m'.calls.filter (· ≠ m.next) })

/-- All of an `Ng`. -/
def everything : List Place := [.rm, .smwr, .rest]

/-- `&mut Ng` from a pointer to it.  `Ng` is not `Unpin` (src/nfagraph/ng.rs:30): shared read-write, no access, never
protected. -/
def mutNg (t : Nat) : M Nat := reborrow everything t none .sharedRW none

/-- `&Ng` from a pointer to it, as made by `Pin::deref` (src/nfagraph/ng.rs:53). -/
def refNg (t : Nat) : M Nat := reborrow everything t (some .read) .sharedRO none

/-- A method call with `&mut self` on a field (of an `Unpin` type): a unique pointer, protected while the call lasts, used
for reading and writing.  What the method computes is `x` (src/nfagraph/ng.rs:90-121, 126). -/
def methodMut {α : Type} (p : Place) (t : Nat) (x : Res α) : M α := inCall fun c => do
  let u ← reborrow [p] t (some .write) .unique (some c)
  touch [p] u .read
  touch [p] u .write
  lift x

end M

open M

/-- A boxed `Ng`: its value, the tag of the box, and the tag of the pointer `smwr.rm` (src/nfagraph/ng.rs:17-31). -/
structure Boxed where
  ng : Ng
  box : Nat
  ptr : Nat

/-- Memory with nothing borrowed. -/
def Mem.start : Mem := ⟨fun _ => [], 0, []⟩

/-- src/nfagraph/ng.rs:52: the allocation of the box. -/
def alloc : M Nat := fun m =>
  some (.ok m.next, { m with stacks := fun _ => [⟨m.next, .unique, none⟩], next := m.next + 1 })

/-- src/nfagraph/ng.rs:34-59 `new`. -/
def newNg (cc : CompileContext) (numPatterns somPrecision : Nat) : M Boxed := do
  let base ← alloc
  -- 52: a box of a type that is not `Unpin`
  let box ← mutNg base
  -- 53: `&boxed.rm` through `Pin::deref`; `NonNull::from` keeps its tag
  let r ← refNg box
  let ptr ← reborrow [.rm] r (some .read) .sharedRO none
  -- 55-56
  let m ← mutNg box
  let m ← mutNg m
  touch [.smwr] m .write
  -- 58
  let box ← mutNg box
  return ⟨Ng.new cc numPatterns somPrecision, box, ptr⟩

/-- src/nfagraph/ng.rs:67-130 `add_literal`, called as in src/parser/shortcut_literal.rs:76-84. -/
def addLiteral (p : Profile) (o : Boxed) (literal : Ue2Literal) (exprIndex externalReport : Nat) (highlander : Bool)
    (som : SomType) (quiet : Bool) : M (Boxed × Bool) := do
  let m ← mutNg o.box
  let m ← mutNg m
  lift (rdebugAssert p (!literal.isEmpty) "assertion failed: !literal.is_empty()")
  touch [.rest] m .read
  if !o.ng.cc.grey.shortcutLiterals then return (o, false)
  else if mixedSensitivity literal.iter then return (o, false)
  else
    let rm ← methodMut .rm m (match o.ng.rm.registerExtReport externalReport ⟨highlander, exprIndex⟩ with
      | (_, .error e) => .err e
      | (rm, .ok ()) => .ok rm)
    let (rm, rose, id) ← (show M (ReportManager × RoseBuild × Except CompileError Nat) from
      match som with
      | .none => do
        let (rm, ekey) ← (show M (ReportManager × Option Nat) from
          if highlander then do
            let (rm, k) ← methodMut .rm m (rm.getExhaustibleKey externalReport)
            return (rm, some k)
          else return (rm, none))
        let r := makeECallback externalReport 0 ekey quiet
        let (rm, id) ← methodMut .rm m (Ng.lift (rm.getInternalId r))
        return (rm, o.ng.rose, id)
      | _ => do
        lift (rdebugAssert p (!highlander) "assertion failed: !highlander")
        let r := makeSomRelativeCallback externalReport 0 literal.len
        let (rm, id) ← methodMut .rm m (Ng.lift (rm.getInternalId r))
        touch [.rest] m .write
        return (rm, { o.ng.rose with hasSom := true }, id))
    match id with
    | .error e => lift (.err e)
    | .ok id =>
      let rose := rose.add false false literal [id]
      methodMut .rest m (.ok ())
      match Depth.tryFrom literal.len with
      | none => lift (.err (CompileError.new .other "depth overflow"))
      | some d =>
        touch [.rest] m .read
        touch [.rest] m .write
        let smwr ← methodMut .smwr m (o.ng.smwr.addLiteral literal id)
        return ({ o with ng := { o.ng with minWidth := Depth.min o.ng.minWidth d, rm := rm, rose := rose,
                                           smwr := smwr } }, true)

/-- src/nfagraph/ng.rs:61-65 `add_graph`, called as in src/compiler.rs:91-93. -/
def addGraph (o : Boxed) (expr : ExpressionInfo) (g : NgHolder) : M Boxed := do
  let m ← mutNg o.box
  let m ← mutNg m
  if expr.som ≠ .none then
    touch [.rest] m .write
    return { o with ng := o.ng.addGraph expr g }
  else return { o with ng := o.ng.addGraph expr g }

/-- Looking at the `Ng` through `Pin::deref`: `ng.cc` in src/compiler.rs:67 and
src/parser/shortcut_literal.rs:59, `build(&ng)` in src/lib.rs:131 (a protected argument). -/
def look (o : Boxed) : M Unit := inCall fun c => do
  let r ← reborrow everything o.box (some .read) .sharedRO (some c)
  touch everything r .read

/-- src/smallwrite/smallwrite_build.rs:121-124: each id makes a reference to the report manager from the pointer
(`NonNull::as_ref`) and reads through it. -/
def anyMinLength (o : Boxed) : List Nat → M Bool
  | [] => return false
  | id :: ids => do
    let r ← reborrow [.rm] o.ptr (some .read) .sharedRO none
    touch [.rm] r .read
    let x ← lift (o.ng.rm.getReport id)
    if x.minLength > 0 then return true else anyMinLength o ids

/-- src/smallwrite/smallwrite_build.rs:111, 117, 125: `self.poisoned = true`. -/
def poison (u : Nat) (o : Boxed) : M Boxed := do
  touch [.smwr] u .write
  return { o with ng := { o.ng with smwr := { o.ng.smwr with poisoned := true } } }

/-- src/smallwrite/smallwrite_build.rs:102-130 `add_expression`, as a method of `Ng` would call it (nothing does): `&mut
self` is a unique pointer to the builder, protected while the call lasts. -/
def swAddExpression (o : Boxed) (g : NgHolder) (expr : ExpressionInfo) : M Boxed := do
  let m ← mutNg o.box
  inCall fun c => do
    let u ← reborrow [.smwr] m (some .write) .unique (some c)
    touch [.smwr] u .read
    if o.ng.smwr.poisoned then return o
    else if expr.som ≠ .none then poison u o
    else if g.isVacuous then poison u o
    else
      let b ← anyMinLength o g.allReports
      if b then poison u o else lift (.panic "not implemented")

/-- The end of the box (src/lib.rs:132, also after errors): `drop` gets `&mut Ng`, and the memory is given back, which
counts as writing to all of it. -/
def dropNg (o : Boxed) : M Unit := do
  let m ← mutNg o.box
  touch everything m .read
  touch everything m .write
  touch everything o.box .write

/-! ## The compiler -/

/-- src/parser/shortcut_literal.rs:55-86 `shortcut_literal`. -/
def shortcutLiteral (p : Profile) (o : Boxed) (pe : ParsedExpression) : M (Boxed × Bool) := do
  look o
  if !o.ng.cc.grey.allowLiteral then return (o, false)
  else
    match walkComponent p constructLiteralVisitor Ue2Literal.default pe.component with
    | .err _ => return (o, false)
    | .panic m => lift (.panic m)
    | .timeout => lift .timeout
    | .ok lit =>
      if lit.isEmpty then return (o, false)
      else do
        let index ← lift (ReportManager.toU32 pe.expr.index
          "called `Result::unwrap()` on an `Err` value: TryFromIntError(())")
        addLiteral p o lit index pe.expr.report pe.expr.highlander pe.expr.som pe.expr.quiet

/-- src/compiler.rs:60-99 `add_expression`. -/
def addExpression (p : Profile) (o : Boxed) (index : Nat) (expression : Str) (flags : Flags) (id : Nat) : M Boxed := do
  look o
  if utf8Len expression > o.ng.cc.grey.limitPatternLength then
    lift (.err (CompileError.new .other "Pattern length exceeds limit."))
  else
    let pe ← lift (ParsedExpression.new p index expression flags id)
    let pe := if pe.expr.prefilter then { pe with component := prefilterTree pe.component } else pe
    let (o, done) ← shortcutLiteral p o pe
    if done then return o
    else
      let built ← lift (buildGraph p pe)
      addGraph o built.expr built.graph

/-- src/lib.rs:124-129: the loop of `compile_multi_int`. -/
def addAll (p : Profile) : Nat → Boxed → List (Str × Flags × Nat) → M Boxed
  | _, o, [] => return o
  | i, o, (exp, fl, id) :: rest => fun m =>
    match addExpression p o i exp fl id m with
    | none => none
    | some (.ok o, m) => addAll p (i + 1) o rest m
    | some (.panic e, m) => some (.panic e, m)
    | some (.timeout, m) => some (.timeout, m)
    | some (.err e, m) => some ((do
        let idx ← ReportManager.toU32 i
          "called `Result::unwrap()` on an `Err` value: TryFromIntError(())"
        let e ← e.setExpressionIndex p idx
        .err e), m)

/-- The box is dropped when `x` is done, in whatever way (src/lib.rs:127, 132). -/
def thenDrop {α : Type} (o : Boxed) (x : M α) : M α := fun m =>
  match x m with
  | none => none
  | some (r, m) =>
    match dropNg o m with
    | none => none
    | some (_, m) => some (r, m)

/-- src/lib.rs:96-132 `compile_multi_int`. -/
def compileMultiInt (p : Profile) (expressions : List Str) (flags : List Flags) (ids : List Nat) (mode : Mode) (g : Grey) :
    M Database :=
  if expressions.isEmpty then
    lift (.err (CompileError.new .other "Invalid parameter: expressions is empty"))
  else if expressions.length > g.limitPatternCount then
    lift (.err (CompileError.new .other "Number of patterns too large"))
  else do
    let o ← newNg ⟨mode.isStreaming, mode.isVectored, g⟩ expressions.length mode.somPrecision
    thenDrop o do
      let o ← addAll p 0 o (izip expressions flags ids)
      look o
      return build o.ng

end Borrows
end Rescan
