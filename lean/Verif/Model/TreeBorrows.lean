import Verif.Model.Borrows
/-! # Aliasing: the unsafe code of src/nfagraph/ng.rs under Tree Borrows

The other set of aliasing rules implemented by Miri (Villani et al., PLDI 2025).  Every place in memory has a tree of nodes,
one for each pointer that was made from another by a reborrow, with a permission.  An access through a pointer is a *child*
access for the pointers it was made from and for itself, and a *foreign* access for all others; each node changes its
permission accordingly, or the access is undefined.

Places, values and the box are those of `Model/Borrows.lean`, and so is the program; only the rules differ.  A node stands
here for a reborrow of the place.  (Locations outside the range of a reborrow, which get a lazy state, are left out: no
pointer here leaves its range.  Nothing in an `Ng` has interior mutability.) -/
namespace Rescan
namespace TreeBorrows
open Borrows (Access Place Boxed)
open Borrows.M (everything)

/-- The permissions. -/
inductive Perm where
  /-- A `&mut` that has not been written through. -/
  | reserved
  /-- The same after a foreign read while it was protected. -/
  | conflicted
  /-- A `&mut` that has been written through. -/
  | active
  /-- A `&`, or a `&mut` that others have read past. -/
  | frozen
  | disabled
deriving DecidableEq

/-- A node: the tag of a pointer, the tags it descends from (itself first), its permission, and the call that protects it,
if any. -/
structure Node where
  tag : Nat
  path : List Nat
  perm : Perm
  protector : Option Nat
deriving DecidableEq

/-- The nodes of a tree. -/
abbrev Tree := List Node

/-- Is the node protected by a call that has not returned? -/
def Node.isProtected (calls : List Nat) (x : Node) : Bool :=
  match x.protector with
  | none => false
  | some c => calls.contains c

/-- What an access makes of a permission (`prot`: the node is protected; `child`: a child access); `none` is undefined
behaviour.  A protected node must not become disabled. -/
def step (prot child : Bool) (k : Access) (p : Perm) : Option Perm :=
  match child, k, p with
  | true, .read, .disabled => none
  | true, .read, p => some p
  | true, .write, .reserved => some .active
  | true, .write, .conflicted => if prot then none else some .active
  | true, .write, .active => some .active
  | true, .write, _ => none
  | false, .read, .reserved => some (if prot then .conflicted else .reserved)
  | false, .read, .active => if prot then none else some .frozen
  | false, .read, p => some p
  | false, .write, .disabled => some .disabled
  | false, .write, _ => if prot then none else some .disabled

/-- The effect of an access through a pointer with this path on a list of nodes; nodes with `skip` are left alone. -/
def accessAll (calls path : List Nat) (k : Access) (skip : Node → Bool) : Tree → Option Tree
  | [] => some []
  | x :: xs =>
    match (if skip x then some x.perm else step (x.isProtected calls) (path.contains x.tag) k x.perm),
      accessAll calls path k skip xs with
    | some p, some ys => some ({ x with perm := p } :: ys)
    | _, _ => none

/-- The node with a tag. -/
def node (t : Nat) (s : Tree) : Option Node := s.find? (fun x => x.tag == t)

/-- An access to one place through a tag; `none` is undefined behaviour. -/
def access (calls : List Nat) (t : Nat) (k : Access) (s : Tree) : Option Tree :=
  match node t s with
  | none => none
  | some g => accessAll calls g.path k (fun _ => false) s

/-- Making a pointer with tag `t'` from one with tag `t`: a read through `t`, and a new node below. -/
def retag (calls : List Nat) (t t' : Nat) (perm : Perm) (protector : Option Nat) (s : Tree) : Option Tree :=
  match node t s with
  | none => none
  | some g => (access calls t .read s).map (fun s => s ++ [⟨t', t' :: g.path, perm, protector⟩])

/-- The end of the protection of the node with tag `t`: one more access through it, a write if it was written through, for
all nodes except those below it. -/
def releaseTag (calls : List Nat) (t : Nat) (s : Tree) : Option Tree :=
  match node t s with
  | none => some s
  | some g => accessAll calls g.path (if g.perm = .active then .write else .read)
      (fun x => x.path.contains t && x.tag != t) s

/-- The end of the protection of some nodes, one after the other. -/
def releaseTags (calls : List Nat) : List Nat → Tree → Option Tree
  | [], s => some s
  | t :: ts, s =>
    match releaseTag calls t s with
    | none => none
    | some s => releaseTags calls ts s

/-- The end of a call at one place. -/
def release (calls : List Nat) (c : Nat) (s : Tree) : Option Tree :=
  releaseTags calls ((s.filter (fun x => x.protector == some c)).map Node.tag) s

/-! ## Memory -/

/-- The trees, the next unused tag and call, and the calls that have not returned. -/
structure Mem where
  trees : Place → Tree
  next : Nat
  calls : List Nat

/-- Changes the trees of some places; undefined if one of the changes is. -/
def onPlaces (ps : List Place) (f : Tree → Option Tree) (st : Place → Tree) : Option (Place → Tree) :=
  match ps with
  | [] => some st
  | q :: qs =>
    match f (st q) with
    | none => none
    | some s => onPlaces qs f (fun r => if r = q then s else st r)

/-- A computation that may have undefined behaviour (`none`), and otherwise gives a result and the memory. -/
def M (α : Type) := Mem → Option (Res α × Mem)

namespace M

/-- Nothing but a value. -/
protected def pure {α : Type} (a : α) : M α := fun m => some (.ok a, m)

/-- One after the other, stopping at errors and panics. -/
protected def bind {α β : Type} (x : M α) (f : α → M β) : M β := fun m =>
  match x m with
  | none => none
  | some (.ok a, m) => f a m
  | some (.err e, m) => some (.err e, m)
  | some (.panic e, m) => some (.panic e, m)
  | some (.timeout, m) => some (.timeout, m)

instance : Monad M where
  pure := M.pure
  bind := M.bind

/-- A computation that does not touch the memory. -/
def lift {α : Type} (x : Res α) : M α := fun m => some (x, m)

/-- A read or write of places through a pointer. -/
def touch (ps : List Place) (t : Nat) (k : Access) : M Unit := fun m =>
  (onPlaces ps (access m.calls t k) m.trees).map (fun st => (.ok (), { m with trees := st }))

/-- A new pointer to places, from an old one. -/
def reborrow (ps : List Place) (t : Nat) (perm : Perm) (protector : Option Nat) : M Nat := fun m =>
  (onPlaces ps (retag m.calls t m.next perm protector) m.trees).map
    (fun st => (.ok m.next, { m with trees := st, next := m.next + 1 }))

/-- A function call: it counts as not returned until `f` is done, in whatever way; then its protected pointers are
released. -/
def inCall {α : Type} (f : Nat → M α) : M α := fun m =>
  match f m.next { m with next := m.next + 1, calls := m.next :: m.calls } with
  | none => none
  | some (r, m') =>
    (onPlaces everything (release m'.calls m.next) m'.trees).map
      (fun st => (r, { m' with trees := st, calls := m'.calls.filter (· ≠ m.next) }))

/-- `&mut Ng` from a pointer to it, and `Box<Ng>`: `Ng` is not `Unpin` (src/nfagraph/ng.rs:30), so these are the same
pointer. -/
def mutNg (t : Nat) : M Nat := return t

/-- `&Ng` from a pointer to it, as made by `Pin::deref` (src/nfagraph/ng.rs:53). -/
def refNg (t : Nat) : M Nat := reborrow everything t .frozen none

/-- A method call with `&mut self` on a field (of an `Unpin` type): a reserved child, protected while the call lasts, used
for reading and perhaps for writing.  Unlike under Stacked Borrows it matters whether the method writes: it does if `sure`,
and otherwise `w` decides for each call (a lookup in a map may or may not make room).  What the method computes is `x`
(src/nfagraph/ng.rs:90-121, 126). -/
def methodMut {α : Type} (w : Nat → Bool) (sure : Bool) (p : Place) (t : Nat) (x : Res α) : M α := inCall fun c => do
  let u ← reborrow [p] t .reserved (some c)
  touch [p] u .read
  (if sure || w c then touch [p] u .write else return ())
  lift x

end M

open M

/-- Memory with nothing borrowed. -/
def Mem.start : Mem := ⟨fun _ => [], 0, []⟩

/-- src/nfagraph/ng.rs:52: the allocation of the box. -/
def alloc : M Nat := fun m =>
  some (.ok m.next, { m with trees := fun _ => [⟨m.next, [m.next], .active, none⟩], next := m.next + 1 })

/-- src/nfagraph/ng.rs:34-59 `new`. -/
def newNg (cc : CompileContext) (numPatterns somPrecision : Nat) : M Boxed := do
  let base ← alloc
  -- 52: a box of a type that is not `Unpin`
  let box ← mutNg base
  -- 53: `&boxed.rm` through `Pin::deref`; `NonNull::from` keeps its tag
  let r ← refNg box
  let ptr ← reborrow [.rm] r .frozen none
  -- 55-56
  let m ← mutNg box
  let m ← mutNg m
  touch [.smwr] m .write
  -- 58
  let box ← mutNg box
  return ⟨Ng.new cc numPatterns somPrecision, box, ptr⟩

/-- src/util/report_manager.rs:97-129: `register_ext_report` certainly writes if the id is new, or if it is known with the
same `highlander` and that is false. -/
def registerWrites (rm : ReportManager) (id : Nat) (ext : ExternalReportInfo) : Bool :=
  match alookup rm.externalIdMap id with
  | none => true
  | some eri => eri.highlander == ext.highlander && !ext.highlander

/-- src/nfagraph/ng.rs:67-130 `add_literal`, called as in src/parser/shortcut_literal.rs:76-84. -/
def addLiteral (w : Nat → Bool) (p : Profile) (o : Boxed) (literal : Ue2Literal) (exprIndex externalReport : Nat) (highlander : Bool)
    (som : SomType) (quiet : Bool) : M (Boxed × Bool) := do
  let m ← mutNg o.box
  let m ← mutNg m
  lift (rdebugAssert p (!literal.isEmpty) "assertion failed: !literal.is_empty()")
  touch [.rest] m .read
  if !o.ng.cc.grey.shortcutLiterals then return (o, false)
  else if mixedSensitivity literal.iter then return (o, false)
  else
    let rm ← methodMut w (registerWrites o.ng.rm externalReport ⟨highlander, exprIndex⟩) .rm m
      (match o.ng.rm.registerExtReport externalReport ⟨highlander, exprIndex⟩ with
        | (_, .error e) => .err e
        | (rm, .ok ()) => .ok rm)
    let (rm, rose, id) ← (show M (ReportManager × RoseBuild × Except CompileError Nat) from
      match som with
      | .none => do
        let (rm, ekey) ← (show M (ReportManager × Option Nat) from
          if highlander then do
            let (rm, k) ← methodMut w false .rm m (rm.getExhaustibleKey externalReport)
            return (rm, some k)
          else return (rm, none))
        let r := makeECallback externalReport 0 ekey quiet
        let (rm, id) ← methodMut w false .rm m (Ng.lift (rm.getInternalId r))
        return (rm, o.ng.rose, id)
      | _ => do
        lift (rdebugAssert p (!highlander) "assertion failed: !highlander")
        let r := makeSomRelativeCallback externalReport 0 literal.len
        let (rm, id) ← methodMut w false .rm m (Ng.lift (rm.getInternalId r))
        touch [.rest] m .write
        return (rm, { o.ng.rose with hasSom := true }, id))
    match id with
    | .error e => lift (.err e)
    | .ok id =>
      let rose := rose.add false false literal [id]
      methodMut w false .rest m (.ok ())
      match Depth.tryFrom literal.len with
      | none => lift (.err (CompileError.new .other "depth overflow"))
      | some d =>
        touch [.rest] m .read
        touch [.rest] m .write
        let smwr ← methodMut w false .smwr m (o.ng.smwr.addLiteral literal id)
        return ({ o with ng := { o.ng with minWidth := Depth.min o.ng.minWidth d, rm := rm, rose := rose,
                                           smwr := smwr } }, true)

/-- src/nfagraph/ng.rs:61-65 `add_graph`, called as in src/compiler.rs:91-93. -/
def addGraph (o : Boxed) (expr : ExpressionInfo) (g : NgHolder) : M Boxed := do
  let m ← mutNg o.box
  let m ← mutNg m
  if expr.som ≠ .none then
    touch [.rest] m .write
    return { o with ng := o.ng.addGraph expr g }
  else return { o with ng := o.ng.addGraph expr g }

/-- Looking at the `Ng` through `Pin::deref`: `ng.cc` in src/compiler.rs:67 and
src/parser/shortcut_literal.rs:59, `build(&ng)` in src/lib.rs:131 (a protected argument). -/
def look (o : Boxed) : M Unit := inCall fun c => do
  let r ← reborrow everything o.box .frozen (some c)
  touch everything r .read

/-- src/smallwrite/smallwrite_build.rs:121-124: each id makes a reference to the report manager from the pointer
(`NonNull::as_ref`) and reads through it. -/
def anyMinLength (o : Boxed) : List Nat → M Bool
  | [] => return false
  | id :: ids => do
    let r ← reborrow [.rm] o.ptr .frozen none
    touch [.rm] r .read
    let x ← lift (o.ng.rm.getReport id)
    if x.minLength > 0 then return true else anyMinLength o ids

/-- src/smallwrite/smallwrite_build.rs:111, 117, 125: `self.poisoned = true`. -/
def poison (u : Nat) (o : Boxed) : M Boxed := do
  touch [.smwr] u .write
  return { o with ng := { o.ng with smwr := { o.ng.smwr with poisoned := true } } }

/-- src/smallwrite/smallwrite_build.rs:102-130 `add_expression`, as a method of `Ng` would call it (nothing does): `&mut
self` is a reserved child, protected while the call lasts. -/
def swAddExpression (o : Boxed) (g : NgHolder) (expr : ExpressionInfo) : M Boxed := do
  let m ← mutNg o.box
  inCall fun c => do
    let u ← reborrow [.smwr] m .reserved (some c)
    touch [.smwr] u .read
    if o.ng.smwr.poisoned then return o
    else if expr.som ≠ .none then poison u o
    else if g.isVacuous then poison u o
    else
      let b ← anyMinLength o g.allReports
      if b then poison u o else lift (.panic "not implemented")

/-- The end of the box (src/lib.rs:132, also after errors): `drop` gets `&mut Ng`, and the memory is given back, which
counts as writing to all of it. -/
def dropNg (o : Boxed) : M Unit := do
  let m ← mutNg o.box
  touch everything m .read
  touch everything m .write
  touch everything o.box .write

/-! ## The compiler -/

/-- src/parser/shortcut_literal.rs:55-86 `shortcut_literal`. -/
def shortcutLiteral (w : Nat → Bool) (p : Profile) (o : Boxed) (pe : ParsedExpression) : M (Boxed × Bool) := do
  look o
  if !o.ng.cc.grey.allowLiteral then return (o, false)
  else
    match walkComponent p constructLiteralVisitor Ue2Literal.default pe.component with
    | .err _ => return (o, false)
    | .panic m => lift (.panic m)
    | .timeout => lift .timeout
    | .ok lit =>
      if lit.isEmpty then return (o, false)
      else do
        let index ← lift (ReportManager.toU32 pe.expr.index
          "called `Result::unwrap()` on an `Err` value: TryFromIntError(())")
        addLiteral w p o lit index pe.expr.report pe.expr.highlander pe.expr.som pe.expr.quiet

/-- src/compiler.rs:60-99 `add_expression`. -/
def addExpression (w : Nat → Bool) (p : Profile) (o : Boxed) (index : Nat) (expression : Str) (flags : Flags) (id : Nat) : M Boxed := do
  look o
  if utf8Len expression > o.ng.cc.grey.limitPatternLength then
    lift (.err (CompileError.new .other "Pattern length exceeds limit."))
  else
    let pe ← lift (ParsedExpression.new p index expression flags id)
    let pe := if pe.expr.prefilter then { pe with component := prefilterTree pe.component } else pe
    let (o, done) ← shortcutLiteral w p o pe
    if done then return o
    else
      let built ← lift (buildGraph p pe)
      addGraph o built.expr built.graph

/-- src/lib.rs:124-129: the loop of `compile_multi_int`. -/
def addAll (w : Nat → Bool) (p : Profile) : Nat → Boxed → List (Str × Flags × Nat) → M Boxed
  | _, o, [] => return o
  | i, o, (exp, fl, id) :: rest => fun m =>
    match addExpression w p o i exp fl id m with
    | none => none
    | some (.ok o, m) => addAll w p (i + 1) o rest m
    | some (.panic e, m) => some (.panic e, m)
    | some (.timeout, m) => some (.timeout, m)
    | some (.err e, m) => some ((do
        let idx ← ReportManager.toU32 i
          "called `Result::unwrap()` on an `Err` value: TryFromIntError(())"
        let e ← e.setExpressionIndex p idx
        .err e), m)

/-- The box is dropped when `x` is done, in whatever way (src/lib.rs:127, 132). -/
def thenDrop {α : Type} (o : Boxed) (x : M α) : M α := fun m =>
  match x m with
  | none => none
  | some (r, m) =>
    match dropNg o m with
    | none => none
    | some (_, m) => some (r, m)

/-- src/lib.rs:96-132 `compile_multi_int`. -/
def compileMultiInt (w : Nat → Bool) (p : Profile) (expressions : List Str) (flags : List Flags) (ids : List Nat) (mode : Mode) (g : Grey) :
    M Database :=
  if expressions.isEmpty then
    lift (.err (CompileError.new .other "Invalid parameter: expressions is empty"))
  else if expressions.length > g.limitPatternCount then
    lift (.err (CompileError.new .other "Number of patterns too large"))
  else do
    let o ← newNg ⟨mode.isStreaming, mode.isVectored, g⟩ expressions.length mode.somPrecision
    thenDrop o do
      let o ← addAll w p 0 o (izip expressions flags ids)
      look o
      return build o.ng

end TreeBorrows
end Rescan
