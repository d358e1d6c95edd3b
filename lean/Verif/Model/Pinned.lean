import Verif.Model.Compiler
/-! # The pointer from the small-write builder to the report manager

`Ng` holds a `ReportManager` and a `SmallWriteBuild` that points to it (src/nfagraph/ng.rs:17-31,
src/smallwrite/smallwrite_build.rs:76).  Elsewhere in the model `add_expression` of the builder is handed the
report manager; here it follows the pointer.  Memory is a partial map from addresses to objects of type `Ng`,
each with its pointer.  Reading through a pointer to nothing is undefined behaviour, given as `none`. -/
namespace Rescan

/-- src/nfagraph/ng.rs:38, 52: the address of a boxed `Ng`. -/
abbrev Addr := Nat

/-- An `Ng` in memory.  `rmPtr` is `smwr.rm`: `none` for `NonNull::dangling()`, `some a` for the address of
the field `rm` of the `Ng` at `a` (src/smallwrite/smallwrite_build.rs:76, src/nfagraph/ng.rs:17-31). -/
structure NgCell where
  ng : Ng
  rmPtr : Option Addr

/-- Memory, as far as objects of type `Ng` are concerned (src/nfagraph/ng.rs:52). -/
abbrev Heap := Addr → Option NgCell

namespace Heap

/-- The empty memory (before the first src/nfagraph/ng.rs:34 `new`). -/
def empty : Heap := fun _ => none
/-- Writing to (or, with `none`, freeing) an address, as in src/nfagraph/ng.rs:52, 57. -/
def put (h : Heap) (a : Addr) (c : Option NgCell) : Heap := fun b => if b = a then c else h b

/-- src/smallwrite/smallwrite_build.rs:123 `self.rm.as_ref()`. -/
def derefRm (h : Heap) (ptr : Option Addr) : Option ReportManager :=
  match ptr with
  | none => none
  | some a => (h a).map (fun c => c.ng.rm)

/-- src/nfagraph/ng.rs:34-59 `new`, with the address `a` chosen by the allocator (which gives no address in
use: `none`).  The value is built with a dangling pointer (39-51, src/smallwrite/smallwrite_build.rs:91),
boxed (52), and the pointer is set to the address of the boxed `rm` (54-58). -/
def newNg (h : Heap) (a : Addr) (cc : CompileContext) (numPatterns somPrecision : Nat) : Option Heap :=
  match h a with
  | some _ => none
  | none =>
    let res : NgCell := ⟨Ng.new cc numPatterns somPrecision, none⟩
    let boxed := h.put a (some res)
    let rm := a
    some (boxed.put a (some { res with rmPtr := some rm }))

variable {ε : Type}

/-- src/smallwrite/smallwrite_build.rs:121-124, following the pointer for each id. -/
def anyMinLengthAt (h : Heap) (ptr : Option Addr) : List Nat → Option (Outcome ε Bool)
  | [] => some (.ok false)
  | id :: ids =>
    match h.derefRm ptr with
    | none => none
    | some rm =>
      match rm.getReport (ε := ε) id with
      | .ok r => if r.minLength > 0 then some (.ok true) else anyMinLengthAt h ptr ids
      | .err e => some (.err e)
      | .panic m => some (.panic m)
      | .timeout => some .timeout

/-- src/smallwrite/smallwrite_build.rs:102-130 `add_expression` on the builder of the `Ng` at `a`, following
its pointer. -/
def swAddExpression (h : Heap) (a : Addr) (g : NgHolder) (expr : ExpressionInfo) : Option (Outcome ε Heap) :=
  match h a with
  | none => none
  | some c =>
    let poison := h.put a (some { c with ng := { c.ng with smwr := { c.ng.smwr with poisoned := true } } })
    if c.ng.smwr.poisoned then some (.ok h)
    else if expr.som ≠ .none then some (.ok poison)
    else if g.isVacuous then some (.ok poison)
    else
      match anyMinLengthAt (ε := ε) h c.rmPtr g.allReports with
      | none => none
      | some (.ok true) => some (.ok poison)
      | some (.ok false) => some (.panic "not implemented")
      | some (.err e) => some (.err e)
      | some (.panic m) => some (.panic m)
      | some .timeout => some .timeout

end Heap

/-- What is done to objects of type `Ng`: creating one, the calls of src/nfagraph/ng.rs:61-130, a call to the
small-write builder of one, and dropping one (at the end of src/lib.rs:96-132 `compile_multi_int`, also on
errors).  Moving the `Pin<Box<Ng>>` moves no `Ng`. -/
inductive NgStep where
  | new (a : Addr) (cc : CompileContext) (numPatterns somPrecision : Nat)
  | addLiteral (a : Addr) (l : Ue2Literal) (index report : Nat) (highlander : Bool) (som : SomType) (quiet : Bool)
  | addGraph (a : Addr) (expr : ExpressionInfo) (g : NgHolder)
  | swAddExpression (a : Addr) (g : NgHolder) (expr : ExpressionInfo)
  | drop (a : Addr)

/-- One step, `none` for undefined behaviour and for impossible steps (using an object that does not exist, or
allocating where one does), src/nfagraph/ng.rs:34-130. -/
def NgStep.run (p : Profile) (h : Heap) : NgStep → Option (Res Heap)
  | .new a cc np som => (h.newNg a cc np som).map .ok
  | .addLiteral a l i r hl som q =>
    match h a with
    | none => none
    | some c => some (do
      let (ng, _) ← c.ng.addLiteral p l i r hl som q
      return h.put a (some { c with ng := ng }))
  | .addGraph a expr g =>
    match h a with
    | none => none
    | some c => some (.ok (h.put a (some { c with ng := c.ng.addGraph expr g })))
  | .swAddExpression a g expr => h.swAddExpression a g expr
  | .drop a =>
    match h a with
    | none => none
    | some _ => some (.ok (h.put a none))

/-- `std::mem::replace` and the like on an `Ng` taken out of its box, which `Pin` and `PhantomPinned`
(src/nfagraph/ng.rs:30, 38) forbid: the value moves from `a` to `b`, pointer and all. -/
def Heap.moveNg (h : Heap) (a b : Addr) : Heap := (h.put a none).put b (h a)

end Rescan
