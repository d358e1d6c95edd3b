import Verif.Model.TreeBorrows
/-! # A repaired pointer: **not code that exists**

`Ng::new` with line 53 of src/nfagraph/ng.rs changed so that the pointer kept in the small-write builder is not made from a
shared reference to the report manager but is a raw pointer to the whole `Ng`, made from a mutable reference:

```text
let p: *mut Self = unsafe { Pin::get_unchecked_mut(Pin::as_mut(&mut boxed)) };
let rm = unsafe { NonNull::new_unchecked(std::ptr::addr_of_mut!((*p).rm)) };
```

As `Model/Repaired.lean`, this is for C98 only. -/
namespace Rescan

namespace Borrows
open M

/-- src/nfagraph/ng.rs:34-59 `new` with line 53 changed: a mutable reference and a raw pointer from it are both shared
read-write, as `Ng` is not `Unpin`; the address of the field keeps the tag. -/
def newNgRepaired (cc : CompileContext) (numPatterns somPrecision : Nat) : M Boxed := do
  let base ← alloc
  let box ← mutNg base
  let r ← mutNg box
  let r ← mutNg r
  let ptr ← mutNg r
  let m ← mutNg box
  let m ← mutNg m
  touch [.smwr] m .write
  let box ← mutNg box
  return ⟨Ng.new cc numPatterns somPrecision, box, ptr⟩

/-- src/lib.rs:96-132 `compile_multi_int` with this `new`. -/
def compileMultiIntRepaired (p : Profile) (expressions : List Str) (flags : List Flags) (ids : List Nat) (mode : Mode)
    (g : Grey) : M Database :=
  if expressions.isEmpty then
    lift (.err (CompileError.new .other "Invalid parameter: expressions is empty"))
  else if expressions.length > g.limitPatternCount then
    lift (.err (CompileError.new .other "Number of patterns too large"))
  else do
    let o ← newNgRepaired ⟨mode.isStreaming, mode.isVectored, g⟩ expressions.length mode.somPrecision
    thenDrop o do
      let o ← addAll p 0 o (izip expressions flags ids)
      look o
      return build o.ng

end Borrows

namespace TreeBorrows
open M
open Borrows (Boxed)

/-- src/nfagraph/ng.rs:34-59 `new` with line 53 changed: under Tree Borrows raw pointers and mutable references to types
that are not `Unpin` have the tag of what they are made from. -/
def newNgRepaired (cc : CompileContext) (numPatterns somPrecision : Nat) : M Boxed := do
  let base ← alloc
  let box ← mutNg base
  let r ← mutNg box
  let ptr ← mutNg r
  let m ← mutNg box
  let m ← mutNg m
  touch [.smwr] m .write
  let box ← mutNg box
  return ⟨Ng.new cc numPatterns somPrecision, box, ptr⟩

/-- src/lib.rs:96-132 `compile_multi_int` with this `new`. -/
def compileMultiIntRepaired (w : Nat → Bool) (p : Profile) (expressions : List Str) (flags : List Flags) (ids : List Nat)
    (mode : Mode) (g : Grey) : M Database :=
  if expressions.isEmpty then
    lift (.err (CompileError.new .other "Invalid parameter: expressions is empty"))
  else if expressions.length > g.limitPatternCount then
    lift (.err (CompileError.new .other "Number of patterns too large"))
  else do
    let o ← newNgRepaired ⟨mode.isStreaming, mode.isVectored, g⟩ expressions.length mode.somPrecision
    thenDrop o do
      let o ← addAll w p 0 o (izip expressions flags ids)
      look o
      return build o.ng

end TreeBorrows
end Rescan
