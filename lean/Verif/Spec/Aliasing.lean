import Verif.Model.TreeBorrows
/-! # Specification of the aliasing rules

What an access does under Stacked Borrows and Tree Borrows, as relations.  Of the model only the data types are used. -/
namespace Rescan.Spec

namespace Stacked
open Borrows

/-- Protected by a call that has not returned. -/
def Guarded (calls : List Nat) (x : Item) : Prop := ∃ c ∈ calls, x.protector = some c

/-- Usable for an access: for reading unless disabled, for writing if unique or shared read-write. -/
def Usable (k : Access) (x : Item) : Prop :=
  (k = .read ∧ x.perm ≠ .disabled) ∨ (k = .write ∧ (x.perm = .unique ∨ x.perm = .sharedRW))

/-- `g` is the topmost usable item of the pointer `t`, `b` lies below and `a` above. -/
structure Top (t : Nat) (k : Access) (s b : Stack) (g : Item) (a : Stack) : Prop where
  split : s = b ++ g :: a
  tag : g.tag = t
  usable : Usable k g
  top : ∀ x ∈ a, x.tag = t → ¬ Usable k x

/-- An item after a read below it. -/
inductive Passed : Item → Item → Prop
  | unique (x : Item) : x.perm = .unique → Passed x ⟨x.tag, .disabled, x.protector⟩
  | other (x : Item) : x.perm ≠ .unique → Passed x x

/-- The items above after a read. -/
inductive AllPassed : Stack → Stack → Prop
  | nil : AllPassed [] []
  | cons {x y : Item} {xs ys : Stack} : Passed x y → AllPassed xs ys → AllPassed (x :: xs) (y :: ys)

/-- Of the items `a` above `g` a write leaves `kept`: nothing, unless `g` is shared read-write, when it leaves the unbroken
row of shared read-write items above it. -/
structure Left (g : Item) (a kept gone : Stack) : Prop where
  split : a = kept ++ gone
  none : g.perm ≠ .sharedRW → kept = []
  row : ∀ x ∈ kept, x.perm = .sharedRW
  broken : g.perm = .sharedRW → ∀ x rest, gone = x :: rest → x.perm ≠ .sharedRW

end Stacked

namespace Trees
open TreeBorrows
open Borrows (Access)

/-- Protected by a call that has not returned. -/
def Guarded (calls : List Nat) (x : Node) : Prop := ∃ c ∈ calls, x.protector = some c

/-- What becomes of a permission.  `guarded`: the node is protected; the access is through the pointer itself or one made
from it (`child`) or through any other.  What is not listed is undefined. -/
inductive Becomes (guarded : Prop) : (child : Prop) → Access → Perm → Perm → Prop
  | read {child p} : child → p ≠ .disabled → Becomes guarded child .read p p
  | write {child p} : child → p = .reserved ∨ p = .active ∨ (p = .conflicted ∧ ¬ guarded) → Becomes guarded child .write p .active
  | conflict {child} : ¬ child → guarded → Becomes guarded child .read .reserved .conflicted
  | keep {child} : ¬ child → ¬ guarded → Becomes guarded child .read .reserved .reserved
  | freeze {child} : ¬ child → ¬ guarded → Becomes guarded child .read .active .frozen
  | other {child p} : ¬ child → p ≠ .reserved → p ≠ .active → Becomes guarded child .read p p
  | disable {child p} : ¬ child → ¬ guarded ∨ p = .disabled → Becomes guarded child .write p .disabled

/-- The nodes of a tree before and after an access through a pointer with these ancestors, one by one; those with `Skip`
take no notice of it. -/
inductive Nodes (calls path : List Nat) (k : Access) (Skip : Node → Prop) : Tree → Tree → Prop
  | nil : Nodes calls path k Skip [] []
  | skip {x : Node} {xs ys : Tree} : Skip x → Nodes calls path k Skip xs ys → Nodes calls path k Skip (x :: xs) (x :: ys)
  | cons {x : Node} {p : Perm} {xs ys : Tree} : ¬ Skip x → Becomes (Guarded calls x) (x.tag ∈ path) k x.perm p →
      Nodes calls path k Skip xs ys → Nodes calls path k Skip (x :: xs) (⟨x.tag, x.path, p, x.protector⟩ :: ys)

/-- How far a permission has gone on its way from reserved to disabled. -/
def age : Perm → Nat
  | .reserved => 0
  | .conflicted => 1
  | .active => 2
  | .frozen => 3
  | .disabled => 4

end Trees
end Rescan.Spec
