import Verif.Model.Literal
import Verif.Model.Checked
/-! # bit-vec 0.6 `BitVec` as it is stored

`Ue2Literal.nocase` (src/util/ue2string.rs:8) is a list of booleans in the rest of the model.  bit-vec keeps the
bits in 32-bit blocks, lowest bit first, and their number.  bit-vec's source is not in the sandbox: the
functions are given from knowledge of release 0.6, not from a text. -/
namespace Rescan

/-- src/util/ue2string.rs:8: bit-vec `BitVec<u32>`. -/
structure BitStore where
  storage : List U32
  nbits : Nat
deriving DecidableEq

namespace BitStore

variable {ε : Type}

/-- src/util/ue2string.rs:5 `#[derive(Default)]`: `BitVec::new()`. -/
def new : BitStore := ⟨[], 0⟩

/-- src/util/ue2string.rs:46: `BitVec::set`, behind `push`. -/
def set (p : Profile) (v : BitStore) (i : Nat) (x : Bool) : Outcome ε BitStore := do
  rassert (decide (i < v.nbits)) "index out of bounds"
  let w := i / 32
  let b := i % 32
  let flag ← shlChk p 1#32 b
  let block ← index v.storage w
  let val := if x then block ||| flag else block &&& ~~~ flag
  return { v with storage := v.storage.set w val }

/-- src/util/ue2string.rs:46: `BitVec::push`. -/
def push (p : Profile) (v : BitStore) (elem : Bool) : Outcome ε BitStore := do
  let storage := if v.nbits % 32 = 0 then v.storage ++ [0#32] else v.storage
  let insertPos := v.nbits
  if v.nbits + 1 < 2 ^ 64 then set p ⟨storage, v.nbits + 1⟩ insertPos elem
  else .panic "Capacity overflow"

/-- src/util/ue2string.rs:56: `BitVec::get`. -/
def get (p : Profile) (v : BitStore) (i : Nat) : Outcome ε (Option Bool) :=
  if v.nbits ≤ i then .ok none
  else
    let w := i / 32
    let b := i % 32
    match v.storage[w]? with
    | none => .ok none
    | some block => do
      let flag ← shlChk p 1#32 b
      return some ((block &&& flag) != 0#32)

/-- src/util/ue2string.rs:34: `BitVec::any`: not all blocks are zero. -/
def any (v : BitStore) : Bool := !(v.storage.all (fun w => w == 0#32))

/-- src/util/ue2string.rs:84: `Iter::next`, `range.next().map(|i| get(i).unwrap())`; `i` is the start of the
range. -/
def iterNext (p : Profile) (v : BitStore) (i : Nat) : Outcome ε (Option (Bool × Nat)) :=
  if i < v.nbits then do
    let x ← get p v i
    let x ← Outcome.expect x "called `Option::unwrap()` on a `None` value"
    return some (x, i + 1)
  else .ok none

/-- src/util/ue2string.rs:84: `self.iter().cmp(other)`, std's `Iterator::cmp`. -/
def cmpLoop (p : Profile) (a b : BitStore) : Nat → Nat → Nat → Outcome ε Ordering
  | 0, _, _ => .timeout
  | fuel + 1, i, j => do
    match ← iterNext p a i with
    | none =>
      match ← iterNext p b j with
      | none => return .eq
      | some _ => return .lt
    | some (x, i) =>
      match ← iterNext p b j with
      | none => return .gt
      | some (y, j) => if x = y then cmpLoop p a b fuel i j else return (if x then .gt else .lt)

/-- src/util/ue2string.rs:84: `BitVec::cmp`. -/
def cmp (p : Profile) (fuel : Nat) (a b : BitStore) : Outcome ε Ordering := cmpLoop p a b fuel 0 0

/-- src/util/ue2string.rs:46: pushing one after the other. -/
def pushAll (p : Profile) (l : List Bool) : Outcome ε BitStore := l.foldlM (fun v x => push p v x) new

end BitStore
end Rescan
