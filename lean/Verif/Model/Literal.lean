import Verif.Model.Compare
/-! # src/util/ue2string.rs, src/util/depth.rs -/
namespace Rescan

/-- src/util/ue2string.rs:6-9 `Ue2Literal`. -/
structure Ue2Literal where
  s : List U8
  nocase : List Bool
deriving DecidableEq

/-- src/util/ue2string.rs:11-14 `Ue2LiteralElem`. -/
structure Ue2LiteralElem where
  c : U8
  nocase : Bool
deriving DecidableEq

namespace Ue2Literal

/-- src/util/ue2string.rs:5 `#[derive(Default)]`. -/
def default : Ue2Literal := ⟨[], []⟩
/-- src/util/ue2string.rs:23-25 `len`. -/
def len (l : Ue2Literal) : Nat := l.s.length
/-- src/util/ue2string.rs:28-30 `is_empty`. -/
def isEmpty (l : Ue2Literal) : Bool := l.s.isEmpty
/-- src/util/ue2string.rs:33-35 `any_nocase`. -/
def anyNocase (l : Ue2Literal) : Bool := l.nocase.any id
/-- src/util/ue2string.rs:38-40, 51-60 `iter`/`next`: both vectors are read at `idx = 0, 1, ..`
until either runs out. -/
def iter (l : Ue2Literal) : List Ue2LiteralElem := List.zipWith Ue2LiteralElem.mk l.s l.nocase
/-- src/util/ue2string.rs:42-48 `push`. -/
def push (l : Ue2Literal) (c : U8) (nc : Bool) : Ue2Literal :=
  let c := if nc then mytoupper c else c
  ⟨l.s ++ [c], l.nocase ++ [nc]⟩

/-- src/util/ue2string.rs:72-77 `PartialEq::eq`: compares `s` only. -/
def eq (a b : Ue2Literal) : Bool := a.s == b.s

/-- src/util/ue2string.rs:82: `Vec<u8>::cmp` (std): lexicographic. -/
def cmpBytes : List U8 → List U8 → Ordering
  | [], [] => .eq
  | [], _ :: _ => .lt
  | _ :: _, [] => .gt
  | x :: xs, y :: ys => if x < y then .lt else if y < x then .gt else cmpBytes xs ys

/-- src/util/ue2string.rs:84: `BitVec::cmp` (bit-vec 0.6): `self.iter().cmp(other)`, lexicographic with `false < true`. -/
def cmpBools : List Bool → List Bool → Ordering
  | [], [] => .eq
  | [], _ :: _ => .lt
  | _ :: _, [] => .gt
  | x :: xs, y :: ys => if !x && y then .lt else if x && !y then .gt else cmpBools xs ys

/-- src/util/ue2string.rs:79-89 `Ord::cmp`. -/
def cmp (a b : Ue2Literal) : Ordering :=
  match cmpBytes a.s b.s with
  | .eq => cmpBools a.nocase b.nocase
  | o => o

end Ue2Literal

/-- src/util/ue2string.rs:100-118 `mixed_sensitivity`: the loop over the elements updating
`(cs, nc)`. -/
def mixedSensitivity (it : List Ue2LiteralElem) : Bool :=
  let (cs, nc) := it.foldl
    (fun (s : Bool × Bool) e =>
      if !ourisalpha e.c then s
      else if e.nocase then (s.1, true) else (true, s.2))
    (false, false)
  cs && nc

/-- src/util/depth.rs:14-16 `Depth`; `val : u32`. -/
structure Depth where
  val : Nat
deriving DecidableEq

namespace Depth

/-- src/util/depth.rs:4 `INFINITY: u32 = (1 << 31) - 1`. -/
def infinityVal : Nat := 2 ^ 31 - 1
/-- src/util/depth.rs:6 `UNREACHABLE: u32 = 1 << 31`. -/
def unreachableVal : Nat := 2 ^ 31
/-- src/util/depth.rs:7 `MAX_VALUE: u32 = INFINITY - 1`. -/
def maxValue : Nat := infinityVal - 1
/-- src/util/depth.rs:19-21 `infinity`. -/
def infinity : Depth := ⟨infinityVal⟩
/-- src/util/depth.rs:24-34 `TryFrom<u32>` (for `val < 2^32`) and 36-47 `TryFrom<usize>` (for
`val < 2^64`); the `as u32` cast is exact because `val ≤ MAX_VALUE`.  `none` is
`Err(DepthOverflowError)`. -/
def tryFrom (val : Nat) : Option Depth :=
  if val ≤ maxValue then some ⟨val⟩ else none
/-- src/util/depth.rs:49-53 `PartialEq::eq`. -/
def eq (a b : Depth) : Bool := a.val == b.val
/-- src/util/depth.rs:55-59 `Ord::cmp`. -/
def cmp (a b : Depth) : Ordering := compare a.val b.val
/-- src/nfagraph/ng.rs:118: `std::cmp::min`: the first argument unless it is strictly greater. -/
def min (a b : Depth) : Depth := if a.cmp b = .gt then b else a

end Depth
end Rescan
