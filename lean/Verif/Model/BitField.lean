import Verif.Model.Common
/-! # src/util/bitfield.rs -/
namespace Rescan

/-- src/util/bitfield.rs:8-11 `BitField256`: four 64-bit words. -/
structure BitField256 where
  bits : Vector U64 4
deriving DecidableEq

namespace BitField256

/-- src/util/bitfield.rs:5 `ALL_ONES: u64 = !0`. -/
def allOnes : U64 := ~~~ 0#64

/-- src/util/bitfield.rs:8 `#[derive(Default)]`: all words zero. -/
def default : BitField256 := ⟨#v[0#64, 0#64, 0#64, 0#64]⟩

/-- src/util/bitfield.rs:201-203 `get_word`. -/
def getWord (n : U8) : U8 := n / 64#8

theorem getWord_lt (n : U8) : (getWord n).toNat < 4 := by
  have := n.isLt
  simp only [getWord, BitVec.toNat_udiv, BitVec.toNat_ofNat, Nat.reducePow, Nat.reduceMod]
  omega

/-- src/util/bitfield.rs:205-207 `mask_bit`. -/
def maskBit (n : U8) : U64 := 1#64 <<< (n % 64#8).toNat

/-- src/util/bitfield.rs:15-20 `reset_all`. -/
def resetAll (_b : BitField256) : BitField256 := ⟨#v[0#64, 0#64, 0#64, 0#64]⟩

/-- src/util/bitfield.rs:23-28 `set_all`. -/
def setAll (_b : BitField256) : BitField256 := ⟨#v[allOnes, allOnes, allOnes, allOnes]⟩

/-- src/util/bitfield.rs:31-33 `reset`. -/
def reset (b : BitField256) (n : U8) : BitField256 :=
  ⟨b.bits.set (getWord n).toNat
    (b.bits[(getWord n).toNat]'(getWord_lt n) &&& ~~~ (maskBit n)) (getWord_lt n)⟩

/-- src/util/bitfield.rs:36-38 `set`. -/
def set (b : BitField256) (n : U8) : BitField256 :=
  ⟨b.bits.set (getWord n).toNat
    (b.bits[(getWord n).toNat]'(getWord_lt n) ||| maskBit n) (getWord_lt n)⟩

/-- src/util/bitfield.rs:41-43 `test`. -/
def test (b : BitField256) (n : U8) : Bool :=
  (b.bits[(getWord n).toNat]'(getWord_lt n) &&& maskBit n) != 0#64

/-- src/util/bitfield.rs:46-51 `flip_all`. -/
def flipAll (b : BitField256) : BitField256 :=
  ⟨#v[~~~ b.bits[0], ~~~ b.bits[1], ~~~ b.bits[2], ~~~ b.bits[3]]⟩

/-- src/util/bitfield.rs:54-56 `flip`. -/
def flip (b : BitField256) (n : U8) : BitField256 :=
  ⟨b.bits.set (getWord n).toNat
    (b.bits[(getWord n).toNat]'(getWord_lt n) ^^^ maskBit n) (getWord_lt n)⟩

/-- src/util/bitfield.rs:72, 81, 86, 92: `self.bits[i] = f(self.bits[i])` with Rust's bounds check (an out-of-range index panics). -/
def modifyWord (b : BitField256) (i : Nat) (f : U64 → U64) : Res BitField256 :=
  if h : i < 4 then .ok ⟨b.bits.set i (f b.bits[i]) h⟩
  else .panic "index out of bounds: the len is 4"

/-- src/util/bitfield.rs:85-88: the `while i + BLOCK_SIZE <= to + 1` loop of `set_range`.
`fuel` bounds the iterations; each adds 64 to `i` and stops once `i + 64 > to + 1`, so 5 is enough
for `to ≤ 255` (a shortage would show up as `timeout`, which is proved never to occur). -/
def setRangeLoop : Nat → BitField256 → Nat → Nat → Res (BitField256 × Nat)
  | 0, _, _, _ => .timeout
  | fuel + 1, b, i, to =>
    if i + 64 ≤ to + 1 then do
      let b' ← b.modifyWord (i / 64) (fun _ => allOnes)
      setRangeLoop fuel b' (i + 64) to
    else .ok (b, i)

/-- src/util/bitfield.rs:78-83: the partial first block of the large case of `set_range`. -/
def setRangeHead (p : Profile) (b : BitField256) (i : Nat) : Res (BitField256 × Nat) :=
  if i % 64 ≠ 0 then do
    let block := allOnes <<< (i % 64)
    let b ← b.modifyWord (i / 64) (fun w => w ||| block)
    let i' ← roundUpN p (BitVec.ofNat 64 i) 64#8
    return (b, i'.toNat)
  else return (b, i)

/-- src/util/bitfield.rs:63-94 `set_range`.  `usize` locals are `Nat` (they stay below 512), except
in the call to `round_up_n`, which runs at width 64. -/
def setRange (p : Profile) (b : BitField256) (from_ to : U8) : Res BitField256 := do
  rassert (decide (from_ ≤ to)) "`from` is greater than `to`"
  if from_ / 64#8 = to / 64#8 then
    -- Small case, our indices are in the same block.
    let block := allOnes <<< (from_ % 64#8).toNat
    let block ← if to % 64#8 ≠ 64#8 - 1#8 then do
        let to1 ← addChk p to 1#8
        let m ← subChk p (maskBit to1) 1#64
        pure (block &&& m)
      else pure block
    b.modifyWord (from_ / 64#8).toNat (fun w => w ||| block)
  else
    -- Large case, work in block units.
    let (b, i) ← setRangeHead p b from_.toNat
    let (b, i) ← setRangeLoop 5 b i to.toNat
    if i ≤ to.toNat then do
      rdebugAssert p (decide (to.toNat - i + 1 < 64)) "assertion failed: to - i + 1 < BLOCK_SIZE"
      let m ← subChk p (maskBit (to + 1#8)) 1#64
      b.modifyWord (i / 64) (fun w => w ||| m)
    else pure b

/-- src/util/bitfield.rs:97-104 `count`. -/
def count (b : BitField256) : Nat :=
  countOnes b.bits[0] + countOnes b.bits[1] + countOnes b.bits[2] + countOnes b.bits[3]

/-- src/util/bitfield.rs:107-109 `none`. -/
def none (b : BitField256) : Bool :=
  b.bits[0] == 0#64 && b.bits[1] == 0#64 && b.bits[2] == 0#64 && b.bits[3] == 0#64

/-- src/util/bitfield.rs:113-115 `any`. -/
def any (b : BitField256) : Bool := !b.none

/-- src/util/bitfield.rs:120-125 `all`. -/
def all (b : BitField256) : Bool :=
  b.bits[0] == allOnes && b.bits[1] == allOnes && b.bits[2] == allOnes && b.bits[3] == allOnes

/-- src/util/bitfield.rs:129, 141, 165, 179: the words of `b` with their indices: `self.bits.iter().enumerate()`. -/
def words (b : BitField256) : List (Nat × U64) :=
  [(0, b.bits[0]), (1, b.bits[1]), (2, b.bits[2]), (3, b.bits[3])]

/-- The loop shared by `find_first` (src/util/bitfield.rs:129-134) and the tail of `find_next`
(165-170): the first non-zero word `i` gives `Some(i * 64 + trailing_zeros)`.  The `u8` arithmetic
does not overflow for `i ≤ 3` because `trailing_zeros ≤ 63` for a non-zero word. -/
def firstIn : List (Nat × U64) → Option U8
  | [] => Option.none
  | (i, w) :: rest =>
    if w ≠ 0#64 then some (BitVec.ofNat 8 i * 64#8 + BitVec.ofNat 8 (trailingZeros w))
    else firstIn rest

/-- src/util/bitfield.rs:128-136 `find_first`. -/
def findFirst (b : BitField256) : Option U8 := firstIn b.words

/-- The loop of `find_last` (src/util/bitfield.rs:141-146) over the reversed words. -/
def lastIn : List (Nat × U64) → Option U8
  | [] => Option.none
  | (i, w) :: rest =>
    if w ≠ 0#64 then
      some (BitVec.ofNat 8 i * 64#8 + (64#8 - 1#8) - BitVec.ofNat 8 (leadingZeros w))
    else lastIn rest

/-- src/util/bitfield.rs:140-148 `find_last`. -/
def findLast (b : BitField256) : Option U8 := lastIn b.words.reverse

/-- src/util/bitfield.rs:151-173 `find_next`.  The slice `self.bits[last_i + 1..]` has start at most
4, so it never panics; enumerating it from `last_i + 1` is dropping that many indexed words. -/
def findNext (b : BitField256) (last : U8) : Option U8 :=
  let lastI := getWord last
  let lastWord := b.bits[(getWord last).toNat]'(getWord_lt last)
  let early : Option U8 :=
    if last % 64#8 ≠ 64#8 - 1#8 then
      let lw := lastWord &&& (allOnes <<< (last % 64#8 + 1#8).toNat)
      if lw ≠ 0#64 then some (lastI * 64#8 + BitVec.ofNat 8 (trailingZeros lw))
      else Option.none
    else Option.none
  match early with
  | some r => some r
  | Option.none => firstIn (b.words.drop (lastI.toNat + 1))

/-- src/util/bitfield.rs:184-187: `for _ in sum..n { debug_assert!(block > 0); block &= block - 1; }`,
`k` iterations. -/
def clearLowest (p : Profile) : Nat → U64 → Res U64
  | 0, w => .ok w
  | k + 1, w => do
    rdebugAssert p (decide (w > 0#64)) "assertion failed: block > 0"
    let w1 ← subChk p w 1#64
    clearLowest p k (w &&& w1)

/-- The loop of `find_nth` (src/util/bitfield.rs:179-195); `sum` is the number of bits in the words
already passed. -/
def nthIn (p : Profile) (b : BitField256) (n : Nat) : Nat → List (Nat × U64) → Res (Option U8)
  | _, [] => do
    rdebugAssert p (decide (b.count ≤ n)) "assertion failed: self.count() <= n.into()"
    return Option.none
  | sum, (i, w) :: rest =>
    let afterSum := sum + countOnes w
    if afterSum > n then do
      let block ← clearLowest p (n - sum) w
      rdebugAssert p (decide (block > 0#64)) "assertion failed: block > 0"
      let bit := BitVec.ofNat 8 i * 64#8 + BitVec.ofNat 8 (trailingZeros block)
      rdebugAssert p (b.test bit) "assertion failed: self.test(bit)"
      return some bit
    else nthIn p b n afterSum rest

/-- src/util/bitfield.rs:177-199 `find_nth`. -/
def findNth (p : Profile) (b : BitField256) (n : U8) : Res (Option U8) := nthIn p b n.toNat 0 b.words

/-- src/util/bitfield.rs:221-229 `bitand_assign`. -/
def andAssign (b a : BitField256) : BitField256 :=
  ⟨#v[b.bits[0] &&& a.bits[0], b.bits[1] &&& a.bits[1], b.bits[2] &&& a.bits[2],
      b.bits[3] &&& a.bits[3]]⟩

/-- src/util/bitfield.rs:210-219 `bitand`: `rhs &= self; rhs`. -/
def and (self rhs : BitField256) : BitField256 := rhs.andAssign self

/-- src/util/bitfield.rs:242-250 `bitor_assign`. -/
def orAssign (b a : BitField256) : BitField256 :=
  ⟨#v[b.bits[0] ||| a.bits[0], b.bits[1] ||| a.bits[1], b.bits[2] ||| a.bits[2],
      b.bits[3] ||| a.bits[3]]⟩

/-- src/util/bitfield.rs:231-240 `bitor`: `rhs |= self; rhs`. -/
def or (self rhs : BitField256) : BitField256 := rhs.orAssign self

/-- src/util/bitfield.rs:263-271 `bitxor_assign`. -/
def xorAssign (b a : BitField256) : BitField256 :=
  ⟨#v[b.bits[0] ^^^ a.bits[0], b.bits[1] ^^^ a.bits[1], b.bits[2] ^^^ a.bits[2],
      b.bits[3] ^^^ a.bits[3]]⟩

/-- src/util/bitfield.rs:252-261 `bitxor`: `rhs ^= self; rhs`. -/
def xor (self rhs : BitField256) : BitField256 := rhs.xorAssign self

/-- src/util/bitfield.rs:273-284 `not`. -/
def not (b : BitField256) : BitField256 :=
  ⟨#v[~~~ b.bits[0], ~~~ b.bits[1], ~~~ b.bits[2], ~~~ b.bits[3]]⟩

/-- src/util/bitfield.rs:8: lexicographic comparison of equally long word lists (std's derived `Ord` on arrays). -/
def cmpWords : List U64 → List U64 → Ordering
  | [], [] => .eq
  | [], _ :: _ => .lt
  | _ :: _, [] => .gt
  | x :: xs, y :: ys => if x < y then .lt else if y < x then .gt else cmpWords xs ys

/-- src/util/bitfield.rs:8 `#[derive(Ord, PartialOrd)]`: lexicographic on `bits`. -/
def cmp (a b : BitField256) : Ordering := cmpWords a.bits.toList b.bits.toList

end BitField256
end Rescan
