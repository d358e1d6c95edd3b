import Verif.Model.BitField
import Verif.Model.Compare
/-! # src/util/charreach.rs, src/util/unicode_def.rs -/
namespace Rescan

/-- src/util/charreach.rs:11-15 `CharReach`. -/
structure CharReach where
  bits : BitField256
deriving DecidableEq

namespace CharReach

/-- src/util/charreach.rs:11 `#[derive(Default)]`. -/
def default : CharReach := ⟨BitField256.default⟩

/-- src/util/charreach.rs:58-60 `reset_all`. -/
def resetAll (cr : CharReach) : CharReach := ⟨cr.bits.resetAll⟩
/-- src/util/charreach.rs:63-65 `set_all`. -/
def setAll (cr : CharReach) : CharReach := ⟨cr.bits.setAll⟩
/-- src/util/charreach.rs:69-71 `reset`. -/
def reset (cr : CharReach) (c : U8) : CharReach := ⟨cr.bits.reset c⟩
/-- src/util/charreach.rs:74-76 `set`. -/
def set (cr : CharReach) (c : U8) : CharReach := ⟨cr.bits.set c⟩
/-- src/util/charreach.rs:80-82 `test`. -/
def test (cr : CharReach) (c : U8) : Bool := cr.bits.test c
/-- src/util/charreach.rs:86-88 `flip_all`. -/
def flipAll (cr : CharReach) : CharReach := ⟨cr.bits.flipAll⟩
/-- src/util/charreach.rs:92-94 `flip`. -/
def flip (cr : CharReach) (c : U8) : CharReach := ⟨cr.bits.flip c⟩
/-- src/util/charreach.rs:101-103 `set_range`. -/
def setRange (p : Profile) (cr : CharReach) (from_ to : U8) : Res CharReach := do
  let b ← cr.bits.setRange p from_ to
  return ⟨b⟩
/-- src/util/charreach.rs:106-110 `set_bytes`. -/
def setBytes (cr : CharReach) (bytes : List U8) : CharReach := bytes.foldl CharReach.set cr
/-- src/util/charreach.rs:114-116 `count`. -/
def count (cr : CharReach) : Nat := cr.bits.count
/-- src/util/charreach.rs:121-123 `none`. -/
def none (cr : CharReach) : Bool := cr.bits.none
/-- src/util/charreach.rs:128-130 `any`. -/
def any (cr : CharReach) : Bool := cr.bits.any
/-- src/util/charreach.rs:135-137 `all`. -/
def all (cr : CharReach) : Bool := cr.bits.all
/-- src/util/charreach.rs:141-143 `find_first`. -/
def findFirst (cr : CharReach) : Option U8 := cr.bits.findFirst
/-- src/util/charreach.rs:148-150 `find_last`. -/
def findLast (cr : CharReach) : Option U8 := cr.bits.findLast
/-- src/util/charreach.rs:154-156 `find_next`. -/
def findNext (cr : CharReach) (last : U8) : Option U8 := cr.bits.findNext last
/-- src/util/charreach.rs:161-163 `find_nth`. -/
def findNth (p : Profile) (cr : CharReach) (n : U8) : Res (Option U8) := cr.bits.findNth p n

/-- src/util/charreach.rs:20-24 `from_char`. -/
def fromChar (c : U8) : CharReach := CharReach.default.set c
/-- src/util/charreach.rs:34-38 `from_range`. -/
def fromRange (p : Profile) (from_ to : U8) : Res CharReach := CharReach.default.setRange p from_ to
/-- src/util/charreach.rs:43-47 `from_bytes`. -/
def fromBytes (bytes : List U8) : CharReach := CharReach.default.setBytes bytes
/-- src/util/charreach.rs:52-54 `dot`. -/
def dot (p : Profile) : Res CharReach := fromRange p 0#8 255#8

/-- The values taken by `pos` in the idiom
`let mut next = cr.find_first(); while let Some(pos) = next { ..; next = cr.find_next(pos); }`
used at src/util/charreach.rs:172-178, 197-203, 240-244, 336-340 and 355-360.  A loop with that
header is modelled by a list function over this sequence.  256 iterations suffice (proved). -/
def memberLoop (cr : CharReach) : Nat → Option U8 → List U8
  | 0, _ => []
  | _ + 1, Option.none => []
  | fuel + 1, some pos => pos :: memberLoop cr fuel (cr.findNext pos)

/-- src/util/charreach.rs:172, 197, 240, 336, 355: see `memberLoop`. -/
def memberSeq (cr : CharReach) : List U8 := memberLoop cr 256 cr.findFirst

/-- src/util/charreach.rs:168-180 `is_alphabetic`. -/
def isAlphabetic (cr : CharReach) : Bool :=
  if cr.none then false else cr.memberSeq.all ourisalpha

/-- src/util/charreach.rs:184-191 `is_caseless_char`. -/
def isCaselessChar {ε : Type} (cr : CharReach) : Outcome ε Bool :=
  if cr.count ≠ 2 then .ok false
  else do
    let first ← Outcome.expect cr.findFirst "should have two bits set"
    let second ← Outcome.expect (cr.findNext first) "should have two bits set"
    return first == mytoupper second

/-- src/util/charreach.rs:196-205 `is_bit5_insensitive`. -/
def isBit5Insensitive (cr : CharReach) : Bool :=
  cr.memberSeq.all (fun pos => cr.test (pos ^^^ 0x20#8))

/-- src/util/charreach.rs:261-266 `bitand_assign`. -/
def andAssign (a b : CharReach) : CharReach := ⟨a.bits.andAssign b.bits⟩
/-- src/util/charreach.rs:249-259 `bitand`. -/
def and (self rhs : CharReach) : CharReach := rhs.andAssign self
/-- src/util/charreach.rs:280-285 `bitor_assign`. -/
def orAssign (a b : CharReach) : CharReach := ⟨a.bits.orAssign b.bits⟩
/-- src/util/charreach.rs:268-278 `bitor`. -/
def or (self rhs : CharReach) : CharReach := rhs.orAssign self
/-- src/util/charreach.rs:299-304 `bitxor_assign`. -/
def xorAssign (a b : CharReach) : CharReach := ⟨a.bits.xorAssign b.bits⟩
/-- src/util/charreach.rs:287-297 `bitxor`. -/
def xor (self rhs : CharReach) : CharReach := rhs.xorAssign self
/-- src/util/charreach.rs:306-315 `not`. -/
def not (a : CharReach) : CharReach := ⟨a.bits.not⟩
/-- src/util/charreach.rs:11 `#[derive(PartialOrd, Ord)]`. -/
def cmp (a b : CharReach) : Ordering := a.bits.cmp b.bits

/-- src/util/charreach.rs:210-212 `is_subset_of`. -/
def isSubsetOf (cr rhs : CharReach) : Bool := cr.bits.and rhs.bits == cr.bits
/-- src/util/charreach.rs:217-219 `overlaps`. -/
def overlaps (cr rhs : CharReach) : Bool := (cr.and rhs).any
/-- src/util/charreach.rs:224-226 `is_ascii`. -/
def isAscii (p : Profile) (cr : CharReach) : Res Bool := do
  let r ← fromRange p 0x00#8 0x7f#8
  return (cr.and r.not).none

/-- src/util/unicode_def.rs:3 `UTF_CONT_MAX = 0xc0 - 1`. -/
def utfContMax : U8 := 0xc0#8 - 1#8

/-- src/util/charreach.rs:232-234 `is_utf8_start`. -/
def isUtf8Start (p : Profile) (cr : CharReach) : Res Bool := do
  let r ← fromRange p 0x00#8 utfContMax
  return (cr.and r).none

/-- src/util/charreach.rs:237-247 `Display::fmt`; `pos as char` is the scalar value `pos`. -/
def display (cr : CharReach) : Str := cr.memberSeq.map (fun pos => Char.ofNat pos.toNat)

/-- src/util/charreach.rs:318: the `for c in b'A'..=b'Z'` range of `make_caseless`. -/
def upperLetters : List U8 := (List.range 26).map (fun i => BitVec.ofNat 8 (0x41 + i))

/-- src/util/charreach.rs:317-324 `make_caseless`. -/
def makeCaseless (cr : CharReach) : CharReach :=
  upperLetters.foldl
    (fun cr c => if cr.test c || cr.test (mytolower c) then (cr.set c).set (mytolower c) else cr) cr

/-- src/util/charreach.rs:338: Rust `1_u8 << k` for a `u8` shift amount: panics in debug for `k ≥ 8`, masks to `k % 8` in
release. -/
def shlOneChk (p : Profile) (k : U8) : Res U8 :=
  if p = .debug ∧ 8 ≤ k.toNat then .panic "attempt to shift left with overflow"
  else .ok (1#8 <<< (k.toNat % 8))

/-- One iteration of the loop of `fill_bitvector` (src/util/charreach.rs:338):
`bits[(pos / 8) as usize] |= 1 << (pos & 8)`. -/
def fillStep (p : Profile) (bits : List U8) (pos : U8) : Res (List U8) := do
  let m ← shlOneChk p (pos &&& 8#8)
  return bits.modify (pos / 8#8).toNat (fun b => b ||| m)

/-- src/util/charreach.rs:332-341 `fill_bitvector`: `bits[0..32]` panics on a shorter slice; the
first 32 bytes are zeroed, then filled. -/
def fillBitvector (p : Profile) (cr : CharReach) (bits : List U8) : Res (List U8) :=
  if bits.length < 32 then .panic "range end index 32 out of range"
  else cr.memberSeq.foldlM (fillStep p) (List.replicate 32 0#8 ++ bits.drop 32)

/-- src/util/charreach.rs:351-365 `make_and_cmp_mask`. -/
def makeAndCmpMask (cr : CharReach) : U8 × U8 :=
  let (lo, hi) := cr.memberSeq.foldl (fun (s : U8 × U8) pos => (s.1 &&& pos, s.2 ||| pos))
    (0xff#8, 0x00#8)
  (~~~ (lo ^^^ hi), lo)

end CharReach
end Rescan
