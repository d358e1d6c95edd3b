import Verif.Model.DumpSink
import Verif.Model.SmallWrite
/-! # Functions again, with every operation checked and every loop as written

Elsewhere the model simplifies: integer operations that look safe are unchecked, `while let` loops over
the members of a class are list functions over `CharReach.memberSeq`, iterators are lists, and indexing
of graph nodes by edge ends has a default.  Here the same functions are transcribed without these
simplifications.  C84 shows that they compute the same and never panic or run forever. -/
namespace Rescan

/-- Rust `a * b` on an unsigned type: overflow-checked in debug, wrapping in release
(src/util/bitfield.rs:132, 144, 160, 168, 190). -/
def mulChk {ε : Type} (p : Profile) {w : Nat} (a b : BitVec w) : Outcome ε (BitVec w) :=
  if p = .debug ∧ 2 ^ w ≤ a.toNat * b.toNat then .panic "attempt to multiply with overflow"
  else .ok (a * b)

/-- Rust `a << k`: the amount is checked in debug, taken modulo the width in release
(src/util/bitfield.rs:68, 80, 156, 206). -/
def shlChk {ε : Type} (p : Profile) {w : Nat} (a : BitVec w) (k : Nat) : Outcome ε (BitVec w) :=
  if p = .debug ∧ w ≤ k then .panic "attempt to shift left with overflow"
  else .ok (a <<< (k % w))

/-- Indexing a slice (src/util/bitfield.rs:32, 37, 42, 55, 153 and others). -/
def index {ε α : Type} (l : List α) (i : Nat) : Outcome ε α :=
  match l[i]? with
  | some x => .ok x
  | none => .panic "index out of bounds"

namespace Checked

variable {ε : Type}

/-- src/util/compare.rs:10-16 `mytolower`. -/
def mytolower (p : Profile) (c : U8) : Outcome ε U8 :=
  if myisupper c then addChk p c 0x20#8 else .ok c

/-- src/util/compare.rs:19-25 `mytoupper`. -/
def mytoupper (p : Profile) (c : U8) : Outcome ε U8 :=
  if myislower c then subChk p c 0x20#8 else .ok c

/-- src/util/compare.rs:29-31 `ourisalpha`. -/
def ourisalpha (p : Profile) (c : U8) : Outcome ε Bool := do
  let l ← mytolower p c
  let u ← mytoupper p c
  return l != u

/-! ## src/util/bitfield.rs -/

/-- The four words. -/
def wordList (b : BitField256) : List U64 := b.bits.toList

/-- src/util/bitfield.rs:205-207 `mask_bit`. -/
def maskBit (p : Profile) (n : U8) : Outcome ε U64 := shlChk p 1#64 (n % 64#8).toNat

/-- src/util/bitfield.rs:41-43 `test`. -/
def test (p : Profile) (b : BitField256) (n : U8) : Outcome ε Bool := do
  let w ← index (wordList b) (BitField256.getWord n).toNat
  let m ← maskBit p n
  return (w &&& m) != 0#64

/-- src/util/bitfield.rs:36-38 `set`. -/
def set (p : Profile) (b : BitField256) (n : U8) : Outcome ε (List U64) := do
  let w ← index (wordList b) (BitField256.getWord n).toNat
  let m ← maskBit p n
  return (wordList b).set (BitField256.getWord n).toNat (w ||| m)

/-- src/util/bitfield.rs:97-104 `count`, in `u32`. -/
def count (p : Profile) (b : BitField256) : Outcome ε U32 := do
  let sum ← addChk p 0#32 (BitVec.ofNat 32 (countOnes b.bits[0]))
  let sum ← addChk p sum (BitVec.ofNat 32 (countOnes b.bits[1]))
  let sum ← addChk p sum (BitVec.ofNat 32 (countOnes b.bits[2]))
  addChk p sum (BitVec.ofNat 32 (countOnes b.bits[3]))

/-- src/util/bitfield.rs:129-135: the loop of `find_first`; `i` counts the words passed (`usize`). -/
def firstLoop (p : Profile) : Nat → List U64 → Outcome ε (Option U8)
  | _, [] => .ok none
  | i, bits :: rest =>
    if bits ≠ 0#64 then do
      let a ← mulChk p (BitVec.ofNat 8 i) 64#8
      let r ← addChk p a (BitVec.ofNat 8 (trailingZeros bits))
      return some r
    else firstLoop p (i + 1) rest

/-- src/util/bitfield.rs:128-136 `find_first`. -/
def findFirst (p : Profile) (b : BitField256) : Outcome ε (Option U8) := firstLoop p 0 (wordList b)

/-- src/util/bitfield.rs:141-147: the loop of `find_last` over the enumerated words, reversed. -/
def lastLoop (p : Profile) : List (Nat × U64) → Outcome ε (Option U8)
  | [] => .ok none
  | (i, bits) :: rest =>
    if bits ≠ 0#64 then do
      let a ← mulChk p (BitVec.ofNat 8 i) 64#8
      let s ← subChk p 64#8 1#8
      let a ← addChk p a s
      let r ← subChk p a (BitVec.ofNat 8 (leadingZeros bits))
      return some r
    else lastLoop p rest

/-- src/util/bitfield.rs:140-148 `find_last`. -/
def findLast (p : Profile) (b : BitField256) : Outcome ε (Option U8) :=
  lastLoop p ((wordList b).zipIdx.map (fun x => (x.2, x.1))).reverse

/-- src/util/bitfield.rs:165-170: the loop of `find_next`; `i` counts within the slice. -/
def nextLoop (p : Profile) (lastI : U8) : Nat → List U64 → Outcome ε (Option U8)
  | _, [] => .ok none
  | i, bits :: rest =>
    if bits ≠ 0#64 then do
      let w ← addChk p lastI (BitVec.ofNat 8 i)
      let a ← mulChk p w 64#8
      let r ← addChk p a (BitVec.ofNat 8 (trailingZeros bits))
      return some r
    else nextLoop p lastI (i + 1) rest

/-- src/util/bitfield.rs:151-173 `find_next`. -/
def findNext (p : Profile) (b : BitField256) (last : U8) : Outcome ε (Option U8) := do
  let lastI := BitField256.getWord last
  let lastWord ← index (wordList b) lastI.toNat
  let early ← if last % 64#8 ≠ 64#8 - 1#8 then do
      let k ← addChk p (last % 64#8) 1#8
      let m ← shlChk p BitField256.allOnes k.toNat
      let lw := lastWord &&& m
      if lw ≠ 0#64 then do
        let a ← mulChk p lastI 64#8
        let r ← addChk p a (BitVec.ofNat 8 (trailingZeros lw))
        pure (some r)
      else pure none
    else pure none
  match early with
  | some r => return some r
  | none =>
    let lastI ← addChk p lastI 1#8
    if lastI.toNat ≤ (wordList b).length then nextLoop p lastI 0 ((wordList b).drop lastI.toNat)
    else .panic "range start index out of range"

/-! ## src/util/charreach.rs: the loops over the members -/

/-- The loop at src/util/charreach.rs:172-179, at most `fuel` tests of its condition. -/
def alphaLoop (p : Profile) (b : BitField256) : Nat → Option U8 → Outcome ε Bool
  | 0, _ => .timeout
  | _ + 1, none => .ok true
  | fuel + 1, some pos => do
    if !(← ourisalpha p pos) then return false
    let next ← findNext p b pos
    alphaLoop p b fuel next

/-- src/util/charreach.rs:168-180 `is_alphabetic`. -/
def isAlphabetic (p : Profile) (fuel : Nat) (cr : CharReach) : Outcome ε Bool := do
  if cr.none then return false
  let next ← findFirst p cr.bits
  alphaLoop p cr.bits fuel next

/-- The loop at src/util/charreach.rs:198-204. -/
def bit5Loop (p : Profile) (b : BitField256) : Nat → Option U8 → Outcome ε Bool
  | 0, _ => .timeout
  | _ + 1, none => .ok true
  | fuel + 1, some pos => do
    if !(← test p b (pos ^^^ 0x20#8)) then return false
    let next ← findNext p b pos
    bit5Loop p b fuel next

/-- src/util/charreach.rs:196-205 `is_bit5_insensitive`. -/
def isBit5Insensitive (p : Profile) (fuel : Nat) (cr : CharReach) : Outcome ε Bool := do
  let next ← findFirst p cr.bits
  bit5Loop p cr.bits fuel next

/-- The loop at src/util/charreach.rs:241-244. -/
def displayLoop (p : Profile) (b : BitField256) : Nat → Str → Option U8 → Outcome ε Str
  | 0, _, _ => .timeout
  | _ + 1, s, none => .ok s
  | fuel + 1, s, some pos => do
    let s := s ++ [Char.ofNat pos.toNat]
    let next ← findNext p b pos
    displayLoop p b fuel s next

/-- src/util/charreach.rs:237-247 `Display::fmt`. -/
def display (p : Profile) (fuel : Nat) (cr : CharReach) : Outcome ε Str := do
  let next ← findFirst p cr.bits
  displayLoop p cr.bits fuel [] next

/-- The loop at src/util/charreach.rs:337-340. -/
def fillLoop (p : Profile) (b : BitField256) : Nat → List U8 → Option U8 → Outcome ε (List U8)
  | 0, _, _ => .timeout
  | _ + 1, bits, none => .ok bits
  | fuel + 1, bits, some pos => do
    let i := (pos / 8#8).toNat
    let m ← shlChk p 1#8 (pos &&& 8#8).toNat
    let x ← index bits i
    let bits := bits.set i (x ||| m)
    let next ← findNext p b pos
    fillLoop p b fuel bits next

/-- src/util/charreach.rs:332-341 `fill_bitvector`. -/
def fillBitvector (p : Profile) (fuel : Nat) (cr : CharReach) (bits : List U8) : Outcome ε (List U8) := do
  if bits.length < 32 then .panic "range end index 32 out of range"
  else
    let bits := (bits.take 32).map (fun _ => 0#8) ++ bits.drop 32
    let next ← findFirst p cr.bits
    fillLoop p cr.bits fuel bits next

/-- The loop at src/util/charreach.rs:356-360. -/
def maskLoop (p : Profile) (b : BitField256) : Nat → U8 → U8 → Option U8 → Outcome ε (U8 × U8)
  | 0, _, _, _ => .timeout
  | _ + 1, lo, hi, none => .ok (lo, hi)
  | fuel + 1, lo, hi, some pos => do
    let hi := hi ||| pos
    let lo := lo &&& pos
    let next ← findNext p b pos
    maskLoop p b fuel lo hi next

/-- src/util/charreach.rs:351-365 `make_and_cmp_mask`. -/
def makeAndCmpMask (p : Profile) (fuel : Nat) (cr : CharReach) : Outcome ε (U8 × U8) := do
  let next ← findFirst p cr.bits
  let (lo, hi) ← maskLoop p cr.bits fuel 0xff#8 0x00#8 next
  return (~~~ (lo ^^^ hi), lo)

/-! ## src/util/dump_charclass.rs -/

/-- src/util/dump_charclass.rs:122-127: the loop of `contiguous_range`. -/
def contiguousLoop (p : Profile) (b : BitField256) : Nat → U8 → Outcome ε (Option U8)
  | 0, _ => .timeout
  | fuel + 1, last => do
    match ← findNext p b last with
    | some c =>
      let l1 ← addChk p last 1#8
      if c ≠ l1 then return none
      contiguousLoop p b fuel c
    | none => return some last

/-- src/util/dump_charclass.rs:115-129 `contiguous_range`. -/
def contiguousRange (p : Profile) (fuel : Nat) (cr : CharReach) : Outcome ε (Option (U8 × U8)) := do
  match ← findFirst p cr.bits with
  | none => return none
  | some first =>
    match ← contiguousLoop p cr.bits fuel first with
    | none => return none
    | some last => return some (first, last)

/-- src/util/dump_charclass.rs:166-181: the series-of-ranges loop of `describe_class_int`.  (`fuel'` is
the bound for `describe_range`.) -/
def rangesLoop {σ : Type} (p : Profile) (fuel' : Nat) (w : Sink ε σ) (b : BitField256) (maxLen : Nat)
    (out : CcOutput) : Nat → σ → U8 → U8 → Nat → Outcome ε (σ × Nat)
  | 0, _, _, _, _ => .timeout
  | fuel + 1, f, cStart, cLast, i => do
    match ← findNext p b cLast with
    | some c =>
      let l1 ← addChk p cLast 1#8
      if c ≠ l1 then
        let f ← Dump.describeRangeTo p fuel' w f cStart cLast out
        if i + 1 = maxLen then
          let f ← w.writeStr f "...]".toList
          return (f, maxLen)
        else rangesLoop p fuel' w b maxLen out fuel f c c (i + 1)
      else rangesLoop p fuel' w b maxLen out fuel f cStart c i
    | none =>
      if cLast = 0xff#8 then
        let f ← Dump.describeRangeTo p fuel' w f cStart cLast out
        return (f, i + 1)
      else return (f, i)

/-- src/util/dump_charclass.rs:131-184 `describe_class_int`. -/
def describeClassInt {σ : Type} (p : Profile) (fuel fuel' : Nat) (w : Sink ε σ) (f : σ) (incr : CharReach)
    (maxLen : Nat) (out : CcOutput) : Outcome ε (σ × Nat) := do
  match ← contiguousRange p fuel incr with
  | some (first, last) =>
    let f ← Dump.describeRangeTo p fuel' w f first last out
    return (f, 2)
  | none =>
    let (f, r) ← Dump.mnemonicLoopTo w maxLen out fuel' f incr 0
    match r with
    | none => return (f, maxLen)
    | some (cr, i) =>
      if cr.none then return (f, i)
      match ← findFirst p cr.bits with
      | some cStart => rangesLoop p fuel' w cr.bits maxLen out fuel f cStart cStart i
      | none => return (f, i)

/-! ## src/util/ue2string.rs: the iterator -/

/-- src/util/ue2string.rs:16-19 `Ue2LiteralIter`. -/
structure LitIter where
  lit : Ue2Literal
  idx : Nat

/-- src/util/ue2string.rs:38-40 `iter`. -/
def iter (l : Ue2Literal) : LitIter := ⟨l, 0⟩

/-- src/util/ue2string.rs:54-59 `next`: the item and the iterator after the call. -/
def next (it : LitIter) : Option Ue2LiteralElem × LitIter :=
  match it.lit.s[it.idx]? with
  | none => (none, it)
  | some c =>
    match it.lit.nocase[it.idx]? with
    | none => (none, it)
    | some nocase => (some ⟨c, nocase⟩, { it with idx := it.idx + 1 })

/-- src/util/ue2string.rs:106-115: the loop of `mixed_sensitivity`. -/
def mixedLoop (p : Profile) : Nat → LitIter → Bool → Bool → Outcome ε (Bool × Bool)
  | 0, _, _, _ => .timeout
  | fuel + 1, it, cs, nc =>
    match next it with
    | (none, _) => .ok (cs, nc)
    | (some e, it) => do
      if !(← ourisalpha p e.c) then mixedLoop p fuel it cs nc
      else if e.nocase then mixedLoop p fuel it cs true
      else mixedLoop p fuel it true nc

/-- src/util/ue2string.rs:100-118 `mixed_sensitivity` of a literal. -/
def mixedSensitivity (p : Profile) (fuel : Nat) (l : Ue2Literal) : Outcome ε Bool := do
  let (cs, nc) ← mixedLoop p fuel (iter l) false false
  return cs && nc

/-- src/util/ue2string.rs:42-48 `push`. -/
def push (p : Profile) (l : Ue2Literal) (c : U8) (nc : Bool) : Outcome ε Ue2Literal := do
  let c ← if nc then mytoupper p c else pure c
  return ⟨l.s ++ [c], l.nocase ++ [nc]⟩

/-! ## src/smallwrite/smallwrite_build.rs -/

/-- src/smallwrite/smallwrite_build.rs:164-167: `find` over the outgoing neighbours, indexing each. -/
def findIn (t : LitTrie) (c : U8) : List Nat → Outcome ε (Option Nat)
  | [] => .ok none
  | v :: vs => do
    let x ← index t.inner.nodes v
    if x.c = c then return some v else findIn t c vs

/-- src/smallwrite/smallwrite_build.rs:163-173: the loop of `add_to_trie`. -/
def trieLoop : Nat → LitIter → LitTrie → Nat → Outcome ε (LitTrie × Nat)
  | 0, _, _, _ => .timeout
  | fuel + 1, it, t, u =>
    match next it with
    | (none, _) => .ok (t, u)
    | (some e, it) => do
      match ← findIn t e.c (t.inner.outgoing u) with
      | some v => trieLoop fuel it t v
      | none =>
        let (g, next) ← t.inner.addNode ⟨e.c, []⟩
        let g ← g.addEdge u next
        trieLoop fuel it { t with inner := g } next

/-- src/smallwrite/smallwrite_build.rs:161-178 `add_to_trie`. -/
def addToTrie (fuel : Nat) (literal : Ue2Literal) (report : Nat) (t : LitTrie) :
    Outcome ε (LitTrie × Bool) := do
  let (t, u) ← trieLoop fuel (iter literal) t t.root
  let x ← index t.inner.nodes u
  let nodes := t.inner.nodes.set u { x with reports := setInsert x.reports report }
  return ({ t with inner := { t.inner with nodes := nodes } }, decide (nodes.length ≤ maxTrieVertices))

end Checked
end Rescan
