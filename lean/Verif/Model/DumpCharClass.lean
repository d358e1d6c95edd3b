import Verif.Model.CharReach
/-! # src/util/dump_charclass.rs (compiled for tests only)

Output is a `Str`: this is what is printed into a `String`, which never fails.  `Model/DumpSink.lean` has
the same functions for any `fmt::Write`. -/
namespace Rescan

/-- src/util/dump_charclass.rs:7-12 `CcOutput`. -/
inductive CcOutput where
  | text
  | dot
deriving DecidableEq, Repr

namespace Dump

/-- src/util/dump_charclass.rs:19-23, 81-85 `backslash`. -/
def backslash : CcOutput → Str
  | .dot => ['\\', '\\']
  | .text => ['\\']

/-- src/util/dump_charclass.rs:15 `ESCAPED = *b"^-[]."`. -/
def escaped : List U8 := [0x5e#8, 0x2d#8, 0x5b#8, 0x5d#8, 0x2e#8]

/-- src/util/dump_charclass.rs:16 `DOT_SINGLE_ESCAPED`: double and single quote. -/
def dotSingleEscaped : List U8 := [0x22#8, 0x27#8]

/-- src/util/dump_charclass.rs:28, 31, 33: `c.into(): char` for a byte. -/
def byteChar (c : U8) : Char := Char.ofNat c.toNat

/-- src/util/dump_charclass.rs:45: one lower-case hexadecimal digit (std `LowerHex`). -/
def hexDigit (n : Nat) : Char := if n < 10 then Char.ofNat (48 + n) else Char.ofNat (87 + n)

/-- src/util/dump_charclass.rs:45: `format!("{:2x}", c)`: lower-case hex, padded on the left with a **space** to width 2. -/
def hex2 (c : U8) : Str :=
  if c.toNat < 16 then [' ', hexDigit c.toNat]
  else [hexDigit (c.toNat / 16), hexDigit (c.toNat % 16)]

/-- src/util/dump_charclass.rs:18-47 `describe_char`. -/
def describeChar (c : U8) (out : CcOutput) : Str :=
  if 0x21#8 ≤ c ∧ c < 0x7f#8 ∧ c ≠ 0x5c#8 then
    if c ∈ escaped then backslash out ++ [byteChar c]
    else if out = .dot ∧ c ∈ dotSingleEscaped then ['\\', byteChar c]
    else [byteChar c]
  else if c = 0x09#8 then backslash out ++ ['t']
  else if c = 0x0a#8 then backslash out ++ ['n']
  else if c = 0x0d#8 then backslash out ++ ['r']
  else backslash out ++ ['x'] ++ hex2 c

/-- src/util/dump_charclass.rs:60-66: `loop { describe_char(c1); c1 += 1; if c1 > c2 { break } }`,
at most `fuel` iterations. -/
def rangeLoop (p : Profile) (out : CcOutput) (c2 : U8) : Nat → U8 → Res Str
  | 0, _ => .timeout
  | fuel + 1, c1 => do
    let c1' ← addChk p c1 1#8
    if c1' > c2 then return describeChar c1 out
    else
      let rest ← rangeLoop p out c2 fuel c1'
      return describeChar c1 out ++ rest

/-- src/util/dump_charclass.rs:54-74 `describe_range`. -/
def describeRange (p : Profile) (fuel : Nat) (c1 c2 : U8) (out : CcOutput) : Res Str :=
  if c1 = c2 then .ok (describeChar c1 out)
  else do
    let d ← subChk p c2 c1
    if d < 4#8 then rangeLoop p out c2 fuel c1
    else return describeChar c1 out ++ ['-'] ++ describeChar c2 out

/-- src/util/dump_charclass.rs:89, 97: a byte-string literal as bytes. -/
def bytesOf (s : String) : List U8 := s.toList.map (fun c => BitVec.ofNat 8 c.toNat)

/-- src/util/dump_charclass.rs:88-89. -/
def words : CharReach :=
  CharReach.fromBytes (bytesOf "_0123456789abcdefghijklmnopqrstuvwxyzABCDEFGHIJKLMNOPQRSTUVWYXZ")
/-- src/util/dump_charclass.rs:97. -/
def digits : CharReach := CharReach.fromBytes (bytesOf "0123456789")
/-- src/util/dump_charclass.rs:105. -/
def whitespace : CharReach := CharReach.fromBytes [0x09#8, 0x0a#8, 0x0b#8, 0x0c#8, 0x0d#8, 0x20#8]

/-- src/util/dump_charclass.rs:76-113 `extract_mnemonic`: the text written and the remaining set. -/
def extractMnemonic (cr : CharReach) (out : CcOutput) : Option (Str × CharReach) :=
  if words.isSubsetOf cr then some (backslash out ++ ['w'], cr.and words.not)
  else if digits.isSubsetOf cr then some (backslash out ++ ['d'], cr.and digits.not)
  else if whitespace.isSubsetOf cr then some (backslash out ++ ['s'], cr.and whitespace.not)
  else Option.none

/-- The `while let Some(c) = cr.find_next(last)` loop of `contiguous_range`
(src/util/dump_charclass.rs:122-127) over the members after the first; gives the final `last`.
(`last + 1` cannot overflow: a larger member exists.) -/
def contiguousFrom (last : U8) : List U8 → Option U8
  | [] => some last
  | c :: cs => if c ≠ last + 1#8 then Option.none else contiguousFrom c cs

/-- src/util/dump_charclass.rs:115-129 `contiguous_range`. -/
def contiguousRange (cr : CharReach) : Option (U8 × U8) :=
  match cr.memberSeq with
  | [] => Option.none
  | first :: rest => (contiguousFrom first rest).map (fun last => (first, last))

/-- src/util/dump_charclass.rs:149-156: the mnemonic-extraction loop.  `Sum.inl` is the early
`return Ok(max_length)`; `Sum.inr` carries the text so far, the remaining class and the counter. -/
def mnemonicLoop (maxLen : Nat) (out : CcOutput) :
    Nat → CharReach → Nat → Str → Res (Str ⊕ (Str × CharReach × Nat))
  | 0, _, _, _ => .timeout
  | fuel + 1, cr, i, acc =>
    match extractMnemonic cr out with
    | Option.none => .ok (.inr (acc, cr, i))
    | some (txt, remaining) =>
      if i + 1 = maxLen then .ok (.inl (acc ++ txt ++ "...]".toList))
      else mnemonicLoop maxLen out fuel remaining (i + 1) (acc ++ txt)

/-- src/util/dump_charclass.rs:164-182: the series-of-ranges loop over the members after the first;
`(cStart, cLast)` is the current range.  The final range is written only if it ends at 0xff. -/
def rangesLoop (p : Profile) (fuel maxLen : Nat) (out : CcOutput) (cStart cLast : U8) (i : Nat)
    (acc : Str) : List U8 → Res (Str × Nat)
  | [] =>
    if cLast = 0xff#8 then do
      let d ← describeRange p fuel cStart cLast out
      return (acc ++ d, i + 1)
    else return (acc, i)
  | c :: cs =>
    if c ≠ cLast + 1#8 then do
      let d ← describeRange p fuel cStart cLast out
      if i + 1 = maxLen then return (acc ++ d ++ "...]".toList, maxLen)
      else rangesLoop p fuel maxLen out c c (i + 1) (acc ++ d) cs
    else rangesLoop p fuel maxLen out cStart c i acc cs

/-- src/util/dump_charclass.rs:131-184 `describe_class_int`: the text and the returned count. -/
def describeClassInt (p : Profile) (fuel : Nat) (incr : CharReach) (maxLen : Nat) (out : CcOutput) :
    Res (Str × Nat) :=
  match contiguousRange incr with
  | some (first, last) => do
    let d ← describeRange p fuel first last out
    return (d, 2)
  | Option.none => do
    match ← mnemonicLoop maxLen out fuel incr 0 [] with
    | .inl s => return (s, maxLen)
    | .inr (acc, cr, i) =>
      if cr.none then return (acc, i)
      else
        match cr.memberSeq with
        | [] => return (acc, i)
        | cStart :: rest => rangesLoop p fuel maxLen out cStart cStart i acc rest

/-- src/util/dump_charclass.rs:186-231 `describe_class`. -/
def describeClass (p : Profile) (fuel : Nat) (incr : CharReach) (maxLen : Nat) (out : CcOutput) :
    Res Str :=
  if incr.all then .ok "<any>".toList
  else if incr.none then .ok "<empty>".toList
  else if incr.count = 1 then do
    let c ← Outcome.expect incr.findFirst "should be available"
    return describeChar c out
  else if incr.not.count = 1 then do
    let c ← Outcome.expect incr.not.findFirst "should be available"
    return "[^".toList ++ describeChar c out ++ [']']
  else do
    let (o, outCount) ← describeClassInt p fuel incr maxLen out
    let (neg, _) ← describeClassInt p fuel incr.not maxLen out
    if utf8Len o ≤ utf8Len neg then
      if outCount > 1 then return ['['] ++ o ++ [']']
      else return o
    else return "[^".toList ++ neg ++ [']']

end Dump
end Rescan
