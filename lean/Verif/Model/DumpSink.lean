import Verif.Model.Parser
/-! # The printers of src/util/dump_charclass.rs and src/parser/dump.rs over any writer

`Model/DumpCharClass.lean` and the end of `Model/Parser.lean` give the text printed into a `String`.
Here the same functions are transcribed for an arbitrary `W: fmt::Write`, which may fail (or panic) at
any call. -/
namespace Rescan

/-- std `fmt::Write`, for a writer with state `σ`.  `ε` is the error (`fmt::Error` in Rust). -/
structure Sink (ε σ : Type) where
  writeStr : σ → Str → Outcome ε σ
  writeChar : σ → Char → Outcome ε σ

/-- std `impl fmt::Write for String`: appends, never fails. -/
def stringSink {ε : Type} : Sink ε Str where
  writeStr s t := .ok (s ++ t)
  writeChar s c := .ok (s ++ [c])

namespace Dump

variable {ε σ : Type}

/-- src/util/dump_charclass.rs:18-47 `describe_char`. -/
def describeCharTo (w : Sink ε σ) (f : σ) (c : U8) (out : CcOutput) : Outcome ε σ :=
  if 0x21#8 ≤ c ∧ c < 0x7f#8 ∧ c ≠ 0x5c#8 then
    if c ∈ escaped then do
      let f ← w.writeStr f (backslash out)
      w.writeChar f (byteChar c)
    else if out = .dot ∧ c ∈ dotSingleEscaped then do
      let f ← w.writeChar f '\\'
      w.writeChar f (byteChar c)
    else w.writeChar f (byteChar c)
  else if c = 0x09#8 then do
    let f ← w.writeStr f (backslash out)
    w.writeChar f 't'
  else if c = 0x0a#8 then do
    let f ← w.writeStr f (backslash out)
    w.writeChar f 'n'
  else if c = 0x0d#8 then do
    let f ← w.writeStr f (backslash out)
    w.writeChar f 'r'
  else w.writeStr f (backslash out ++ ['x'] ++ hex2 c)

/-- src/util/dump_charclass.rs:60-66: the loop of `describe_range`, at most `fuel` iterations. -/
def rangeLoopTo (p : Profile) (w : Sink ε σ) (out : CcOutput) (c2 : U8) :
    Nat → σ → U8 → Outcome ε σ
  | 0, _, _ => .timeout
  | fuel + 1, f, c1 => do
    let f ← describeCharTo w f c1 out
    let c1 ← addChk p c1 1#8
    if c1 > c2 then return f
    else rangeLoopTo p w out c2 fuel f c1

/-- src/util/dump_charclass.rs:54-74 `describe_range`. -/
def describeRangeTo (p : Profile) (fuel : Nat) (w : Sink ε σ) (f : σ) (c1 c2 : U8) (out : CcOutput) :
    Outcome ε σ :=
  if c1 = c2 then describeCharTo w f c1 out
  else do
    let d ← subChk p c2 c1
    if d < 4#8 then rangeLoopTo p w out c2 fuel f c1
    else
      let f ← describeCharTo w f c1 out
      let f ← w.writeChar f '-'
      describeCharTo w f c2 out

/-- src/util/dump_charclass.rs:76-113 `extract_mnemonic`. -/
def extractMnemonicTo (w : Sink ε σ) (f : σ) (cr : CharReach) (out : CcOutput) :
    Outcome ε (σ × Option CharReach) :=
  if words.isSubsetOf cr then do
    let f ← w.writeStr f (backslash out)
    let f ← w.writeChar f 'w'
    return (f, some (cr.and words.not))
  else if digits.isSubsetOf cr then do
    let f ← w.writeStr f (backslash out)
    let f ← w.writeChar f 'd'
    return (f, some (cr.and digits.not))
  else if whitespace.isSubsetOf cr then do
    let f ← w.writeStr f (backslash out)
    let f ← w.writeChar f 's'
    return (f, some (cr.and whitespace.not))
  else return (f, none)

/-- src/util/dump_charclass.rs:149-156: the mnemonic-extraction loop.  `none` is the early
`return Ok(max_length)`; `some` carries the remaining class and the counter. -/
def mnemonicLoopTo (w : Sink ε σ) (maxLen : Nat) (out : CcOutput) :
    Nat → σ → CharReach → Nat → Outcome ε (σ × Option (CharReach × Nat))
  | 0, _, _, _ => .timeout
  | fuel + 1, f, cr, i => do
    let (f, r) ← extractMnemonicTo w f cr out
    match r with
    | none => return (f, some (cr, i))
    | some remaining =>
      if i + 1 = maxLen then
        let f ← w.writeStr f "...]".toList
        return (f, none)
      else mnemonicLoopTo w maxLen out fuel f remaining (i + 1)

/-- src/util/dump_charclass.rs:164-182: the series-of-ranges loop. -/
def rangesLoopTo (p : Profile) (fuel : Nat) (w : Sink ε σ) (maxLen : Nat) (out : CcOutput)
    (f : σ) (cStart cLast : U8) (i : Nat) : List U8 → Outcome ε (σ × Nat)
  | [] =>
    if cLast = 0xff#8 then do
      let f ← describeRangeTo p fuel w f cStart cLast out
      return (f, i + 1)
    else return (f, i)
  | c :: cs =>
    if c ≠ cLast + 1#8 then do
      let f ← describeRangeTo p fuel w f cStart cLast out
      if i + 1 = maxLen then
        let f ← w.writeStr f "...]".toList
        return (f, maxLen)
      else rangesLoopTo p fuel w maxLen out f c c (i + 1) cs
    else rangesLoopTo p fuel w maxLen out f cStart c i cs

/-- src/util/dump_charclass.rs:131-184 `describe_class_int`. -/
def describeClassIntTo (p : Profile) (fuel : Nat) (w : Sink ε σ) (f : σ) (incr : CharReach)
    (maxLen : Nat) (out : CcOutput) : Outcome ε (σ × Nat) :=
  match contiguousRange incr with
  | some (first, last) => do
    let f ← describeRangeTo p fuel w f first last out
    return (f, 2)
  | none => do
    let (f, r) ← mnemonicLoopTo w maxLen out fuel f incr 0
    match r with
    | none => return (f, maxLen)
    | some (cr, i) =>
      if cr.none then return (f, i)
      else
        match cr.memberSeq with
        | [] => return (f, i)
        | cStart :: rest => rangesLoopTo p fuel w maxLen out f cStart cStart i rest

/-- src/util/dump_charclass.rs:186-231 `describe_class`.  The two candidate texts are printed into
`String`s first. -/
def describeClassTo (p : Profile) (fuel : Nat) (w : Sink ε σ) (f : σ) (incr : CharReach)
    (maxLen : Nat) (out : CcOutput) : Outcome ε σ :=
  if incr.all then w.writeStr f "<any>".toList
  else if incr.none then w.writeStr f "<empty>".toList
  else if incr.count = 1 then do
    let c ← Outcome.expect incr.findFirst "should be available"
    describeCharTo w f c out
  else if incr.not.count = 1 then do
    let f ← w.writeStr f "[^".toList
    let c ← Outcome.expect incr.not.findFirst "should be available"
    let f ← describeCharTo w f c out
    w.writeChar f ']'
  else do
    let (o, outCount) ← describeClassIntTo p fuel stringSink [] incr maxLen out
    let (neg, _) ← describeClassIntTo p fuel stringSink [] incr.not maxLen out
    if utf8Len o ≤ utf8Len neg then
      if outCount > 1 then
        let f ← w.writeChar f '['
        let f ← w.writeStr f o
        w.writeChar f ']'
      else w.writeStr f o
    else w.writeStr f ("[^".toList ++ neg ++ [']'])

/-- src/parser/dump.rs:26-28 `filler`. -/
def fillerAt (level : Nat) : Str := List.replicate (level * 2) ' '

/-- src/parser/dump.rs:21-24 `outdent`. -/
def outdentTo (p : Profile) (s : σ × Nat) : Outcome ε (σ × Nat) := do
  rdebugAssert p (decide (s.2 > 0)) "assertion failed: self.level > 0"
  let l ← Context.usizeSub p s.2 1
  return (s.1, l)

/-- src/parser/dump.rs:34-41 `pre_ascii_component_class`; the state of `DumpVisitor` (7-10) is the
writer and the level. -/
def preClassTo (p : Profile) (fuel : Nat) (w : Sink ε σ) (s : σ × Nat) (c : AsciiComponentClass) :
    Outcome ε (σ × Nat) := do
  let f ← w.writeStr s.1 (fillerAt s.2 ++ "ASCII CLASS\n".toList ++ fillerAt s.2 ++ "  ".toList)
  let f ← describeClassTo p fuel w f c.cr 256 .text
  let f ← w.writeChar f '\n'
  return (f, s.2 + 1)

/-- src/parser/dump.rs:47-51 `pre_component_alternation`. -/
def preAltTo (w : Sink ε σ) (s : σ × Nat) (_c : ComponentAlternation) : Outcome ε (σ × Nat) := do
  let f ← w.writeStr s.1 (fillerAt s.2 ++ "ALTERNATION\n".toList)
  return (f, s.2 + 1)

/-- src/parser/dump.rs:57-77 `pre_component_sequence`. -/
def preSeqTo (w : Sink ε σ) (s : σ × Nat) (c : ComponentSequence) : Outcome ε (σ × Nat) := do
  let f ← w.writeStr s.1 (fillerAt s.2 ++ "SEQUENCE".toList)
  let f ← match c.captureIndex with
    | some index => w.writeStr f (" (capture index " ++ toString index ++ ")").toList
    | none => w.writeStr f " (not captured)".toList
  let f ← match c.captureName with
    | some name => w.writeStr f (" (capture name '" ++ name ++ "')\n").toList
    | none => w.writeChar f '\n'
  if c.children.isEmpty then
    let f ← w.writeStr f (fillerAt (s.2 + 1) ++ " <empty>\n".toList)
    return (f, s.2 + 1)
  else return (f, s.2 + 1)

/-- src/parser/dump.rs:31-87 `impl ConstComponentVisitor for DumpVisitor`. -/
def dumpVisitorTo (p : Profile) (fuel : Nat) (w : Sink ε σ) : Visitor ε (σ × Nat) where
  preAsciiComponentClass := preClassTo p fuel w
  preComponentAlternation := preAltTo w
  preComponentSequence := preSeqTo w
  postAsciiComponentClass := fun s _ => outdentTo p s
  postComponentAlternation := fun s _ => outdentTo p s
  postComponentSequence := fun s _ => outdentTo p s

/-- src/parser/dump.rs:89-92 `dump_tree` (`fuel` bounds the loops of `describe_range`). -/
def dumpTreeTo (p : Profile) (fuel : Nat) (w : Sink ε σ) (f : σ) (root : Component) : Outcome ε σ := do
  let s ← walkComponent p (dumpVisitorTo p fuel w) (f, 0) root
  return s.1

end Dump
end Rescan
