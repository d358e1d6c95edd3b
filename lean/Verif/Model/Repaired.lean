import Verif.Model.Compiler
/-! # Repaired functions: **not code that exists**

Several full statements of `properties.jsonl` are false of the code (`…_false`).  Each definition below is
the model of the function that breaks the statement with one small change, described in terms of the source
line it changes.  `Props/Repaired.lean` proves the unchanged statement about the changed function, which
shows that the statement asks for something possible and that the cited line is what breaks it.

Nothing else in the development uses these definitions. -/
namespace Rescan.Repaired

/-- src/util/charreach.rs:338 with `pos & 7` instead of `pos & 8`. -/
def fillStep (p : Profile) (bits : List U8) (pos : U8) : Res (List U8) := do
  let m ← CharReach.shlOneChk p (pos &&& 7#8)
  return bits.modify (pos / 8#8).toNat (fun b => b ||| m)

/-- src/util/charreach.rs:332-341 `fill_bitvector` with the loop body changed at line 338. -/
def fillBitvector (p : Profile) (cr : CharReach) (bits : List U8) : Res (List U8) :=
  if bits.length < 32 then .panic "range end index 32 out of range"
  else cr.memberSeq.foldlM (fillStep p) (List.replicate 32 0#8 ++ bits.drop 32)

/-- src/util/ue2common.rs:41 with the complement taken after widening:
`!(T::from(n - 1))` instead of `(!(n - 1)).into()`. -/
def roundUpN (p : Profile) {w : Nat} (a : BitVec w) (n : U8) : Res (BitVec w) := do
  let n1 ← subChk p n 1#8
  let s ← addChk p a (n1.setWidth w)
  return s &&& ~~~ (n1.setWidth w)

/-- src/util/ue2common.rs:52 with the same change. -/
def roundDownN (p : Profile) {w : Nat} (a : BitVec w) (n : U8) : Res (BitVec w) := do
  let n1 ← subChk p n 1#8
  return a &&& ~~~ (n1.setWidth w)

/-- src/util/ue2string.rs:74-76 with `&& self.nocase == other.nocase` added. -/
def literalEq (a b : Ue2Literal) : Bool := a.s == b.s && a.nocase == b.nocase

/-- src/util/dump_charclass.rs:60-66 with the test before the increment:
`if c1 == c2 { break } c1 += 1`. -/
def rangeLoop (p : Profile) (out : CcOutput) (c2 : U8) : Nat → U8 → Res Str
  | 0, _ => .timeout
  | fuel + 1, c1 =>
    if c1 = c2 then .ok (Dump.describeChar c1 out)
    else do
      let c1' ← addChk p c1 1#8
      let rest ← rangeLoop p out c2 fuel c1'
      return Dump.describeChar c1 out ++ rest

/-- src/util/dump_charclass.rs:54-74 `describe_range` with the loop changed. -/
def describeRange (p : Profile) (fuel : Nat) (c1 c2 : U8) (out : CcOutput) : Res Str :=
  if c1 = c2 then .ok (Dump.describeChar c1 out)
  else do
    let d ← subChk p c2 c1
    if d < 4#8 then rangeLoop p out c2 fuel c1
    else return Dump.describeChar c1 out ++ ['-'] ++ Dump.describeChar c2 out

/-- src/util/dump_charclass.rs:164-182 with the last range written whatever it ends at: without the
condition `c_last == 0xff` of line 178. -/
def rangesLoop (p : Profile) (fuel maxLen : Nat) (out : CcOutput) (cStart cLast : U8) (i : Nat)
    (acc : Str) : List U8 → Res (Str × Nat)
  | [] => do
    let d ← describeRange p fuel cStart cLast out
    return (acc ++ d, i + 1)
  | c :: cs =>
    if c ≠ cLast + 1#8 then do
      let d ← describeRange p fuel cStart cLast out
      if i + 1 = maxLen then return (acc ++ d ++ "...]".toList, maxLen)
      else rangesLoop p fuel maxLen out c c (i + 1) (acc ++ d) cs
    else rangesLoop p fuel maxLen out cStart c i acc cs

/-- src/util/dump_charclass.rs:131-184 `describe_class_int` with both changes. -/
def describeClassInt (p : Profile) (fuel : Nat) (incr : CharReach) (maxLen : Nat) (out : CcOutput) :
    Res (Str × Nat) :=
  match Dump.contiguousRange incr with
  | some (first, last) => do
    let d ← describeRange p fuel first last out
    return (d, 2)
  | Option.none => do
    match ← Dump.mnemonicLoop maxLen out fuel incr 0 [] with
    | .inl s => return (s, maxLen)
    | .inr (acc, cr, i) =>
      if cr.none then return (acc, i)
      else
        match cr.memberSeq with
        | [] => return (acc, i)
        | cStart :: rest => rangesLoop p fuel maxLen out cStart cStart i acc rest

/-- src/util/dump_charclass.rs:186-231 `describe_class` with both changes. -/
def describeClass (p : Profile) (fuel : Nat) (incr : CharReach) (maxLen : Nat) (out : CcOutput) :
    Res Str :=
  if incr.all then .ok "<any>".toList
  else if incr.none then .ok "<empty>".toList
  else if incr.count = 1 then do
    let c ← Outcome.expect incr.findFirst "should be available"
    return Dump.describeChar c out
  else if incr.not.count = 1 then do
    let c ← Outcome.expect incr.not.findFirst "should be available"
    return "[^".toList ++ Dump.describeChar c out ++ [']']
  else do
    let (o, outCount) ← describeClassInt p fuel incr maxLen out
    let (neg, _) ← describeClassInt p fuel incr.not maxLen out
    if utf8Len o ≤ utf8Len neg then
      if outCount > 1 then return ['['] ++ o ++ [']']
      else return o
    else return "[^".toList ++ neg ++ [']']

/-- src/util/dump_charclass.rs:216-225 with both texts measured as `.text`, whichever form is asked for
(the functions called are those of the code). -/
def describeClassAlike (p : Profile) (fuel : Nat) (incr : CharReach) (maxLen : Nat) (out : CcOutput) : Res Str :=
  if incr.all then .ok "<any>".toList
  else if incr.none then .ok "<empty>".toList
  else if incr.count = 1 then do
    let c ← Outcome.expect incr.findFirst "should be available"
    return Dump.describeChar c out
  else if incr.not.count = 1 then do
    let c ← Outcome.expect incr.not.findFirst "should be available"
    return "[^".toList ++ Dump.describeChar c out ++ [']']
  else do
    let (o, outCount) ← Dump.describeClassInt p fuel incr maxLen out
    let (neg, _) ← Dump.describeClassInt p fuel incr.not maxLen out
    let (oText, _) ← Dump.describeClassInt p fuel incr maxLen .text
    let (negText, _) ← Dump.describeClassInt p fuel incr.not maxLen .text
    if utf8Len oText ≤ utf8Len negText then
      if outCount > 1 then return ['['] ++ o ++ [']']
      else return o
    else return "[^".toList ++ neg ++ [']']

/-- src/parser/dump.rs:34-41 `pre_ascii_component_class` calling the `describe_class` that writes the last range. -/
def preClass (p : Profile) (fuel : Nat) (s : Dump.DumpState) (c : AsciiComponentClass) : Res Dump.DumpState := do
  let d ← describeClass p fuel c.cr 256 .text
  return { out := s.out ++ Dump.filler s ++ "ASCII CLASS\n".toList ++ Dump.filler s ++ "  ".toList ++ d
                    ++ ['\n'],
           level := s.level + 1 }

/-- src/parser/dump.rs:31-87 with that method. -/
def dumpVisitor (p : Profile) (fuel : Nat) : Visitor CompileError Dump.DumpState :=
  { Dump.dumpVisitor p fuel with preAsciiComponentClass := preClass p fuel }

/-- src/parser/dump.rs:89-92 `dump_tree` with that visitor. -/
def dumpTree (p : Profile) (fuel : Nat) (root : Component) : Res Str := do
  let s ← walkComponent p (dumpVisitor p fuel) ⟨[], 0⟩ root
  return s.out

/-- src/smallwrite/smallwrite_build.rs:129 with `self.poisoned = true` instead of `unimplemented!()`: no automaton is built
for small inputs if it would have to come from a graph. -/
def smallWriteAddExpression {ε : Type} (sw : SmallWriteBuild) (rm : ReportManager) (g : NgHolder)
    (expr : ExpressionInfo) : Outcome ε SmallWriteBuild :=
  if sw.poisoned then .ok sw
  else if expr.som ≠ .none then .ok { sw with poisoned := true }
  else if g.isVacuous then .ok { sw with poisoned := true }
  else do
    if ← SmallWriteBuild.anyMinLength rm g.allReports then return { sw with poisoned := true }
    else return { sw with poisoned := true }

/-- src/util/dump_charclass.rs:45 with `{:02x}` instead of `{:2x}`. -/
def describeChar (c : U8) (out : CcOutput) : Str :=
  if 0x21#8 ≤ c ∧ c < 0x7f#8 ∧ c ≠ 0x5c#8 then
    if c ∈ Dump.escaped then Dump.backslash out ++ [Dump.byteChar c]
    else if out = .dot ∧ c ∈ Dump.dotSingleEscaped then ['\\', Dump.byteChar c]
    else [Dump.byteChar c]
  else if c = 0x09#8 then Dump.backslash out ++ ['t']
  else if c = 0x0a#8 then Dump.backslash out ++ ['n']
  else if c = 0x0d#8 then Dump.backslash out ++ ['r']
  else Dump.backslash out ++ ['x', Dump.hexDigit (c.toNat / 16), Dump.hexDigit (c.toNat % 16)]

/-- src/util/report_manager.rs:111-115 with the last clause the right way round. -/
def conflictMessage (id : Nat) (ext eri : ExternalReportInfo) : String :=
  "Expression (index " ++ toString ext.firstPatternIndex ++ ") with match ID " ++ toString id ++ " "
    ++ (if ext.highlander then "specified " else "did not sepcify ")
    ++ " SINGLEMATCH whereas previous expression (index " ++ toString eri.firstPatternIndex
    ++ ") with the same match ID did" ++ (if eri.highlander then "." else " not.")

/-- src/util/report_manager.rs:92-131 `register_ext_report` with that message. -/
def registerExtReport (rm : ReportManager) (id : Nat) (ext : ExternalReportInfo) :
    ReportManager × Except CompileError Unit :=
  let finish (rm : ReportManager) : ReportManager × Except CompileError Unit :=
    (if !ext.highlander then { rm with globalExhaust := false } else rm, .ok ())
  match alookup rm.externalIdMap id with
  | some eri =>
    if eri.highlander ≠ ext.highlander then
      (rm, .error (CompileError.withIndex ext.firstPatternIndex (conflictMessage id ext eri)))
    else finish rm
  | none => finish { rm with externalIdMap := (id, ext) :: rm.externalIdMap }

/-- src/parser/build_state.rs:90 with `e.flags.contains(PosFlags::NOFLOAT)` instead of
`e.flags.is_empty()`, as the comment above it asks. -/
def filterEdges {ε : Type} (bs : GlushkovBuildState) (from_ : PositionInfo) (tolist : List PositionInfo) :
    Outcome ε (List PositionInfo) := do
  let tolist :=
    if from_.pos = bs.startDotStarState then
      let t := tolist.filter (fun e => !e.flags.contains .NOFLOAT)
      if from_.flags.contains .NOFLOAT then [] else t
    else if from_.pos = bs.startState then
      let t := tolist.filter (fun e => e.pos != GlushkovBuildState.posEpsilon || e.flags.contains .NOFLOAT)
      t.filter (fun e => !e.flags.contains (PosFlags.MUST_FLOAT.or .NOFLOAT))
    else tolist
  let af ← bs.builder.getAssertFlag from_.pos
  return if af.contains .MULTILINE_START then tolist.filter (fun e => e.pos != bs.acceptEodState)
    else tolist

/-- src/lib.rs:96-132 `compile_multi_int` with a check of the lengths before the loop at 124. -/
def compileChecked (p : Profile) (es : List Str) (fs : List Flags) (ids : List Nat) (mode : Mode) (g : Grey) :
    Res Database :=
  if fs.length ≠ es.length ∨ ids.length ≠ es.length then
    .err (CompileError.new .other "Invalid parameter: one flag set and one id per expression")
  else compileMultiInt p es fs ids mode g

/-- src/compiler.rs:101-113 `build` given the mode itself instead of the two booleans of the compile
context (src/lib.rs:116-120). -/
def compileWithMode (p : Profile) (es : List Str) (fs : List Flags) (ids : List Nat) (mode : Mode) (g : Grey) :
    Res Database := do
  let ng ← compileNg p es fs ids mode g
  return ⟨{ (build ng).rose with mode := mode }⟩

/-! ## The parser -/

/-- src/parser.rs:95-102 `push_sequence` with `self.ptr.len() - ts.len()` at line 101. -/
def pushSequence (pr : Profile) (self : Context) (ts : Str) : Res Context := do
  let seq : ComponentSequence := .mk [] none (some self.groupIndex) none
  let gi ← Context.u32Incr pr self.groupIndex
  let offset ← Context.usizeSub pr self.ptrLen (utf8Len ts)
  return { self with
    groupIndex := gi
    currentSeq := seq
    sequences := ⟨self.currentSeq, offset, self.mode⟩ :: self.sequences }

/-- src/parser.rs:129-150 `main` with an error instead of `assert!(c.is_ascii())` at line 141. -/
def main (pr : Profile) (self : Context) (ts : Str) : Res Context :=
  match ts with
  | '(' :: p => do
    let self ← pushSequence pr self ts
    return { self with p := p }
  | ')' :: p => do
    let self ← self.popSequence
    return { self with p := p }
  | '|' :: p => .ok { self with currentSeq := self.currentSeq.addAlternation, p := p }
  | c :: p =>
    if c.toNat < 128 then
      match addLiteral self.currentSeq c self.mode with
      | .err e => do
        let idx ← Context.usizeSub pr self.ptrLen (utf8Len self.p)
        .err { e with reason := e.reason ++ " at index " ++ toString idx }
      | .panic m => .panic m
      | .timeout => .timeout
      | .ok seq => .ok { self with currentSeq := seq, p := p }
    else .err (CompileError.new .locatedParse "Unsupported character")
  | [] => .ok self

/-- src/parser.rs:153-155: the loop, at most `fuel` iterations. -/
def mainLoop (pr : Profile) : Nat → Context → Res Context
  | fuel, self =>
    if self.p.isEmpty then .ok self
    else match fuel with
      | 0 => .timeout
      | fuel + 1 => do
        let self ← main pr self self.p
        mainLoop pr fuel self

/-- src/parser.rs:174-180 `parse` with these changes. -/
def parse (pr : Profile) (ptr : Str) (globalMode : ParseMode) : Res (Component × ParseMode) := do
  let (p, globalMode) ← readControlVerbs ptr 0 globalMode
  let self ← mainLoop pr p.length (Context.new ptr p globalMode)
  let rootSeq ← self.finish
  return (.sequence rootSeq, globalMode)

end Rescan.Repaired
