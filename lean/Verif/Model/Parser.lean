import Verif.Model.Component
import Verif.Model.DumpCharClass
/-! # The parser: src/parser.rs, src/parser/control_verbs.rs, src/parser/dump.rs,
src/parser/prefilter.rs -/
namespace Rescan

/-! ## src/parser/control_verbs.rs -/

/-- src/parser/control_verbs.rs:53: nom 6 `bytes::complete::is_not(")")`: the longest prefix without `)`, which must not be empty
(the end of input is accepted as the end of the prefix). -/
def isNotClose (input : Str) : Option (Str × Str) :=
  let pre := input.takeWhile (fun c => c != ')')
  if pre.isEmpty then none else some (input.drop pre.length, pre)

/-- src/parser/control_verbs.rs:52-54 `control_verb`:
`delimited(tag("(*"), is_not(")"), char(')'))`.  `none` is any nom error; otherwise
`(remaining input, verb)`. -/
def controlVerb (input : Str) : Option (Str × Str) :=
  match input with
  | '(' :: '*' :: rest =>
    match isNotClose rest with
    | none => none
    | some (rest', verb) =>
      match rest' with
      | ')' :: rest'' => some (rest'', verb)
      | _ => none
  | _ => none

/-- src/parser/control_verbs.rs:26-27: the verbs rejected as unsupported. -/
def unsupportedVerbs : List Str :=
  ["NO_AUTO_POSSESS", "NO_START_OPT", "UTF16", "UTF32", "CR", "LF", "CRLF", "ANYCRLF", "ANY",
   "BSR_ANYCRLF", "BSR_UNICODE"].map String.toList

/-- src/parser/control_verbs.rs:12-50 `read_control_verbs`: the remaining input and the mode after
the call (`mode: &mut ParseMode`). -/
def readControlVerbs (input : Str) (start : Nat) (mode : ParseMode) : Res (Str × ParseMode) :=
  match controlVerb input with
  | some (rest, verb) =>
    let unsupported : Res (Str × ParseMode) :=
      .err (CompileError.new .locatedParse
        ("Unsupported control verb " ++ String.ofList verb ++ " at index " ++ toString (start + 2)))
    if verb = "UCP".toList then .ok (rest, { mode with ucp := true })
    else if verb = "UTF8".toList ∨ verb = "UTF".toList then .ok (rest, { mode with utf8 := true })
    else if verb ∈ unsupportedVerbs then unsupported
    else if "LIMIT_MATCH=".toList.isPrefixOf verb || "LIMIT_RECURSION=".toList.isPrefixOf verb then
      unsupported
    else
      .err (CompileError.new .locatedParse
        ("Unknown control verb " ++ String.ofList verb ++ " at index " ++ toString (start + 2)))
  | none => .ok (input, mode)

/-! ## src/parser.rs -/

/-- src/parser.rs:39-49 `ExprState`. -/
structure ExprState where
  seq : ComponentSequence
  offset : Nat
  mode : ParseMode

/-- src/parser.rs:52-60 `add_literal`. -/
def addLiteral (currentSeq : ComponentSequence) (c : Char) (mode : ParseMode) :
    Res ComponentSequence := do
  let cc ← getLiteralComponentClass c mode.caseless
  return currentSeq.addComponent (.cls cc)

/-- src/parser.rs:62-78 `Context`.  Of `ptr` only the byte length is ever used.  The `sequences`
stack has its top (the end of the `Vec`) at the head of the list. -/
structure Context where
  ptrLen : Nat
  p : Str
  mode : ParseMode
  sequences : List ExprState
  groupIndex : Nat
  currentSeq : ComponentSequence

namespace Context

/-- src/parser.rs:81-93 `new`. -/
def new (ptr p : Str) (mode : ParseMode) : Context where
  ptrLen := utf8Len ptr
  p := p
  mode := mode
  sequences := []
  groupIndex := 1
  currentSeq := .mk [] none (some 0) none

/-- src/parser.rs:101, 144: `usize` subtraction (64-bit): overflow-checked in debug, wrapping in release. -/
def usizeSub {ε : Type} (p : Profile) (a b : Nat) : Outcome ε Nat :=
  if b ≤ a then .ok (a - b)
  else if p = .debug then .panic "attempt to subtract with overflow"
  else .ok (a + 2 ^ 64 - b)

/-- src/parser.rs:98: `u32` increment: overflow-checked in debug, wrapping in release. -/
def u32Incr (p : Profile) (a : Nat) : Res Nat :=
  if a + 1 < 2 ^ 32 then .ok (a + 1)
  else if p = .debug then .panic "attempt to add with overflow"
  else .ok (a + 1 - 2 ^ 32)

/-- src/parser.rs:95-102 `push_sequence`.  The offset is `ts.len() - self.ptr.len()`. -/
def pushSequence (pr : Profile) (self : Context) (ts : Str) : Res Context := do
  let seq : ComponentSequence := .mk [] none (some self.groupIndex) none
  let gi ← u32Incr pr self.groupIndex
  let offset ← usizeSub pr (utf8Len ts) self.ptrLen
  return { self with
    groupIndex := gi
    currentSeq := seq
    sequences := ⟨self.currentSeq, offset, self.mode⟩ :: self.sequences }

/-- src/parser.rs:104-118 `pop_sequence`. -/
def popSequence (self : Context) : Res Context :=
  match self.sequences with
  | [] => .err (CompileError.new .locatedParse "Unmatched parentheses")
  | v :: rest =>
    let seq := self.currentSeq.finalize
    .ok { self with
      sequences := rest
      currentSeq := v.seq.addComponent (.sequence seq)
      mode := v.mode }

/-- src/parser.rs:129-150 `main` (`enter_capturing_group` and `exit_group`, 120-127, are
`push_sequence` and `pop_sequence`; `take_any`, 182-190, takes one character).  On empty input
nothing happens, as in the code. -/
def main (pr : Profile) (self : Context) (ts : Str) : Res Context :=
  match ts with
  | '(' :: p => do
    let self ← self.pushSequence pr ts
    return { self with p := p }
  | ')' :: p => do
    let self ← self.popSequence
    return { self with p := p }
  | '|' :: p => .ok { self with currentSeq := self.currentSeq.addAlternation, p := p }
  | c :: p => do
    rassert (decide (c.toNat < 128)) "assertion failed: c.is_ascii()"
    match addLiteral self.currentSeq c self.mode with
    | .err e =>
      let idx ← usizeSub pr self.ptrLen (utf8Len self.p)
      .err { e with reason := e.reason ++ " at index " ++ toString idx }
    | .panic m => .panic m
    | .timeout => .timeout
    | .ok seq => return { self with currentSeq := seq, p := p }
  | [] => .ok self

/-- src/parser.rs:153-155: `while !self.p.is_empty() { self.main(self.p)?; }`, at most `fuel`
iterations. -/
def mainLoop (pr : Profile) : Nat → Context → Res Context
  | fuel, self =>
    if self.p.isEmpty then .ok self
    else match fuel with
      | 0 => .timeout
      | fuel + 1 => do
        let self ← self.main pr self.p
        mainLoop pr fuel self

/-- src/parser.rs:157-170: what `parse` does after the loop. -/
def finish (self : Context) : Res ComponentSequence :=
  match self.sequences with
  | seq :: _ =>
    .err (CompileError.new .parse
      ("Missing close parenthesis for group started at index " ++ toString seq.offset ++ "."))
  | [] => .ok self.currentSeq.finalize

/-- src/parser.rs:152-171 `Context::parse`.  Every iteration removes a character from `p`, so
`p.length` iterations suffice (proved). -/
def parse (pr : Profile) (self : Context) : Res ComponentSequence := do
  let self ← mainLoop pr self.p.length self
  self.finish

end Context

/-- src/parser.rs:174-180 `parse`: the component and the mode after the call
(`global_mode: &mut ParseMode`). -/
def parse (pr : Profile) (ptr : Str) (globalMode : ParseMode) : Res (Component × ParseMode) := do
  let (p, globalMode) ← readControlVerbs ptr 0 globalMode
  let rootSeq ← (Context.new ptr p globalMode).parse pr
  return (.sequence rootSeq, globalMode)

/-- src/parser/prefilter.rs:3 `prefilter_tree`: does nothing. -/
def prefilterTree (root : Component) : Component := root

/-! ## src/parser/dump.rs (compiled for tests only) -/

namespace Dump

/-- src/parser/dump.rs:7-10 `DumpVisitor`. -/
structure DumpState where
  out : Str
  level : Nat

/-- src/parser/dump.rs:26-28 `filler`. -/
def filler (s : DumpState) : Str := List.replicate (s.level * 2) ' '

/-- src/parser/dump.rs:21-24 `outdent`. -/
def outdent (p : Profile) (s : DumpState) : Res DumpState := do
  rdebugAssert p (decide (s.level > 0)) "assertion failed: self.level > 0"
  let l ← Context.usizeSub p s.level 1
  return { s with level := l }

/-- src/parser/dump.rs:34-41 `pre_ascii_component_class`. -/
def preClass (p : Profile) (fuel : Nat) (s : DumpState) (c : AsciiComponentClass) :
    Res DumpState := do
  let d ← describeClass p fuel c.cr 256 .text
  return { out := s.out ++ filler s ++ "ASCII CLASS\n".toList ++ filler s ++ "  ".toList ++ d
                    ++ ['\n'],
           level := s.level + 1 }

/-- src/parser/dump.rs:47-51 `pre_component_alternation`. -/
def preAlt (s : DumpState) (_c : ComponentAlternation) : Res DumpState :=
  .ok { out := s.out ++ filler s ++ "ALTERNATION\n".toList, level := s.level + 1 }

/-- src/parser/dump.rs:57-77 `pre_component_sequence`. -/
def preSeq (s : DumpState) (c : ComponentSequence) : Res DumpState :=
  let out := s.out ++ filler s ++ "SEQUENCE".toList
  let out := match c.captureIndex with
    | some index => out ++ (" (capture index " ++ toString index ++ ")").toList
    | none => out ++ " (not captured)".toList
  let out := match c.captureName with
    | some name => out ++ (" (capture name '" ++ name ++ "')\n").toList
    | none => out ++ ['\n']
  let s' : DumpState := { out := out, level := s.level + 1 }
  if c.children.isEmpty then .ok { s' with out := s'.out ++ filler s' ++ " <empty>\n".toList }
  else .ok s'

/-- src/parser/dump.rs:31-87 `impl ConstComponentVisitor for DumpVisitor`. -/
def dumpVisitor (p : Profile) (fuel : Nat) : Visitor CompileError DumpState where
  preAsciiComponentClass := preClass p fuel
  preComponentAlternation := preAlt
  preComponentSequence := preSeq
  postAsciiComponentClass := fun s _ => outdent p s
  postComponentAlternation := fun s _ => outdent p s
  postComponentSequence := fun s _ => outdent p s

/-- src/parser/dump.rs:89-92 `dump_tree` (`fuel` bounds the loops of `describe_range`). -/
def dumpTree (p : Profile) (fuel : Nat) (root : Component) : Res Str := do
  let s ← walkComponent p (dumpVisitor p fuel) ⟨[], 0⟩ root
  return s.out

end Dump
end Rescan
