import Verif.Model.Parser
/-! # The parser on bytes

In `Model/Parser.lean` a `&str` is a list of characters.  Here it is what it is in memory, a sequence of
bytes; characters are decoded, slices are cut at byte offsets, and cutting inside a character panics.
The string functions are those of std and nom 6 that src/parser.rs and src/parser/control_verbs.rs call. -/
namespace Rescan.Bytes

/-- A `&str` in memory (src/parser.rs:63-64). -/
abbrev Bytes := List U8

variable {ε : Type}

/-! ## std -/

/-- std `core::str::next_code_point` (behind `chars` and `char_indices`, src/parser.rs:185): the code point and
the number of bytes read; reading past the end, which needs ill-formed bytes, gives zeros. -/
def nextCodePoint (s : Bytes) : Option (Nat × Nat) :=
  match s with
  | [] => none
  | x :: r =>
    if x.toNat < 128 then some (x.toNat, 1)
    else
      let init := x.toNat % 32
      let y := (r.headD 0#8).toNat
      if x.toNat < 0xE0 then some (init * 64 + y % 64, 2)
      else
        let z := (r.tail.headD 0#8).toNat
        let yz := y % 64 * 64 + z % 64
        if x.toNat < 0xF0 then some (init * 4096 + yz, 3)
        else
          let w := (r.tail.tail.headD 0#8).toNat
          some (init % 8 * 262144 + (yz * 64 + w % 64), 4)

/-- std `str::chars().next()` (src/parser.rs:186), with the number of bytes. -/
def nextChar (s : Bytes) : Option (Char × Nat) :=
  (nextCodePoint s).map (fun x => (Char.ofNat x.1, x.2))

/-- std `str::char_indices` (behind nom's `take`, src/parser.rs:183): at most `fuel` characters. -/
def charIndices : Nat → Nat → Bytes → List (Nat × Char)
  | 0, _, _ => []
  | fuel + 1, i, s =>
    match nextChar s with
    | none => []
    | some (c, n) => (i, c) :: charIndices fuel (i + n) (s.drop n)

/-- std `str::is_char_boundary` (behind slicing, src/parser.rs:130-146). -/
def isCharBoundary (s : Bytes) (i : Nat) : Bool :=
  if i = 0 then true
  else match s[i]? with
    | none => i == s.length
    | some b => decide (b.toNat < 0x80) || decide (0xC0 ≤ b.toNat)

/-- std `&s[i..]` and `&s[..i]` (src/parser.rs:130-146). -/
def splitAt (s : Bytes) (i : Nat) : Outcome ε (Bytes × Bytes) :=
  if isCharBoundary s i then .ok (s.take i, s.drop i) else .panic "byte index is not a char boundary"

/-- std `str::find` with a predicate (behind nom's `is_not`, src/parser/control_verbs.rs:53). -/
def find (f : Char → Bool) (s : Bytes) : Option Nat :=
  ((charIndices s.length 0 s).find? (fun x => f x.2)).map Prod.fst

/-- The text of bytes, for messages (src/parser/control_verbs.rs:30). -/
def decode (s : Bytes) : Str := (charIndices s.length 0 s).map Prod.snd

/-! ## nom 6; `none` is any nom error -/

/-- nom `character::complete::char(c)` (src/parser.rs:130, 133, 136, src/parser/control_verbs.rs:53): the rest. -/
def char (c : Char) (i : Bytes) : Outcome ε (Option Bytes) :=
  match nextChar i with
  | none => .ok none
  | some (t, _) =>
    if t = c then do
      let (_, rest) ← splitAt i c.utf8Size
      return some rest
    else .ok none

/-- nom `InputTake::slice_index` for `&str` (behind `take`, src/parser.rs:183): the loop over `char_indices`. -/
def sliceIndexLoop (count : Nat) : Nat → List (Nat × Char) → Nat ⊕ Nat
  | cnt, [] => .inr cnt
  | cnt, (index, _) :: r => if cnt = count then .inl index else sliceIndexLoop count (cnt + 1) r

/-- See `sliceIndexLoop` (src/parser.rs:183). -/
def sliceIndex (s : Bytes) (count : Nat) : Option Nat :=
  match sliceIndexLoop count 0 (charIndices s.length 0 s) with
  | .inl index => some index
  | .inr cnt => if cnt = count then some s.length else none

/-- nom `bytes::complete::take(count)` (src/parser.rs:183): the rest and what is taken. -/
def take (count : Nat) (i : Bytes) : Outcome ε (Option (Bytes × Bytes)) :=
  match sliceIndex i count with
  | none => .ok none
  | some index => do
    let (a, b) ← splitAt i index
    return some (b, a)

/-- nom `bytes::complete::tag(t)` (src/parser/control_verbs.rs:53): compares bytes. -/
def tag (t : Bytes) (i : Bytes) : Outcome ε (Option (Bytes × Bytes)) :=
  if (i.zip t).any (fun x => x.1 != x.2) then .ok none
  else if i.length < t.length then .ok none
  else do
    let (a, b) ← splitAt i t.length
    return some (b, a)

/-- nom `bytes::complete::is_not(")")` (src/parser/control_verbs.rs:53), `split_at_position1_complete`; the
slices are cut unchecked. -/
def isNotClose (i : Bytes) : Option (Bytes × Bytes) :=
  match find (fun c => c == ')') i with
  | some 0 => none
  | some n => some (i.drop n, i.take n)
  | none => if i.isEmpty then none else some ([], i)

/-! ## src/parser/control_verbs.rs -/

/-- Bytes of an ASCII literal in the source (src/parser/control_verbs.rs:20-34). -/
def lit (s : String) : Bytes := s.toList.map (fun c => BitVec.ofNat 8 c.toNat)

/-- src/parser/control_verbs.rs:52-54 `control_verb`. -/
def controlVerb (input : Bytes) : Outcome ε (Option (Bytes × Bytes)) := do
  match ← tag (lit "(*") input with
  | none => return none
  | some (i, _) =>
    match isNotClose i with
    | none => return none
    | some (i, verb) =>
      match ← char ')' i with
      | none => return none
      | some i => return some (i, verb)

/-- src/parser/control_verbs.rs:12-50 `read_control_verbs`. -/
def readControlVerbs (input : Bytes) (start : Nat) (mode : ParseMode) : Res (Bytes × ParseMode) := do
  match ← controlVerb input with
  | some (rest, verb) =>
    let unsupported : Res (Bytes × ParseMode) :=
      .err (CompileError.new .locatedParse
        ("Unsupported control verb " ++ String.ofList (decode verb) ++ " at index " ++ toString (start + 2)))
    if verb = lit "UCP" then .ok (rest, { mode with ucp := true })
    else if verb = lit "UTF8" ∨ verb = lit "UTF" then .ok (rest, { mode with utf8 := true })
    else if verb ∈ ["NO_AUTO_POSSESS", "NO_START_OPT", "UTF16", "UTF32", "CR", "LF", "CRLF", "ANYCRLF", "ANY",
        "BSR_ANYCRLF", "BSR_UNICODE"].map lit then unsupported
    else if (lit "LIMIT_MATCH=").isPrefixOf verb || (lit "LIMIT_RECURSION=").isPrefixOf verb then unsupported
    else
      .err (CompileError.new .locatedParse
        ("Unknown control verb " ++ String.ofList (decode verb) ++ " at index " ++ toString (start + 2)))
  | none => .ok (input, mode)

/-! ## src/parser.rs -/

/-- src/parser.rs:62-78 `Context`. -/
structure Context where
  ptr : Bytes
  p : Bytes
  mode : ParseMode
  sequences : List ExprState
  groupIndex : Nat
  currentSeq : ComponentSequence

namespace Context

/-- src/parser.rs:81-93 `new`. -/
def new (ptr p : Bytes) (mode : ParseMode) : Context where
  ptr := ptr
  p := p
  mode := mode
  sequences := []
  groupIndex := 1
  currentSeq := .mk [] none (some 0) none

/-- src/parser.rs:95-102 `push_sequence`. -/
def pushSequence (pr : Profile) (self : Context) (ts : Bytes) : Res Context := do
  let seq : ComponentSequence := .mk [] none (some self.groupIndex) none
  let gi ← Rescan.Context.u32Incr pr self.groupIndex
  let offset ← Rescan.Context.usizeSub pr ts.length self.ptr.length
  return { self with
    groupIndex := gi
    currentSeq := seq
    sequences := ⟨self.currentSeq, offset, self.mode⟩ :: self.sequences }

/-- src/parser.rs:104-118 `pop_sequence`. -/
def popSequence (self : Context) : Res Context :=
  match self.sequences with
  | [] => .err (CompileError.new .locatedParse "Unmatched parentheses")
  | v :: rest =>
    let seq := self.currentSeq.finalize
    .ok { self with
      sequences := rest
      currentSeq := v.seq.addComponent (.sequence seq)
      mode := v.mode }

/-- src/parser.rs:182-190 `take_any`. -/
def takeAny (input : Bytes) : Res (Option (Bytes × Char)) := do
  match ← take 1 input with
  | none => return none
  | some (input, c) =>
    match nextChar c with
    | none => .panic "take(1usize) in take_any should return a non-empty string."
    | some (c, _) => return some (input, c)

/-- src/parser.rs:129-150 `main`. -/
def main (pr : Profile) (self : Context) (ts : Bytes) : Res Context := do
  match ← char '(' ts with
  | some p => do
    let self ← self.pushSequence pr ts
    return { self with p := p }
  | none =>
    match ← char ')' ts with
    | some p => do
      let self ← self.popSequence
      return { self with p := p }
    | none =>
      match ← char '|' ts with
      | some p => return { self with currentSeq := self.currentSeq.addAlternation, p := p }
      | none =>
        match ← takeAny ts with
        | some (p, c) => do
          rassert (decide (c.toNat < 128)) "assertion failed: c.is_ascii()"
          match addLiteral self.currentSeq c self.mode with
          | .err e =>
            let idx ← Rescan.Context.usizeSub pr self.ptr.length self.p.length
            .err { e with reason := e.reason ++ " at index " ++ toString idx }
          | .panic m => .panic m
          | .timeout => .timeout
          | .ok seq => return { self with currentSeq := seq, p := p }
        | none => return self

/-- src/parser.rs:153-155: `while !self.p.is_empty() { self.main(self.p)?; }`, at most `fuel` iterations. -/
def mainLoop (pr : Profile) : Nat → Context → Res Context
  | fuel, self =>
    if self.p.isEmpty then .ok self
    else match fuel with
      | 0 => .timeout
      | fuel + 1 => do
        let self ← self.main pr self.p
        mainLoop pr fuel self

/-- src/parser.rs:157-170: what `parse` does after the loop. -/
def finish (self : Context) : Res ComponentSequence :=
  match self.sequences with
  | seq :: _ =>
    .err (CompileError.new .parse
      ("Missing close parenthesis for group started at index " ++ toString seq.offset ++ "."))
  | [] => .ok self.currentSeq.finalize

/-- src/parser.rs:152-171 `Context::parse`: each iteration takes at least a byte. -/
def parse (pr : Profile) (self : Context) : Res ComponentSequence := do
  let self ← mainLoop pr self.p.length self
  self.finish

end Context

/-- src/parser.rs:174-180 `parse`. -/
def parse (pr : Profile) (ptr : Bytes) (globalMode : ParseMode) : Res (Component × ParseMode) := do
  let (p, globalMode) ← readControlVerbs ptr 0 globalMode
  let rootSeq ← (Context.new ptr p globalMode).parse pr
  return (.sequence rootSeq, globalMode)

end Rescan.Bytes
