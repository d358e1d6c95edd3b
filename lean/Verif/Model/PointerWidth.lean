import Verif.Model.Compiler
/-! # Other pointer widths

`Verif/Model` fixes `usize` at 64 bits.  Here the width is a parameter `w`.  Two things in the source
depend on it once every length fits a `usize`: the two `usize` subtractions of src/parser.rs (101, 144)
wrap at `2^w`, and the conversions `u32::try_from(usize)` (src/lib.rs:128, src/util/report_manager.rs)
cannot fail when `w ≤ 32` (they are left as they are: their argument is at most the length of a slice or
map, which fits a `usize`, so for `w ≤ 32` the check always passes).  The definitions below are those of
`Verif/Model/Parser.lean` and `Verif/Model/Compiler.lean` with the wrapping subtraction at `2^w`. -/
namespace Rescan.PointerWidth

/-- src/parser.rs:101, 144: `usize` subtraction with `w`-bit `usize`. -/
def usizeSub {ε : Type} (w : Nat) (p : Profile) (a b : Nat) : Outcome ε Nat :=
  if b ≤ a then .ok (a - b)
  else if p = .debug then .panic "attempt to subtract with overflow"
  else .ok (a + 2 ^ w - b)

/-- src/parser.rs:95-102 `push_sequence`. -/
def pushSequence (w : Nat) (pr : Profile) (self : Context) (ts : Str) : Res Context := do
  let seq : ComponentSequence := .mk [] none (some self.groupIndex) none
  let gi ← Context.u32Incr pr self.groupIndex
  let offset ← usizeSub w pr (utf8Len ts) self.ptrLen
  return { self with
    groupIndex := gi
    currentSeq := seq
    sequences := ⟨self.currentSeq, offset, self.mode⟩ :: self.sequences }

/-- src/parser.rs:129-150 `main`. -/
def main (w : Nat) (pr : Profile) (self : Context) (ts : Str) : Res Context :=
  match ts with
  | '(' :: p => do
    let self ← pushSequence w pr self ts
    return { self with p := p }
  | ')' :: p => do
    let self ← self.popSequence
    return { self with p := p }
  | '|' :: p => .ok { self with currentSeq := self.currentSeq.addAlternation, p := p }
  | c :: p => do
    rassert (decide (c.toNat < 128)) "assertion failed: c.is_ascii()"
    match addLiteral self.currentSeq c self.mode with
    | .err e =>
      let idx ← usizeSub w pr self.ptrLen (utf8Len self.p)
      .err { e with reason := e.reason ++ " at index " ++ toString idx }
    | .panic m => .panic m
    | .timeout => .timeout
    | .ok seq => return { self with currentSeq := seq, p := p }
  | [] => .ok self

/-- src/parser.rs:153-155: the loop of `parse`. -/
def mainLoop (w : Nat) (pr : Profile) : Nat → Context → Res Context
  | fuel, self =>
    if self.p.isEmpty then .ok self
    else match fuel with
      | 0 => .timeout
      | fuel + 1 => do
        let self ← main w pr self self.p
        mainLoop w pr fuel self

/-- src/parser.rs:174-180 `parse` (and 152-171 `Context::parse`). -/
def parse (w : Nat) (pr : Profile) (ptr : Str) (globalMode : ParseMode) :
    Res (Component × ParseMode) := do
  let (p, globalMode) ← readControlVerbs ptr 0 globalMode
  let ctx ← mainLoop w pr p.length (Context.new ptr p globalMode)
  let rootSeq ← ctx.finish
  return (.sequence rootSeq, globalMode)

/-- src/compiler.rs:22-52 `ParsedExpression::new`. -/
def newParsed (w : Nat) (p : Profile) (index : Nat) (expression : Str) (flags : Flags) (id : Nat) :
    Res ParsedExpression :=
  let expr : ExpressionInfo :=
    { index := index, report := id, allowVacuous := false,
      highlander := flags.contains .SINGLEMATCH, utf8 := false,
      prefilter := flags.contains .PREFILTER, som := .none, quiet := flags.contains .QUIET }
  if flags.contains (Flags.QUIET.or .SOM_LEFTMOST) then
    .err (CompileError.new .other "QUIET is not supported in combination with SOM_LEFTMOST.")
  else do
    let flags := flags.and Flags.QUIET.not
    let mode := ParseMode.new flags
    let (component, mode) ← parse w p expression mode
    return ⟨{ expr with utf8 := mode.utf8 }, component⟩

/-- src/compiler.rs:60-99 `add_expression`. -/
def addExpression (w : Nat) (p : Profile) (ng : Ng) (index : Nat) (expression : Str) (flags : Flags)
    (id : Nat) : Res Ng :=
  if utf8Len expression > ng.cc.grey.limitPatternLength then
    .err (CompileError.new .other "Pattern length exceeds limit.")
  else do
    let pe ← newParsed w p index expression flags id
    let pe := if pe.expr.prefilter then { pe with component := prefilterTree pe.component } else pe
    let (ng, done) ← shortcutLiteral p ng pe
    if done then return ng
    else
      let built ← buildGraph p pe
      return ng.addGraph built.expr built.graph

/-- src/lib.rs:124-129: the loop of `compile_multi_int`, starting at index `i`. -/
def addAll (w : Nat) (p : Profile) : Nat → Ng → List (Str × Flags × Nat) → Res Ng
  | _, ng, [] => .ok ng
  | i, ng, (exp, fl, id) :: rest =>
    match addExpression w p ng i exp fl id with
    | .ok ng => addAll w p (i + 1) ng rest
    | .panic m => .panic m
    | .timeout => .timeout
    | .err e => do
      let idx ← ReportManager.toU32 i
        "called `Result::unwrap()` on an `Err` value: TryFromIntError(())"
      let e ← e.setExpressionIndex p idx
      .err e

/-- src/lib.rs:96-132 `compile_multi_int`. -/
def compileMultiInt (w : Nat) (p : Profile) (expressions : List Str) (flags : List Flags) (ids : List Nat)
    (mode : Mode) (g : Grey) : Res Database :=
  if expressions.isEmpty then
    .err (CompileError.new .other "Invalid parameter: expressions is empty")
  else if expressions.length > g.limitPatternCount then
    .err (CompileError.new .other "Number of patterns too large")
  else do
    let cc : CompileContext := ⟨mode.isStreaming, mode.isVectored, g⟩
    let ng := Ng.new cc expressions.length mode.somPrecision
    let ng ← addAll w p 0 ng (izip expressions flags ids)
    return build ng

end Rescan.PointerWidth
