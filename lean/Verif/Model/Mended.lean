import Verif.Model.Repaired
import Verif.Model.Completed
/-! # The compiler with its defects mended: **not code that exists**

The definitions below are the models of `add_literal`, `add_expression`, `compile_multi_int` and of what
they call, changed so that the statements of `properties.jsonl` about compiling that are false of the code
become true, all of them at once.  The changes, in terms of the source:

* src/util/report.rs:2-22: a `Report` keeps what the two functions making it are given;
* src/compiler.rs:22-52: `som` and `allow_vacuous` are set from the flags; SINGLEMATCH together with
  SOM_LEFTMOST is an error (the code would panic in debug builds, src/nfagraph/ng.rs:106);
* src/compiler.rs:60-99: every expression, literal or not, is registered, gets an exhaustion key if it is
  SINGLEMATCH, and counts towards the minimum width; the graph is completed (`Completed.buildGraph`) and
  kept, and an expression matching the empty string without ALLOWEMPTY is an error;
* src/lib.rs:96-132: the lengths of the three lists must agree; an error that names an expression already
  keeps its index; the mode is handed on;
* the parser and the message about SINGLEMATCH are those of `Repaired`.

Nothing else in the development uses these definitions. -/
namespace Rescan.Mended

/-- src/util/report.rs:2-5 `Report` with the arguments of `make_e_callback` (7-14) and
`make_som_relative_callback` (16-22) kept. -/
structure Report where
  minLength : Nat
  report : Nat
  offsetAdjust : Int
  ekey : Option Nat
  quiet : Bool
  distance : Option Nat
deriving DecidableEq

/-- src/nfagraph/ng.rs:17-31 `Ng`.  The report manager is split: `rm` is the code's, used for external ids
and exhaustion keys, and `reports` are the reports with internal ids 0, 1, …  `graphs` are the graphs of the
expressions that are no literals. -/
structure Ng where
  minWidth : Depth
  rm : ReportManager
  reports : List Report
  cc : CompileContext
  smwr : SmallWriteBuild
  rose : RoseBuild
  graphs : List NgHolder

/-- src/nfagraph/ng.rs:34-59 `new`. -/
def Ng.new (cc : CompileContext) (numPatterns : Nat) : Ng where
  minWidth := Depth.infinity
  rm := ReportManager.new cc.grey
  reports := []
  cc := cc
  smwr := SmallWriteBuild.new numPatterns cc.grey
  rose := ⟨cc, false⟩
  graphs := []

/-- src/util/report_manager.rs:56-74 `get_internal_id`. -/
def internalId (limit : Nat) (reports : List Report) (r : Report) : Res (List Report × Nat) :=
  match reports.idxOf? r with
  | some i => .ok (reports, i)
  | none =>
    if reports.length ≥ limit then .err (CompileError.new .resourceLimit "Resource limit exceeded.")
    else do
      let size ← ReportManager.toU32 reports.length "too many reports"
      return (reports ++ [r], size)

mutual
/-- The least length of a string the component matches (nothing if it matches none). -/
def shortest : Component → Option Nat
  | .alternation (.mk cs) => shortestAny cs
  | .cls (.ascii c) => if c.cr.none then none else some 1
  | .sequence s => shortestSeq s
/-- … for a sequence. -/
def shortestSeq : ComponentSequence → Option Nat
  | .mk cs _ _ _ => shortestAll cs
/-- … for components one after the other. -/
def shortestAll : List Component → Option Nat
  | [] => some 0
  | c :: cs =>
    match shortest c, shortestAll cs with
    | some a, some b => some (a + b)
    | _, _ => none
/-- … for alternatives. -/
def shortestAny : List ComponentSequence → Option Nat
  | [] => none
  | s :: ss =>
    match shortestSeq s, shortestAny ss with
    | some a, some b => some (min a b)
    | some a, none => some a
    | none, b => b
end

/-- src/nfagraph/ng.rs:82-116: what `add_literal` does for a literal, for any expression whose shortest match
has `width` bytes (nothing: it has none): the internal id of its report. -/
def note (p : Profile) (ng : Ng) (expr : ExpressionInfo) (width : Option Nat) : Res (Ng × Nat) := do
  let index ← ReportManager.toU32 expr.index
    "called `Result::unwrap()` on an `Err` value: TryFromIntError(())"
  match Repaired.registerExtReport ng.rm expr.report ⟨expr.highlander, index⟩ with
  | (_, .error e) => .err e
  | (rm, .ok ()) =>
    let (rm, ekey) ← (show Res (ReportManager × Option Nat) from
      if expr.highlander then do
        let (rm, k) ← rm.getExhaustibleKey expr.report
        return (rm, some k)
      else return (rm, none))
    rdebugAssert p (expr.som = .none || !expr.highlander) "assertion failed: !highlander"
    let r : Report := ⟨0, expr.report, 0, ekey, expr.quiet, if expr.som = .none then none else width⟩
    let (reports, id) ← internalId ng.cc.grey.limitReportCount ng.reports r
    match (match width with | none => some Depth.infinity | some w => Depth.tryFrom w) with
    | none => .err (CompileError.new .other "depth overflow")
    | some d =>
      return ({ ng with
        minWidth := Depth.min ng.minWidth d
        rm := rm
        reports := reports
        rose := { ng.rose with hasSom := ng.rose.hasSom || expr.som ≠ .none } }, id)

/-- src/parser/shortcut_literal.rs:55-86 and src/nfagraph/ng.rs:76-80: the literal the tree stands for, if
it is one and literals are looked for. -/
def literal (p : Profile) (g : Grey) (c : Component) : Res (Option Ue2Literal) :=
  if !g.allowLiteral || !g.shortcutLiterals then .ok none
  else
    match walkComponent p constructLiteralVisitor Ue2Literal.default c with
    | .err _ => .ok none
    | .panic m => .panic m
    | .timeout => .timeout
    | .ok lit => if lit.isEmpty || mixedSensitivity lit.iter then .ok none else .ok (some lit)

/-- src/compiler.rs:22-52 `ParsedExpression::new`. -/
def parsed (p : Profile) (index : Nat) (expression : Str) (flags : Flags) (id : Nat) : Res ParsedExpression :=
  if flags.contains .QUIET && flags.contains .SOM_LEFTMOST then
    .err (CompileError.new .other "QUIET is not supported in combination with SOM_LEFTMOST.")
  else if flags.contains .SINGLEMATCH && flags.contains .SOM_LEFTMOST then
    .err (CompileError.new .other "SINGLEMATCH is not supported in combination with SOM_LEFTMOST.")
  else do
    let (component, mode) ← Repaired.parse p expression (ParseMode.new flags)
    return ⟨{ index := index, report := id, allowVacuous := flags.contains .ALLOWEMPTY,
              highlander := flags.contains .SINGLEMATCH, utf8 := mode.utf8,
              prefilter := flags.contains .PREFILTER,
              som := if flags.contains .SOM_LEFTMOST then .left else .none,
              quiet := flags.contains .QUIET }, component⟩

/-- src/compiler.rs:60-99 `add_expression`. -/
def addExpression (p : Profile) (ng : Ng) (index : Nat) (expression : Str) (flags : Flags) (id : Nat) : Res Ng :=
  if utf8Len expression > ng.cc.grey.limitPatternLength then
    .err (CompileError.new .other "Pattern length exceeds limit.")
  else do
    let pe ← parsed p index expression flags id
    match ← literal p ng.cc.grey pe.component with
    | some lit => do
      let (ng, id) ← note p ng pe.expr (some lit.len)
      let smwr ← ng.smwr.addLiteral lit id
      return { ng with smwr := smwr }
    | none => do
      let built ← Completed.buildGraph p pe
      if built.graph.isVacuous && !pe.expr.allowVacuous then
        .err (CompileError.new .other "Pattern matches empty buffer; use ALLOWEMPTY to enable support.")
      else do
        let (ng, _) ← note p ng pe.expr (shortest pe.component)
        return { ng with graphs := ng.graphs ++ [built.graph] }

/-- src/lib.rs:124-129: the loop of `compile_multi_int`, starting at index `i`. -/
def addAll (p : Profile) : Nat → Ng → List (Str × Flags × Nat) → Res Ng
  | _, ng, [] => .ok ng
  | i, ng, (exp, fl, id) :: rest =>
    match addExpression p ng i exp fl id with
    | .ok ng => addAll p (i + 1) ng rest
    | .panic m => .panic m
    | .timeout => .timeout
    | .err e => do
      let idx ← ReportManager.toU32 i
        "called `Result::unwrap()` on an `Err` value: TryFromIntError(())"
      .err { e with index := some (e.index.getD idx) }

/-- src/lib.rs:96-132 `compile_multi_int`, up to the `Ng`. -/
def compileNg (p : Profile) (es : List Str) (fs : List Flags) (ids : List Nat) (mode : Mode) (g : Grey) :
    Res Ng :=
  if es.isEmpty then .err (CompileError.new .other "Invalid parameter: expressions is empty")
  else if es.length > g.limitPatternCount then .err (CompileError.new .other "Number of patterns too large")
  else if fs.length ≠ es.length ∨ ids.length ≠ es.length then
    .err (CompileError.new .other "Invalid parameter: one flag set and one id per expression")
  else addAll p 0 (Ng.new ⟨mode.isStreaming, mode.isVectored, g⟩ es.length) (izip es fs ids)

/-- src/lib.rs:96-132 `compile_multi_int`. -/
def compileMultiInt (p : Profile) (es : List Str) (fs : List Flags) (ids : List Nat) (mode : Mode) (g : Grey) :
    Res Database := do
  let ng ← compileNg p es fs ids mode g
  return ⟨{ ng.rose.buildRose with mode := mode }⟩

end Rescan.Mended
