import Verif.Model.Parser
import Verif.Model.SmallWrite
/-! # src/nfagraph/ng.rs, src/rose/*.rs, src/parser/shortcut_literal.rs, src/compiler.rs, src/lib.rs,
src/database.rs, src/runtime.rs, src/scratch.rs -/
namespace Rescan

/-! ## src/rose -/

/-- src/rose/rose_build_resources.rs:8-25 `RoseResources`. -/
structure RoseResources where
  hasOutfixes : Bool
  hasSuffixes : Bool
  hasLeftfixes : Bool
  hasLiterals : Bool
  hasStates : Bool
  checksGroups : Bool
  hasLitDelay : Bool
  hasLitCheck : Bool
  hasAnchored : Bool
  hasAnchoredMultiple : Bool
  hasAnchoredLarge : Bool
  hasFloating : Bool
  hasEod : Bool
deriving DecidableEq

/-- src/rose/rose_build_resources.rs:7 `#[derive(Default)]`. -/
def RoseResources.default : RoseResources :=
  ⟨false, false, false, false, false, false, false, false, false, false, false, false, false⟩

/-- src/rose/rose_internal.rs:3-7 `RoseRuntimeImpl`. -/
inductive RoseRuntimeImpl where
  | fullRose
  | pureLiteral
  | singleOutfix
deriving DecidableEq

/-- src/rose/rose_internal.rs:9-16 `RoseEngine`. -/
structure RoseEngine where
  runtimeImpl : RoseRuntimeImpl
  mode : Mode
deriving DecidableEq

/-- src/rose/rose_build.rs:7-10 `RoseBuild`. -/
structure RoseBuild where
  cc : CompileContext
  hasSom : Bool

namespace RoseBuild

/-- src/rose/rose_build.rs:14-24 `add`: does nothing. -/
def add (b : RoseBuild) (_anchored _eod : Bool) (_lit : Ue2Literal) (_reports : List Nat) :
    RoseBuild := b

end RoseBuild

/-- src/rose/rose_build_bytecode.rs:10-44 `is_pure_floating`. -/
def isPureFloating (r : RoseResources) (cc : CompileContext) : Bool :=
  if !r.hasFloating then false
  else if r.hasOutfixes || r.hasSuffixes || r.hasLeftfixes then false
  else if r.hasAnchored then false
  else if r.hasEod then false
  else if r.hasStates then false
  else if r.hasLitDelay then false
  else if cc.streaming && r.hasLitCheck then false
  else if r.checksGroups then false
  else true

/-- src/rose/rose_build_bytecode.rs:46-48 `is_single_outfix`. -/
def isSingleOutfix (_b : RoseBuild) : Bool := false

/-- src/rose/rose_build_bytecode.rs:50-60 `pick_runtime_impl`. -/
def pickRuntimeImpl (b : RoseBuild) (r : RoseResources) : RoseRuntimeImpl :=
  if isPureFloating r b.cc then .pureLiteral
  else if isSingleOutfix b then .singleOutfix
  else .fullRose

/-- src/rose/rose_build.rs:26-50 `build_rose` / `build_final_engine`. -/
def RoseBuild.buildRose (b : RoseBuild) : RoseEngine :=
  let mode := if b.cc.streaming then (if b.cc.vectored then Mode.vectored else Mode.stream none)
    else Mode.block
  ⟨pickRuntimeImpl b RoseResources.default, mode⟩

/-! ## src/nfagraph/ng.rs -/

/-- src/nfagraph/ng.rs:17-31 `Ng` (`boundary` is never touched and is left out). -/
structure Ng where
  minWidth : Depth
  rm : ReportManager
  cc : CompileContext
  smwr : SmallWriteBuild
  rose : RoseBuild

namespace Ng

/-- src/nfagraph/ng.rs:34-59 `new`. -/
def new (cc : CompileContext) (numPatterns : Nat) (_somPrecision : Nat) : Ng where
  minWidth := Depth.infinity
  rm := ReportManager.new cc.grey
  cc := cc
  smwr := SmallWriteBuild.new numPatterns cc.grey
  rose := ⟨cc, false⟩

/-- src/nfagraph/ng.rs:61-65 `add_graph`. -/
def addGraph (ng : Ng) (expr : ExpressionInfo) (_g : NgHolder) : Ng :=
  if expr.som ≠ .none then { ng with rose := { ng.rose with hasSom := true } } else ng

/-- src/nfagraph/ng.rs:103, 111: embeds a panic-or-value outcome (no Rust counterpart). -/
def lift {α : Type} : Outcome Empty α → Res α
  | .ok a => .ok a
  | .panic m => .panic m
  | .timeout => .timeout

/-- src/nfagraph/ng.rs:67-130 `add_literal`.  On `Err` the caller drops the `Ng`, so its state is
not returned. -/
def addLiteral (p : Profile) (ng : Ng) (literal : Ue2Literal) (exprIndex externalReport : Nat)
    (highlander : Bool) (som : SomType) (quiet : Bool) : Res (Ng × Bool) := do
  rdebugAssert p (!literal.isEmpty) "assertion failed: !literal.is_empty()"
  if !ng.cc.grey.shortcutLiterals then return (ng, false)
  else if mixedSensitivity literal.iter then return (ng, false)
  else
    match ng.rm.registerExtReport externalReport ⟨highlander, exprIndex⟩ with
    | (_, .error e) => .err e
    | (rm, .ok ()) =>
      let (rm, rose, id) ← (show Res (ReportManager × RoseBuild × Except CompileError Nat) from
        match som with
        | .none => do
          let (rm, ekey) ← (show Res (ReportManager × Option Nat) from
            if highlander then do
              let (rm, k) ← rm.getExhaustibleKey externalReport
              return (rm, some k)
            else return (rm, none))
          let r := makeECallback externalReport 0 ekey quiet
          let (rm, id) ← lift (rm.getInternalId r)
          return (rm, ng.rose, id)
        | _ => do
          rdebugAssert p (!highlander) "assertion failed: !highlander"
          let r := makeSomRelativeCallback externalReport 0 literal.len
          let (rm, id) ← lift (rm.getInternalId r)
          return (rm, { ng.rose with hasSom := true }, id))
      match id with
      | .error e => .err e
      | .ok id =>
        let rose := rose.add false false literal [id]
        match Depth.tryFrom literal.len with
        | none => .err (CompileError.new .other "depth overflow")
        | some d =>
          let smwr ← ng.smwr.addLiteral literal id
          return ({ ng with minWidth := Depth.min ng.minWidth d, rm := rm, rose := rose,
                            smwr := smwr }, true)

end Ng

/-! ## src/parser/shortcut_literal.rs -/

/-- src/parser/shortcut_literal.rs:11 `NotLiteral`. -/
inductive NotLiteral where
  | mk
deriving DecidableEq

/-- src/parser/shortcut_literal.rs:21-34 `pre_ascii_component_class`. -/
def preLiteralClass (lit : Ue2Literal) (c : AsciiComponentClass) : Outcome NotLiteral Ue2Literal := do
  let width := c.cr.count
  if width = 1 then
    let f ← Outcome.expect c.cr.findFirst "should have one bit set"
    return lit.push f false
  else
    let caseless ← (if width = 2 then c.cr.isCaselessChar else pure false)
    if caseless then
      let f ← Outcome.expect c.cr.findFirst "should have two bits set"
      return lit.push f true
    else .err .mk

/-- src/parser/shortcut_literal.rs:13-52 `ConstructLiteralVisitor`. -/
def constructLiteralVisitor : Visitor NotLiteral Ue2Literal where
  preAsciiComponentClass := preLiteralClass
  preComponentAlternation := fun _ _ => .err .mk
  preComponentSequence := fun lit _ => .ok lit
  postAsciiComponentClass := fun lit _ => .ok lit
  postComponentAlternation := fun lit _ => .ok lit
  postComponentSequence := fun lit _ => .ok lit

/-- src/compiler.rs:16-19 `ParsedExpression`. -/
structure ParsedExpression where
  expr : ExpressionInfo
  component : Component

/-- src/parser/shortcut_literal.rs:55-86 `shortcut_literal`. -/
def shortcutLiteral (p : Profile) (ng : Ng) (pe : ParsedExpression) : Res (Ng × Bool) :=
  if !ng.cc.grey.allowLiteral then .ok (ng, false)
  else
    match walkComponent p constructLiteralVisitor Ue2Literal.default pe.component with
    | .err _ => .ok (ng, false)
    | .panic m => .panic m
    | .timeout => .timeout
    | .ok lit =>
      if lit.isEmpty then .ok (ng, false)
      else do
        let index ← ReportManager.toU32 pe.expr.index
          "called `Result::unwrap()` on an `Err` value: TryFromIntError(())"
        ng.addLiteral p lit index pe.expr.report pe.expr.highlander pe.expr.som pe.expr.quiet

/-! ## src/compiler.rs -/

/-- src/compiler.rs:22-52 `ParsedExpression::new`. -/
def ParsedExpression.new (p : Profile) (index : Nat) (expression : Str) (flags : Flags) (id : Nat) :
    Res ParsedExpression :=
  let expr : ExpressionInfo :=
    { index := index, report := id, allowVacuous := false,
      highlander := flags.contains .SINGLEMATCH, utf8 := false,
      prefilter := flags.contains .PREFILTER, som := .none, quiet := flags.contains .QUIET }
  if flags.contains (Flags.QUIET.or .SOM_LEFTMOST) then
    .err (CompileError.new .other "QUIET is not supported in combination with SOM_LEFTMOST.")
  else do
    let flags := flags.and Flags.QUIET.not
    let mode := ParseMode.new flags
    let (component, mode) ← parse p expression mode
    return ⟨{ expr with utf8 := mode.utf8 }, component⟩

/-- src/compiler.rs:115-124 `build_graph`: `BuiltExpression` is the builder's two fields. -/
def buildGraph {ε : Type} (p : Profile) (pe : ParsedExpression) : Outcome ε NfaBuilder := do
  let builder ← NfaBuilder.new pe.expr
  let bs ← GlushkovBuildState.new p builder
  let bs ← bs.noteComponent pe.component
  return bs.builder

/-- src/compiler.rs:60-99 `add_expression`. -/
def addExpression (p : Profile) (ng : Ng) (index : Nat) (expression : Str) (flags : Flags)
    (id : Nat) : Res Ng :=
  if utf8Len expression > ng.cc.grey.limitPatternLength then
    .err (CompileError.new .other "Pattern length exceeds limit.")
  else do
    let pe ← ParsedExpression.new p index expression flags id
    let pe := if pe.expr.prefilter then { pe with component := prefilterTree pe.component } else pe
    let (ng, done) ← shortcutLiteral p ng pe
    if done then return ng
    else
      let built ← buildGraph p pe
      return ng.addGraph built.expr built.graph

/-- src/database.rs:3-11 `Database`. -/
structure Database where
  rose : RoseEngine
deriving DecidableEq

/-- src/compiler.rs:101-113 `generate_rose_engine` / `db_create` / `build`. -/
def build (ng : Ng) : Database := ⟨ng.rose.buildRose⟩

/-! ## src/lib.rs -/

/-- src/lib.rs:124: `izip!(expressions, flags, ids)` (itertools 0.10): stops at the shortest. -/
def izip : List Str → List Flags → List Nat → List (Str × Flags × Nat)
  | e :: es, f :: fs, i :: is => (e, f, i) :: izip es fs is
  | _, _, _ => []

/-- src/lib.rs:124-129: the loop of `compile_multi_int`, starting at index `i`. -/
def addAll (p : Profile) : Nat → Ng → List (Str × Flags × Nat) → Res Ng
  | _, ng, [] => .ok ng
  | i, ng, (exp, fl, id) :: rest =>
    match addExpression p ng i exp fl id with
    | .ok ng => addAll p (i + 1) ng rest
    | .panic m => .panic m
    | .timeout => .timeout
    | .err e => do
      let idx ← ReportManager.toU32 i
        "called `Result::unwrap()` on an `Err` value: TryFromIntError(())"
      let e ← e.setExpressionIndex p idx
      .err e

/-- src/lib.rs:96-132 `compile_multi_int`, up to the `Ng` handed to `build`. -/
def compileNg (p : Profile) (expressions : List Str) (flags : List Flags) (ids : List Nat)
    (mode : Mode) (g : Grey) : Res Ng :=
  if expressions.isEmpty then
    .err (CompileError.new .other "Invalid parameter: expressions is empty")
  else if expressions.length > g.limitPatternCount then
    .err (CompileError.new .other "Number of patterns too large")
  else
    let cc : CompileContext := ⟨mode.isStreaming, mode.isVectored, g⟩
    let ng := Ng.new cc expressions.length mode.somPrecision
    addAll p 0 ng (izip expressions flags ids)

/-- src/lib.rs:96-132 `compile_multi_int`. -/
def compileMultiInt (p : Profile) (expressions : List Str) (flags : List Flags) (ids : List Nat)
    (mode : Mode) (g : Grey) : Res Database := do
  let ng ← compileNg p expressions flags ids mode g
  return build ng

/-- src/lib.rs:87-94 `compile_multi`. -/
def compileMulti (p : Profile) (expressions : List Str) (flags : List Flags) (ids : List Nat)
    (mode : Mode) : Res Database :=
  compileMultiInt p expressions flags ids mode Grey.default

/-- src/lib.rs:78-80 `compile`. -/
def compile (p : Profile) (expression : Str) (flags : Flags) (mode : Mode) : Res Database :=
  compileMultiInt p [expression] [flags] [0] mode Grey.default

/-! ## src/runtime.rs -/

/-- src/scratch.rs:1-7 `Scratch`/`CoreInfo`: the raw state pointer, an address. -/
structure Scratch where
  state : Nat
deriving DecidableEq

/-- src/runtime.rs:5-12 `Error`. -/
inductive ScanError where
  | invalid
  | scanTerminated
  | unknown
deriving DecidableEq

/-- src/runtime.rs:15-21 `init_som_state` / `raw_block_exec` and src/rose/block.rs:3 `rose_block_exec`: both callees are empty. -/
def rawBlockExec (_rose : RoseEngine) (scratch : Scratch) : Scratch := scratch
/-- src/runtime.rs:23 `pure_literal_block_exec`: empty. -/
def pureLiteralBlockExec (_rose : RoseEngine) (scratch : Scratch) : Scratch := scratch
/-- src/runtime.rs:25 `single_outfix_block_exec`: empty. -/
def singleOutfixBlockExec (_rose : RoseEngine) (scratch : Scratch) : Scratch := scratch

/-- src/runtime.rs:32-42 `scan`: the scratch after the call and the `Result`. -/
def scan (db : Database) (_data : List U8) (scratch : Scratch) :
    Scratch × Except ScanError Unit :=
  let scratch := match db.rose.runtimeImpl with
    | .fullRose => rawBlockExec db.rose scratch
    | .pureLiteral => pureLiteralBlockExec db.rose scratch
    | .singleOutfix => singleOutfixBlockExec db.rose scratch
  (scratch, .ok ())

end Rescan
