import Verif.Model.Stored
import Verif.Model.Bytes
import Verif.Model.Compiler
/-! # The compiler on the stored forms

`compile_multi_int` and everything it calls, with patterns as UTF-8 bytes (`Model/Bytes.lean`), literals, tries and the
NFA graph as bit-vec and petgraph store them (`Model/Stored.lean`), and byte sets searched with checked arithmetic
(`Model/Checked.lean`).  Parse trees, the report manager and error values are those of the rest of the model. -/
namespace Rescan.Stored

open Rescan.Petgraph

variable {ε : Type}

/-! ## src/util -/

/-- src/util/ue2string.rs:106-115: the loop of `mixed_sensitivity`. -/
def mixedLoop (p : Profile) (l : Lit) : Nat → Nat → Bool → Bool → Outcome ε (Bool × Bool)
  | 0, _, _, _ => .timeout
  | fuel + 1, idx, cs, nc => do
    let (e, idx) ← l.next p idx
    match e with
    | none => return (cs, nc)
    | some e => do
      if !(← Checked.ourisalpha p e.c) then mixedLoop p l fuel idx cs nc
      else if e.nocase then mixedLoop p l fuel idx cs true
      else mixedLoop p l fuel idx true nc

/-- src/util/ue2string.rs:100-118 `mixed_sensitivity`. -/
def mixedSensitivity (p : Profile) (l : Lit) : Outcome ε Bool := do
  let (cs, nc) ← mixedLoop p l (l.s.length + 1) 0 false false
  return cs && nc

/-- src/util/charreach.rs:184-191 `is_caseless_char`. -/
def isCaselessChar (p : Profile) (cr : CharReach) : Outcome ε Bool := do
  if (← Checked.count p cr.bits) ≠ 2#32 then return false
  else
    let first ← Outcome.expect (← Checked.findFirst p cr.bits) "should have two bits set"
    let second ← Outcome.expect (← Checked.findNext p cr.bits first) "should have two bits set"
    return first == (← Checked.mytoupper p second)

/-! ## src/nfagraph/ng_builder.rs, src/parser/build_state.rs -/

/-- src/nfagraph/ng_builder.rs:6-18 `NfaBuilder`. -/
structure NfaBuilder where
  graph : Holder
  expr : ExpressionInfo

namespace NfaBuilder

/-- src/nfagraph/ng_builder.rs:12-18, 65-67 `new` / `make_nfa_builder`. -/
def new (expr : ExpressionInfo) : Outcome ε NfaBuilder := do
  let graph ← Holder.new
  return ⟨graph, expr⟩
/-- src/nfagraph/ng_builder.rs:20-22, 48-50 `make_position` / `add_vertex`. -/
def makePosition (b : NfaBuilder) : Outcome ε (NfaBuilder × Nat) := do
  let (inner, v) ← b.graph.inner.addNode NfaGraphVertexProps.default
  return ({ b with graph := { b.graph with inner := inner } }, v)
/-- src/nfagraph/ng_builder.rs:40-42 `add_char_reach`. -/
def addCharReach (b : NfaBuilder) (pos : Nat) (cr : CharReach) : Outcome ε NfaBuilder := do
  let inner ← b.graph.inner.modify pos (fun v => { v with charReach := v.charReach.orAssign cr })
  return { b with graph := { b.graph with inner := inner } }
/-- src/nfagraph/ng_builder.rs:44-46 `get_assert_flag`. -/
def getAssertFlag (b : NfaBuilder) (pos : Nat) : Outcome ε PosFlags := do
  let n ← Outcome.expect b.graph.inner.nodes[pos]? "invalid index"
  return n.weight.assertFlags

end NfaBuilder

/-- src/parser/build_state.rs:6-16 `GlushkovBuildState`. -/
structure GlushkovBuildState where
  startState : Nat
  startDotStarState : Nat
  acceptState : Nat
  acceptEodState : Nat
  builder : NfaBuilder
  successors : List (Nat × List PositionInfo)

namespace GlushkovBuildState

open Rescan.GlushkovBuildState (posEpsilon addSuccessors replaceFirst)

/-- src/parser/build_state.rs:79-109 `filter_edges`. -/
def filterEdges (bs : GlushkovBuildState) (from_ : PositionInfo) (tolist : List PositionInfo) :
    Outcome ε (List PositionInfo) := do
  let tolist :=
    if from_.pos = bs.startDotStarState then
      let t := tolist.filter (fun e => !e.flags.contains .NOFLOAT)
      if from_.flags.contains .NOFLOAT then [] else t
    else if from_.pos = bs.startState then
      let t := tolist.filter (fun e => e.pos != posEpsilon || e.flags.isEmpty)
      t.filter (fun e => !e.flags.contains (PosFlags.MUST_FLOAT.or .NOFLOAT))
    else tolist
  let af ← bs.builder.getAssertFlag from_.pos
  return if af.contains .MULTILINE_START then tolist.filter (fun e => e.pos != bs.acceptEodState)
    else tolist

/-- src/parser/build_state.rs:56-72 `connect_successors`. -/
def connectSuccessors (p : Profile) (bs : GlushkovBuildState) (from_ : PositionInfo)
    (tolist : List PositionInfo) : Outcome ε GlushkovBuildState := do
  rdebugAssert p (decide (from_.pos ≠ posEpsilon)) "assertion failed: from.pos != pos_epsilon()"
  let tolist ← filterEdges bs from_ tolist
  let (bs, tolist) ←
    if tolist.any (fun e => e.pos == bs.acceptState) then do
      let (builder, fakedot) ← bs.builder.makePosition
      pure ({ bs with builder := builder },
        replaceFirst tolist bs.acceptState (PositionInfo.ofPos fakedot))
    else pure (bs, tolist)
  return { bs with successors := addSuccessors bs.successors from_.pos tolist }

/-- src/parser/build_state.rs:50-54 `connect_regions`. -/
def connectRegions (p : Profile) (bs : GlushkovBuildState) (lasts firsts : List PositionInfo) :
    Outcome ε GlushkovBuildState :=
  lasts.foldlM (fun bs last => connectSuccessors p bs last firsts) bs

/-- src/parser/build_state.rs:19-39, 111-113 `new` / `make_glushkov_build_state`. -/
def new (p : Profile) (b : NfaBuilder) : Outcome ε GlushkovBuildState :=
  let bs : GlushkovBuildState :=
    { startState := b.graph.start, startDotStarState := b.graph.startDs,
      acceptState := b.graph.accept, acceptEodState := b.graph.acceptEod,
      builder := b, successors := [] }
  connectRegions p bs
    [PositionInfo.ofPos b.graph.start, PositionInfo.ofPos b.graph.startDs]
    [PositionInfo.ofPos b.graph.startDs]

/-- src/parser/ascii_component_class.rs:28-33 `note_positions`. -/
def noteClass (bs : GlushkovBuildState) (c : AsciiComponentClass) :
    Outcome ε GlushkovBuildState := do
  let (builder, position) ← bs.builder.makePosition
  let builder ← builder.addCharReach position c.cr
  return { bs with builder := builder }

mutual
/-- src/parser/component.rs:17-23 and component_class.rs:46-50 `note_positions`. -/
def noteComponent (bs : GlushkovBuildState) : Component → Outcome ε GlushkovBuildState
  | .alternation (.mk children) => noteSequences bs children
  | .cls (.ascii c) => noteClass bs c
  | .sequence c => noteSequence bs c
/-- src/parser/component_sequence.rs:42-46 `note_positions`. -/
def noteSequence (bs : GlushkovBuildState) : ComponentSequence → Outcome ε GlushkovBuildState
  | .mk children _ _ _ => noteComponents bs children
/-- src/parser/component_alternation.rs:15-19 `note_positions`. -/
def noteSequences (bs : GlushkovBuildState) : List ComponentSequence → Outcome ε GlushkovBuildState
  | [] => .ok bs
  | c :: cs => do
    let bs ← noteSequence bs c
    noteSequences bs cs
/-- The loop src/parser/component_sequence.rs:43-45. -/
def noteComponents (bs : GlushkovBuildState) : List Component → Outcome ε GlushkovBuildState
  | [] => .ok bs
  | c :: cs => do
    let bs ← noteComponent bs c
    noteComponents bs cs
end

end GlushkovBuildState

/-! ## src/nfagraph/ng.rs -/

/-- src/nfagraph/ng.rs:17-31 `Ng`. -/
structure Ng where
  minWidth : Depth
  rm : ReportManager
  cc : CompileContext
  smwr : Build
  rose : RoseBuild

/-- src/rose/rose_build.rs:14-24 `add`: does nothing. -/
def roseAdd (b : RoseBuild) (_anchored _eod : Bool) (_lit : Lit) (_reports : List Nat) : RoseBuild := b

namespace Ng

/-- src/nfagraph/ng.rs:34-59 `new`. -/
def new (cc : CompileContext) (numPatterns : Nat) (_somPrecision : Nat) : Outcome ε Ng := do
  let smwr ← Build.new numPatterns cc.grey
  return { minWidth := Depth.infinity, rm := ReportManager.new cc.grey, cc := cc, smwr := smwr, rose := ⟨cc, false⟩ }

/-- src/nfagraph/ng.rs:61-65 `add_graph`. -/
def addGraph (ng : Ng) (expr : ExpressionInfo) (_g : Holder) : Ng :=
  if expr.som ≠ .none then { ng with rose := { ng.rose with hasSom := true } } else ng

/-- src/nfagraph/ng.rs:67-130 `add_literal`. -/
def addLiteral (p : Profile) (ng : Ng) (literal : Lit) (exprIndex externalReport : Nat)
    (highlander : Bool) (som : SomType) (quiet : Bool) : Res (Ng × Bool) := do
  rdebugAssert p (!literal.s.isEmpty) "assertion failed: !literal.is_empty()"
  if !ng.cc.grey.shortcutLiterals then return (ng, false)
  else if ← mixedSensitivity p literal then return (ng, false)
  else
    match ng.rm.registerExtReport externalReport ⟨highlander, exprIndex⟩ with
    | (_, .error e) => .err e
    | (rm, .ok ()) =>
      let (rm, rose, id) ← (show Res (ReportManager × RoseBuild × Except CompileError Nat) from
        match som with
        | .none => do
          let (rm, ekey) ← (show Res (ReportManager × Option Nat) from
            if highlander then do
              let (rm, k) ← rm.getExhaustibleKey externalReport
              return (rm, some k)
            else return (rm, none))
          let r := makeECallback externalReport 0 ekey quiet
          let (rm, id) ← Rescan.Ng.lift (rm.getInternalId r)
          return (rm, ng.rose, id)
        | _ => do
          rdebugAssert p (!highlander) "assertion failed: !highlander"
          let r := makeSomRelativeCallback externalReport 0 literal.s.length
          let (rm, id) ← Rescan.Ng.lift (rm.getInternalId r)
          return (rm, { ng.rose with hasSom := true }, id))
      match id with
      | .error e => .err e
      | .ok id =>
        let rose := roseAdd rose false false literal [id]
        match Depth.tryFrom literal.s.length with
        | none => .err (CompileError.new .other "depth overflow")
        | some d =>
          let smwr ← ng.smwr.addLiteral p literal id
          return ({ ng with minWidth := Depth.min ng.minWidth d, rm := rm, rose := rose,
                            smwr := smwr }, true)

end Ng

/-! ## src/parser/shortcut_literal.rs -/

/-- src/parser/shortcut_literal.rs:21-34 `pre_ascii_component_class`. -/
def preLiteralClass (p : Profile) (lit : Lit) (c : AsciiComponentClass) : Outcome NotLiteral Lit := do
  let width ← Checked.count p c.cr.bits
  if width = 1#32 then
    let f ← Outcome.expect (← Checked.findFirst p c.cr.bits) "should have one bit set"
    lit.push p f false
  else
    let caseless ← (if width = 2#32 then isCaselessChar p c.cr else pure false)
    if caseless then
      let f ← Outcome.expect (← Checked.findFirst p c.cr.bits) "should have two bits set"
      lit.push p f true
    else .err .mk

/-- src/parser/shortcut_literal.rs:13-52 `ConstructLiteralVisitor`. -/
def constructLiteralVisitor (p : Profile) : Visitor NotLiteral Lit where
  preAsciiComponentClass := preLiteralClass p
  preComponentAlternation := fun _ _ => .err .mk
  preComponentSequence := fun lit _ => .ok lit
  postAsciiComponentClass := fun lit _ => .ok lit
  postComponentAlternation := fun lit _ => .ok lit
  postComponentSequence := fun lit _ => .ok lit

/-- src/parser/shortcut_literal.rs:55-86 `shortcut_literal`. -/
def shortcutLiteral (p : Profile) (ng : Ng) (pe : ParsedExpression) : Res (Ng × Bool) :=
  if !ng.cc.grey.allowLiteral then .ok (ng, false)
  else
    match walkComponent p (constructLiteralVisitor p) Lit.default pe.component with
    | .err _ => .ok (ng, false)
    | .panic m => .panic m
    | .timeout => .timeout
    | .ok lit =>
      if lit.s.isEmpty then .ok (ng, false)
      else do
        let index ← ReportManager.toU32 pe.expr.index
          "called `Result::unwrap()` on an `Err` value: TryFromIntError(())"
        ng.addLiteral p lit index pe.expr.report pe.expr.highlander pe.expr.som pe.expr.quiet

/-! ## src/compiler.rs, src/lib.rs -/

/-- src/compiler.rs:22-52 `ParsedExpression::new`. -/
def newParsed (p : Profile) (index : Nat) (expression : List U8) (flags : Flags) (id : Nat) :
    Res ParsedExpression :=
  let expr : ExpressionInfo :=
    { index := index, report := id, allowVacuous := false,
      highlander := flags.contains .SINGLEMATCH, utf8 := false,
      prefilter := flags.contains .PREFILTER, som := .none, quiet := flags.contains .QUIET }
  if flags.contains (Flags.QUIET.or .SOM_LEFTMOST) then
    .err (CompileError.new .other "QUIET is not supported in combination with SOM_LEFTMOST.")
  else do
    let flags := flags.and Flags.QUIET.not
    let mode := ParseMode.new flags
    let (component, mode) ← Bytes.parse p expression mode
    return ⟨{ expr with utf8 := mode.utf8 }, component⟩

/-- src/compiler.rs:115-124 `build_graph`. -/
def buildGraph (p : Profile) (pe : ParsedExpression) : Outcome ε NfaBuilder := do
  let builder ← NfaBuilder.new pe.expr
  let bs ← GlushkovBuildState.new p builder
  let bs ← bs.noteComponent pe.component
  return bs.builder

/-- src/compiler.rs:60-99 `add_expression`. -/
def addExpression (p : Profile) (ng : Ng) (index : Nat) (expression : List U8) (flags : Flags)
    (id : Nat) : Res Ng :=
  if expression.length > ng.cc.grey.limitPatternLength then
    .err (CompileError.new .other "Pattern length exceeds limit.")
  else do
    let pe ← newParsed p index expression flags id
    let pe := if pe.expr.prefilter then { pe with component := prefilterTree pe.component } else pe
    let (ng, done) ← shortcutLiteral p ng pe
    if done then return ng
    else
      let built ← buildGraph p pe
      return ng.addGraph built.expr built.graph

/-- src/lib.rs:124: `izip!(expressions, flags, ids)` (itertools 0.10): stops at the shortest. -/
def izip : List (List U8) → List Flags → List Nat → List (List U8 × Flags × Nat)
  | e :: es, f :: fs, i :: is => (e, f, i) :: izip es fs is
  | _, _, _ => []

/-- src/lib.rs:124-129: the loop of `compile_multi_int`, starting at index `i`. -/
def addAll (p : Profile) : Nat → Ng → List (List U8 × Flags × Nat) → Res Ng
  | _, ng, [] => .ok ng
  | i, ng, (exp, fl, id) :: rest =>
    match addExpression p ng i exp fl id with
    | .ok ng => addAll p (i + 1) ng rest
    | .panic m => .panic m
    | .timeout => .timeout
    | .err e => do
      let idx ← ReportManager.toU32 i
        "called `Result::unwrap()` on an `Err` value: TryFromIntError(())"
      let e ← e.setExpressionIndex p idx
      .err e

/-- src/lib.rs:96-132 `compile_multi_int`, up to the `Ng` handed to `build`. -/
def compileNg (p : Profile) (expressions : List (List U8)) (flags : List Flags) (ids : List Nat)
    (mode : Mode) (g : Grey) : Res Ng :=
  if expressions.isEmpty then
    .err (CompileError.new .other "Invalid parameter: expressions is empty")
  else if expressions.length > g.limitPatternCount then
    .err (CompileError.new .other "Number of patterns too large")
  else do
    let cc : CompileContext := ⟨mode.isStreaming, mode.isVectored, g⟩
    let ng ← Ng.new cc expressions.length mode.somPrecision
    addAll p 0 ng (izip expressions flags ids)

/-- src/lib.rs:96-132 `compile_multi_int`; src/compiler.rs:101-113 `build`. -/
def compileMultiInt (p : Profile) (expressions : List (List U8)) (flags : List Flags) (ids : List Nat)
    (mode : Mode) (g : Grey) : Res Database := do
  let ng ← compileNg p expressions flags ids mode g
  return ⟨ng.rose.buildRose⟩

end Rescan.Stored
