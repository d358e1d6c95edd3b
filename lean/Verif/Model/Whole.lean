import Verif.Model.StoredCompiler
import Verif.Model.Hashed
/-! # The compiler with all its stored forms at once

`compile_multi_int` and everything it calls, with patterns as UTF-8 bytes (`Model/Bytes.lean`), literals as bit-vec
stores them, tries and the NFA graph as petgraph stores them, byte sets searched with checked arithmetic
(`Model/StoredCompiler.lean`) and every hash map and hash set a table of any layout (`Model/Hashed.lean`).  Only parse
trees, vectors and strings are still values of Lean. -/
namespace Rescan.Whole

open Rescan.Petgraph
open Rescan.Hashed (Hashing Site extend)
open Rescan.Stored (Lit newParsed)

variable {ε : Type} {H : Hashing}

/-! ## src/smallwrite/smallwrite_build.rs -/

/-- src/smallwrite/smallwrite_build.rs:45-49 `LitTrie`. -/
structure Trie (H : Hashing) where
  inner : PGraph (Hashed.LitTrieVertexProps H)
  root : Nat

/-- src/smallwrite/smallwrite_build.rs:66-72 `Default`. -/
def Trie.default (s : Site) : Outcome ε (Trie H) := do
  let (inner, root) ← PGraph.new.addNode ⟨0#8, H.ids.empty (0 :: s)⟩
  return ⟨inner, root⟩

/-- src/smallwrite/smallwrite_build.rs:165-167: `find` on the iterator, which stops at the first hit; indexing
checks the range. -/
def findNb (g : PGraph (Hashed.LitTrieVertexProps H)) (c : U8) : Nat → PGraph.Neighbors → Outcome ε (Option Nat)
  | 0, _ => .timeout
  | fuel + 1, it => do
    let (v, it) ← g.next (fuel + 1) it
    match v with
    | none => return none
    | some v => do
      let x ← index g.nodes v
      if x.weight.c = c then return some v else findNb g c fuel it

/-- src/smallwrite/smallwrite_build.rs:163-173: the loop of `add_to_trie`, at most `fuel` calls of `next`.  The
search for a neighbour is given one step per edge and one more. -/
def trieLoop (p : Profile) (s : Site) (l : Lit) : Nat → Nat → Trie H → Nat → Outcome ε (Trie H × Nat)
  | 0, _, _, _ => .timeout
  | fuel + 1, idx, t, u => do
    let (e, idx) ← l.next p idx
    match e with
    | none => return (t, u)
    | some e => do
      match ← findNb t.inner e.c (t.inner.edges.length + 1) (t.inner.neighborsOut u) with
      | some v => trieLoop p s l fuel idx t v
      | none => do
        let (g, next) ← t.inner.addNode ⟨e.c, H.ids.empty (t.inner.nodes.length :: s)⟩
        let g ← g.addEdge u next
        trieLoop p s l fuel idx { t with inner := g } next

/-- src/smallwrite/smallwrite_build.rs:161-178 `add_to_trie`. -/
def addToTrie (p : Profile) (s : Site) (literal : Lit) (report : Nat) (t : Trie H) : Outcome ε (Trie H × Bool) := do
  let (t, u) ← trieLoop p s literal (literal.s.length + 1) 0 t t.root
  let x ← index t.inner.nodes u
  let nodes := t.inner.nodes.set u
    { x with weight := { x.weight with reports := H.ids.insert x.weight.reports report () } }
  return ({ t with inner := { t.inner with nodes := nodes } }, decide (nodes.length ≤ maxTrieVertices))

/-- src/smallwrite/smallwrite_build.rs:75-83 `SmallWriteBuild` (see `Rescan.SmallWriteBuild`). -/
structure Build (H : Hashing) where
  grey : Grey
  litTrie : Trie H
  litTrieNocase : Trie H
  numLiterals : Nat
  poisoned : Bool

/-- src/smallwrite/smallwrite_build.rs:87-98 `new`. -/
def Build.new (numPatterns : Nat) (g : Grey) : Outcome ε (Build H) := do
  let a ← Trie.default [3]
  let b ← Trie.default [4]
  return {
    grey := g
    litTrie := a
    litTrieNocase := b
    numLiterals := 0
    poisoned := !g.allowSmallWrite || decide (numPatterns > g.smallWriteMaxPatterns) }

/-- src/smallwrite/smallwrite_build.rs:132-158 `add_literal`. -/
def Build.addLiteral (p : Profile) (sw : Build H) (literal : Lit) (r : Nat) : Outcome ε (Build H) :=
  if sw.poisoned then .ok sw
  else if literal.s.length > sw.grey.smallWriteLargestBuffer then .ok sw
  else
    let sw := { sw with numLiterals := sw.numLiterals + 1 }
    if sw.numLiterals > sw.grey.smallWriteMaxLiterals then .ok { sw with poisoned := true }
    else if literal.nocase.any then do
      let (t, fits) ← addToTrie p [4] literal r sw.litTrieNocase
      return { sw with litTrieNocase := t, poisoned := !fits }
    else do
      let (t, fits) ← addToTrie p [3] literal r sw.litTrie
      return { sw with litTrie := t, poisoned := !fits }

/-! ## src/nfagraph/ng_holder.rs -/

/-- src/nfagraph/ng_holder.rs:23-30 `NgHolder`. -/
structure Holder (H : Hashing) where
  inner : PGraph (Hashed.NfaGraphVertexProps H)
  start : Nat
  startDs : Nat
  accept : Nat
  acceptEod : Nat

/-- src/nfagraph/ng_holder.rs:33-57, 116-119 `new` / `add_special_vertex`. -/
def Holder.new (s : Site) : Outcome ε (Holder H) := do
  let inner : PGraph (Hashed.NfaGraphVertexProps H) := PGraph.new
  let (inner, start) ← inner.addNode (Hashed.NfaGraphVertexProps.default (0 :: s))
  let (inner, startDs) ← inner.addNode (Hashed.NfaGraphVertexProps.default (1 :: s))
  let (inner, accept) ← inner.addNode (Hashed.NfaGraphVertexProps.default (2 :: s))
  let (inner, acceptEod) ← inner.addNode (Hashed.NfaGraphVertexProps.default (3 :: s))
  let inner ← inner.addEdge start startDs
  let inner ← inner.addEdge startDs startDs
  let inner ← inner.addEdge accept acceptEod
  let inner ← inner.modify start (fun v => { v with charReach := v.charReach.setAll })
  let inner ← inner.modify startDs (fun v => { v with charReach := v.charReach.setAll })
  return ⟨inner, start, startDs, accept, acceptEod⟩

/-- src/nfagraph/ng_holder.rs:73-75, 79-81: the loop of `fold` over the iterator, indexing each vertex. -/
def foldReports (g : PGraph (Hashed.NfaGraphVertexProps H)) : Nat → PGraph.Neighbors → H.ids.M → Outcome ε H.ids.M
  | 0, _, _ => .timeout
  | fuel + 1, it, union => do
    let (v, it) ← g.next (fuel + 1) it
    match v with
    | none => return union
    | some v => do
      let x ← index g.nodes v
      foldReports g fuel it (extend H.ids union ((H.ids.iter x.weight.reports).map Prod.fst))

/-- src/nfagraph/ng_holder.rs:69-83 `all_reports`. -/
def Holder.allReports (h : Holder H) (s : Site) : Outcome ε H.ids.M := do
  let fuel := h.inner.edges.length + 1
  let reports ← foldReports h.inner fuel (h.inner.neighborsIn h.accept) (H.ids.empty s)
  foldReports h.inner fuel (h.inner.neighborsIn h.acceptEod) reports

/-- src/nfagraph/ng_holder.rs:89-97 `is_vacuous`, with its short circuits. -/
def Holder.isVacuous (h : Holder H) : Outcome ε Bool := do
  let fuel := h.inner.edges.length + 1
  if (← h.inner.findEdge fuel h.start h.accept).isSome then return true
  if (← h.inner.findEdge fuel h.start h.acceptEod).isSome then return true
  if (← h.inner.findEdge fuel h.startDs h.accept).isSome then return true
  return (← h.inner.findEdge fuel h.startDs h.acceptEod).isSome

/-- src/smallwrite/smallwrite_build.rs:102-130 `add_expression` (never called). -/
def Build.addExpression (sw : Build H) (rm : Hashed.ReportManager H) (g : Holder H) (expr : ExpressionInfo) :
    Outcome ε (Build H) :=
  if sw.poisoned then .ok sw
  else if expr.som ≠ .none then .ok { sw with poisoned := true }
  else do
    if ← g.isVacuous then return { sw with poisoned := true }
    else
      let reports ← g.allReports [6]
      if ← Hashed.SmallWriteBuild.anyMinLength rm ((H.ids.iter reports).map Prod.fst) then
        return { sw with poisoned := true }
      else .panic "not implemented"

/-! ## src/nfagraph/ng_builder.rs, src/parser/build_state.rs -/

/-- src/nfagraph/ng_builder.rs:6-18 `NfaBuilder`. -/
structure NfaBuilder (H : Hashing) where
  graph : Holder H
  expr : ExpressionInfo

namespace NfaBuilder

/-- src/nfagraph/ng_builder.rs:12-18, 65-67 `new` / `make_nfa_builder`. -/
def new (expr : ExpressionInfo) : Outcome ε (NfaBuilder H) := do
  let graph ← Holder.new [5, expr.index]
  return ⟨graph, expr⟩
/-- src/nfagraph/ng_builder.rs:20-22, 48-50 `make_position` / `add_vertex`. -/
def makePosition (b : NfaBuilder H) : Outcome ε (NfaBuilder H × Nat) := do
  let s := b.graph.inner.nodes.length :: [5, b.expr.index]
  let (inner, v) ← b.graph.inner.addNode (Hashed.NfaGraphVertexProps.default s)
  return ({ b with graph := { b.graph with inner := inner } }, v)
/-- src/nfagraph/ng_builder.rs:40-42 `add_char_reach`. -/
def addCharReach (b : NfaBuilder H) (pos : Nat) (cr : CharReach) : Outcome ε (NfaBuilder H) := do
  let inner ← b.graph.inner.modify pos (fun v => { v with charReach := v.charReach.orAssign cr })
  return { b with graph := { b.graph with inner := inner } }
/-- src/nfagraph/ng_builder.rs:44-46 `get_assert_flag`. -/
def getAssertFlag (b : NfaBuilder H) (pos : Nat) : Outcome ε PosFlags := do
  let n ← Outcome.expect b.graph.inner.nodes[pos]? "invalid index"
  return n.weight.assertFlags

end NfaBuilder

/-- src/parser/build_state.rs:6-16 `GlushkovBuildState`. -/
structure GlushkovBuildState (H : Hashing) where
  startState : Nat
  startDotStarState : Nat
  acceptState : Nat
  acceptEodState : Nat
  builder : NfaBuilder H
  successors : H.successors.M

namespace GlushkovBuildState

open Rescan.GlushkovBuildState (posEpsilon replaceFirst)
open Rescan.Hashed.GlushkovBuildState (addSuccessors)

/-- src/parser/build_state.rs:79-109 `filter_edges`. -/
def filterEdges (bs : GlushkovBuildState H) (from_ : PositionInfo) (tolist : List PositionInfo) :
    Outcome ε (List PositionInfo) := do
  let tolist :=
    if from_.pos = bs.startDotStarState then
      let t := tolist.filter (fun e => !e.flags.contains .NOFLOAT)
      if from_.flags.contains .NOFLOAT then [] else t
    else if from_.pos = bs.startState then
      let t := tolist.filter (fun e => e.pos != posEpsilon || e.flags.isEmpty)
      t.filter (fun e => !e.flags.contains (PosFlags.MUST_FLOAT.or .NOFLOAT))
    else tolist
  let af ← bs.builder.getAssertFlag from_.pos
  return if af.contains .MULTILINE_START then tolist.filter (fun e => e.pos != bs.acceptEodState)
    else tolist

/-- src/parser/build_state.rs:56-72 `connect_successors`. -/
def connectSuccessors (p : Profile) (bs : GlushkovBuildState H) (from_ : PositionInfo)
    (tolist : List PositionInfo) : Outcome ε (GlushkovBuildState H) := do
  rdebugAssert p (decide (from_.pos ≠ posEpsilon)) "assertion failed: from.pos != pos_epsilon()"
  let tolist ← filterEdges bs from_ tolist
  let (bs, tolist) ←
    if tolist.any (fun e => e.pos == bs.acceptState) then do
      let (builder, fakedot) ← bs.builder.makePosition
      pure ({ bs with builder := builder },
        replaceFirst tolist bs.acceptState (PositionInfo.ofPos fakedot))
    else pure (bs, tolist)
  return { bs with successors := addSuccessors bs.builder.expr.index bs.successors from_.pos tolist }

/-- src/parser/build_state.rs:50-54 `connect_regions`. -/
def connectRegions (p : Profile) (bs : GlushkovBuildState H) (lasts firsts : List PositionInfo) :
    Outcome ε (GlushkovBuildState H) :=
  lasts.foldlM (fun bs last => connectSuccessors p bs last firsts) bs

/-- src/parser/build_state.rs:19-39, 111-113 `new` / `make_glushkov_build_state`. -/
def new (p : Profile) (b : NfaBuilder H) : Outcome ε (GlushkovBuildState H) :=
  let bs : GlushkovBuildState H :=
    { startState := b.graph.start, startDotStarState := b.graph.startDs,
      acceptState := b.graph.accept, acceptEodState := b.graph.acceptEod,
      builder := b, successors := H.successors.empty [8, b.expr.index] }
  connectRegions p bs
    [PositionInfo.ofPos b.graph.start, PositionInfo.ofPos b.graph.startDs]
    [PositionInfo.ofPos b.graph.startDs]

/-- src/parser/ascii_component_class.rs:28-33 `note_positions`. -/
def noteClass (bs : GlushkovBuildState H) (c : AsciiComponentClass) :
    Outcome ε (GlushkovBuildState H) := do
  let (builder, position) ← bs.builder.makePosition
  let builder ← builder.addCharReach position c.cr
  return { bs with builder := builder }

mutual
/-- src/parser/component.rs:17-23 and component_class.rs:46-50 `note_positions`. -/
def noteComponent (bs : GlushkovBuildState H) : Component → Outcome ε (GlushkovBuildState H)
  | .alternation (.mk children) => noteSequences bs children
  | .cls (.ascii c) => noteClass bs c
  | .sequence c => noteSequence bs c
/-- src/parser/component_sequence.rs:42-46 `note_positions`. -/
def noteSequence (bs : GlushkovBuildState H) : ComponentSequence → Outcome ε (GlushkovBuildState H)
  | .mk children _ _ _ => noteComponents bs children
/-- src/parser/component_alternation.rs:15-19 `note_positions`. -/
def noteSequences (bs : GlushkovBuildState H) : List ComponentSequence → Outcome ε (GlushkovBuildState H)
  | [] => .ok bs
  | c :: cs => do
    let bs ← noteSequence bs c
    noteSequences bs cs
/-- The loop src/parser/component_sequence.rs:43-45. -/
def noteComponents (bs : GlushkovBuildState H) : List Component → Outcome ε (GlushkovBuildState H)
  | [] => .ok bs
  | c :: cs => do
    let bs ← noteComponent bs c
    noteComponents bs cs
end

end GlushkovBuildState

/-! ## src/nfagraph/ng.rs -/

/-- src/nfagraph/ng.rs:17-31 `Ng`. -/
structure Ng (H : Hashing) where
  minWidth : Depth
  rm : Hashed.ReportManager H
  cc : CompileContext
  smwr : Build H
  rose : RoseBuild

/-- src/rose/rose_build.rs:14-24 `add`: does nothing. -/
def roseAdd (b : RoseBuild) (_anchored _eod : Bool) (_lit : Lit) (_reports : H.ids.M) : RoseBuild := b

namespace Ng

/-- src/nfagraph/ng.rs:34-59 `new`. -/
def new (cc : CompileContext) (numPatterns : Nat) (_somPrecision : Nat) : Outcome ε (Ng H) := do
  let smwr ← Build.new numPatterns cc.grey
  return { minWidth := Depth.infinity, rm := Hashed.ReportManager.new cc.grey, cc := cc, smwr := smwr,
           rose := ⟨cc, false⟩ }

/-- src/nfagraph/ng.rs:61-65 `add_graph`. -/
def addGraph (ng : Ng H) (expr : ExpressionInfo) (_g : Holder H) : Ng H :=
  if expr.som ≠ .none then { ng with rose := { ng.rose with hasSom := true } } else ng

/-- src/nfagraph/ng.rs:67-130 `add_literal`. -/
def addLiteral (p : Profile) (ng : Ng H) (literal : Lit) (exprIndex externalReport : Nat)
    (highlander : Bool) (som : SomType) (quiet : Bool) : Res (Ng H × Bool) := do
  rdebugAssert p (!literal.s.isEmpty) "assertion failed: !literal.is_empty()"
  if !ng.cc.grey.shortcutLiterals then return (ng, false)
  else if ← Stored.mixedSensitivity p literal then return (ng, false)
  else
    match ng.rm.registerExtReport externalReport ⟨highlander, exprIndex⟩ with
    | (_, .error e) => .err e
    | (rm, .ok ()) =>
      let (rm, rose, id) ← (show Res (Hashed.ReportManager H × RoseBuild × Except CompileError Nat) from
        match som with
        | .none => do
          let (rm, ekey) ← (show Res (Hashed.ReportManager H × Option Nat) from
            if highlander then do
              let (rm, k) ← rm.getExhaustibleKey externalReport
              return (rm, some k)
            else return (rm, none))
          let r := makeECallback externalReport 0 ekey quiet
          let (rm, id) ← Rescan.Ng.lift (rm.getInternalId r)
          return (rm, ng.rose, id)
        | _ => do
          rdebugAssert p (!highlander) "assertion failed: !highlander"
          let r := makeSomRelativeCallback externalReport 0 literal.s.length
          let (rm, id) ← Rescan.Ng.lift (rm.getInternalId r)
          return (rm, { ng.rose with hasSom := true }, id))
      match id with
      | .error e => .err e
      | .ok id =>
        let rose := roseAdd rose false false literal (H.ids.insert (H.ids.empty [9]) id ())
        match Depth.tryFrom literal.s.length with
        | none => .err (CompileError.new .other "depth overflow")
        | some d =>
          let smwr ← ng.smwr.addLiteral p literal id
          return ({ ng with minWidth := Depth.min ng.minWidth d, rm := rm, rose := rose,
                            smwr := smwr }, true)

end Ng

/-! ## src/parser/shortcut_literal.rs -/

/-- src/parser/shortcut_literal.rs:55-86 `shortcut_literal`. -/
def shortcutLiteral (p : Profile) (ng : Ng H) (pe : ParsedExpression) : Res (Ng H × Bool) :=
  if !ng.cc.grey.allowLiteral then .ok (ng, false)
  else
    match walkComponent p (Stored.constructLiteralVisitor p) Lit.default pe.component with
    | .err _ => .ok (ng, false)
    | .panic m => .panic m
    | .timeout => .timeout
    | .ok lit =>
      if lit.s.isEmpty then .ok (ng, false)
      else do
        let index ← Rescan.ReportManager.toU32 pe.expr.index
          "called `Result::unwrap()` on an `Err` value: TryFromIntError(())"
        ng.addLiteral p lit index pe.expr.report pe.expr.highlander pe.expr.som pe.expr.quiet

/-! ## src/compiler.rs, src/lib.rs -/

/-- src/compiler.rs:115-124 `build_graph`. -/
def buildGraph (p : Profile) (pe : ParsedExpression) : Outcome ε (NfaBuilder H) := do
  let builder ← NfaBuilder.new pe.expr
  let bs ← GlushkovBuildState.new p builder
  let bs ← bs.noteComponent pe.component
  return bs.builder

/-- src/compiler.rs:60-99 `add_expression`. -/
def addExpression (p : Profile) (ng : Ng H) (index : Nat) (expression : List U8) (flags : Flags)
    (id : Nat) : Res (Ng H) :=
  if expression.length > ng.cc.grey.limitPatternLength then
    .err (CompileError.new .other "Pattern length exceeds limit.")
  else do
    let pe ← newParsed p index expression flags id
    let pe := if pe.expr.prefilter then { pe with component := prefilterTree pe.component } else pe
    let (ng, done) ← shortcutLiteral p ng pe
    if done then return ng
    else
      let built ← buildGraph p pe
      return ng.addGraph built.expr built.graph

/-- src/lib.rs:124-129: the loop of `compile_multi_int`, starting at index `i`. -/
def addAll (p : Profile) : Nat → Ng H → List (List U8 × Flags × Nat) → Res (Ng H)
  | _, ng, [] => .ok ng
  | i, ng, (exp, fl, id) :: rest =>
    match addExpression p ng i exp fl id with
    | .ok ng => addAll p (i + 1) ng rest
    | .panic m => .panic m
    | .timeout => .timeout
    | .err e => do
      let idx ← Rescan.ReportManager.toU32 i
        "called `Result::unwrap()` on an `Err` value: TryFromIntError(())"
      let e ← e.setExpressionIndex p idx
      .err e

/-- src/lib.rs:96-132 `compile_multi_int`, up to the `Ng` handed to `build`. -/
def compileNg (p : Profile) (expressions : List (List U8)) (flags : List Flags) (ids : List Nat)
    (mode : Mode) (g : Grey) : Res (Ng H) :=
  if expressions.isEmpty then
    .err (CompileError.new .other "Invalid parameter: expressions is empty")
  else if expressions.length > g.limitPatternCount then
    .err (CompileError.new .other "Number of patterns too large")
  else do
    let cc : CompileContext := ⟨mode.isStreaming, mode.isVectored, g⟩
    let ng ← Ng.new cc expressions.length mode.somPrecision
    addAll p 0 ng (Stored.izip expressions flags ids)

/-- src/lib.rs:96-132 `compile_multi_int`; src/compiler.rs:101-113 `build`. -/
def compileMultiInt (H : Hashing) (p : Profile) (expressions : List (List U8)) (flags : List Flags)
    (ids : List Nat) (mode : Mode) (g : Grey) : Res Database := do
  let ng ← compileNg (H := H) p expressions flags ids mode g
  return ⟨ng.rose.buildRose⟩

end Rescan.Whole
