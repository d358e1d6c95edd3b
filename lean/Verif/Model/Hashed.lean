import Verif.Model.Compiler
/-! # Hash maps and sets of any layout

Elsewhere in the model a `HashMap` is an association list and a `HashSet` a list without repetitions.  Here both are
any implementation whatever: a type of tables with the operations the code uses, and laws (`Props/Hashed.lean`) that
say what std documents of them.  Nothing is said of the order in which a table is gone through, and tables made at
different places may be hashed differently, as with std's `RandomState`. -/
namespace Rescan.Hashed

/-- Where and when a table is made (std `RandomState::new` gives each table keys of its own). -/
abbrev Site := List Nat

/-- src/util/report_manager.rs:3: std `HashMap<K, V>` (and `BTreeMap`; `HashSet<K>` is `HashMap<K, ()>`). -/
structure MapImpl (K V : Type) where
  M : Type
  empty : Site → M
  get : M → K → Option V
  insert : M → K → V → M
  len : M → Nat
  /-- The entries, in the order in which the table is gone through. -/
  iter : M → List (K × V)

/-- src/util/report_manager.rs:29-36, src/smallwrite/smallwrite_build.rs:18, src/nfagraph/ng_holder.rs:14,
src/parser/build_state.rs:15: the types of tables used. -/
structure Hashing where
  reports : MapImpl Report Nat
  external : MapImpl Nat ExternalReportInfo
  ekeys : MapImpl Int Nat
  ids : MapImpl Nat Unit
  positions : MapImpl PositionInfo Unit
  successors : MapImpl Nat positions.M

variable {ε : Type} {H : Hashing}

/-- std `HashSet::extend` with the elements of a list. -/
def extend {K : Type} (I : MapImpl K Unit) (s : I.M) (xs : List K) : I.M := xs.foldl (fun s x => I.insert s x ()) s

/-! ## src/util/report_manager.rs -/

/-- src/util/report_manager.rs:22-41 `ReportManager`. -/
structure ReportManager (H : Hashing) where
  limitReportCount : Nat
  reportIds : List Report
  reportIdToInternalMap : H.reports.M
  externalIdMap : H.external.M
  toExhaustibleKeyMap : H.ekeys.M
  globalExhaust : Bool

namespace ReportManager

/-- src/util/report_manager.rs:44-53 `new`. -/
def new (g : Grey) : ReportManager H where
  limitReportCount := g.limitReportCount
  reportIds := []
  reportIdToInternalMap := H.reports.empty [0]
  externalIdMap := H.external.empty [1]
  toExhaustibleKeyMap := H.ekeys.empty [2]
  globalExhaust := true

/-- src/util/report_manager.rs:56-74 `get_internal_id`. -/
def getInternalId (rm : ReportManager H) (ir : Report) :
    Outcome Empty (ReportManager H × Except CompileError Nat) :=
  match H.reports.get rm.reportIdToInternalMap ir with
  | some id => .ok (rm, .ok id)
  | none =>
    if rm.reportIds.length ≥ rm.limitReportCount then
      .ok (rm, .error (CompileError.new .resourceLimit "Resource limit exceeded."))
    else do
      let size ← Rescan.ReportManager.toU32 rm.reportIds.length "too many reports"
      return ({ rm with
        reportIds := rm.reportIds ++ [ir]
        reportIdToInternalMap := H.reports.insert rm.reportIdToInternalMap ir size }, .ok size)

/-- src/util/report_manager.rs:81-83 `get_report`. -/
def getReport (rm : ReportManager H) (id : Nat) : Outcome ε Report :=
  Outcome.expect rm.reportIds[id]? "index out of bounds"

/-- src/util/report_manager.rs:92-131 `register_ext_report`. -/
def registerExtReport (rm : ReportManager H) (id : Nat) (ext : ExternalReportInfo) :
    ReportManager H × Except CompileError Unit :=
  let finish (rm : ReportManager H) : ReportManager H × Except CompileError Unit :=
    (if !ext.highlander then { rm with globalExhaust := false } else rm, .ok ())
  match H.external.get rm.externalIdMap id with
  | some eri =>
    if eri.highlander ≠ ext.highlander then
      (rm, .error (CompileError.withIndex ext.firstPatternIndex
        (Rescan.ReportManager.conflictMessage id ext eri)))
    else finish rm
  | none => finish { rm with externalIdMap := H.external.insert rm.externalIdMap id ext }

/-- src/util/report_manager.rs:139-146 `get_exhaustible_key`. -/
def getExhaustibleKey (rm : ReportManager H) (a : Nat) : Outcome ε (ReportManager H × Nat) := do
  let size ← Rescan.ReportManager.toU32 (H.ekeys.len rm.toExhaustibleKeyMap) "too many expressions"
  match H.ekeys.get rm.toExhaustibleKeyMap (a : Int) with
  | some k => return (rm, k)
  | none =>
    return ({ rm with toExhaustibleKeyMap := H.ekeys.insert rm.toExhaustibleKeyMap (a : Int) size }, size)

end ReportManager

/-! ## src/nfagraph/ng_holder.rs -/

/-- src/nfagraph/ng_holder.rs:9-18 `NfaGraphVertexProps`. -/
structure NfaGraphVertexProps (H : Hashing) where
  charReach : CharReach
  reports : H.ids.M
  assertFlags : PosFlags

/-- src/nfagraph/ng_holder.rs:8 `#[derive(Default)]`. -/
def NfaGraphVertexProps.default (s : Site) : NfaGraphVertexProps H :=
  ⟨CharReach.default, H.ids.empty s, PosFlags.default⟩

/-- src/nfagraph/ng_holder.rs:23-30 `NgHolder`. -/
structure NgHolder (H : Hashing) where
  inner : Graph (NfaGraphVertexProps H)
  start : Nat
  startDs : Nat
  accept : Nat
  acceptEod : Nat

namespace NgHolder

/-- src/nfagraph/ng_holder.rs:47-48, src/nfagraph/ng_builder.rs:41: `inner[i].char_reach = f(..)`. -/
def modifyReach (g : Graph (NfaGraphVertexProps H)) (i : Nat) (f : CharReach → CharReach) :
    Outcome ε (Graph (NfaGraphVertexProps H)) :=
  if i < g.nodes.length then
    .ok { g with nodes := g.nodes.modify i (fun v => { v with charReach := f v.charReach }) }
  else .panic "invalid index"

/-- src/nfagraph/ng_holder.rs:33-57, 116-119 `new` / `add_special_vertex`. -/
def new (s : Site) : Outcome ε (NgHolder H) := do
  let inner : Graph (NfaGraphVertexProps H) := Graph.new
  let (inner, start) ← inner.addNode (NfaGraphVertexProps.default (0 :: s))
  let (inner, startDs) ← inner.addNode (NfaGraphVertexProps.default (1 :: s))
  let (inner, accept) ← inner.addNode (NfaGraphVertexProps.default (2 :: s))
  let (inner, acceptEod) ← inner.addNode (NfaGraphVertexProps.default (3 :: s))
  let inner ← inner.addEdge start startDs
  let inner ← inner.addEdge startDs startDs
  let inner ← inner.addEdge accept acceptEod
  let inner ← modifyReach inner start CharReach.setAll
  let inner ← modifyReach inner startDs CharReach.setAll
  return ⟨inner, start, startDs, accept, acceptEod⟩

/-- src/nfagraph/ng_holder.rs:59-62 `add_vertex`. -/
def addVertex (h : NgHolder H) (s : Site) : Outcome ε (NgHolder H × Nat) := do
  let (inner, v) ← h.inner.addNode (NfaGraphVertexProps.default (h.inner.nodes.length :: s))
  return ({ h with inner := inner }, v)

/-- src/nfagraph/ng_holder.rs:72-75, 78-81: the union of the reports of some vertices, each set gone through in the
order of its table. -/
def foldReports (h : NgHolder H) (union : H.ids.M) (vs : List Nat) : H.ids.M :=
  vs.foldl (fun u v => match h.inner.nodes[v]? with
    | some w => extend H.ids u ((H.ids.iter w.reports).map Prod.fst)
    | none => u) union

/-- src/nfagraph/ng_holder.rs:69-83 `all_reports`. -/
def allReports (h : NgHolder H) (s : Site) : H.ids.M :=
  h.foldReports (h.foldReports (H.ids.empty s) (h.inner.incoming h.accept)) (h.inner.incoming h.acceptEod)

/-- src/nfagraph/ng_holder.rs:89-97 `is_vacuous`. -/
def isVacuous (h : NgHolder H) : Bool :=
  h.inner.hasEdge h.start h.accept || h.inner.hasEdge h.start h.acceptEod
    || h.inner.hasEdge h.startDs h.accept || h.inner.hasEdge h.startDs h.acceptEod

end NgHolder

/-! ## src/smallwrite/smallwrite_build.rs -/

/-- src/smallwrite/smallwrite_build.rs:14-37 `LitTrieVertexProps`. -/
structure LitTrieVertexProps (H : Hashing) where
  c : U8
  reports : H.ids.M

/-- src/smallwrite/smallwrite_build.rs:45-49 `LitTrie`. -/
structure LitTrie (H : Hashing) where
  inner : Graph (LitTrieVertexProps H)
  root : Nat

namespace LitTrie

/-- src/smallwrite/smallwrite_build.rs:66-72 `Default`. -/
def default (s : Site) : LitTrie H := ⟨⟨[⟨0#8, H.ids.empty (0 :: s)⟩], []⟩, 0⟩

/-- src/smallwrite/smallwrite_build.rs:164-167: the first outgoing neighbour of `u` whose byte is `c`. -/
def findChild (t : LitTrie H) (u : Nat) (c : U8) : Option Nat :=
  (t.inner.outgoing u).find? (fun v => match t.inner.nodes[v]? with
    | some w => w.c == c
    | none => false)

/-- One iteration of the loop of `add_to_trie`, src/smallwrite/smallwrite_build.rs:164-172. -/
def descend (s : Site) (st : LitTrie H × Nat) (c : U8) : Outcome ε (LitTrie H × Nat) :=
  let (t, u) := st
  match t.findChild u c with
  | some v => .ok (t, v)
  | none => do
    let (g, next) ← t.inner.addNode ⟨c, H.ids.empty (t.inner.nodes.length :: s)⟩
    let g ← g.addEdge u next
    return ({ t with inner := g }, next)

/-- src/smallwrite/smallwrite_build.rs:58-63 `all_reports`. -/
def allReports (t : LitTrie H) (s : Site) : H.ids.M :=
  t.inner.nodes.foldl (fun u v => extend H.ids u ((H.ids.iter v.reports).map Prod.fst)) (H.ids.empty s)

end LitTrie

/-- src/smallwrite/smallwrite_build.rs:161-178 `add_to_trie`. -/
def addToTrie (s : Site) (literal : Ue2Literal) (report : Nat) (t : LitTrie H) :
    Outcome ε (LitTrie H × Bool) := do
  let (t, u) ← (literal.iter.map (fun e => e.c)).foldlM (LitTrie.descend s) (t, t.root)
  if u < t.inner.nodes.length then
    let nodes := t.inner.nodes.modify u (fun v => { v with reports := H.ids.insert v.reports report () })
    return ({ t with inner := { t.inner with nodes := nodes } }, decide (nodes.length ≤ maxTrieVertices))
  else .panic "index out of bounds"

/-- src/smallwrite/smallwrite_build.rs:75-83 `SmallWriteBuild`. -/
structure SmallWriteBuild (H : Hashing) where
  grey : Grey
  litTrie : LitTrie H
  litTrieNocase : LitTrie H
  numLiterals : Nat
  poisoned : Bool

namespace SmallWriteBuild

/-- src/smallwrite/smallwrite_build.rs:87-98 `new`. -/
def new (numPatterns : Nat) (g : Grey) : SmallWriteBuild H where
  grey := g
  litTrie := LitTrie.default [3]
  litTrieNocase := LitTrie.default [4]
  numLiterals := 0
  poisoned := !g.allowSmallWrite || decide (numPatterns > g.smallWriteMaxPatterns)

/-- src/smallwrite/smallwrite_build.rs:121-124: `any(|id| rm.get_report(id).min_length > 0)`. -/
def anyMinLength (rm : ReportManager H) : List Nat → Outcome ε Bool
  | [] => .ok false
  | id :: ids => do
    let r ← rm.getReport id
    if r.minLength > 0 then return true else anyMinLength rm ids

/-- src/smallwrite/smallwrite_build.rs:102-130 `add_expression` (never called). -/
def addExpression (sw : SmallWriteBuild H) (rm : ReportManager H) (g : NgHolder H) (expr : ExpressionInfo) :
    Outcome ε (SmallWriteBuild H) :=
  if sw.poisoned then .ok sw
  else if expr.som ≠ .none then .ok { sw with poisoned := true }
  else if g.isVacuous then .ok { sw with poisoned := true }
  else do
    if ← anyMinLength rm ((H.ids.iter (g.allReports [6])).map Prod.fst) then return { sw with poisoned := true }
    else .panic "not implemented"

/-- src/smallwrite/smallwrite_build.rs:132-158 `add_literal`. -/
def addLiteral (sw : SmallWriteBuild H) (literal : Ue2Literal) (r : Nat) :
    Outcome ε (SmallWriteBuild H) :=
  if sw.poisoned then .ok sw
  else if literal.len > sw.grey.smallWriteLargestBuffer then .ok sw
  else
    let sw := { sw with numLiterals := sw.numLiterals + 1 }
    if sw.numLiterals > sw.grey.smallWriteMaxLiterals then .ok { sw with poisoned := true }
    else if literal.anyNocase then do
      let (t, fits) ← addToTrie [4] literal r sw.litTrieNocase
      return { sw with litTrieNocase := t, poisoned := !fits }
    else do
      let (t, fits) ← addToTrie [3] literal r sw.litTrie
      return { sw with litTrie := t, poisoned := !fits }

end SmallWriteBuild

/-! ## src/nfagraph/ng_builder.rs, src/parser/build_state.rs -/

/-- src/nfagraph/ng_builder.rs:6-18 `NfaBuilder`. -/
structure NfaBuilder (H : Hashing) where
  graph : NgHolder H
  expr : ExpressionInfo

namespace NfaBuilder

/-- src/nfagraph/ng_builder.rs:12-18, 65-67 `new` / `make_nfa_builder`. -/
def new (expr : ExpressionInfo) : Outcome ε (NfaBuilder H) := do
  let graph ← NgHolder.new [5, expr.index]
  return ⟨graph, expr⟩
/-- src/nfagraph/ng_builder.rs:20-22, 48-50 `make_position` / `add_vertex`. -/
def makePosition (b : NfaBuilder H) : Outcome ε (NfaBuilder H × Nat) := do
  let (graph, v) ← b.graph.addVertex [5, b.expr.index]
  return ({ b with graph := graph }, v)
/-- src/nfagraph/ng_builder.rs:40-42 `add_char_reach`. -/
def addCharReach (b : NfaBuilder H) (pos : Nat) (cr : CharReach) : Outcome ε (NfaBuilder H) := do
  let inner ← NgHolder.modifyReach b.graph.inner pos (fun r => r.orAssign cr)
  return { b with graph := { b.graph with inner := inner } }
/-- src/nfagraph/ng_builder.rs:44-46 `get_assert_flag`. -/
def getAssertFlag (b : NfaBuilder H) (pos : Nat) : Outcome ε PosFlags := do
  let w ← b.graph.inner.weight pos
  return w.assertFlags

end NfaBuilder

/-- src/parser/build_state.rs:6-16 `GlushkovBuildState`. -/
structure GlushkovBuildState (H : Hashing) where
  startState : Nat
  startDotStarState : Nat
  acceptState : Nat
  acceptEodState : Nat
  builder : NfaBuilder H
  successors : H.successors.M

namespace GlushkovBuildState

open Rescan.GlushkovBuildState (posEpsilon replaceFirst)

/-- src/parser/build_state.rs:79-109 `filter_edges`. -/
def filterEdges (bs : GlushkovBuildState H) (from_ : PositionInfo) (tolist : List PositionInfo) :
    Outcome ε (List PositionInfo) := do
  let tolist :=
    if from_.pos = bs.startDotStarState then
      let t := tolist.filter (fun e => !e.flags.contains .NOFLOAT)
      if from_.flags.contains .NOFLOAT then [] else t
    else if from_.pos = bs.startState then
      let t := tolist.filter (fun e => e.pos != posEpsilon || e.flags.isEmpty)
      t.filter (fun e => !e.flags.contains (PosFlags.MUST_FLOAT.or .NOFLOAT))
    else tolist
  let af ← bs.builder.getAssertFlag from_.pos
  return if af.contains .MULTILINE_START then tolist.filter (fun e => e.pos != bs.acceptEodState)
    else tolist

/-- src/parser/build_state.rs:67-71: `entry(pos).or_insert_with(HashSet::new)`, then inserting every element of
`tolist`. -/
def addSuccessors (index : Nat) (m : H.successors.M) (pos : Nat) (tolist : List PositionInfo) : H.successors.M :=
  H.successors.insert m pos
    (extend H.positions ((H.successors.get m pos).getD (H.positions.empty [7, index, pos])) tolist)

/-- src/parser/build_state.rs:56-72 `connect_successors`. -/
def connectSuccessors (p : Profile) (bs : GlushkovBuildState H) (from_ : PositionInfo)
    (tolist : List PositionInfo) : Outcome ε (GlushkovBuildState H) := do
  rdebugAssert p (decide (from_.pos ≠ posEpsilon)) "assertion failed: from.pos != pos_epsilon()"
  let tolist ← filterEdges bs from_ tolist
  let (bs, tolist) ←
    if tolist.any (fun e => e.pos == bs.acceptState) then do
      let (builder, fakedot) ← bs.builder.makePosition
      pure ({ bs with builder := builder },
        replaceFirst tolist bs.acceptState (PositionInfo.ofPos fakedot))
    else pure (bs, tolist)
  return { bs with successors := addSuccessors bs.builder.expr.index bs.successors from_.pos tolist }

/-- src/parser/build_state.rs:50-54 `connect_regions`. -/
def connectRegions (p : Profile) (bs : GlushkovBuildState H) (lasts firsts : List PositionInfo) :
    Outcome ε (GlushkovBuildState H) :=
  lasts.foldlM (fun bs last => connectSuccessors p bs last firsts) bs

/-- src/parser/build_state.rs:19-39, 111-113 `new` / `make_glushkov_build_state`. -/
def new (p : Profile) (b : NfaBuilder H) : Outcome ε (GlushkovBuildState H) :=
  let bs : GlushkovBuildState H :=
    { startState := b.graph.start, startDotStarState := b.graph.startDs,
      acceptState := b.graph.accept, acceptEodState := b.graph.acceptEod,
      builder := b, successors := H.successors.empty [8, b.expr.index] }
  connectRegions p bs
    [PositionInfo.ofPos b.graph.start, PositionInfo.ofPos b.graph.startDs]
    [PositionInfo.ofPos b.graph.startDs]

/-- src/parser/ascii_component_class.rs:28-33 `note_positions`. -/
def noteClass (bs : GlushkovBuildState H) (c : AsciiComponentClass) :
    Outcome ε (GlushkovBuildState H) := do
  let (builder, position) ← bs.builder.makePosition
  let builder ← builder.addCharReach position c.cr
  return { bs with builder := builder }

mutual
/-- src/parser/component.rs:17-23 and component_class.rs:46-50 `note_positions`. -/
def noteComponent (bs : GlushkovBuildState H) : Component → Outcome ε (GlushkovBuildState H)
  | .alternation (.mk children) => noteSequences bs children
  | .cls (.ascii c) => noteClass bs c
  | .sequence c => noteSequence bs c
/-- src/parser/component_sequence.rs:42-46 `note_positions`. -/
def noteSequence (bs : GlushkovBuildState H) : ComponentSequence → Outcome ε (GlushkovBuildState H)
  | .mk children _ _ _ => noteComponents bs children
/-- src/parser/component_alternation.rs:15-19 `note_positions`. -/
def noteSequences (bs : GlushkovBuildState H) : List ComponentSequence → Outcome ε (GlushkovBuildState H)
  | [] => .ok bs
  | c :: cs => do
    let bs ← noteSequence bs c
    noteSequences bs cs
/-- The loop src/parser/component_sequence.rs:43-45. -/
def noteComponents (bs : GlushkovBuildState H) : List Component → Outcome ε (GlushkovBuildState H)
  | [] => .ok bs
  | c :: cs => do
    let bs ← noteComponent bs c
    noteComponents bs cs
end

end GlushkovBuildState

/-! ## src/nfagraph/ng.rs -/

/-- src/nfagraph/ng.rs:17-31 `Ng`. -/
structure Ng (H : Hashing) where
  minWidth : Depth
  rm : ReportManager H
  cc : CompileContext
  smwr : SmallWriteBuild H
  rose : RoseBuild

/-- src/rose/rose_build.rs:14-24 `add`: does nothing. -/
def roseAdd (b : RoseBuild) (_anchored _eod : Bool) (_lit : Ue2Literal) (_reports : H.ids.M) : RoseBuild := b

namespace Ng

/-- src/nfagraph/ng.rs:34-59 `new`. -/
def new (cc : CompileContext) (numPatterns : Nat) (_somPrecision : Nat) : Ng H :=
  { minWidth := Depth.infinity, rm := ReportManager.new cc.grey, cc := cc, smwr := SmallWriteBuild.new numPatterns cc.grey,
    rose := ⟨cc, false⟩ }

/-- src/nfagraph/ng.rs:61-65 `add_graph`. -/
def addGraph (ng : Ng H) (expr : ExpressionInfo) (_g : NgHolder H) : Ng H :=
  if expr.som ≠ .none then { ng with rose := { ng.rose with hasSom := true } } else ng

/-- src/nfagraph/ng.rs:67-130 `add_literal`. -/
def addLiteral (p : Profile) (ng : Ng H) (literal : Ue2Literal) (exprIndex externalReport : Nat)
    (highlander : Bool) (som : SomType) (quiet : Bool) : Res (Ng H × Bool) := do
  rdebugAssert p (!literal.isEmpty) "assertion failed: !literal.is_empty()"
  if !ng.cc.grey.shortcutLiterals then return (ng, false)
  else if mixedSensitivity literal.iter then return (ng, false)
  else
    match ng.rm.registerExtReport externalReport ⟨highlander, exprIndex⟩ with
    | (_, .error e) => .err e
    | (rm, .ok ()) =>
      let (rm, rose, id) ← (show Res (ReportManager H × RoseBuild × Except CompileError Nat) from
        match som with
        | .none => do
          let (rm, ekey) ← (show Res (ReportManager H × Option Nat) from
            if highlander then do
              let (rm, k) ← rm.getExhaustibleKey externalReport
              return (rm, some k)
            else return (rm, none))
          let r := makeECallback externalReport 0 ekey quiet
          let (rm, id) ← Rescan.Ng.lift (rm.getInternalId r)
          return (rm, ng.rose, id)
        | _ => do
          rdebugAssert p (!highlander) "assertion failed: !highlander"
          let r := makeSomRelativeCallback externalReport 0 literal.len
          let (rm, id) ← Rescan.Ng.lift (rm.getInternalId r)
          return (rm, { ng.rose with hasSom := true }, id))
      match id with
      | .error e => .err e
      | .ok id =>
        let rose := roseAdd rose false false literal (H.ids.insert (H.ids.empty [9]) id ())
        match Depth.tryFrom literal.len with
        | none => .err (CompileError.new .other "depth overflow")
        | some d =>
          let smwr ← ng.smwr.addLiteral literal id
          return ({ ng with minWidth := Depth.min ng.minWidth d, rm := rm, rose := rose,
                            smwr := smwr }, true)

end Ng

/-! ## src/parser/shortcut_literal.rs -/

/-- src/parser/shortcut_literal.rs:55-86 `shortcut_literal`. -/
def shortcutLiteral (p : Profile) (ng : Ng H) (pe : ParsedExpression) : Res (Ng H × Bool) :=
  if !ng.cc.grey.allowLiteral then .ok (ng, false)
  else
    match walkComponent p constructLiteralVisitor Ue2Literal.default pe.component with
    | .err _ => .ok (ng, false)
    | .panic m => .panic m
    | .timeout => .timeout
    | .ok lit =>
      if lit.isEmpty then .ok (ng, false)
      else do
        let index ← Rescan.ReportManager.toU32 pe.expr.index
          "called `Result::unwrap()` on an `Err` value: TryFromIntError(())"
        ng.addLiteral p lit index pe.expr.report pe.expr.highlander pe.expr.som pe.expr.quiet

/-! ## src/compiler.rs, src/lib.rs -/

/-- src/compiler.rs:115-124 `build_graph`. -/
def buildGraph (p : Profile) (pe : ParsedExpression) : Outcome ε (NfaBuilder H) := do
  let builder ← NfaBuilder.new pe.expr
  let bs ← GlushkovBuildState.new p builder
  let bs ← bs.noteComponent pe.component
  return bs.builder

/-- src/compiler.rs:60-99 `add_expression`. -/
def addExpression (p : Profile) (ng : Ng H) (index : Nat) (expression : Str) (flags : Flags)
    (id : Nat) : Res (Ng H) :=
  if utf8Len expression > ng.cc.grey.limitPatternLength then
    .err (CompileError.new .other "Pattern length exceeds limit.")
  else do
    let pe ← ParsedExpression.new p index expression flags id
    let pe := if pe.expr.prefilter then { pe with component := prefilterTree pe.component } else pe
    let (ng, done) ← shortcutLiteral p ng pe
    if done then return ng
    else
      let built ← buildGraph p pe
      return ng.addGraph built.expr built.graph

/-- src/lib.rs:124-129: the loop of `compile_multi_int`, starting at index `i`. -/
def addAll (p : Profile) : Nat → Ng H → List (Str × Flags × Nat) → Res (Ng H)
  | _, ng, [] => .ok ng
  | i, ng, (exp, fl, id) :: rest =>
    match addExpression p ng i exp fl id with
    | .ok ng => addAll p (i + 1) ng rest
    | .panic m => .panic m
    | .timeout => .timeout
    | .err e => do
      let idx ← Rescan.ReportManager.toU32 i
        "called `Result::unwrap()` on an `Err` value: TryFromIntError(())"
      let e ← e.setExpressionIndex p idx
      .err e

/-- src/lib.rs:96-132 `compile_multi_int`, up to the `Ng` handed to `build`. -/
def compileNg (p : Profile) (expressions : List Str) (flags : List Flags) (ids : List Nat)
    (mode : Mode) (g : Grey) : Res (Ng H) :=
  if expressions.isEmpty then
    .err (CompileError.new .other "Invalid parameter: expressions is empty")
  else if expressions.length > g.limitPatternCount then
    .err (CompileError.new .other "Number of patterns too large")
  else
    let cc : CompileContext := ⟨mode.isStreaming, mode.isVectored, g⟩
    let ng := Ng.new cc expressions.length mode.somPrecision
    addAll p 0 ng (izip expressions flags ids)

/-- src/lib.rs:96-132 `compile_multi_int`; src/compiler.rs:101-113 `build`. -/
def compileMultiInt (H : Hashing) (p : Profile) (expressions : List Str) (flags : List Flags) (ids : List Nat)
    (mode : Mode) (g : Grey) : Res Database := do
  let ng ← compileNg (H := H) p expressions flags ids mode g
  return ⟨ng.rose.buildRose⟩

end Rescan.Hashed
