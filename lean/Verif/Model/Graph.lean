import Verif.Model.Component
/-! # petgraph, src/nfagraph/ng_holder.rs, src/nfagraph/ng_builder.rs, src/parser/build_state.rs,
src/parser/position*.rs, src/compiler/expression_info.rs -/
namespace Rescan

/-- src/nfagraph/ng_holder.rs:3-4, 24: petgraph 0.5 `Graph<N, E>` (directed, `u32` indices) with unit edge weights: node weights in
index order, edges **newest first** as `(source, target)`. -/
structure Graph (N : Type) where
  nodes : List N
  edges : List (Nat × Nat)

namespace Graph

variable {N : Type} {ε : Type}

/-- src/nfagraph/ng_holder.rs:34: petgraph `Graph::new`. -/
def new : Graph N := ⟨[], []⟩
/-- src/nfagraph/ng_holder.rs:61, 118: petgraph `Graph::add_node`: asserts that the new index is not `u32::MAX`. -/
def addNode (g : Graph N) (n : N) : Outcome ε (Graph N × Nat) :=
  if g.nodes.length = 2 ^ 32 - 1 then .panic "assertion failed: NodeIndex::end() != node_idx"
  else .ok ({ g with nodes := g.nodes ++ [n] }, g.nodes.length)
/-- src/nfagraph/ng_holder.rs:43-45: petgraph `Graph::add_edge`: panics if an endpoint does not exist or the new edge index would be
`u32::MAX`. -/
def addEdge (g : Graph N) (a b : Nat) : Outcome ε (Graph N) :=
  if g.edges.length = 2 ^ 32 - 1 then .panic "assertion failed: EdgeIndex::end() != edge_idx"
  else if a < g.nodes.length ∧ b < g.nodes.length then .ok { g with edges := (a, b) :: g.edges }
  else .panic "Graph::add_edge: node indices out of bounds"
/-- src/smallwrite/smallwrite_build.rs:166: petgraph `neighbors_directed(a, Outgoing)`: targets of the edges leaving `a`, newest first. -/
def outgoing (g : Graph N) (a : Nat) : List Nat :=
  (g.edges.filter (fun e => e.1 == a)).map Prod.snd
/-- src/nfagraph/ng_holder.rs:72, 78: petgraph `neighbors_directed(a, Incoming)`: sources of the edges entering `a`, newest first. -/
def incoming (g : Graph N) (a : Nat) : List Nat :=
  (g.edges.filter (fun e => e.2 == a)).map Prod.fst
/-- src/nfagraph/ng_holder.rs:90-96: petgraph `find_edge(a, b).is_some()`. -/
def hasEdge (g : Graph N) (a b : Nat) : Bool := g.edges.any (fun e => e.1 == a && e.2 == b)
/-- src/nfagraph/ng_holder.rs:102-108: `node_weight(i).expect(..)`. -/
def weight (g : Graph N) (i : Nat) : Outcome ε N := Outcome.expect g.nodes[i]? "invalid index"

end Graph

/-- src/parser/position.rs:7 `PosFlags` (bitflags over `u32`). -/
structure PosFlags where
  bits : U32
deriving DecidableEq

namespace PosFlags
/-- src/parser/position.rs:8 -/ def NOFLOAT : PosFlags := ⟨0x00000001#32⟩
/-- src/parser/position.rs:9 -/ def MUST_FLOAT : PosFlags := ⟨0x00000010#32⟩
/-- src/parser/position.rs:10 -/ def MULTILINE_START : PosFlags := ⟨0x00000100#32⟩
/-- src/parser/position.rs:6 `#[derive(Default)]`: no flag. -/
def default : PosFlags := ⟨0#32⟩
/-- src/parser/position.rs:5-12: bitflags `contains`. -/
def contains (self other : PosFlags) : Bool := (self.bits &&& other.bits) == other.bits
/-- src/parser/position.rs:5-12: bitflags `is_empty`. -/
def isEmpty (self : PosFlags) : Bool := self.bits == 0#32
/-- src/parser/position.rs:5-12: bitflags `|`. -/
def or (a b : PosFlags) : PosFlags := ⟨a.bits ||| b.bits⟩
end PosFlags

/-- src/nfagraph/ng_holder.rs:9-18 `NfaGraphVertexProps`. -/
structure NfaGraphVertexProps where
  charReach : CharReach
  reports : List Nat
  assertFlags : PosFlags
deriving DecidableEq

/-- src/nfagraph/ng_holder.rs:8 `#[derive(Default)]`. -/
def NfaGraphVertexProps.default : NfaGraphVertexProps := ⟨CharReach.default, [], PosFlags.default⟩

/-- src/nfagraph/ng_holder.rs:23-30 `NgHolder`. -/
structure NgHolder where
  inner : Graph NfaGraphVertexProps
  start : Nat
  startDs : Nat
  accept : Nat
  acceptEod : Nat

namespace NgHolder

variable {ε : Type}

/-- src/nfagraph/ng_holder.rs:47-48, src/nfagraph/ng_builder.rs:41: `inner[i].char_reach = f(..)`. -/
def modifyReach (g : Graph NfaGraphVertexProps) (i : Nat) (f : CharReach → CharReach) :
    Outcome ε (Graph NfaGraphVertexProps) :=
  if i < g.nodes.length then
    .ok { g with nodes := g.nodes.modify i (fun v => { v with charReach := f v.charReach }) }
  else .panic "invalid index"

/-- src/nfagraph/ng_holder.rs:33-57, 116-119 `new` / `add_special_vertex`. -/
def new : Outcome ε NgHolder := do
  let inner : Graph NfaGraphVertexProps := Graph.new
  let (inner, start) ← inner.addNode NfaGraphVertexProps.default
  let (inner, startDs) ← inner.addNode NfaGraphVertexProps.default
  let (inner, accept) ← inner.addNode NfaGraphVertexProps.default
  let (inner, acceptEod) ← inner.addNode NfaGraphVertexProps.default
  let inner ← inner.addEdge start startDs
  let inner ← inner.addEdge startDs startDs
  let inner ← inner.addEdge accept acceptEod
  let inner ← modifyReach inner start CharReach.setAll
  let inner ← modifyReach inner startDs CharReach.setAll
  return ⟨inner, start, startDs, accept, acceptEod⟩

/-- src/nfagraph/ng_holder.rs:59-62 `add_vertex`. -/
def addVertex (h : NgHolder) : Outcome ε (NgHolder × Nat) := do
  let (inner, v) ← h.inner.addNode NfaGraphVertexProps.default
  return ({ h with inner := inner }, v)

/-- src/nfagraph/ng_holder.rs:64-66 `num_vertices`. -/
def numVertices (h : NgHolder) : Nat := h.inner.nodes.length

/-- src/nfagraph/ng_holder.rs:74, 80: the reports of node `v` (nothing for an index out of range; edges never contain one). -/
def reportsAt (h : NgHolder) (v : Nat) : List Nat :=
  match h.inner.nodes[v]? with
  | some w => w.reports
  | none => []

/-- src/nfagraph/ng_holder.rs:69-83 `all_reports`. -/
def allReports (h : NgHolder) : List Nat :=
  let reports := (h.inner.incoming h.accept).foldl (fun u v => setExtend u (h.reportsAt v)) []
  (h.inner.incoming h.acceptEod).foldl (fun u v => setExtend u (h.reportsAt v)) reports

/-- src/nfagraph/ng_holder.rs:89-97 `is_vacuous`. -/
def isVacuous (h : NgHolder) : Bool :=
  h.inner.hasEdge h.start h.accept || h.inner.hasEdge h.start h.acceptEod
    || h.inner.hasEdge h.startDs h.accept || h.inner.hasEdge h.startDs h.acceptEod

end NgHolder

/-- src/compiler/expression_info.rs:7-36 `ExpressionInfo`. -/
structure ExpressionInfo where
  index : Nat
  report : Nat
  allowVacuous : Bool
  highlander : Bool
  utf8 : Bool
  prefilter : Bool
  som : SomType
  quiet : Bool

/-- src/nfagraph/ng_builder.rs:6-18 `NfaBuilder` (also `BuiltExpression`, src/compiler.rs:55-58,
which `get_graph` builds from the same two fields). -/
structure NfaBuilder where
  graph : NgHolder
  expr : ExpressionInfo

namespace NfaBuilder

variable {ε : Type}

/-- src/nfagraph/ng_builder.rs:12-18, 65-67 `new` / `make_nfa_builder`. -/
def new (expr : ExpressionInfo) : Outcome ε NfaBuilder := do
  let graph ← NgHolder.new
  return ⟨graph, expr⟩
/-- src/nfagraph/ng_builder.rs:20-22, 48-50 `make_position` / `add_vertex`. -/
def makePosition (b : NfaBuilder) : Outcome ε (NfaBuilder × Nat) := do
  let (graph, v) ← b.graph.addVertex
  return ({ b with graph := graph }, v)
/-- src/nfagraph/ng_builder.rs:40-42 `add_char_reach`. -/
def addCharReach (b : NfaBuilder) (pos : Nat) (cr : CharReach) : Outcome ε NfaBuilder := do
  let inner ← NgHolder.modifyReach b.graph.inner pos (fun r => r.orAssign cr)
  return { b with graph := { b.graph with inner := inner } }
/-- src/nfagraph/ng_builder.rs:44-46 `get_assert_flag`. -/
def getAssertFlag (b : NfaBuilder) (pos : Nat) : Outcome ε PosFlags := do
  let w ← b.graph.inner.weight pos
  return w.assertFlags

end NfaBuilder

/-- src/parser/position_info.rs:4-16 `PositionInfo`. -/
structure PositionInfo where
  pos : Nat
  flags : PosFlags
deriving DecidableEq

/-- src/parser/position_info.rs:9-16 `From<Position>`. -/
def PositionInfo.ofPos (pos : Nat) : PositionInfo := ⟨pos, PosFlags.default⟩

/-- src/parser/build_state.rs:6-16 `GlushkovBuildState`. -/
structure GlushkovBuildState where
  startState : Nat
  startDotStarState : Nat
  acceptState : Nat
  acceptEodState : Nat
  builder : NfaBuilder
  successors : List (Nat × List PositionInfo)

namespace GlushkovBuildState

variable {ε : Type}

/-- src/parser/build_state.rs:74-76 `pos_epsilon`: `NodeIndex::end().index() - 1`. -/
def posEpsilon : Nat := 2 ^ 32 - 1 - 1

/-- src/parser/build_state.rs:79-109 `filter_edges`. -/
def filterEdges (bs : GlushkovBuildState) (from_ : PositionInfo) (tolist : List PositionInfo) :
    Outcome ε (List PositionInfo) := do
  let tolist :=
    if from_.pos = bs.startDotStarState then
      let t := tolist.filter (fun e => !e.flags.contains .NOFLOAT)
      if from_.flags.contains .NOFLOAT then [] else t
    else if from_.pos = bs.startState then
      let t := tolist.filter (fun e => e.pos != posEpsilon || e.flags.isEmpty)
      t.filter (fun e => !e.flags.contains (PosFlags.MUST_FLOAT.or .NOFLOAT))
    else tolist
  let af ← bs.builder.getAssertFlag from_.pos
  return if af.contains .MULTILINE_START then tolist.filter (fun e => e.pos != bs.acceptEodState)
    else tolist

/-- `self.successors.entry(pos).or_insert_with(HashSet::new)` followed by inserting every element of
`tolist` (src/parser/build_state.rs:67-71). -/
def addSuccessors (m : List (Nat × List PositionInfo)) (pos : Nat) (tolist : List PositionInfo) :
    List (Nat × List PositionInfo) :=
  match m with
  | [] => [(pos, setExtend [] tolist)]
  | (k, v) :: rest =>
    if k = pos then (k, setExtend v tolist) :: rest else (k, v) :: addSuccessors rest pos tolist

/-- Replaces the first element whose position is `accept` by `new` (src/parser/build_state.rs:61-65:
`iter().position(..)` then `tolist[i] = ..`). -/
def replaceFirst (tolist : List PositionInfo) (accept : Nat) (new : PositionInfo) :
    List PositionInfo :=
  match tolist with
  | [] => []
  | e :: es => if e.pos = accept then new :: es else e :: replaceFirst es accept new

/-- src/parser/build_state.rs:56-72 `connect_successors`. -/
def connectSuccessors (p : Profile) (bs : GlushkovBuildState) (from_ : PositionInfo)
    (tolist : List PositionInfo) : Outcome ε GlushkovBuildState := do
  rdebugAssert p (decide (from_.pos ≠ posEpsilon)) "assertion failed: from.pos != pos_epsilon()"
  let tolist ← filterEdges bs from_ tolist
  let (bs, tolist) ←
    if tolist.any (fun e => e.pos == bs.acceptState) then do
      let (builder, fakedot) ← bs.builder.makePosition
      pure ({ bs with builder := builder },
        replaceFirst tolist bs.acceptState (PositionInfo.ofPos fakedot))
    else pure (bs, tolist)
  return { bs with successors := addSuccessors bs.successors from_.pos tolist }

/-- src/parser/build_state.rs:50-54 `connect_regions`. -/
def connectRegions (p : Profile) (bs : GlushkovBuildState) (lasts firsts : List PositionInfo) :
    Outcome ε GlushkovBuildState :=
  lasts.foldlM (fun bs last => connectSuccessors p bs last firsts) bs

/-- src/parser/build_state.rs:19-39, 111-113 `new` / `make_glushkov_build_state`. -/
def new (p : Profile) (b : NfaBuilder) : Outcome ε GlushkovBuildState :=
  let bs : GlushkovBuildState :=
    { startState := b.graph.start, startDotStarState := b.graph.startDs,
      acceptState := b.graph.accept, acceptEodState := b.graph.acceptEod,
      builder := b, successors := [] }
  connectRegions p bs
    [PositionInfo.ofPos b.graph.start, PositionInfo.ofPos b.graph.startDs]
    [PositionInfo.ofPos b.graph.startDs]

/-- src/parser/ascii_component_class.rs:28-33 `note_positions`. -/
def noteClass (bs : GlushkovBuildState) (c : AsciiComponentClass) :
    Outcome ε GlushkovBuildState := do
  let (builder, position) ← bs.builder.makePosition
  let builder ← builder.addCharReach position c.cr
  return { bs with builder := builder }

mutual
/-- src/parser/component.rs:17-23 and component_class.rs:46-50 `note_positions`. -/
def noteComponent (bs : GlushkovBuildState) : Component → Outcome ε GlushkovBuildState
  | .alternation (.mk children) => noteSequences bs children
  | .cls (.ascii c) => noteClass bs c
  | .sequence c => noteSequence bs c
/-- src/parser/component_sequence.rs:42-46 `note_positions`. -/
def noteSequence (bs : GlushkovBuildState) : ComponentSequence → Outcome ε GlushkovBuildState
  | .mk children _ _ _ => noteComponents bs children
/-- src/parser/component_alternation.rs:15-19 `note_positions`. -/
def noteSequences (bs : GlushkovBuildState) : List ComponentSequence → Outcome ε GlushkovBuildState
  | [] => .ok bs
  | c :: cs => do
    let bs ← noteSequence bs c
    noteSequences bs cs
/-- The loop src/parser/component_sequence.rs:43-45. -/
def noteComponents (bs : GlushkovBuildState) : List Component → Outcome ε GlushkovBuildState
  | [] => .ok bs
  | c :: cs => do
    let bs ← noteComponent bs c
    noteComponents bs cs
end

end GlushkovBuildState
end Rescan
