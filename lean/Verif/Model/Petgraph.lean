import Verif.Model.SmallWrite
/-! # petgraph 0.5 `Graph` as it is stored

The rest of the model has a graph as a list of edges, newest first (`Model/Graph.lean`).  petgraph keeps, for
each vertex, the index of the newest edge leaving and of the newest edge entering it, and for each edge the
index of the next older edge with the same source and with the same target; the index `u32::MAX` ends a
list.  petgraph's source is not in the sandbox: this file gives the algorithm of petgraph 0.5
(`src/graph_impl/mod.rs`) from knowledge of that release, not line by line from a text. -/
namespace Rescan
namespace Petgraph

/-- src/nfagraph/ng_holder.rs:3, src/smallwrite/smallwrite_build.rs:7 (`DefaultIx` is `u32`):
`EdgeIndex::end()`, `NodeIndex::end()`. -/
def END : Nat := 2 ^ 32 - 1

/-- src/nfagraph/ng_holder.rs:24: petgraph `Node<N>`. -/
structure Node (N : Type) where
  weight : N
  out : Nat
  inc : Nat
deriving DecidableEq

/-- src/nfagraph/ng_holder.rs:24: petgraph `Edge<E>` (unit weight): `node = [src, dst]`,
`next = [nextOut, nextInc]`. -/
structure Edge where
  src : Nat
  dst : Nat
  nextOut : Nat
  nextInc : Nat
deriving DecidableEq

/-- src/nfagraph/ng_holder.rs:24: petgraph `Graph<N, E>`: two vectors, oldest first. -/
structure PGraph (N : Type) where
  nodes : List (Node N)
  edges : List Edge

namespace PGraph

variable {N : Type} {ε : Type}

/-- src/nfagraph/ng_holder.rs:34: `Graph::new`. -/
def new : PGraph N := ⟨[], []⟩

/-- src/nfagraph/ng_holder.rs:61, 118: `Graph::add_node`. -/
def addNode (g : PGraph N) (w : N) : Outcome ε (PGraph N × Nat) :=
  if g.nodes.length = END then .panic "assertion failed: NodeIndex::end() != node_idx"
  else .ok ({ g with nodes := g.nodes ++ [⟨w, END, END⟩] }, g.nodes.length)

/-- src/nfagraph/ng_holder.rs:43-45: `Graph::add_edge`.  `index_twice` gives both vertices, or the one if
they are the same, or nothing if one does not exist. -/
def addEdge (g : PGraph N) (a b : Nat) : Outcome ε (PGraph N) :=
  let idx := g.edges.length
  if idx = END then .panic "assertion failed: EdgeIndex::end() != edge_idx"
  else match g.nodes[a]?, g.nodes[b]? with
    | some an, some bn =>
      if a = b then
        .ok ⟨g.nodes.set a { an with out := idx, inc := idx }, g.edges ++ [⟨a, b, an.out, an.inc⟩]⟩
      else
        .ok ⟨(g.nodes.set a { an with out := idx }).set b { bn with inc := idx },
          g.edges ++ [⟨a, b, an.out, bn.inc⟩]⟩
    | _, _ => .panic "Graph::add_edge: node indices out of bounds"

/-- src/nfagraph/ng_holder.rs:47-48, 110-114: `inner[i] = f(inner[i])`. -/
def modify (g : PGraph N) (i : Nat) (f : N → N) : Outcome ε (PGraph N) :=
  match g.nodes[i]? with
  | some n => .ok { g with nodes := g.nodes.set i { n with weight := f n.weight } }
  | none => .panic "invalid index"

/-- src/nfagraph/ng_holder.rs:70-82: state of the iterator `Neighbors` made by `neighbors_directed`. -/
structure Neighbors where
  skipStart : Nat
  next0 : Nat
  next1 : Nat

/-- src/smallwrite/smallwrite_build.rs:166: `neighbors_directed(a, Outgoing)`: the other list is cut off and
no loop is skipped. -/
def neighborsOut (g : PGraph N) (a : Nat) : Neighbors :=
  match g.nodes[a]? with
  | some n => ⟨END, n.out, END⟩
  | none => ⟨END, END, END⟩

/-- src/nfagraph/ng_holder.rs:72, 78: `neighbors_directed(a, Incoming)`. -/
def neighborsIn (g : PGraph N) (a : Nat) : Neighbors :=
  match g.nodes[a]? with
  | some n => ⟨END, END, n.inc⟩
  | none => ⟨END, END, END⟩

/-- src/nfagraph/ng_holder.rs:70-82: the loop over incoming edges in `Neighbors::next`, which passes over
edges from `skip_start`. -/
def nextIncoming (g : PGraph N) (it : Neighbors) : Nat → Outcome ε (Option Nat × Neighbors)
  | 0 => .timeout
  | fuel + 1 =>
    match g.edges[it.next1]? with
    | none => .ok (none, it)
    | some e =>
      let it := { it with next1 := e.nextInc }
      if e.src ≠ it.skipStart then .ok (some e.src, it) else nextIncoming g it fuel

/-- src/nfagraph/ng_holder.rs:70-82: `Neighbors::next`. -/
def next (g : PGraph N) (fuel : Nat) (it : Neighbors) : Outcome ε (Option Nat × Neighbors) :=
  match g.edges[it.next0]? with
  | some e => .ok (some e.dst, { it with next0 := e.nextOut })
  | none => nextIncoming g it fuel

/-- src/nfagraph/ng_holder.rs:73-82: the values of the iterator, taken until it is exhausted (`fold`). -/
def collect (g : PGraph N) (it : Neighbors) : Nat → Outcome ε (List Nat)
  | 0 => .timeout
  | fuel + 1 => do
    let (v, it) ← next g (fuel + 1) it
    match v with
    | none => return []
    | some v => do
      let vs ← collect g it fuel
      return v :: vs

/-- src/nfagraph/ng_holder.rs:90-96: the loop of `find_edge_directed_from_node`. -/
def findFrom (g : PGraph N) (b : Nat) (edix : Nat) : Nat → Outcome ε (Option Nat)
  | 0 => .timeout
  | fuel + 1 =>
    match g.edges[edix]? with
    | none => .ok none
    | some e => if e.dst = b then .ok (some edix) else findFrom g b e.nextOut fuel

/-- src/nfagraph/ng_holder.rs:90-96: `find_edge`. -/
def findEdge (g : PGraph N) (fuel : Nat) (a b : Nat) : Outcome ε (Option Nat) :=
  match g.nodes[a]? with
  | none => .ok none
  | some n => findFrom g b n.out fuel

end PGraph

/-- src/nfagraph/ng_holder.rs:34-48, src/smallwrite/smallwrite_build.rs:169-175: a change of a graph, as the code
makes them. -/
inductive Step (N : Type) where
  | node (w : N)
  | edge (a b : Nat)
  | weight (i : Nat) (f : N → N)

/-- src/nfagraph/ng_holder.rs:34-48: a change of the stored graph. -/
def Step.run {N ε : Type} (g : PGraph N) : Step N → Outcome ε (PGraph N)
  | .node w => do
    let (g, _) ← g.addNode w
    return g
  | .edge a b => g.addEdge a b
  | .weight i f => g.modify i f

/-- src/nfagraph/ng_holder.rs:34-48: the same change of the graph of `Model/Graph.lean`. -/
def Step.runG {N ε : Type} (g : Graph N) : Step N → Outcome ε (Graph N)
  | .node w => do
    let (g, _) ← g.addNode w
    return g
  | .edge a b => g.addEdge a b
  | .weight i f =>
    if i < g.nodes.length then .ok { g with nodes := g.nodes.modify i f } else .panic "invalid index"

end Petgraph
end Rescan
