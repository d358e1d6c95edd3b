import Verif.Model.Compiler
/-! # Graph building completed: **not code that exists**

`build_graph` (src/compiler.rs:115-124) makes a vertex for every class of the tree and stops: nothing calls
`connect_regions` (src/parser/build_state.rs:50-54) after the constructor, and the successors it records are
never turned into edges, so the graph accepts nothing (C41).  Below are the missing steps, as Glushkov's
construction has them: which positions a component can begin and end with, a pass that calls the code's
`connect_regions` on them, and a loop that turns recorded successors into edges of the graph.
`Props/Completed.lean` proves that `build_graph` with these steps accepts the language of the tree.

Everything else (`note_positions`, `connect_regions`, `filter_edges`, `make_position`, the graph) is the
model of the code that exists.  Nothing else in the development uses these definitions. -/
namespace Rescan.Completed

mutual
/-- Can the component match the empty string? -/
def nullable : Component → Bool
  | .alternation (.mk cs) => nullableAny cs
  | .cls _ => false
  | .sequence s => nullableSeq s
/-- … for a sequence. -/
def nullableSeq : ComponentSequence → Bool
  | .mk cs _ _ _ => nullableAll cs
/-- … for components one after the other. -/
def nullableAll : List Component → Bool
  | [] => true
  | c :: cs => nullable c && nullableAll cs
/-- … for alternatives. -/
def nullableAny : List ComponentSequence → Bool
  | [] => false
  | s :: ss => nullableSeq s || nullableAny ss
end

mutual
/-- The number of positions `note_positions` makes for the component. -/
def size : Component → Nat
  | .alternation (.mk cs) => sizeAny cs
  | .cls _ => 1
  | .sequence s => sizeSeq s
/-- … for a sequence. -/
def sizeSeq : ComponentSequence → Nat
  | .mk cs _ _ _ => sizeAll cs
/-- … for components one after the other. -/
def sizeAll : List Component → Nat
  | [] => 0
  | c :: cs => size c + sizeAll cs
/-- … for alternatives. -/
def sizeAny : List ComponentSequence → Nat
  | [] => 0
  | s :: ss => sizeSeq s + sizeAny ss
end

mutual
/-- The positions a match of the component can begin with, the first of its positions being `n`. -/
def firsts (n : Nat) : Component → List Nat
  | .alternation (.mk cs) => firstsAny n cs
  | .cls _ => [n]
  | .sequence s => firstsSeq n s
/-- … for a sequence. -/
def firstsSeq (n : Nat) : ComponentSequence → List Nat
  | .mk cs _ _ _ => firstsAll n cs
/-- … for components one after the other. -/
def firstsAll (n : Nat) : List Component → List Nat
  | [] => []
  | c :: cs => firsts n c ++ if nullable c then firstsAll (n + size c) cs else []
/-- … for alternatives. -/
def firstsAny (n : Nat) : List ComponentSequence → List Nat
  | [] => []
  | s :: ss => firstsSeq n s ++ firstsAny (n + sizeSeq s) ss
end

mutual
/-- The positions a match of the component can end with, the first of its positions being `n`. -/
def lasts (n : Nat) : Component → List Nat
  | .alternation (.mk cs) => lastsAny n cs
  | .cls _ => [n]
  | .sequence s => lastsSeq n s
/-- … for a sequence. -/
def lastsSeq (n : Nat) : ComponentSequence → List Nat
  | .mk cs _ _ _ => lastsAll n cs
/-- … for components one after the other. -/
def lastsAll (n : Nat) : List Component → List Nat
  | [] => []
  | c :: cs => (if nullableAll cs then lasts n c else []) ++ lastsAll (n + size c) cs
/-- … for alternatives. -/
def lastsAny (n : Nat) : List ComponentSequence → List Nat
  | [] => []
  | s :: ss => lastsSeq n s ++ lastsAny (n + sizeSeq s) ss
end

variable {ε : Type}

mutual
/-- Records, with the code's `connect_regions`, which positions can follow which inside the component. -/
def wire (p : Profile) (bs : GlushkovBuildState) (n : Nat) : Component → Outcome ε GlushkovBuildState
  | .alternation (.mk cs) => wireAny p bs n cs
  | .cls _ => .ok bs
  | .sequence s => wireSeq p bs n s
/-- … for a sequence. -/
def wireSeq (p : Profile) (bs : GlushkovBuildState) (n : Nat) : ComponentSequence → Outcome ε GlushkovBuildState
  | .mk cs _ _ _ => wireAll p bs n cs
/-- … for components one after the other: the ends of each with the beginnings of what follows. -/
def wireAll (p : Profile) (bs : GlushkovBuildState) (n : Nat) : List Component → Outcome ε GlushkovBuildState
  | [] => .ok bs
  | c :: cs => do
    let bs ← wire p bs n c
    let bs ← wireAll p bs (n + size c) cs
    bs.connectRegions p ((lasts n c).map .ofPos) ((firstsAll (n + size c) cs).map .ofPos)
/-- … for alternatives. -/
def wireAny (p : Profile) (bs : GlushkovBuildState) (n : Nat) : List ComponentSequence → Outcome ε GlushkovBuildState
  | [] => .ok bs
  | s :: ss => do
    let bs ← wireSeq p bs n s
    wireAny p bs (n + sizeSeq s) ss
end

/-- An edge, unless it is there. -/
def addEdgeOnce {N : Type} (g : Graph N) (e : Nat × Nat) : Outcome ε (Graph N) :=
  if g.hasEdge e.1 e.2 then .ok g else g.addEdge e.1 e.2

/-- The edges to be added: the recorded successors of every vertex, and to accept from the ends (from both
starts, if the expression can match the empty string). -/
def wanted (bs : GlushkovBuildState) (n : Nat) (c : Component) : List (Nat × Nat) :=
  (List.range bs.builder.graph.inner.nodes.length).flatMap
      (fun q => ((bs.successors.find? (fun e => e.1 == q)).map Prod.snd |>.getD []).map (fun x => (q, x.pos)))
  ++ (lasts n c).map (fun l => (l, bs.acceptState))
  ++ if nullable c then [(bs.startState, bs.acceptState), (bs.startDotStarState, bs.acceptState)] else []

/-- src/compiler.rs:115-124 `build_graph` with the missing steps after `note_positions`. -/
def buildGraph (p : Profile) (pe : ParsedExpression) : Outcome ε NfaBuilder := do
  let builder ← NfaBuilder.new pe.expr
  let bs ← GlushkovBuildState.new p builder
  let n := bs.builder.graph.inner.nodes.length
  let bs ← bs.noteComponent pe.component
  let bs ← wire p bs n pe.component
  let bs ← bs.connectRegions p [.ofPos bs.startState, .ofPos bs.startDotStarState]
    ((firsts n pe.component).map .ofPos)
  let inner ← (wanted bs n pe.component).foldlM addEdgeOnce bs.builder.graph.inner
  return { bs.builder with graph := { bs.builder.graph with inner := inner } }

end Rescan.Completed
