import Verif.Model.Mended
/-! # Scanning with what compiling stores: **not code that exists**

`scan` (src/runtime.rs:31-43) looks at nothing (C54), and the tries and graphs made by compiling are dropped.
The definitions below are a scanner that reads them: one pass over the data, keeping the list of active
vertices.  `Props/Finder.lean` uses them to say what the stored tries and graphs are good for.

Nothing else in the development uses these definitions. -/
namespace Rescan.Finder

/-- The children of `u` carrying the byte `c`. -/
def children (t : LitTrie) (u : Nat) (c : U8) : List Nat :=
  (t.inner.outgoing u).filter (fun v => match t.inner.nodes[v]? with
    | some w => w.c == c
    | none => false)

/-- The vertices active after the next byte `c`: the root, where a literal may begin, and the children of the
active ones. -/
def trieStep (t : LitTrie) (active : List Nat) (c : U8) : List Nat :=
  (t.root :: active.flatMap (fun u => children t u c)).eraseDups

/-- The reports of the active vertices. -/
def trieReports (t : LitTrie) (active : List Nat) : List Nat :=
  active.flatMap (fun v => match t.inner.nodes[v]? with
    | some w => w.reports
    | none => [])

/-- The reports raised by `data`, each with the offset it is raised at, `off` being the offset of `data`. -/
def trieScan (t : LitTrie) : Nat → List Nat → List U8 → List (Nat × Nat)
  | off, active, [] => (trieReports t active).map (fun r => (r, off))
  | off, active, c :: data =>
    (trieReports t active).map (fun r => (r, off)) ++ trieScan t (off + 1) (trieStep t active c) data

/-- Both tries: the caseless one reads capitals. -/
def scanTries (sw : SmallWriteBuild) (data : List U8) : List (Nat × Nat) :=
  trieScan sw.litTrie 0 [sw.litTrie.root] data ++
    trieScan sw.litTrieNocase 0 [sw.litTrieNocase.root] (data.map mytoupper)

/-- The vertices of a graph active after the next byte `c`. -/
def graphStep (h : NgHolder) (active : List Nat) (c : U8) : List Nat :=
  (active.flatMap (fun u => (h.inner.outgoing u).filter (fun v => match h.inner.nodes[v]? with
    | some w => w.charReach.test c
    | none => false))).eraseDups

/-- Does one of the active vertices lead to an accepting one? -/
def graphAccepts (h : NgHolder) (active : List Nat) : Bool :=
  active.any (fun u => (h.inner.outgoing u).contains h.accept || (h.inner.outgoing u).contains h.acceptEod)

/-- The offsets at which the graph accepts. -/
def graphScan (h : NgHolder) : Nat → List Nat → List U8 → List Nat
  | off, active, [] => if graphAccepts h active then [off] else []
  | off, active, c :: data =>
    (if graphAccepts h active then [off] else []) ++ graphScan h (off + 1) (graphStep h active c) data

/-- Scanning with all the mended compiler keeps.  `ids` are the ids of the expressions with a graph.  The
result lists ids with the offset of the end of a match. -/
def findAll (ng : Mended.Ng) (ids : List Nat) (data : List U8) : List (Nat × Nat) :=
  (scanTries ng.smwr data).filterMap (fun x => (ng.reports[x.1]?).map (fun rep => (rep.report, x.2))) ++
    (ids.zip ng.graphs).flatMap (fun x => (graphScan x.2 0 [x.2.start, x.2.startDs] data).map (fun j => (x.1, j)))

end Rescan.Finder
