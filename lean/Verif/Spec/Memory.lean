import Verif.Model.Compiler
/-! # How much memory values own

Counted in elements: an element of a vector, an entry of a map, a member of a set, a vertex, an edge, a byte of a message, a
32-bit block of a bit vector.  Spare capacity and the bytes of an element are not counted; std's collections keep the former
within a constant factor. -/
namespace Rescan.Spec

mutual
/-- What a component owns: all that is below it. -/
def ownedComponent : Component → Nat
  | .alternation (.mk children) => ownedSequences children
  | .cls _ => 0
  | .sequence c => ownedSequence c
/-- What a sequence owns: its children, and the alternatives noted so far. -/
def ownedSequence : ComponentSequence → Nat
  | .mk children none _ _ => ownedComponents children
  | .mk children (some (.mk alternatives)) _ _ => ownedComponents children + ownedSequences alternatives
/-- A vector of sequences. -/
def ownedSequences : List ComponentSequence → Nat
  | [] => 0
  | c :: cs => 1 + ownedSequence c + ownedSequences cs
/-- A vector of components. -/
def ownedComponents : List Component → Nat
  | [] => 0
  | c :: cs => 1 + ownedComponent c + ownedComponents cs
end

/-- A literal: its bytes and the blocks of its case flags. -/
def ownedLiteral (l : Ue2Literal) : Nat := l.s.length + (l.nocase.length + 31) / 32

/-- A graph whose vertices have sets of reports `f`. -/
def ownedGraph {N : Type} (f : N → List Nat) (g : Graph N) : Nat :=
  g.nodes.length + g.edges.length + (g.nodes.map (fun v => (f v).length)).sum

/-- The NFA graph. -/
def ownedHolder (h : NgHolder) : Nat := ownedGraph NfaGraphVertexProps.reports h.inner

/-- A trie. -/
def ownedTrie (t : LitTrie) : Nat := ownedGraph LitTrieVertexProps.reports t.inner

/-- The report manager. -/
def ownedReports (rm : ReportManager) : Nat :=
  rm.reportIds.length + rm.reportIdToInternalMap.length + rm.externalIdMap.length + rm.toExhaustibleKeyMap.length

/-- An `Ng`. -/
def ownedNg (ng : Ng) : Nat := ownedReports ng.rm + ownedTrie ng.smwr.litTrie + ownedTrie ng.smwr.litTrieNocase

/-- The map of successors. -/
def ownedSuccessors (m : List (Nat × List PositionInfo)) : Nat := (m.map (fun e => 1 + e.2.length)).sum

/-- An error: its message. -/
def ownedError (e : CompileError) : Nat := utf8Len e.reason.toList

/-- The message of the error that ends the loop over the expressions, if one does. -/
def raised (p : Profile) : Nat → Ng → List (Str × Flags × Nat) → Nat
  | _, _, [] => 0
  | i, ng, (exp, fl, id) :: rest =>
    match addExpression p ng i exp fl id with
    | .ok ng => raised p (i + 1) ng rest
    | .err e => ownedError e
    | _ => 0

/-- The message of the error that a compilation makes, if it does, even if it goes on to panic. -/
def raisedBy (p : Profile) (es : List Str) (fs : List Flags) (ids : List Nat) (mode : Mode) (g : Grey) : Nat :=
  if es.isEmpty then utf8Len "Invalid parameter: expressions is empty".toList
  else if es.length > g.limitPatternCount then utf8Len "Number of patterns too large".toList
  else raised p 0 (Ng.new ⟨mode.isStreaming, mode.isVectored, g⟩ es.length mode.somPrecision) (izip es fs ids)

/-- The lengths of the patterns that are not too long. -/
def lengths (g : Grey) (es : List Str) : List Nat := (es.filter (fun e => decide (utf8Len e ≤ g.limitPatternLength))).map List.length

/-- Enough for compiling `es`, but for a message: five elements for each pattern, two for every character or for every vertex the
tries can have, whichever is less, and six for every character of the longest pattern. -/
def memoryFor (g : Grey) (es : List Str) : Nat :=
  23 + 5 * es.length + 2 * min (lengths g es).sum (16000 + g.smallWriteLargestBuffer) + 6 * (lengths g es).foldr max 0

end Rescan.Spec
