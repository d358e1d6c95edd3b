import Verif.Model.Petgraph
import Verif.Model.BitVecStore
/-! # Literals, tries and graphs on the stored forms

The functions of src/util/ue2string.rs, src/smallwrite/smallwrite_build.rs and src/nfagraph/ng_holder.rs that use
bit-vec and petgraph, on the blocks of `Model/BitVecStore.lean` and the linked lists of `Model/Petgraph.lean`. -/
namespace Rescan.Stored

open Rescan.Petgraph

variable {ε : Type}

/-- src/util/ue2string.rs:6-9 `Ue2Literal`. -/
structure Lit where
  s : List U8
  nocase : BitStore

/-- src/util/ue2string.rs:5 `#[derive(Default)]`. -/
def Lit.default : Lit := ⟨[], BitStore.new⟩

/-- src/util/ue2string.rs:42-48 `push`. -/
def Lit.push (p : Profile) (l : Lit) (c : U8) (nc : Bool) : Outcome ε Lit := do
  let c ← if nc then Checked.mytoupper p c else pure c
  let nocase ← l.nocase.push p nc
  return ⟨l.s ++ [c], nocase⟩

/-- src/util/ue2string.rs:54-59 `next`, at index `idx`: the item and the index after the call. -/
def Lit.next (p : Profile) (l : Lit) (idx : Nat) : Outcome ε (Option Ue2LiteralElem × Nat) :=
  match l.s[idx]? with
  | none => .ok (none, idx)
  | some c => do
    match ← l.nocase.get p idx with
    | none => return (none, idx)
    | some nocase => return (some ⟨c, nocase⟩, idx + 1)

/-- src/smallwrite/smallwrite_build.rs:45-49 `LitTrie`. -/
structure Trie where
  inner : PGraph LitTrieVertexProps
  root : Nat

/-- src/smallwrite/smallwrite_build.rs:66-72 `Default`. -/
def Trie.default : Outcome ε Trie := do
  let (inner, root) ← PGraph.new.addNode ⟨0#8, []⟩
  return ⟨inner, root⟩

/-- src/smallwrite/smallwrite_build.rs:165-167: `find` on the iterator, which stops at the first hit; indexing
checks the range. -/
def findNb (g : PGraph LitTrieVertexProps) (c : U8) : Nat → PGraph.Neighbors → Outcome ε (Option Nat)
  | 0, _ => .timeout
  | fuel + 1, it => do
    let (v, it) ← g.next (fuel + 1) it
    match v with
    | none => return none
    | some v => do
      let x ← index g.nodes v
      if x.weight.c = c then return some v else findNb g c fuel it

/-- src/smallwrite/smallwrite_build.rs:163-173: the loop of `add_to_trie`, at most `fuel` calls of `next`.  The
search for a neighbour is given one step per edge and one more. -/
def trieLoop (p : Profile) (l : Lit) : Nat → Nat → Trie → Nat → Outcome ε (Trie × Nat)
  | 0, _, _, _ => .timeout
  | fuel + 1, idx, t, u => do
    let (e, idx) ← l.next p idx
    match e with
    | none => return (t, u)
    | some e => do
      match ← findNb t.inner e.c (t.inner.edges.length + 1) (t.inner.neighborsOut u) with
      | some v => trieLoop p l fuel idx t v
      | none => do
        let (g, next) ← t.inner.addNode ⟨e.c, []⟩
        let g ← g.addEdge u next
        trieLoop p l fuel idx { t with inner := g } next

/-- src/smallwrite/smallwrite_build.rs:161-178 `add_to_trie`. -/
def addToTrie (p : Profile) (literal : Lit) (report : Nat) (t : Trie) : Outcome ε (Trie × Bool) := do
  let (t, u) ← trieLoop p literal (literal.s.length + 1) 0 t t.root
  let x ← index t.inner.nodes u
  let nodes := t.inner.nodes.set u
    { x with weight := { x.weight with reports := setInsert x.weight.reports report } }
  return ({ t with inner := { t.inner with nodes := nodes } }, decide (nodes.length ≤ maxTrieVertices))

/-- src/smallwrite/smallwrite_build.rs:75-83 `SmallWriteBuild` (see `Rescan.SmallWriteBuild`). -/
structure Build where
  grey : Grey
  litTrie : Trie
  litTrieNocase : Trie
  numLiterals : Nat
  poisoned : Bool

/-- src/smallwrite/smallwrite_build.rs:87-98 `new`. -/
def Build.new (numPatterns : Nat) (g : Grey) : Outcome ε Build := do
  let a ← Trie.default
  let b ← Trie.default
  return {
    grey := g
    litTrie := a
    litTrieNocase := b
    numLiterals := 0
    poisoned := !g.allowSmallWrite || decide (numPatterns > g.smallWriteMaxPatterns) }

/-- src/smallwrite/smallwrite_build.rs:132-158 `add_literal`. -/
def Build.addLiteral (p : Profile) (sw : Build) (literal : Lit) (r : Nat) : Outcome ε Build :=
  if sw.poisoned then .ok sw
  else if literal.s.length > sw.grey.smallWriteLargestBuffer then .ok sw
  else
    let sw := { sw with numLiterals := sw.numLiterals + 1 }
    if sw.numLiterals > sw.grey.smallWriteMaxLiterals then .ok { sw with poisoned := true }
    else if literal.nocase.any then do
      let (t, fits) ← addToTrie p literal r sw.litTrieNocase
      return { sw with litTrieNocase := t, poisoned := !fits }
    else do
      let (t, fits) ← addToTrie p literal r sw.litTrie
      return { sw with litTrie := t, poisoned := !fits }

/-- src/nfagraph/ng_holder.rs:23-30 `NgHolder`. -/
structure Holder where
  inner : PGraph NfaGraphVertexProps
  start : Nat
  startDs : Nat
  accept : Nat
  acceptEod : Nat

/-- src/nfagraph/ng_holder.rs:33-57, 116-119 `new` / `add_special_vertex`. -/
def Holder.new : Outcome ε Holder := do
  let inner : PGraph NfaGraphVertexProps := PGraph.new
  let (inner, start) ← inner.addNode NfaGraphVertexProps.default
  let (inner, startDs) ← inner.addNode NfaGraphVertexProps.default
  let (inner, accept) ← inner.addNode NfaGraphVertexProps.default
  let (inner, acceptEod) ← inner.addNode NfaGraphVertexProps.default
  let inner ← inner.addEdge start startDs
  let inner ← inner.addEdge startDs startDs
  let inner ← inner.addEdge accept acceptEod
  let inner ← inner.modify start (fun v => { v with charReach := v.charReach.setAll })
  let inner ← inner.modify startDs (fun v => { v with charReach := v.charReach.setAll })
  return ⟨inner, start, startDs, accept, acceptEod⟩

/-- src/nfagraph/ng_holder.rs:73-75, 79-81: the loop of `fold` over the iterator, indexing each vertex. -/
def foldReports (g : PGraph NfaGraphVertexProps) : Nat → PGraph.Neighbors → List Nat → Outcome ε (List Nat)
  | 0, _, _ => .timeout
  | fuel + 1, it, union => do
    let (v, it) ← g.next (fuel + 1) it
    match v with
    | none => return union
    | some v => do
      let x ← index g.nodes v
      foldReports g fuel it (setExtend union x.weight.reports)

/-- src/nfagraph/ng_holder.rs:69-83 `all_reports`. -/
def Holder.allReports (h : Holder) : Outcome ε (List Nat) := do
  let fuel := h.inner.edges.length + 1
  let reports ← foldReports h.inner fuel (h.inner.neighborsIn h.accept) []
  foldReports h.inner fuel (h.inner.neighborsIn h.acceptEod) reports

/-- src/nfagraph/ng_holder.rs:89-97 `is_vacuous`, with its short circuits. -/
def Holder.isVacuous (h : Holder) : Outcome ε Bool := do
  let fuel := h.inner.edges.length + 1
  if (← h.inner.findEdge fuel h.start h.accept).isSome then return true
  if (← h.inner.findEdge fuel h.start h.acceptEod).isSome then return true
  if (← h.inner.findEdge fuel h.startDs h.accept).isSome then return true
  return (← h.inner.findEdge fuel h.startDs h.acceptEod).isSome

end Rescan.Stored
