import Verif.Model.Graph
import Verif.Model.Literal
/-! # src/smallwrite/smallwrite_build.rs -/
namespace Rescan

/-- src/smallwrite/smallwrite_build.rs:12 `MAX_TRIE_VERTICES`. -/
def maxTrieVertices : Nat := 8000

/-- src/smallwrite/smallwrite_build.rs:14-37 `LitTrieVertexProps` (`with_byte` and `default` start
with no report). -/
structure LitTrieVertexProps where
  c : U8
  reports : List Nat

/-- src/smallwrite/smallwrite_build.rs:45-49 `LitTrie`. -/
structure LitTrie where
  inner : Graph LitTrieVertexProps
  root : Nat

namespace LitTrie

/-- src/smallwrite/smallwrite_build.rs:66-72 `Default` (adding the first node cannot fail). -/
def default : LitTrie := ⟨⟨[⟨0#8, []⟩], []⟩, 0⟩
/-- src/smallwrite/smallwrite_build.rs:53-55 `is_empty`. -/
def isEmpty (t : LitTrie) : Bool := t.inner.nodes.length == 1
/-- src/smallwrite/smallwrite_build.rs:58-63 `all_reports`. -/
def allReports (t : LitTrie) : List Nat :=
  t.inner.nodes.foldl (fun s v => setExtend s v.reports) []

/-- src/smallwrite/smallwrite_build.rs:164-167: the first outgoing neighbour of `u` (newest edge
first) whose byte is `c`.  (`trie.inner[*v]` cannot be out of bounds: edges join existing nodes.) -/
def findChild (t : LitTrie) (u : Nat) (c : U8) : Option Nat :=
  (t.inner.outgoing u).find? (fun v => match t.inner.nodes[v]? with
    | some w => w.c == c
    | none => false)

/-- One iteration of the loop of `add_to_trie`, src/smallwrite/smallwrite_build.rs:164-172. -/
def descend {ε : Type} (st : LitTrie × Nat) (c : U8) : Outcome ε (LitTrie × Nat) :=
  let (t, u) := st
  match t.findChild u c with
  | some v => .ok (t, v)
  | none => do
    let (g, next) ← t.inner.addNode ⟨c, []⟩
    let g ← g.addEdge u next
    return ({ t with inner := g }, next)

end LitTrie

/-- src/smallwrite/smallwrite_build.rs:161-178 `add_to_trie`: the trie after the call and the
returned flag. -/
def addToTrie {ε : Type} (literal : Ue2Literal) (report : Nat) (t : LitTrie) :
    Outcome ε (LitTrie × Bool) := do
  let (t, u) ← (literal.iter.map (fun e => e.c)).foldlM LitTrie.descend (t, t.root)
  if u < t.inner.nodes.length then
    let nodes := t.inner.nodes.modify u (fun v => { v with reports := setInsert v.reports report })
    return ({ t with inner := { t.inner with nodes := nodes } },
      decide (nodes.length ≤ maxTrieVertices))
  else .panic "index out of bounds"

/-- src/smallwrite/smallwrite_build.rs:75-83 `SmallWriteBuild`.  The `rm` pointer is only used by
`add_expression`, which here takes the report manager as an argument; of `cc` only `grey` is read. -/
structure SmallWriteBuild where
  grey : Grey
  litTrie : LitTrie
  litTrieNocase : LitTrie
  numLiterals : Nat
  poisoned : Bool

namespace SmallWriteBuild

variable {ε : Type}

/-- src/smallwrite/smallwrite_build.rs:87-98 `new`. -/
def new (numPatterns : Nat) (g : Grey) : SmallWriteBuild where
  grey := g
  litTrie := LitTrie.default
  litTrieNocase := LitTrie.default
  numLiterals := 0
  poisoned := !g.allowSmallWrite || decide (numPatterns > g.smallWriteMaxPatterns)

/-- src/smallwrite/smallwrite_build.rs:121-124: `any(|id| rm.get_report(id).min_length > 0)`. -/
def anyMinLength (rm : ReportManager) : List Nat → Outcome ε Bool
  | [] => .ok false
  | id :: ids => do
    let r ← rm.getReport id
    if r.minLength > 0 then return true else anyMinLength rm ids

/-- src/smallwrite/smallwrite_build.rs:102-130 `add_expression` (never called). -/
def addExpression (sw : SmallWriteBuild) (rm : ReportManager) (g : NgHolder)
    (expr : ExpressionInfo) : Outcome ε SmallWriteBuild :=
  if sw.poisoned then .ok sw
  else if expr.som ≠ .none then .ok { sw with poisoned := true }
  else if g.isVacuous then .ok { sw with poisoned := true }
  else do
    if ← anyMinLength rm g.allReports then return { sw with poisoned := true }
    else .panic "not implemented"

/-- src/smallwrite/smallwrite_build.rs:132-158 `add_literal`. -/
def addLiteral (sw : SmallWriteBuild) (literal : Ue2Literal) (r : Nat) :
    Outcome ε SmallWriteBuild :=
  if sw.poisoned then .ok sw
  else if literal.len > sw.grey.smallWriteLargestBuffer then .ok sw
  else
    let sw := { sw with numLiterals := sw.numLiterals + 1 }
    if sw.numLiterals > sw.grey.smallWriteMaxLiterals then .ok { sw with poisoned := true }
    else if literal.anyNocase then do
      let (t, fits) ← addToTrie literal r sw.litTrieNocase
      return { sw with litTrieNocase := t, poisoned := !fits }
    else do
      let (t, fits) ← addToTrie literal r sw.litTrie
      return { sw with litTrie := t, poisoned := !fits }

end SmallWriteBuild
end Rescan
