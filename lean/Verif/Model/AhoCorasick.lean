import Verif.Model.SmallWrite
/-! # The automaton the tries are stored for: **not code that exists**

src/smallwrite/smallwrite_build.rs:43-44 says that a trie is stored "for later AC construction into a DFA".  No
such construction is in the source.  The definitions below are the one of Aho and Corasick: the states are the
vertices of the trie, and where a vertex has no child for the next byte its failure link is taken.

Nothing else in the development uses these definitions. -/
namespace Rescan.AhoCorasick

/-- The string leading from the root to the vertex `u`, read off backwards; the first argument bounds its length. -/
def spell (t : LitTrie) : Nat → Nat → List U8
  | 0, _ => []
  | n + 1, u =>
    match t.inner.incoming u, t.inner.nodes[u]? with
    | p :: _, some w => spell t n p ++ [w.c]
    | _, _ => []

/-- The vertex `w` leads to from `u`. -/
def lookup (t : LitTrie) : Nat → List U8 → Option Nat
  | u, [] => some u
  | u, c :: w =>
    match t.findChild u c with
    | some v => lookup t v w
    | none => none

/-- The vertex of the longest suffix of `w` in the trie. -/
def longest (t : LitTrie) : List U8 → Nat
  | [] => t.root
  | c :: w =>
    match lookup t t.root (c :: w) with
    | some v => v
    | none => longest t w

/-- The failure link of `u`: the vertex of the longest proper suffix, in the trie, of the string of `u`. -/
def fail (t : LitTrie) (u : Nat) : Nat := longest t (spell t t.inner.nodes.length u).tail

/-- Reading `c` in state `u`: the next state and the number of failure links taken (the first argument bounds
it). -/
def go (t : LitTrie) : Nat → Nat → U8 → Nat × Nat
  | 0, _, _ => (t.root, 0)
  | n + 1, u, c =>
    match t.findChild u c with
    | some v => (v, 0)
    | none => if u = t.root then (t.root, 0) else ((go t n (fail t u) c).1, (go t n (fail t u) c).2 + 1)

/-- The transition of the automaton. -/
def next (t : LitTrie) (u : Nat) (c : U8) : Nat := (go t t.inner.nodes.length u c).1

/-- The number of failure links it takes. -/
def moves (t : LitTrie) (u : Nat) (c : U8) : Nat := (go t t.inner.nodes.length u c).2

/-- The state after `data`. -/
def run (t : LitTrie) : Nat → List U8 → Nat
  | u, [] => u
  | u, c :: data => run t (next t u c) data

/-- The number of failure links taken for `data`. -/
def cost (t : LitTrie) : Nat → List U8 → Nat
  | _, [] => 0
  | u, c :: data => moves t u c + cost t (next t u c) data

/-- The reports of the vertex `u`. -/
def own (t : LitTrie) (u : Nat) : List Nat :=
  match t.inner.nodes[u]? with
  | some w => w.reports
  | none => []

/-- The reports of `u` and of the vertices its failure links lead to. -/
def outputs (t : LitTrie) : Nat → Nat → List Nat
  | 0, _ => []
  | n + 1, u => own t u ++ if u = t.root then [] else outputs t n (fail t u)

/-- The reports of the state `u`. -/
def out (t : LitTrie) (u : Nat) : List Nat := outputs t t.inner.nodes.length u

end Rescan.AhoCorasick
