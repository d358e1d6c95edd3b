import Mathlib.Computability.RegularExpressions
import Mathlib.Computability.NFA
import Verif.Spec.Grammar
import Verif.Spec.Graph
/-! # Patterns and graphs in Mathlib's terms

The regular expression (`RegularExpression`) a grammar tree stands for and the automaton (`NFA`) that a graph is.
Of the model only the data types and the membership test of byte sets are used. -/
namespace Rescan.Spec

/-- A byte, or with `caseless` a letter in either case. -/
def byteRegex (caseless : Bool) (b : U8) : RegularExpression U8 :=
  if caseless = true ∧ 0x41 ≤ b.toNat ∧ b.toNat ≤ 0x5a then .char b + .char (b + 32#8)
  else if caseless = true ∧ 0x61 ≤ b.toNat ∧ b.toNat ≤ 0x7a then .char b + .char (b - 32#8)
  else .char b

mutual
/-- The regular expression of an item. -/
def Item.regex (caseless : Bool) : Item → RegularExpression U8
  | .lit c => byteRegex caseless (BitVec.ofNat 8 c.toNat)
  | .group a => a.regex caseless
/-- The regular expression of a sequence. -/
def Seq.regex (caseless : Bool) : Seq → RegularExpression U8
  | .nil => 1
  | .cons i s => i.regex caseless * s.regex caseless
/-- The regular expression of an alternation. -/
def Alts.regex (caseless : Bool) : Alts → RegularExpression U8
  | .one s => s.regex caseless
  | .more s a => s.regex caseless + a.regex caseless
end

/-- A graph as an automaton: a step follows an edge to a vertex that can read the byte; it starts in both starts and
accepts where an edge leads to one of the accepts. -/
def nfa (h : NgHolder) : NFA U8 Nat where
  step v b := {u | (v, u) ∈ h.inner.edges ∧ ∃ props, h.inner.nodes[u]? = some props ∧ props.charReach.test b = true}
  start := {h.start, h.startDs}
  accept := {v | (v, h.accept) ∈ h.inner.edges ∨ (v, h.acceptEod) ∈ h.inner.edges}

end Rescan.Spec
