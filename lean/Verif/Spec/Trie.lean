import Verif.Model.SmallWrite
/-! # Specification of literal tries

Of the model only data types are used. -/
namespace Rescan.Spec

/-- The bytes of a literal, read pairwise with the case marks. -/
def bytesOf (l : Ue2Literal) : List U8 := (l.s.zip l.nocase).map Prod.fst

/-- Following the bytes of `w` along edges from vertex `u` leads to `v`; an edge is taken if the vertex
it leads to carries the next byte. -/
inductive Follows (g : Graph LitTrieVertexProps) : Nat → List U8 → Nat → Prop where
  | nil (u : Nat) : Follows g u [] u
  | cons (u v x : Nat) (props : LitTrieVertexProps) (w : List U8) : (u, v) ∈ g.edges →
      g.nodes[v]? = some props → Follows g v w x → Follows g u (props.c :: w) x

/-- `w` is a prefix of one of the strings (or the empty string). -/
def IsPrefixOfSome (ws : List (List U8)) (w : List U8) : Prop := w = [] ∨ ∃ x ∈ ws, w <+: x

/-- `n` is the number of distinct prefixes of the strings (counting the empty one). -/
def PrefixCount (ws : List (List U8)) (n : Nat) : Prop :=
  ∃ ps : List (List U8), ps.Nodup ∧ (∀ w, w ∈ ps ↔ IsPrefixOfSome ws w) ∧ ps.length = n

/-- What a trie holds: following a string from the root succeeds exactly for the prefixes of the strings
of the history, and the vertex reached carries exactly the reports given with that string. -/
structure Holds (t : LitTrie) (hist : List (List U8 × Nat)) : Prop where
  follows : ∀ w, (∃ v, Follows t.inner t.root w v) ↔ IsPrefixOfSome (hist.map Prod.fst) w
  reports : ∀ w v, Follows t.inner t.root w v → ∃ props, t.inner.nodes[v]? = some props ∧
    ∀ r, r ∈ props.reports ↔ (w, r) ∈ hist

/-- A history of calls as strings with reports. -/
def histOf (h : List (Ue2Literal × Nat)) : List (List U8 × Nat) := h.map (fun x => (bytesOf x.1, x.2))

/-- The calls whose literal is no longer than the buffer limit. -/
def shortOnes (limit : Nat) (h : List (Ue2Literal × Nat)) : List (Ue2Literal × Nat) :=
  h.filter (fun x => decide (x.1.s.length ≤ limit))

/-- Those with a caseless byte, and those without. -/
def caselessOnes (h : List (Ue2Literal × Nat)) : List (Ue2Literal × Nat) :=
  h.filter (fun x => x.1.nocase.contains true)
/-- See `caselessOnes`. -/
def sensitiveOnes (h : List (Ue2Literal × Nat)) : List (Ue2Literal × Nat) :=
  h.filter (fun x => !x.1.nocase.contains true)

end Rescan.Spec
