import Verif.Model.Component
/-! # Specification of nesting

How deep a tree and a pattern are.  Of the model only the data types of parse trees are used. -/
namespace Rescan.Spec

mutual
/-- The largest number of calls in progress at once in a recursion over a tree that makes one call for every component
and one more for every alternation and sequence, and `leaf` calls for a class. -/
def nested (leaf : Nat) : Component → Nat
  | .alternation (.mk ss) => nestedSeqs leaf ss + 2
  | .cls _ => leaf
  | .sequence s => nestedSeq leaf s + 1
/-- As `nested`, for a sequence; pending alternatives count. -/
def nestedSeq (leaf : Nat) : ComponentSequence → Nat
  | .mk cs none _ _ => nestedAll leaf cs + 1
  | .mk cs (some (.mk ss)) _ _ => max (nestedAll leaf cs) (nestedSeqs leaf ss + 1) + 1
/-- As `nested`, the largest for several sequences. -/
def nestedSeqs (leaf : Nat) : List ComponentSequence → Nat
  | [] => 0
  | s :: ss => max (nestedSeq leaf s) (nestedSeqs leaf ss)
/-- As `nested`, the largest for several components. -/
def nestedAll (leaf : Nat) : List Component → Nat
  | [] => 0
  | c :: cs => max (nested leaf c) (nestedAll leaf cs)
end

/-- How many groups are open at once at most when reading a text with `d` groups open already. -/
def openGroups (d : Nat) : Str → Nat
  | [] => d
  | c :: s =>
    if c = '(' then openGroups (d + 1) s
    else if c = ')' then max d (openGroups (d - 1) s)
    else openGroups d s

/-- `k` groups around each other. -/
def parens (k : Nat) : Str := List.replicate k '(' ++ List.replicate k ')'

/-- `k` groups around each other, each the second of two alternatives, around `a`. -/
def bars (k : Nat) : Str :=
  (List.replicate k ['|', '(']).flatten ++ ['|', 'a'] ++ List.replicate k ')'

end Rescan.Spec
