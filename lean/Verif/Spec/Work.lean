import Verif.Model.Component
/-! # Specification of work

The number of calls in a recursion over a tree.  Of the model only the data types of parse trees are used. -/
namespace Rescan.Spec

mutual
/-- The number of calls in a recursion over a tree that makes one call for every component and one more for every
alternation and sequence, and `leaf` calls for a class. -/
def calls (leaf : Nat) : Component → Nat
  | .alternation (.mk ss) => callsSeqs leaf ss + 2
  | .cls _ => leaf
  | .sequence s => callsSeq leaf s + 1
/-- As `calls`, for a sequence; pending alternatives count. -/
def callsSeq (leaf : Nat) : ComponentSequence → Nat
  | .mk cs none _ _ => callsAll leaf cs + 1
  | .mk cs (some (.mk ss)) _ _ => callsAll leaf cs + callsSeqs leaf ss + 2
/-- As `calls`, for several sequences. -/
def callsSeqs (leaf : Nat) : List ComponentSequence → Nat
  | [] => 0
  | s :: ss => callsSeq leaf s + callsSeqs leaf ss
/-- As `calls`, for several components. -/
def callsAll (leaf : Nat) : List Component → Nat
  | [] => 0
  | c :: cs => calls leaf c + callsAll leaf cs
end

/-- The total number of characters of the first expressions, one for each flag set and id. -/
def totalLength : List Str → List Flags → List Nat → Nat
  | e :: es, _ :: fs, _ :: ids => e.length + totalLength es fs ids
  | _, _, _ => 0

/-- How many expressions have a flag set and an id. -/
def howMany : List Str → List Flags → List Nat → Nat
  | _ :: es, _ :: fs, _ :: ids => 1 + howMany es fs ids
  | _, _, _ => 0

end Rescan.Spec
