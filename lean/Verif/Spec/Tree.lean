import Verif.Model.Component
import Verif.Spec.ByteSet
/-! # Specification of tree walks, tree measures and literals

Of the model only the data types of parse trees, visitors and outcomes are used. -/
namespace Rescan.Spec

/-- What a walk does at a node. -/
inductive Event where
  | preClass (c : AsciiComponentClass)
  | duringClass (c : AsciiComponentClass)
  | postClass (c : AsciiComponentClass)
  | preAlt (c : ComponentAlternation)
  | duringAlt (c : ComponentAlternation)
  | postAlt (c : ComponentAlternation)
  | preSeq (c : ComponentSequence)
  | duringSeq (c : ComponentSequence)
  | postSeq (c : ComponentSequence)

mutual
/-- All events of a walk: `pre`, then the children left to right with one `during` between each two
neighbours, then `post`; a class has one `during` between `pre` and `post`. -/
def steps : Component → List Event
  | .alternation a => stepsAlt a
  | .cls (.ascii a) => [.preClass a, .duringClass a, .postClass a]
  | .sequence s => stepsSeq s
/-- All events of an alternation. -/
def stepsAlt : ComponentAlternation → List Event
  | .mk cs => .preAlt (.mk cs) :: (stepsSeqs (.duringAlt (.mk cs)) cs ++ [.postAlt (.mk cs)])
/-- All events of a sequence. -/
def stepsSeq : ComponentSequence → List Event
  | .mk cs a i n => .preSeq (.mk cs a i n) ::
      (stepsAll (.duringSeq (.mk cs a i n)) cs ++ [.postSeq (.mk cs a i n)])
/-- All events of several sequences, separated by the event `sep`. -/
def stepsSeqs (sep : Event) : List ComponentSequence → List Event
  | [] => []
  | [s] => stepsSeq s
  | s :: t :: ss => stepsSeq s ++ sep :: stepsSeqs sep (t :: ss)
/-- All events of several components, separated by the event `sep`. -/
def stepsAll (sep : Event) : List Component → List Event
  | [] => []
  | [c] => steps c
  | c :: d :: cs => steps c ++ sep :: stepsAll sep (d :: cs)
end

mutual
/-- The events of a walk other than `during`: `pre` before the children, the children left to right,
then `post`. -/
def events : Component → List Event
  | .alternation a => eventsAlt a
  | .cls (.ascii a) => [.preClass a, .postClass a]
  | .sequence s => eventsSeq s
/-- The events of an alternation. -/
def eventsAlt : ComponentAlternation → List Event
  | .mk cs => .preAlt (.mk cs) :: (eventsSeqs cs ++ [.postAlt (.mk cs)])
/-- The events of a sequence. -/
def eventsSeq : ComponentSequence → List Event
  | .mk cs a i n => .preSeq (.mk cs a i n) :: (eventsAll cs ++ [.postSeq (.mk cs a i n)])
/-- The events of several sequences. -/
def eventsSeqs : List ComponentSequence → List Event
  | [] => []
  | s :: ss => eventsSeq s ++ eventsSeqs ss
/-- The events of several components. -/
def eventsAll : List Component → List Event
  | [] => []
  | c :: cs => events c ++ eventsAll cs
end

/-- The visitor method an event stands for. -/
def call {ε σ : Type} (v : Visitor ε σ) (s : σ) : Event → Outcome ε σ
  | .preClass c => v.preAsciiComponentClass s c
  | .duringClass c => v.duringAsciiComponentClass s c
  | .postClass c => v.postAsciiComponentClass s c
  | .preAlt c => v.preComponentAlternation s c
  | .duringAlt c => v.duringComponentAlternation s c
  | .postAlt c => v.postComponentAlternation s c
  | .preSeq c => v.preComponentSequence s c
  | .duringSeq c => v.duringComponentSequence s c
  | .postSeq c => v.postComponentSequence s c

/-- Calls the methods of the events in order, stopping at the first that does not succeed. -/
def callAll {ε σ : Type} (v : Visitor ε σ) : σ → List Event → Outcome ε σ
  | s, [] => .ok s
  | s, e :: es =>
    match call v s e with
    | .ok s' => callAll v s' es
    | .err x => .err x
    | .panic m => .panic m
    | .timeout => .timeout

/-- Is it a `pre` event? -/
def Event.isPre : Event → Bool
  | .preClass _ => true
  | .preAlt _ => true
  | .preSeq _ => true
  | _ => false

/-- Is it a `during` event? -/
def Event.isDuring : Event → Bool
  | .duringClass _ => true
  | .duringAlt _ => true
  | .duringSeq _ => true
  | _ => false

mutual
/-- No sequence of the tree has pending alternatives. -/
def Finalized : Component → Prop
  | .alternation (.mk cs) => FinalizedSeqs cs
  | .cls _ => True
  | .sequence s => FinalizedSeq s
/-- No sequence of the tree has pending alternatives. -/
def FinalizedSeq : ComponentSequence → Prop
  | .mk cs a _ _ => a = none ∧ FinalizedAll cs
/-- No sequence of the trees has pending alternatives. -/
def FinalizedSeqs : List ComponentSequence → Prop
  | [] => True
  | s :: ss => FinalizedSeq s ∧ FinalizedSeqs ss
/-- No sequence of the trees has pending alternatives. -/
def FinalizedAll : List Component → Prop
  | [] => True
  | c :: cs => Finalized c ∧ FinalizedAll cs
end

mutual
/-- The number of nodes. -/
def size : Component → Nat
  | .alternation (.mk cs) => 1 + sizeSeqs cs
  | .cls _ => 1
  | .sequence s => sizeSeq s
/-- The number of nodes. -/
def sizeSeq : ComponentSequence → Nat
  | .mk cs _ _ _ => 1 + sizeAll cs
/-- The number of nodes. -/
def sizeSeqs : List ComponentSequence → Nat
  | [] => 0
  | s :: ss => sizeSeq s + sizeSeqs ss
/-- The number of nodes. -/
def sizeAll : List Component → Nat
  | [] => 0
  | c :: cs => size c + sizeAll cs
end

mutual
/-- The number of nodes on the longest path from the root. -/
def depth : Component → Nat
  | .alternation (.mk cs) => 1 + depthSeqs cs
  | .cls _ => 1
  | .sequence s => depthSeq s
/-- The number of nodes on the longest path from the root. -/
def depthSeq : ComponentSequence → Nat
  | .mk cs _ _ _ => 1 + depthAll cs
/-- The greatest depth. -/
def depthSeqs : List ComponentSequence → Nat
  | [] => 0
  | s :: ss => max (depthSeq s) (depthSeqs ss)
/-- The greatest depth. -/
def depthAll : List Component → Nat
  | [] => 0
  | c :: cs => max (depth c) (depthAll cs)
end

/-- The byte strings matched by a list of bytes each marked "either case" or "exactly". -/
def MatchesElems : List (U8 × Bool) → List U8 → Prop
  | [], w => w = []
  | (c, nc) :: es, w => ∃ b w', w = b :: w' ∧ (b = c ∨ (nc = true ∧ casePair b c)) ∧ MatchesElems es w'

/-- The upper-case form of a byte. -/
def upperOf (b : U8) : U8 := if isLower b then b - 32#8 else b

/-- The literal element of a pattern character: its byte, upper-cased and marked "either case" iff
matching is caseless and it is a letter. -/
def litElem (caseless : Bool) (c : Char) : U8 × Bool :=
  if caseless = true ∧ isLetter (BitVec.ofNat 8 c.toNat) then (upperOf (BitVec.ofNat 8 c.toNat), true)
  else (BitVec.ofNat 8 c.toNat, false)

/-- The literal elements of a pattern: those of its characters other than parentheses. -/
def litElems (caseless : Bool) (body : Str) : List (U8 × Bool) :=
  (body.filter (fun c => c != '(' && c != ')')).map (litElem caseless)

end Rescan.Spec
