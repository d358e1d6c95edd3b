import Verif.Model.Parser
import Verif.Spec.ByteSet
/-! # What a tree dump looks like

A recursive printer: each node prints its header line, indented by twice its depth, and then its
children from left to right. -/
namespace Rescan.Spec

/-- The indentation of depth `d`. -/
def indent (d : Nat) : Str := List.replicate (2 * d) ' '

/-- The header of a sequence node with the given capture index and capture name. -/
def seqHeader (index : Option Nat) (name : Option String) : Str :=
  "SEQUENCE".toList
    ++ (match index with
        | some n => (" (capture index " ++ toString n ++ ")").toList
        | none => " (not captured)".toList)
    ++ (match name with
        | some s => (" (capture name '" ++ s ++ "')").toList
        | none => [])

mutual
/-- The dump of a tree whose root has depth `d`; `text` describes a class. -/
def dump (text : CharReach → Str) (d : Nat) : Component → Str
  | .cls (.ascii a) => indent d ++ "ASCII CLASS\n".toList ++ (indent (d + 1) ++ text a.cr ++ ['\n'])
  | .alternation a => dumpAlt text d a
  | .sequence q => dumpSeq text d q
def dumpAlt (text : CharReach → Str) (d : Nat) : ComponentAlternation → Str
  | .mk cs => indent d ++ "ALTERNATION\n".toList ++ dumpSeqs text (d + 1) cs
def dumpSeq (text : CharReach → Str) (d : Nat) : ComponentSequence → Str
  | .mk cs _ i n => indent d ++ seqHeader i n ++ ['\n'] ++
      (if cs.isEmpty then indent (d + 1) ++ " <empty>\n".toList else dumpComps text (d + 1) cs)
def dumpSeqs (text : CharReach → Str) (d : Nat) : List ComponentSequence → Str
  | [] => []
  | s :: ss => dumpSeq text d s ++ dumpSeqs text d ss
def dumpComps (text : CharReach → Str) (d : Nat) : List Component → Str
  | [] => []
  | c :: cs => dump text d c ++ dumpComps text d cs
end

mutual
/-- Every class of the tree satisfies `P`. -/
def ClassesSat (P : CharReach → Prop) : Component → Prop
  | .cls (.ascii a) => P a.cr
  | .alternation a => ClassesSatAlt P a
  | .sequence q => ClassesSatSeq P q
def ClassesSatAlt (P : CharReach → Prop) : ComponentAlternation → Prop
  | .mk cs => ClassesSatSeqs P cs
def ClassesSatSeq (P : CharReach → Prop) : ComponentSequence → Prop
  | .mk cs _ _ _ => ClassesSatComps P cs
def ClassesSatSeqs (P : CharReach → Prop) : List ComponentSequence → Prop
  | [] => True
  | s :: ss => ClassesSatSeq P s ∧ ClassesSatSeqs P ss
def ClassesSatComps (P : CharReach → Prop) : List Component → Prop
  | [] => True
  | c :: cs => ClassesSat P c ∧ ClassesSatComps P cs
end

mutual
/-- The tree without the parse modes its classes remember: a class is then its bytes. -/
def withoutModes : Component → Component
  | .cls (.ascii a) => .cls (.ascii ⟨ParseMode.default, a.cr⟩)
  | .alternation a => .alternation (withoutModesAlt a)
  | .sequence q => .sequence (withoutModesSeq q)
def withoutModesAlt : ComponentAlternation → ComponentAlternation
  | .mk cs => .mk (withoutModesSeqs cs)
def withoutModesSeq : ComponentSequence → ComponentSequence
  | .mk cs none i n => .mk (withoutModesComps cs) none i n
  | .mk cs (some a) i n => .mk (withoutModesComps cs) (some (withoutModesAlt a)) i n
def withoutModesSeqs : List ComponentSequence → List ComponentSequence
  | [] => []
  | s :: ss => withoutModesSeq s :: withoutModesSeqs ss
def withoutModesComps : List Component → List Component
  | [] => []
  | c :: cs => withoutModes c :: withoutModesComps cs
end

/-- The description of the smallest member of a class. -/
def firstByteText (cr : CharReach) : Str :=
  match members cr.test with
  | x :: _ => Dump.describeChar x .text
  | [] => []

end Rescan.Spec
