import Verif.Spec.Patterns
/-! # Specification of what patterns can express

The strings of a parse tree listed one by one, and the pattern which spells out a list of strings.
Of the model only the data types of parse trees and the membership test of byte sets are used. -/
namespace Rescan.Spec

mutual
/-- The byte strings matched by a component, one by one. -/
def words : Component → List (List U8)
  | .alternation (.mk cs) => wordsAny cs
  | .cls (.ascii a) => (members a.cr.test).map (fun b => [b])
  | .sequence s => wordsSeq s
/-- The byte strings matched by a finished sequence, one by one. -/
def wordsSeq : ComponentSequence → List (List U8)
  | .mk cs _ _ _ => wordsAll cs
/-- The concatenations, one by one. -/
def wordsAll : List Component → List (List U8)
  | [] => [[]]
  | c :: cs => (words c).flatMap (fun v => (wordsAll cs).map (fun w => v ++ w))
/-- The strings of any of the sequences. -/
def wordsAny : List ComponentSequence → List (List U8)
  | [] => []
  | s :: ss => wordsSeq s ++ wordsAny ss
end

/-- The byte is ASCII and none of `(`, `)` and `|`. -/
def Plain (b : U8) : Prop := b.toNat < 128 ∧ b ≠ 40 ∧ b ≠ 41 ∧ b ≠ 124

instance (b : U8) : Decidable (Plain b) := inferInstanceAs (Decidable (_ ∧ _))

/-- The text made of the bytes as characters. -/
def textOf (w : List U8) : Str := w.map (fun b => Char.ofNat b.toNat)

/-- The strings with bars between them. -/
def spellOut : List (List U8) → Str
  | [] => []
  | [w] => textOf w
  | w :: ws => textOf w ++ '|' :: spellOut ws

end Rescan.Spec
