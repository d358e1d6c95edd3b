import Verif.Spec.Grammar
/-! # Specification of relations between patterns

Letter case of characters and of byte strings, and where alternation bars stand.  Nothing of the
model is used but the byte type. -/
namespace Rescan.Spec

/-- The byte strings are equal but for the case of ASCII letters. -/
def CaseEq : List U8 → List U8 → Prop
  | [], [] => True
  | a :: v, b :: w => (a = b ∨ casePair a b) ∧ CaseEq v w
  | _, _ => False

/-- The characters are equal, or they are the two cases of one ASCII letter. -/
def SameLetter (c d : Char) : Prop :=
  c = d ∨ (c.toNat < 128 ∧ d.toNat < 128 ∧ casePair (BitVec.ofNat 8 c.toNat) (BitVec.ofNat 8 d.toNat))

/-- The texts are equal but for the case of ASCII letters. -/
def SameText : Str → Str → Prop
  | [], [] => True
  | c :: s, d :: t => SameLetter c d ∧ SameText s t
  | _, _ => False

/-- Every `|` of the text is inside a group. -/
def NoOuterBar (s : Str) : Prop := ∀ pre post, s = pre ++ '|' :: post → pre.count '(' ≠ pre.count ')'

end Rescan.Spec
