import Verif.Spec.DumpClass
/-! # Class descriptions as lists of items, and which bytes a description shows -/
namespace Rescan.Spec

/-- An item of a character class. -/
inductive ClassItem where
  | one (c : U8)
  | range (a b : U8)
  | word
  | digit
  | space
deriving DecidableEq

namespace ClassItem

/-- The bytes an item stands for. -/
def has : ClassItem → U8 → Prop
  | one c, x => x = c
  | range a b, x => a ≤ x ∧ x ≤ b
  | word, x => isWordByte x = true
  | digit, x => isDigitByte x = true
  | space, x => isSpaceByte x = true

/-- How an item is written. -/
def text (out : CcOutput) : ClassItem → Str
  | one c => Dump.describeChar c out
  | range a b => Dump.describeChar a out ++ ['-'] ++ Dump.describeChar b out
  | word => Dump.backslash out ++ ['w']
  | digit => Dump.backslash out ++ ['d']
  | space => Dump.backslash out ++ ['s']

end ClassItem

/-- How a list of items is written. -/
def itemsText (out : CcOutput) (l : List ClassItem) : Str := l.flatMap (ClassItem.text out)

/-- The bytes a list of items stands for. -/
def Denotes (l : List ClassItem) (x : U8) : Prop := ∃ i ∈ l, i.has x

/-- `x` is left out of the description of `s`: `s` is not a single run, and `x` is in the last run of
the bytes not covered by mnemonics, which does not end at 0xff. -/
def LeftOut (s : U8 → Bool) (x : U8) : Prop :=
  (¬ ∃ r, AreRuns s [r]) ∧ ∃ a b, IsRun (restOf s) a b ∧ b ≠ 0xff#8 ∧ a ≤ x ∧ x ≤ b ∧
    ∀ y, restOf s y = true → y ≤ b

/-- `x` is shown in the description of `s`. -/
def Shown (s : U8 → Bool) (x : U8) : Prop := s x = true ∧ ¬ LeftOut s x

/-- The class is written with the help of mnemonics. -/
def Shorthand (s : U8 → Bool) : Prop :=
  (¬ ∃ r, AreRuns s [r]) ∧ (covers isDigitByte s = true ∨ covers isSpaceByte s = true)

/-- The items written for the two classes are the same: they show the same bytes, and mnemonics are used for both or
for neither. -/
def WrittenAlike (s s' : U8 → Bool) : Prop := (∀ x, Shown s x ↔ Shown s' x) ∧ (Shorthand s ↔ Shorthand s')

/-- How the items of a class or of its complement are put together to a description. -/
inductive Style where
  | bare
  | bracketed
  | negated
deriving DecidableEq

/-- The class whose items are written. -/
def Style.side (st : Style) (s : U8 → Bool) : U8 → Bool := if st = .negated then fun c => !s c else s

/-- The description with the given items. -/
def Style.put : Style → Str → Str
  | bare, t => t
  | bracketed, t => ['['] ++ t ++ [']']
  | negated, t => "[^".toList ++ t ++ [']']

end Rescan.Spec
