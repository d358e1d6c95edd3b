import Verif.Model.Prim
/-! # How a description of a byte is read

The syntax of single bytes inside a character class of a regular expression, restricted to the forms used
in dumps. -/
namespace Rescan.Spec

/-- The value of a hexadecimal digit. -/
def hexValue (c : Char) : Option Nat :=
  if '0' ≤ c ∧ c ≤ '9' then some (c.toNat - '0'.toNat)
  else if 'a' ≤ c ∧ c ≤ 'f' then some (c.toNat - 'a'.toNat + 10)
  else none

/-- The characters that mean something else than themselves in a class or as an item. -/
def isMeta (c : Char) : Prop := c = '\\' ∨ c = '^' ∨ c = '-' ∨ c = '[' ∨ c = ']' ∨ c = '.'

instance (c : Char) : Decidable (isMeta c) := inferInstanceAs (Decidable (_ ∨ _))

/-- The byte a text stands for: a visible character that is not a metacharacter; a metacharacter other than
the backslash, escaped; `\t`, `\n`, `\r`; or `\x` and two hexadecimal digits. -/
def readByte : Str → Option Nat
  | [c] => if '!' ≤ c ∧ c ≤ '~' ∧ ¬ isMeta c then some c.toNat else none
  | ['\\', c] => if c = 't' then some 9 else if c = 'n' then some 10 else if c = 'r' then some 13
      else if isMeta c ∧ c ≠ '\\' then some c.toNat else none
  | ['\\', 'x', a, b] => match hexValue a, hexValue b with
      | some x, some y => some (16 * x + y)
      | _, _ => none
  | _ => none

/-- The text of a quoted DOT string: a backslash stands for the character after it. -/
def unquote : Str → Str
  | '\\' :: c :: s => c :: unquote s
  | c :: s => c :: unquote s
  | [] => []

end Rescan.Spec
