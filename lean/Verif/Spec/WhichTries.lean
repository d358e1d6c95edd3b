import Verif.Spec.Express
import Verif.Spec.Trie
/-! # Specification of the strings the two tries of the small-write builder can hold

With default settings. -/
namespace Rescan.Spec

/-- A string for a trie: not empty, no longer than the buffer, all of plain bytes. -/
def Storable (w : List U8) : Prop := w ≠ [] ∧ w.length ≤ 70 ∧ ∀ b ∈ w, Plain b

/-- A string for the caseless trie: it also has a letter, and its letters are upper-case ones. -/
def StorableNocase (w : List U8) : Prop := Storable w ∧ (∃ b ∈ w, isUpper b) ∧ ∀ b ∈ w, ¬ isLower b

/-- The strings have at most 8000 prefixes between them. -/
def FewPrefixes (ws : List (List U8)) : Prop := ∃ n, PrefixCount ws n ∧ n ≤ 8000

end Rescan.Spec
