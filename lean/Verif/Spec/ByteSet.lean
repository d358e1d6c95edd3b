import Verif.Model.Prim
/-! # Specification of byte sets

A byte set is specified by its membership predicate `U8 → Bool` alone.  Nothing here mentions words,
masks or any model helper. -/
namespace Rescan.Spec

/-- All bytes, in increasing order. -/
def allBytes : List U8 := (List.range 256).map (BitVec.ofNat 8)

/-- The members of a set, in increasing order. -/
def members (s : U8 → Bool) : List U8 := allBytes.filter s

/-- `x` is the least member of `s`. -/
def IsLeast (s : U8 → Bool) (x : U8) : Prop := s x = true ∧ ∀ y, s y = true → x ≤ y

/-- `x` is the greatest member of `s`. -/
def IsGreatest (s : U8 → Bool) (x : U8) : Prop := s x = true ∧ ∀ y, s y = true → y ≤ x

/-- `r` is the least member of `s` if there is one, and `none` if there is none. -/
def IsLeastOpt (s : U8 → Bool) : Option U8 → Prop
  | none => ∀ y, s y = false
  | some x => IsLeast s x

/-- `r` is the greatest member of `s` if there is one, and `none` if there is none. -/
def IsGreatestOpt (s : U8 → Bool) : Option U8 → Prop
  | none => ∀ y, s y = false
  | some x => IsGreatest s x

/-- Is the byte an ASCII upper-case letter? -/
def isUpper (c : U8) : Prop := 65 ≤ c.toNat ∧ c.toNat ≤ 90

/-- Is the byte an ASCII lower-case letter? -/
def isLower (c : U8) : Prop := 97 ≤ c.toNat ∧ c.toNat ≤ 122

/-- Is the byte an ASCII letter? -/
def isLetter (c : U8) : Prop := isUpper c ∨ isLower c

/-- Are `c` and `d` the two cases of one ASCII letter? -/
def casePair (c d : U8) : Prop :=
  (isUpper c ∧ d.toNat = c.toNat + 32) ∨ (isUpper d ∧ c.toNat = d.toNat + 32)

/-- `xs` comes before `ys` in dictionary order: it is a proper prefix, or they agree up to a position
where the element of `xs` is less. -/
def LexBefore {α : Type} (less : α → α → Prop) (xs ys : List α) : Prop :=
  (∃ y zs, ys = xs ++ y :: zs) ∨
  ∃ u x y xs' ys', xs = u ++ x :: xs' ∧ ys = u ++ y :: ys' ∧ less x y

instance (c : U8) : Decidable (isUpper c) := inferInstanceAs (Decidable (_ ∧ _))
instance (c : U8) : Decidable (isLower c) := inferInstanceAs (Decidable (_ ∧ _))
instance (c : U8) : Decidable (isLetter c) := inferInstanceAs (Decidable (_ ∨ _))
instance (c d : U8) : Decidable (casePair c d) := inferInstanceAs (Decidable (_ ∨ _))

end Rescan.Spec
