import Verif.Spec.Grammar
/-! # The patterns debug builds accept -/
namespace Rescan.Spec

/-- ASCII text without parentheses. -/
def Flat (s : Str) : Prop := ∀ c ∈ s, c.toNat < 128 ∧ c ≠ '(' ∧ c ≠ ')'

/-- Flat text, or one group of flat text at the very start and flat text after it; a group starting with `*`
has nothing more in it or is a supported control verb. -/
def DebugForm (s : Str) : Prop :=
  Flat s ∨ ∃ x y, s = '(' :: x ++ ')' :: y ∧ Flat x ∧ Flat y ∧
    ∀ v, x = '*' :: v → v = [] ∨ v = ['U', 'C', 'P'] ∨ v = ['U', 'T', 'F', '8'] ∨ v = ['U', 'T', 'F']

end Rescan.Spec
