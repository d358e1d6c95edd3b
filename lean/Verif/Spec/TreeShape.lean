import Verif.Spec.Grammar
/-! # Specification of the shape of parse trees

Of the model only the data types of parse trees are used. -/
namespace Rescan.Spec

mutual
/-- An item: the class of one plain character, or a group. -/
def ItemShape (caseless : Bool) : Component → Prop
  | .cls a => ∃ c : Char, c.toNat < 128 ∧ ¬ special c ∧ IsLitClass caseless c a
  | .sequence s => GroupShape caseless s
  | .alternation _ => False
/-- A group: a numbered sequence without a name, of items or of one alternation. -/
def GroupShape (caseless : Bool) : ComponentSequence → Prop
  | .mk cs alt idx name => alt = none ∧ idx ≠ none ∧ name = none ∧
      (ItemsShape caseless cs ∨ ChoiceShape caseless cs)
/-- All are items. -/
def ItemsShape (caseless : Bool) : List Component → Prop
  | [] => True
  | c :: cs => ItemShape caseless c ∧ ItemsShape caseless cs
/-- One alternation and nothing else. -/
def ChoiceShape (caseless : Bool) : List Component → Prop
  | [] => False
  | c :: cs => AltShape caseless c ∧ cs = []
/-- An alternation of two branches or more. -/
def AltShape (caseless : Bool) : Component → Prop
  | .alternation (.mk bs) => 2 ≤ bs.length ∧ BranchesShape caseless bs
  | .cls _ => False
  | .sequence _ => False
/-- Branches: sequences of items without number and name. -/
def BranchesShape (caseless : Bool) : List ComponentSequence → Prop
  | [] => True
  | b :: bs => BranchShape caseless b ∧ BranchesShape caseless bs
/-- A branch. -/
def BranchShape (caseless : Bool) : ComponentSequence → Prop
  | .mk cs alt idx name => alt = none ∧ idx = none ∧ name = none ∧ ItemsShape caseless cs
end

end Rescan.Spec
