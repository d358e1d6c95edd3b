import Verif.Model.Component
import Verif.Spec.ByteSet
/-! # Specification of the pattern language

Grammar trees, their text, the component tree each stands for, balancedness, control verbs, and the
language of a component tree.  Of the model only the data types of parse trees and the membership
test of byte sets are used. -/
namespace Rescan.Spec

mutual
/-- `item ::= char | '(' alt ')'` -/
inductive Item where
  | lit (c : Char)
  | group (a : Alts)
/-- `seq ::= item*` -/
inductive Seq where
  | nil
  | cons (i : Item) (s : Seq)
/-- `alt ::= seq ('|' seq)*` -/
inductive Alts where
  | one (s : Seq)
  | more (s : Seq) (a : Alts)
end

/-- The characters with a meaning of their own. -/
def special (c : Char) : Prop := c = '(' ∨ c = ')' ∨ c = '|'

instance (c : Char) : Decidable (special c) := inferInstanceAs (Decidable (_ ∨ _))

mutual
/-- The text of an item. -/
def Item.print : Item → Str
  | .lit c => [c]
  | .group a => '(' :: a.print ++ [')']
/-- The text of a sequence. -/
def Seq.print : Seq → Str
  | .nil => []
  | .cons i s => i.print ++ s.print
/-- The text of an alternation. -/
def Alts.print : Alts → Str
  | .one s => s.print
  | .more s a => s.print ++ '|' :: a.print
end

mutual
/-- No literal is a special character. -/
def Item.Wf : Item → Prop
  | .lit c => ¬ special c
  | .group a => a.Wf
/-- No literal is a special character. -/
def Seq.Wf : Seq → Prop
  | .nil => True
  | .cons i s => i.Wf ∧ s.Wf
/-- No literal is a special character. -/
def Alts.Wf : Alts → Prop
  | .one s => s.Wf
  | .more s a => s.Wf ∧ a.Wf
end

/-! ## The component tree of a grammar tree

`cls` says which class a literal character becomes.  `k` is the number of the next group (a `u32`,
so numbers are taken modulo `2^32`). -/

mutual
/-- The component of an item and the number of the next group after it. -/
def Item.build (cls : Char → ComponentClass) (k : Nat) : Item → Component × Nat
  | .lit c => (.cls (cls c), k)
  | .group a =>
    let r := a.build cls (k + 1)
    (.sequence (.mk r.1 none (some (k % 2 ^ 32)) none), r.2)
/-- The components of a sequence. -/
def Seq.build (cls : Char → ComponentClass) (k : Nat) : Seq → List Component × Nat
  | .nil => ([], k)
  | .cons i s =>
    let r := i.build cls k
    let t := s.build cls r.2
    (r.1 :: t.1, t.2)
/-- The children of the sequence standing for an alternation: the items themselves if there is one
branch, one alternation node otherwise. -/
def Alts.build (cls : Char → ComponentClass) (k : Nat) : Alts → List Component × Nat
  | .one s => s.build cls k
  | .more s a =>
    let r := s.build cls k
    let t := a.branches cls r.2
    ([.alternation (.mk (.mk r.1 none none none :: t.1))], t.2)
/-- The branches of an alternation, each an uncaptured sequence. -/
def Alts.branches (cls : Char → ComponentClass) (k : Nat) : Alts → List ComponentSequence × Nat
  | .one s =>
    let r := s.build cls k
    ([.mk r.1 none none none], r.2)
  | .more s a =>
    let r := s.build cls k
    let t := a.branches cls r.2
    (.mk r.1 none none none :: t.1, t.2)
end

/-- The component tree of a whole pattern: group 0. -/
def Alts.root (cls : Char → ComponentClass) (a : Alts) : Component :=
  .sequence (.mk (a.build cls 1).1 none (some 0) none)

/-- `cls` is the class of a literal character `c`: exactly the byte `c`, or with `caseless` that byte
and its other-case partner. -/
def IsLitClass (caseless : Bool) (c : Char) : ComponentClass → Prop
  | .ascii a => a.mode = { caseless := caseless, dotall := false, ignoreSpace := false,
                           multiline := false, ucp := false, utf8 := false } ∧
      ∀ b : U8, a.cr.test b = true ↔
        b.toNat = c.toNat ∨ (caseless = true ∧ casePair b (BitVec.ofNat 8 c.toNat))

/-- All characters are ASCII. -/
def IsAscii (s : Str) : Prop := ∀ c ∈ s, c.toNat < 128

/-- No prefix closes more than `d` groups beyond those it opens. -/
def PrefixOk (d : Nat) (s : Str) : Prop :=
  ∀ n, (s.take n).count ')' ≤ d + (s.take n).count '('

/-- Balanced parentheses. -/
def Balanced (s : Str) : Prop := PrefixOk 0 s ∧ s.count '(' = s.count ')'

/-! ## Captures -/

mutual
/-- The sequences of a component in pre-order: is it a branch of an alternation, its capture index
and its capture name. -/
def captures : Component → List (Bool × Option Nat × Option String)
  | .alternation (.mk cs) => capturesBranches cs
  | .cls _ => []
  | .sequence s => capturesSeq false s
/-- As `captures`, for one sequence. -/
def capturesSeq (branch : Bool) : ComponentSequence → List (Bool × Option Nat × Option String)
  | .mk cs _ ci cn => (branch, ci, cn) :: capturesAll cs
/-- As `captures`, for the children of a sequence. -/
def capturesAll : List Component → List (Bool × Option Nat × Option String)
  | [] => []
  | c :: cs => captures c ++ capturesAll cs
/-- As `captures`, for the branches of an alternation. -/
def capturesBranches : List ComponentSequence → List (Bool × Option Nat × Option String)
  | [] => []
  | s :: ss => capturesSeq true s ++ capturesBranches ss
end

/-- The capture indices of the sequences that are not branches, in pre-order. -/
def groupNumbers (c : Component) : List (Option Nat) :=
  ((captures c).filter (fun x => !x.1)).map (fun x => x.2.1)

/-! ## Control verbs -/

/-- The pattern is `(*v)` followed by `rest`, with `v` non-empty and free of `)`. -/
def HasVerb (ptr v rest : Str) : Prop :=
  ptr = ['(', '*'] ++ v ++ [')'] ++ rest ∧ v ≠ [] ∧ ')' ∉ v

/-- The pattern starts with no control verb. -/
def NoVerb (ptr : Str) : Prop := ∀ v rest, ¬ HasVerb ptr v rest

/-- `body` is what is left of the pattern after a supported control verb, or all of it if it starts
with none. -/
def IsBody (ptr body : Str) : Prop :=
  (NoVerb ptr ∧ body = ptr) ∨
    ∃ v, HasVerb ptr v body ∧ (v = ['U', 'C', 'P'] ∨ v = ['U', 'T', 'F', '8'] ∨ v = ['U', 'T', 'F'])

/-! ## Languages -/

mutual
/-- The byte strings matched by a component. -/
def Lang : Component → List U8 → Prop
  | .alternation (.mk cs) => LangAny cs
  | .cls (.ascii a) => fun w => ∃ b, w = [b] ∧ a.cr.test b = true
  | .sequence s => LangSeq s
/-- The byte strings matched by a finished sequence. -/
def LangSeq : ComponentSequence → List U8 → Prop
  | .mk cs _ _ _ => LangAll cs
/-- Concatenation. -/
def LangAll : List Component → List U8 → Prop
  | [] => fun w => w = []
  | c :: cs => fun w => ∃ w1 w2, w = w1 ++ w2 ∧ Lang c w1 ∧ LangAll cs w2
/-- Union. -/
def LangAny : List ComponentSequence → List U8 → Prop
  | [] => fun _ => False
  | s :: ss => fun w => LangSeq s w ∨ LangAny ss w
end

end Rescan.Spec
