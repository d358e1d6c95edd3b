import Mathlib.Computability.ContextFreeGrammar
import Verif.Spec.Grammar
/-! # The grammar of patterns in Mathlib's terms

A `ContextFreeGrammar` for what may follow a control verb.  Nothing of the model is used. -/
namespace Rescan.Spec

/-- The nonterminals: alternations, sequences and items. -/
inductive Phrase where
  | alt
  | seq
  | item
  deriving DecidableEq

/-- The ASCII characters without a meaning of their own. -/
def literalChars : List Char := ((List.range 128).map Char.ofNat).filter (fun c => !decide (special c))

/-- `alt ::= seq | seq '|' alt`, `seq ::= | item seq`, `item ::= '(' alt ')' | char`. -/
def patternRules : List (ContextFreeRule Char Phrase) :=
  [⟨.alt, [.nonterminal .seq]⟩, ⟨.alt, [.nonterminal .seq, .terminal '|', .nonterminal .alt]⟩,
    ⟨.seq, []⟩, ⟨.seq, [.nonterminal .item, .nonterminal .seq]⟩,
    ⟨.item, [.terminal '(', .nonterminal .alt, .terminal ')']⟩] ++
  literalChars.map (fun c => ⟨.item, [.terminal c]⟩)

/-- The grammar with these rules. -/
def patternGrammar : ContextFreeGrammar Char where
  NT := Phrase
  initial := .alt
  rules := patternRules.toFinset

end Rescan.Spec
