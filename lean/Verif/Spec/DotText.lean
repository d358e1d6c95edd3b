import Verif.Model.Prim
/-! # Text inside a quoted DOT string -/
namespace Rescan.Spec

/-- How a text is written inside a quoted DOT string: backslashes doubled, quotes after a backslash. -/
def dotQuote : Str → Str
  | [] => []
  | c :: s => (if c = '\\' ∨ c = '"' ∨ c = '\'' then ['\\', c] else [c]) ++ dotQuote s

/-- The characters of a quoted DOT string up to the quote that ends it: a backslash hides the character
after it.  `none` if the string ends in a lone backslash. -/
def beforeQuote : Str → Option Str
  | [] => some []
  | '"' :: _ => some []
  | ['\\'] => none
  | '\\' :: c :: s => (beforeQuote s).map (fun t => '\\' :: c :: t)
  | c :: s => (beforeQuote s).map (fun t => c :: t)

end Rescan.Spec
