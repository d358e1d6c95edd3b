import Verif.Model.Config
import Verif.Model.Literal
import Verif.Spec.Grammar
import Verif.Spec.Tree
import Verif.Spec.History
/-! # Specification of compiling a list of expressions

Of the model only data types and flag tests are used. -/
namespace Rescan.Spec

/-- An expression as given: its text, flags and id. -/
abbrev Expr := Str × Flags × Nat

/-- The text after a supported control verb, all of it if there is no control verb, nothing if the verb
is not supported. -/
def bodyOf (text : Str) : Option Str :=
  match text with
  | '(' :: '*' :: rest =>
    match rest.dropWhile (fun c => c != ')') with
    | [] => some text
    | _ :: body =>
      let verb := rest.takeWhile (fun c => c != ')')
      if verb = [] then some text
      else if verb = ['U', 'C', 'P'] ∨ verb = ['U', 'T', 'F', '8'] ∨ verb = ['U', 'T', 'F'] then some body
      else none
  | _ => some text

/-- The literal an expression stands for: it has one iff its body has no `|` and a character other than
parentheses. -/
def literalOf (e : Expr) : Option (List (U8 × Bool)) :=
  match bodyOf e.1 with
  | none => none
  | some body =>
    if '|' ∈ body ∨ ∀ c ∈ body, c = '(' ∨ c = ')' then none
    else some (litElems (e.2.1.contains .CASELESS) body)

/-- A literal expression of a list: its position, literal, id and whether it is SINGLEMATCH. -/
structure LitEntry where
  index : Nat
  elems : List (U8 × Bool)
  id : Nat
  single : Bool

/-- The literal expressions of a list starting at position `i`, if literals are looked for at all. -/
def entriesFrom (on : Bool) : Nat → List Expr → List LitEntry
  | _, [] => []
  | i, e :: es =>
    match (if on then literalOf e else none) with
    | none => entriesFrom on (i + 1) es
    | some l => ⟨i, l, e.2.2, e.2.1.contains .SINGLEMATCH⟩ :: entriesFrom on (i + 1) es

/-- The text can be parsed: an acceptable control verb or none, then an ASCII body with balanced
parentheses; in debug builds no `(` except as the very first character. -/
def Acceptable (p : Profile) (text : Str) : Prop :=
  ∃ body, IsBody text body ∧ IsAscii body ∧ Balanced body ∧
    (p = .debug → ∀ n : Nat, body[n]? = some '(' → n = 0 ∧ body = text)

/-- The expression is fine by itself. -/
def Valid (p : Profile) (limit : Nat) (e : Expr) : Prop :=
  utf8Len e.1 ≤ limit ∧ ¬ (e.2.1.contains .QUIET = true ∧ e.2.1.contains .SOM_LEFTMOST = true) ∧
    Acceptable p e.1

/-- The expression does not contradict earlier literal ones about SINGLEMATCH. -/
def Agrees (on : Bool) (h : List LitEntry) (e : Expr) : Prop :=
  on = true → literalOf e ≠ none → ∀ x ∈ h, x.id = e.2.2 → x.single = e.2.1.contains .SINGLEMATCH

/-- Are literals looked for? -/
def litsOn (g : Grey) : Bool := g.allowLiteral && g.shortcutLiterals

/-- The expression `e` at position `j` of `es` can be added after those before it. -/
def Addable (p : Profile) (g : Grey) (es : List Expr) (j : Nat) (e : Expr) : Prop :=
  Valid p g.limitPatternLength e ∧ Agrees (litsOn g) (entriesFrom (litsOn g) 0 (es.take j)) e

/-- Parsing the text panics: some character of the body is not ASCII, or in debug builds is a `(` other
than the first character of the text, and no `)` before it is unmatched. -/
def ParsePanics (p : Profile) (text : Str) : Prop :=
  ∃ body n c, IsBody text body ∧ body[n]? = some c ∧
    (128 ≤ c.toNat ∨ (p = .debug ∧ c = '(' ∧ ¬ (n = 0 ∧ body = text))) ∧
    ∀ k ≤ n, (body.take k).count ')' ≤ (body.take k).count '('

/-- Both QUIET and SOM_LEFTMOST are asked for. -/
def QuietSom (f : Flags) : Prop := f.contains .QUIET = true ∧ f.contains .SOM_LEFTMOST = true

/-- What is said about an expression `e` at position `j` which disagrees with `old`, the first earlier
one with its id, about SINGLEMATCH. (The last clause is the wrong way round, see C65.) -/
def conflictText (j : Nat) (e : Expr) (old : LitEntry) : String :=
  "Expression (index " ++ toString j ++ ") with match ID " ++ toString e.2.2 ++ " "
    ++ (if e.2.1.contains .SINGLEMATCH then "specified " else "did not sepcify ")
    ++ " SINGLEMATCH whereas previous expression (index " ++ toString old.index
    ++ ") with the same match ID did" ++ (if old.single then " not." else ".")

/-- What compiling returns because the expression `e` at position `j`, coming after the literal
expressions `h`, cannot be added. -/
inductive Refused {α : Type} (p : Profile) (g : Grey) (h : List LitEntry) (j : Nat) (e : Expr) : Res α → Prop
  | tooLong : utf8Len e.1 > g.limitPatternLength →
      Refused p g h j e (.err ⟨.other, "Pattern length exceeds limit.", some j⟩)
  | quietSom : utf8Len e.1 ≤ g.limitPatternLength → QuietSom e.2.1 →
      Refused p g h j e (.err ⟨.other, "QUIET is not supported in combination with SOM_LEFTMOST.", some j⟩)
  | unparsable (kind : ErrorKind) (reason : String) : utf8Len e.1 ≤ g.limitPatternLength → ¬ QuietSom e.2.1 →
      ¬ Acceptable p e.1 → ¬ ParsePanics p e.1 → kind = .parse ∨ kind = .locatedParse →
      Refused p g h j e (.err ⟨kind, reason, some j⟩)
  | panics (m : String) : utf8Len e.1 ≤ g.limitPatternLength → ¬ QuietSom e.2.1 → ParsePanics p e.1 →
      Refused p g h j e (.panic m)
  | conflict (old : LitEntry) : Valid p g.limitPatternLength e → litsOn g = true → literalOf e ≠ none →
      h.find? (fun x => x.id == e.2.2) = some old → old.single ≠ e.2.1.contains .SINGLEMATCH → p = .release →
      Refused p g h j e (.err ⟨.other, conflictText j e old, some j⟩)
  | conflictDebug (m : String) : Valid p g.limitPatternLength e → ¬ Agrees (litsOn g) h e → p = .debug →
      Refused p g h j e (.panic m)

/-- The literal of a list of elements. -/
def litOf (es : List (U8 × Bool)) : Ue2Literal := ⟨es.map Prod.fst, es.map Prod.snd⟩

end Rescan.Spec
