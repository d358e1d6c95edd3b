import Verif.Spec.Reference
/-! # Every result of compiling

With default settings. -/
namespace Rescan.Spec

open Reference in
/-- What can be said against an expression at position `j`, whatever stands before it. -/
inductive Complaint (p : Profile) (j : Nat) : CompileError → Prop
  | tooLong : Complaint p j ⟨.other, "Pattern length exceeds limit.", some j⟩
  | quietSom : Complaint p j ⟨.other, "QUIET is not supported in combination with SOM_LEFTMOST.", some j⟩
  | unmatched : Complaint p j ⟨.locatedParse, "Unmatched parentheses", some j⟩
  | missing (k : Nat) : k < 16000 → (p = .debug → k = 0) → Complaint p j ⟨.parse,
      "Missing close parenthesis for group started at index " ++ toString ((2 ^ 64 - k) % 2 ^ 64) ++ ".", some j⟩
  | unsupportedVerb (v : Str) : ')' ∉ v → utf8Len v + 3 ≤ 16000 → unsupported v = true →
      Complaint p j ⟨.locatedParse, "Unsupported control verb " ++ String.ofList v ++ " at index 2", some j⟩
  | unknownVerb (v : Str) : ')' ∉ v → utf8Len v + 3 ≤ 16000 → v ≠ [] → v ∉ obeyed → unsupported v = false →
      Complaint p j ⟨.locatedParse, "Unknown control verb " ++ String.ofList v ++ " at index 2", some j⟩

/-- How an expression can make compiling panic. -/
inductive Panics (p : Profile) : String → Prop
  | ascii : Panics p "assertion failed: c.is_ascii()"
  | position : p = .debug → Panics p "attempt to subtract with overflow"

/-- What compiling one expression can return, `db` being the database made. -/
inductive Result1 {α : Type} (p : Profile) (db : α) : Res α → Prop
  | made : Result1 p db (.ok db)
  | complaint (e : CompileError) : Complaint p 0 e → Result1 p db (.err e)
  | panics (m : String) : Panics p m → Result1 p db (.panic m)

/-- What compiling a list of expressions can return. -/
inductive Result {α : Type} (p : Profile) (db : α) : Res α → Prop
  | made : Result p db (.ok db)
  | none : Result p db (.err ⟨.other, "Invalid parameter: expressions is empty", Option.none⟩)
  | tooMany : Result p db (.err ⟨.other, "Number of patterns too large", Option.none⟩)
  | complaint (j : Nat) (e : CompileError) : j < 8000000 → Complaint p j e → Result p db (.err e)
  | conflict (i j id : Nat) (single : Bool) : p = .release → i < j → j < 8000000 → id < 2 ^ 32 →
      Result p db (.err ⟨.other, Reference.disagreement j id single ⟨id, !single, i⟩, some j⟩)
  | panics (m : String) : Panics p m → Result p db (.panic m)
  | conflictPanics : p = .debug → Result p db (.panic "assertion failed: self.index.is_none()")

end Rescan.Spec
