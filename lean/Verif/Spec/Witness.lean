import Verif.Model.Prim
/-! # Concrete results, for the examples beside the theorems -/
namespace Rescan

/-- A computation seen to succeed with a value that satisfies `q` gives the value that hypotheses of theorems ask for. -/
theorem Outcome.exists_ok {ε α : Type} {x : Outcome ε α} {q : α → Prop} [DecidablePred q]
    (h : (match x with | .ok a => decide (q a) | _ => false) = true) : ∃ a, x = .ok a ∧ q a := by
  cases x with
  | ok a => exact ⟨a, rfl, of_decide_eq_true h⟩
  | err e => cases h
  | panic s => cases h
  | timeout => cases h

/-- The same for results of which nothing more is said. -/
theorem Outcome.exists_of_isOk {ε α : Type} {x : Outcome ε α} (h : x.isOk = true) : ∃ a, x = .ok a := by
  cases x with
  | ok a => exact ⟨a, rfl⟩
  | err e => cases h
  | panic s => cases h
  | timeout => cases h

end Rescan
