import Verif.Spec.Compile
/-! # What compiling keeps of an expression

Independent of the model's functions. -/
namespace Rescan.Spec

/-- What is kept of an expression. -/
structure Trace where
  id : Nat
  single : Bool
  length : Nat
  elems : Option (List (U8 × Bool))
deriving DecidableEq

/-- Of a literal its id, whether it is SINGLEMATCH, its length, and itself if it is short enough; of anything
else nothing. -/
def trace (g : Grey) (e : Expr) : Option Trace :=
  if litsOn g then
    (literalOf e).map (fun l => ⟨e.2.2, e.2.1.contains .SINGLEMATCH, l.length,
      if l.length ≤ g.smallWriteLargestBuffer then some l else none⟩)
  else none

/-- `w` occurs in `data`, ending at offset `j`. -/
def EndsAt (data : List U8) (j : Nat) (w : List U8) : Prop :=
  ∃ before after, data = before ++ w ++ after ∧ j = before.length + w.length

end Rescan.Spec
