import Verif.Model.Prim
/-! # Agreement of the two build profiles -/
namespace Rescan.Spec

/-- The debug build panics, or both builds do the same. -/
def ProfilesAgree {ε α : Type} (debug release : Outcome ε α) : Prop :=
  debug.isPanic = true ∨ debug = release

end Rescan.Spec
