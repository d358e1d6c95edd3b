import Verif.Spec.DumpClass
/-! # Descriptions of byte classes under a length limit -/
namespace Rescan.Spec

/-- The parts of the description of a class after which the limit is checked: the mnemonics and all
runs but the last. -/
def checkedParts (s : U8 → Bool) (out : CcOutput) (rs : List (U8 × U8)) : List Str :=
  (mnemonics s).map (fun m => Dump.backslash out ++ [m]) ++ rs.dropLast.map (runText out)

/-- The limit `n` cuts the description of `s` short: `s` is not a single run and at least `n` parts are
checked (a limit of 0 never applies). -/
def Truncated (n : Nat) (s : U8 → Bool) : Prop :=
  (¬ ∃ r, AreRuns s [r]) ∧ ∃ rs, AreRuns (restOf s) rs ∧ 0 < n ∧ n ≤ (mnemonics s).length + (rs.length - 1)

/-- `t` is what is written for the class `s` under the limit `n`, and `k` the number of parts it is said
to have. -/
def IsLimitedBody (n : Nat) (s : U8 → Bool) (out : CcOutput) (t : Str) (k : Nat) : Prop :=
  (Truncated n s ∧ k = n ∧ ∃ rs, AreRuns (restOf s) rs ∧
    t = ((checkedParts s out rs).take n).flatten ++ "...]".toList) ∨
  (¬ Truncated n s ∧ IsClassBody s out t k)

end Rescan.Spec
