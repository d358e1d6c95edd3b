import Verif.Spec.ByteSet
import Verif.Model.DumpCharClass
/-! # Descriptions of byte classes, specified by maximal runs

Of the model only the descriptions of single bytes (`describeChar`, `backslash`) are used. -/
namespace Rescan.Spec

/-- `a..=b` is a maximal run of members of `s`. -/
def IsRun (s : U8 → Bool) (a b : U8) : Prop :=
  a ≤ b ∧ (∀ c : U8, a ≤ c → c ≤ b → s c = true) ∧ (∀ c : U8, c.toNat + 1 = a.toNat → s c = false) ∧
    (∀ c : U8, c.toNat = b.toNat + 1 → s c = false)

/-- `rs` lists the maximal runs of `s` in increasing order. -/
def AreRuns (s : U8 → Bool) (rs : List (U8 × U8)) : Prop :=
  (∀ a b, (a, b) ∈ rs ↔ IsRun s a b) ∧ rs.Pairwise (fun r q => r.2 < q.1)

/-- `s` ends in a run of two to four bytes up to 0xff. -/
def EndsShort (s : U8 → Bool) : Prop := ∃ a : U8, 252 ≤ a.toNat ∧ a.toNat < 255 ∧ IsRun s a 0xff#8

/-- ASCII digits. -/
def isDigitByte (c : U8) : Bool := decide (48 ≤ c.toNat ∧ c.toNat ≤ 57)
/-- ASCII letters, digits and the underscore. -/
def isWordByte (c : U8) : Bool := decide (isLetter c) || isDigitByte c || decide (c.toNat = 95)
/-- ASCII white space. -/
def isSpaceByte (c : U8) : Bool := decide ((9 ≤ c.toNat ∧ c.toNat ≤ 13) ∨ c.toNat = 32)

/-- Does `s` contain all members of `q`? -/
def covers (q s : U8 → Bool) : Bool := allBytes.all (fun c => !q c || s c)

/-- The mnemonics a class is described with. -/
def mnemonics (s : U8 → Bool) : Str :=
  (if covers isWordByte s then ['w'] else if covers isDigitByte s then ['d'] else []) ++
    (if covers isSpaceByte s then ['s'] else [])

/-- The members not covered by the mnemonics. -/
def restOf (s : U8 → Bool) (c : U8) : Bool :=
  s c && !(covers isWordByte s && isWordByte c) && !(covers isDigitByte s && isDigitByte c) &&
    !(covers isSpaceByte s && isSpaceByte c)

/-- The text of a run: all its bytes if there are at most four, else the first and the last. -/
def runText (out : CcOutput) (r : U8 × U8) : Str :=
  if r.2.toNat - r.1.toNat < 4 then
    (members (fun c => decide (r.1 ≤ c) && decide (c ≤ r.2))).flatMap (fun c => Dump.describeChar c out)
  else Dump.describeChar r.1 out ++ ['-'] ++ Dump.describeChar r.2 out

/-- The runs that are written: the last one only if it ends at 0xff. -/
def writtenRuns (rs : List (U8 × U8)) : List (U8 × U8) :=
  match rs.getLast? with
  | some r => if r.2 = 0xff#8 then rs else rs.dropLast
  | none => []

/-- `t` is what is written for the class `s`, and `n` the number of parts it is said to have. -/
def IsClassBody (s : U8 → Bool) (out : CcOutput) (t : Str) (n : Nat) : Prop :=
  (∃ r, AreRuns s [r] ∧ t = runText out r ∧ n = 2) ∨
  ((¬ ∃ r, AreRuns s [r]) ∧ ∃ rs, AreRuns (restOf s) rs ∧
    t = (mnemonics s).flatMap (fun m => Dump.backslash out ++ [m]) ++ (writtenRuns rs).flatMap (runText out) ∧
    n = (mnemonics s).length + (writtenRuns rs).length)

end Rescan.Spec
