import Verif.Model.Prim
/-! # src/util/compare.rs -/
namespace Rescan

/-- src/util/compare.rs:1-3 `myisupper`: `(b'A'..=b'Z').contains(&c)`. -/
def myisupper (c : U8) : Bool := decide (0x41#8 ≤ c) && decide (c ≤ 0x5a#8)

/-- src/util/compare.rs:5-7 `myislower`: `(b'a'..=b'z').contains(&c)`. -/
def myislower (c : U8) : Bool := decide (0x61#8 ≤ c) && decide (c ≤ 0x7a#8)

/-- src/util/compare.rs:10-16 `mytolower`.  (`c + 0x20` cannot overflow: `c ≤ 'Z'`.) -/
def mytolower (c : U8) : U8 := if myisupper c then c + 0x20#8 else c

/-- src/util/compare.rs:19-25 `mytoupper`.  (`c - 0x20` cannot underflow: `c ≥ 'a'`.) -/
def mytoupper (c : U8) : U8 := if myislower c then c - 0x20#8 else c

/-- src/util/compare.rs:29-31 `ourisalpha`. -/
def ourisalpha (c : U8) : Bool := mytolower c != mytoupper c

end Rescan
