import Verif.Model.Prim
/-! # src/util/ue2common.rs

The Rust functions are generic in `T: Add + BitAnd + From<u8>`.  They are modelled for the unsigned
integer types, i.e. `BitVec w` with `8 ≤ w` (`From<u8>` is zero extension), and at the end for the signed
ones, which differ only in when a sum overflows.  `usize` is `BitVec 64`.
Arithmetic overflow is explicit: a panic in the debug profile, wrap-around in release.  (Rust
rejects a shift/`!` never; `!` is applied to the **u8** before widening.) -/
namespace Rescan

/-- src/util/ue2common.rs:19, 41: Rust `a + b` on an unsigned type: overflow-checked in debug, wrapping in release. -/
def addChk {ε : Type} (p : Profile) {w : Nat} (a b : BitVec w) : Outcome ε (BitVec w) :=
  if p = .debug ∧ 2 ^ w ≤ a.toNat + b.toNat then .panic "attempt to add with overflow"
  else .ok (a + b)

/-- src/util/ue2common.rs:41, 52: Rust `a - b` on an unsigned type: overflow-checked in debug, wrapping in release. -/
def subChk {ε : Type} (p : Profile) {w : Nat} (a b : BitVec w) : Outcome ε (BitVec w) :=
  if p = .debug ∧ a.toNat < b.toNat then .panic "attempt to subtract with overflow"
  else .ok (a - b)

/-- src/util/ue2common.rs:13-20 `round_up_16`: `(a + 0xf) & (!0xf_u8).into()`. -/
def roundUp16 (p : Profile) {w : Nat} (a : BitVec w) : Res (BitVec w) := do
  let s ← addChk p a ((0x0f#8).setWidth w)
  return s &&& ((~~~ 0x0f#8).setWidth w)

/-- src/util/ue2common.rs:25-31 `round_down_16`: `a & (!0xf_u8).into()`. -/
def roundDown16 {w : Nat} (a : BitVec w) : BitVec w :=
  a &&& ((~~~ 0x0f#8).setWidth w)

/-- src/util/ue2common.rs:35-42 `round_up_n`: `(a + (n - 1).into()) & (!(n - 1)).into()`, where `n`
is a `u8` and the complement is taken at width 8. -/
def roundUpN (p : Profile) {w : Nat} (a : BitVec w) (n : U8) : Res (BitVec w) := do
  let n1 ← subChk p n 1#8
  let s ← addChk p a (n1.setWidth w)
  return s &&& ((~~~ n1).setWidth w)

/-- src/util/ue2common.rs:47-53 `round_down_n`: `a & (!(n - 1)).into()`. -/
def roundDownN (p : Profile) {w : Nat} (a : BitVec w) (n : U8) : Res (BitVec w) := do
  let n1 ← subChk p n 1#8
  return a &&& ((~~~ n1).setWidth w)

/-- src/util/ue2common.rs:58-65 `round_up_cache_line`. -/
def roundUpCacheLine (p : Profile) {w : Nat} (a : BitVec w) : Res (BitVec w) := do
  let s ← addChk p a ((0x3f#8).setWidth w)
  return s &&& ((~~~ 0x3f#8).setWidth w)

/-- src/util/ue2common.rs:41: Rust `a + b` on a signed type. -/
def addSignedChk {ε : Type} (p : Profile) {w : Nat} (a b : BitVec w) : Outcome ε (BitVec w) :=
  if p = .debug ∧ (a.toInt + b.toInt < -2 ^ (w - 1) ∨ 2 ^ (w - 1) ≤ a.toInt + b.toInt) then
    .panic "attempt to add with overflow"
  else .ok (a + b)

/-- src/util/ue2common.rs:35-42 `round_up_n` for a signed type (`From<u8>` exists from 16 bits on).
`round_down_n` has no sum: it is `roundDownN`. -/
def roundUpNSigned (p : Profile) {w : Nat} (a : BitVec w) (n : U8) : Res (BitVec w) := do
  let n1 ← subChk p n 1#8
  let s ← addSignedChk p a (n1.setWidth w)
  return s &&& ((~~~ n1).setWidth w)

end Rescan
