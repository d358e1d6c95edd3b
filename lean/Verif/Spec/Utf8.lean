import Verif.Model.Prim
/-! # UTF-8 (RFC 3629), independently of the parser -/
namespace Rescan.Spec

/-- The bytes of a character: RFC 3629, section 3. -/
def encodeChar (c : Char) : List U8 :=
  let n := c.toNat
  if n < 0x80 then [BitVec.ofNat 8 n]
  else if n < 0x800 then [BitVec.ofNat 8 (0xC0 + n / 64), BitVec.ofNat 8 (0x80 + n % 64)]
  else if n < 0x10000 then
    [BitVec.ofNat 8 (0xE0 + n / 4096), BitVec.ofNat 8 (0x80 + n / 64 % 64), BitVec.ofNat 8 (0x80 + n % 64)]
  else
    [BitVec.ofNat 8 (0xF0 + n / 262144), BitVec.ofNat 8 (0x80 + n / 4096 % 64),
     BitVec.ofNat 8 (0x80 + n / 64 % 64), BitVec.ofNat 8 (0x80 + n % 64)]

/-- The bytes of a text. -/
def encode (s : Str) : List U8 := s.flatMap encodeChar

/-- `b` is in the given range. -/
def In (lo hi : Nat) (b : U8) : Prop := lo ≤ b.toNat ∧ b.toNat ≤ hi

/-- Well-formed byte sequences: RFC 3629, section 4 (the syntax of `UTF8-octets`). -/
inductive Utf8 : List U8 → Prop
  | nil : Utf8 []
  | one (a s) : In 0x00 0x7F a → Utf8 s → Utf8 (a :: s)
  | two (a b s) : In 0xC2 0xDF a → In 0x80 0xBF b → Utf8 s → Utf8 (a :: b :: s)
  | three_E0 (a b c s) : In 0xE0 0xE0 a → In 0xA0 0xBF b → In 0x80 0xBF c → Utf8 s → Utf8 (a :: b :: c :: s)
  | three_E1_EC (a b c s) : In 0xE1 0xEC a → In 0x80 0xBF b → In 0x80 0xBF c → Utf8 s → Utf8 (a :: b :: c :: s)
  | three_ED (a b c s) : In 0xED 0xED a → In 0x80 0x9F b → In 0x80 0xBF c → Utf8 s → Utf8 (a :: b :: c :: s)
  | three_EE_EF (a b c s) : In 0xEE 0xEF a → In 0x80 0xBF b → In 0x80 0xBF c → Utf8 s → Utf8 (a :: b :: c :: s)
  | four_F0 (a b c d s) : In 0xF0 0xF0 a → In 0x90 0xBF b → In 0x80 0xBF c → In 0x80 0xBF d → Utf8 s →
      Utf8 (a :: b :: c :: d :: s)
  | four_F1_F3 (a b c d s) : In 0xF1 0xF3 a → In 0x80 0xBF b → In 0x80 0xBF c → In 0x80 0xBF d → Utf8 s →
      Utf8 (a :: b :: c :: d :: s)
  | four_F4 (a b c d s) : In 0xF4 0xF4 a → In 0x80 0x8F b → In 0x80 0xBF c → In 0x80 0xBF d → Utf8 s →
      Utf8 (a :: b :: c :: d :: s)

end Rescan.Spec
