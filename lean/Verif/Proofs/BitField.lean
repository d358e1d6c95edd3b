import Verif.Model.BitField
import Verif.Spec.ByteSet
/-! # Lemmas about `BitField256` -/
namespace Rescan

theorem Outcome.pure_eq {ε α : Type} (a : α) : (pure a : Outcome ε α) = .ok a := rfl
theorem Outcome.ok_bind {ε α β : Type} (a : α) (f : α → Outcome ε β) :
    (Outcome.ok a >>= f) = f a := rfl
theorem Outcome.err_bind {ε α β : Type} (a : ε) (f : α → Outcome ε β) :
    (Outcome.err a >>= f) = Outcome.err a := rfl
theorem Outcome.panic_bind {ε α β : Type} (m : String) (f : α → Outcome ε β) :
    ((Outcome.panic m : Outcome ε α) >>= f) = Outcome.panic m := rfl
theorem Outcome.timeout_bind {ε α β : Type} (f : α → Outcome ε β) :
    ((Outcome.timeout : Outcome ε α) >>= f) = Outcome.timeout := rfl

namespace BitField256

theorem toNat_getWord (n : U8) : (getWord n).toNat = n.toNat / 64 := by
  simp [getWord]

theorem mod64_toNat (n : U8) : (n % 64#8).toNat = n.toNat % 64 := by
  simp

theorem one_shl_getLsbD (k j : Nat) (hk : k < 64) :
    (1#64 <<< k).getLsbD j = decide (j = k) := by
  simp only [BitVec.getLsbD_shiftLeft, BitVec.getLsbD_one]
  by_cases h : j = k
  · subst h; simp [hk]
  · simp [h]; intro h1 h2; omega

theorem maskBit_getLsbD (n : U8) (j : Nat) :
    (maskBit n).getLsbD j = decide (j = n.toNat % 64) := by
  rw [maskBit, mod64_toNat, one_shl_getLsbD _ _ (by omega)]

/-- Bit `k` of the 256-bit field. -/
def bit (b : BitField256) (k : Nat) : Bool := (b.bits[k / 64]?.getD 0#64).getLsbD (k % 64)

theorem and_shl_ne_zero (w : U64) (k : Nat) (hk : k < 64) :
    ((w &&& (1#64 <<< k)) != 0#64) = w.getLsbD k := by
  cases h : w.getLsbD k
  · have : w &&& (1#64 <<< k) = 0#64 := by
      apply BitVec.eq_of_getLsbD_eq
      intro i hi
      rw [BitVec.getLsbD_and, one_shl_getLsbD _ _ hk, BitVec.getLsbD_zero]
      by_cases e : i = k
      · subst e; simp [h]
      · simp [e]
    simp [this]
  · have : w &&& (1#64 <<< k) ≠ 0#64 := by
      intro e
      have := congrArg (fun x => BitVec.getLsbD x k) e
      simp only [BitVec.getLsbD_and, one_shl_getLsbD _ _ hk, h, BitVec.getLsbD_zero] at this
      simp at this
    simp [this]

theorem test_eq_bit (b : BitField256) (n : U8) : b.test n = b.bit n.toNat := by
  have h := n.isLt
  have h4 : n.toNat / 64 < 4 := by omega
  unfold test bit maskBit
  rw [mod64_toNat, and_shl_ne_zero _ _ (by omega)]
  simp only [toNat_getWord]
  rw [Vector.getElem?_eq_getElem h4]; rfl

theorem bit_ge (b : BitField256) (k : Nat) (h : 256 ≤ k) : b.bit k = false := by
  unfold bit
  have : b.bits[k / 64]? = Option.none := by
    apply Vector.getElem?_eq_none; omega
  simp [this]

theorem bit_mk (v : Vector U64 4) (k : Nat) (h : k / 64 < 4) :
    (BitField256.mk v).bit k = v[k / 64].getLsbD (k % 64) := by
  unfold bit; rw [Vector.getElem?_eq_getElem h]; rfl

/-- Two fields with the same bits are equal. -/
theorem ext_bit {a b : BitField256} (h : ∀ k, k < 256 → a.bit k = b.bit k) : a = b := by
  obtain ⟨va⟩ := a; obtain ⟨vb⟩ := b
  congr 1
  apply Vector.ext
  intro i hi
  apply BitVec.eq_of_getLsbD_eq
  intro j hj
  have := h (64 * i + j) (by omega)
  rw [bit_mk _ _ (by omega), bit_mk _ _ (by omega)] at this
  have e1 : (64 * i + j) / 64 = i := by omega
  have e2 : (64 * i + j) % 64 = j := by omega
  simpa [e1, e2] using this

theorem ext_test {a b : BitField256} (h : ∀ n, a.test n = b.test n) : a = b := by
  apply ext_bit
  intro k hk
  have := h (BitVec.ofNat 8 k)
  rw [test_eq_bit, test_eq_bit] at this
  simpa [Nat.mod_eq_of_lt hk] using this

theorem bit_set (b : BitField256) (i : Nat) (hi : i < 4) (w : U64) (k : Nat) (hk : k < 256) :
    (BitField256.mk (b.bits.set i w hi)).bit k =
      if k / 64 = i then w.getLsbD (k % 64) else b.bit k := by
  rw [bit_mk _ _ (by omega)]
  by_cases h : k / 64 = i
  · subst h; simp
  · have hb : b.bit k = b.bits[k / 64].getLsbD (k % 64) := bit_mk b.bits k (by omega)
    simp [h, hb, Ne.symm h]

theorem bit_eq (b : BitField256) (k : Nat) (hk : k < 256) :
    b.bit k = (b.bits[k / 64]'(by omega)).getLsbD (k % 64) := bit_mk b.bits k (by omega)

theorem bit_modify (b : BitField256) (n : U8) (f : U64 → U64) (k : Nat) (hk : k < 256) :
    (BitField256.mk (b.bits.set (getWord n).toNat
      (f (b.bits[(getWord n).toNat]'(getWord_lt n))) (getWord_lt n))).bit k =
      if k / 64 = n.toNat / 64 then (f (b.bits[k / 64]'(by omega))).getLsbD (k % 64)
      else b.bit k := by
  rw [bit_set _ _ _ _ _ hk]
  simp only [toNat_getWord]
  by_cases h : k / 64 = n.toNat / 64
  · simp [h]
  · simp [h]

theorem set_test (b : BitField256) (n m : U8) :
    (b.set n).test m = (decide (m = n) || b.test m) := by
  have hm := m.isLt; have hn := n.isLt
  rw [test_eq_bit, test_eq_bit]; unfold set
  rw [bit_modify b n (fun w => w ||| maskBit n) _ hm, bit_eq b _ hm]
  have key : (m = n) ↔ (m.toNat / 64 = n.toNat / 64 ∧ m.toNat % 64 = n.toNat % 64) := by
    rw [← BitVec.toNat_inj]; omega
  simp only [BitVec.getLsbD_or, maskBit_getLsbD]
  by_cases h : m.toNat / 64 = n.toNat / 64
  · simp [h, key, Bool.or_comm]
  · simp [h, key]

theorem reset_test (b : BitField256) (n m : U8) :
    (b.reset n).test m = (!decide (m = n) && b.test m) := by
  have hm := m.isLt; have hn := n.isLt
  rw [test_eq_bit, test_eq_bit]; unfold reset
  rw [bit_modify b n (fun w => w &&& ~~~ maskBit n) _ hm, bit_eq b _ hm]
  have key : (m = n) ↔ (m.toNat / 64 = n.toNat / 64 ∧ m.toNat % 64 = n.toNat % 64) := by
    rw [← BitVec.toNat_inj]; omega
  have hlt : m.toNat % 64 < 64 := by omega
  simp only [BitVec.getLsbD_and, BitVec.getLsbD_not, maskBit_getLsbD, hlt, decide_true,
    Bool.true_and]
  by_cases h : m.toNat / 64 = n.toNat / 64
  · simp [h, key, Bool.and_comm]
  · simp [h, key]

theorem flip_test (b : BitField256) (n m : U8) :
    (b.flip n).test m = (decide (m = n) ^^ b.test m) := by
  have hm := m.isLt; have hn := n.isLt
  rw [test_eq_bit, test_eq_bit]; unfold flip
  rw [bit_modify b n (fun w => w ^^^ maskBit n) _ hm, bit_eq b _ hm]
  have key : (m = n) ↔ (m.toNat / 64 = n.toNat / 64 ∧ m.toNat % 64 = n.toNat % 64) := by
    rw [← BitVec.toNat_inj]; omega
  simp only [BitVec.getLsbD_xor, maskBit_getLsbD]
  by_cases h : m.toNat / 64 = n.toNat / 64
  · simp [h, key, Bool.xor_comm]
  · simp [h, key]

theorem vec4_get (v : Vector U64 4) (i : Nat) (h : i < 4) :
    v[i] = if i = 0 then v[0] else if i = 1 then v[1] else if i = 2 then v[2] else v[3] := by
  match i, h with
  | 0, _ => rfl
  | 1, _ => rfl
  | 2, _ => rfl
  | 3, _ => rfl

/-- Bit of a field given by its four words. -/
theorem bit_quad (w0 w1 w2 w3 : U64) (k : Nat) (hk : k < 256) :
    (BitField256.mk #v[w0, w1, w2, w3]).bit k =
      (if k / 64 = 0 then w0 else if k / 64 = 1 then w1 else if k / 64 = 2 then w2 else w3).getLsbD
        (k % 64) := by
  rw [bit_mk _ _ (by omega)]
  congr 1
  exact vec4_get _ _ (by omega)

theorem bit_words (b : BitField256) (k : Nat) (hk : k < 256) :
    b.bit k = (if k / 64 = 0 then b.bits[0] else if k / 64 = 1 then b.bits[1]
      else if k / 64 = 2 then b.bits[2] else b.bits[3]).getLsbD (k % 64) := by
  rw [bit_eq b k hk]
  congr 1
  exact vec4_get _ _ (by omega)

theorem quad_pointwise2 (f : U64 → U64 → U64) (g : Bool → Bool → Bool)
    (hfg : ∀ x y i, i < 64 → (f x y).getLsbD i = g (x.getLsbD i) (y.getLsbD i))
    (a b : BitField256) (k : Nat) (hk : k < 256) :
    (BitField256.mk #v[f a.bits[0] b.bits[0], f a.bits[1] b.bits[1], f a.bits[2] b.bits[2],
      f a.bits[3] b.bits[3]]).bit k = g (a.bit k) (b.bit k) := by
  rw [bit_quad _ _ _ _ _ hk, bit_words a k hk, bit_words b k hk, ← hfg _ _ _ (by omega)]
  repeat' split
  all_goals rfl

theorem allOnes_getLsbD (i : Nat) : allOnes.getLsbD i = decide (i < 64) := by
  simp only [allOnes, BitVec.getLsbD_not, BitVec.getLsbD_zero, Bool.not_false, Bool.and_true]

theorem default_test (m : U8) : BitField256.default.test m = false := by
  rw [test_eq_bit, default, bit_quad _ _ _ _ _ m.isLt]; simp

theorem resetAll_test (b : BitField256) (m : U8) : b.resetAll.test m = false := default_test m

theorem setAll_test (b : BitField256) (m : U8) : b.setAll.test m = true := by
  have : m.toNat % 64 < 64 := by omega
  rw [test_eq_bit, setAll, bit_quad _ _ _ _ _ m.isLt]; simp [allOnes_getLsbD, this]

theorem and_test (a b : BitField256) (m : U8) : (a.and b).test m = (a.test m && b.test m) := by
  rw [test_eq_bit, test_eq_bit, test_eq_bit, and, andAssign,
    quad_pointwise2 (· &&& ·) Bool.and (by intros; simp) b a _ m.isLt, Bool.and_comm]

theorem or_test (a b : BitField256) (m : U8) : (a.or b).test m = (a.test m || b.test m) := by
  rw [test_eq_bit, test_eq_bit, test_eq_bit, or, orAssign,
    quad_pointwise2 (· ||| ·) Bool.or (by intros; simp) b a _ m.isLt, Bool.or_comm]

theorem xor_test (a b : BitField256) (m : U8) : (a.xor b).test m = (a.test m ^^ b.test m) := by
  rw [test_eq_bit, test_eq_bit, test_eq_bit, xor, xorAssign,
    quad_pointwise2 (· ^^^ ·) Bool.xor (by intros; simp) b a _ m.isLt, Bool.xor_comm]

theorem not_test (a : BitField256) (m : U8) : a.not.test m = !a.test m := by
  rw [test_eq_bit, test_eq_bit, not,
    quad_pointwise2 (fun x _ => ~~~ x) (fun x _ => !x) (by intros; simp [*]) a a _ m.isLt]

theorem flipAll_test (a : BitField256) (m : U8) : a.flipAll.test m = !a.test m := not_test a m

theorem andAssign_test (a b : BitField256) (m : U8) :
    (a.andAssign b).test m = (a.test m && b.test m) := by
  have := and_test b a m; rw [and] at this; rw [this, Bool.and_comm]

theorem orAssign_test (a b : BitField256) (m : U8) :
    (a.orAssign b).test m = (a.test m || b.test m) := by
  have := or_test b a m; rw [or] at this; rw [this, Bool.or_comm]

theorem xorAssign_test (a b : BitField256) (m : U8) :
    (a.xorAssign b).test m = (a.test m ^^ b.test m) := by
  have := xor_test b a m; rw [xor] at this; rw [this, Bool.xor_comm]

theorem quad_eq (b : BitField256) (w0 w1 w2 w3 : U64) :
    b = ⟨#v[w0, w1, w2, w3]⟩ ↔ b.bits[0] = w0 ∧ b.bits[1] = w1 ∧ b.bits[2] = w2 ∧ b.bits[3] = w3 := by
  constructor
  · rintro rfl; exact ⟨rfl, rfl, rfl, rfl⟩
  · rintro ⟨h0, h1, h2, h3⟩
    obtain ⟨v⟩ := b
    congr 1
    apply Vector.ext
    intro i hi
    match i, hi with
    | 0, _ => exact h0
    | 1, _ => exact h1
    | 2, _ => exact h2
    | 3, _ => exact h3

theorem none_iff_eq (b : BitField256) : b.none = true ↔ b = default := by
  rw [default, quad_eq]; simp [none, and_assoc]

theorem all_iff_eq (b : BitField256) : b.all = true ↔ b = b.setAll := by
  rw [setAll, quad_eq]; simp [all, and_assoc]

theorem none_iff (b : BitField256) : b.none = true ↔ ∀ m, b.test m = false := by
  rw [none_iff_eq]
  constructor
  · rintro rfl; exact default_test
  · intro h; apply ext_test; intro n; rw [h, default_test]

theorem all_iff (b : BitField256) : b.all = true ↔ ∀ m, b.test m = true := by
  rw [all_iff_eq]
  constructor
  · intro h; rw [h]; exact setAll_test b
  · intro h; apply ext_test; intro n; rw [h, setAll_test]

theorem any_iff (b : BitField256) : b.any = true ↔ ∃ m, b.test m = true := by
  unfold any
  cases h : b.none
  · simp
    by_cases h' : ∃ m, b.test m = true
    · exact h'
    · have : b.none = true := by
        rw [none_iff]; intro m
        cases hm : b.test m
        · rfl
        · exact absurd ⟨m, hm⟩ h'
      rw [this] at h; cases h
  · simp; exact fun m => (none_iff b).1 h m

end BitField256
end Rescan
