import Verif.Model.Common
import Verif.Proofs.BitField
/-! # Arithmetic of the rounding helpers -/
namespace Rescan

theorem testBit_mul_pow (x k i : Nat) :
    (x / 2 ^ k * 2 ^ k).testBit i = (decide (k ≤ i) && x.testBit i) := by
  rw [Nat.testBit_mul_two_pow]
  by_cases h : k ≤ i
  · simp only [h, decide_true, Bool.true_and]
    rw [Nat.testBit_div_two_pow, Nat.sub_add_cancel h]
  · simp [h]

/-- The mask `!(2^k - 1)` taken at 8 bits. -/
theorem maskAnd (x k w : Nat) (hk : k < 8) (hw : 8 ≤ w) :
    x &&& ((~~~ (BitVec.ofNat 8 (2 ^ k - 1))).setWidth w).toNat = x / 2 ^ k * 2 ^ k % 256 := by
  apply Nat.eq_of_testBit_eq
  intro i
  have hmask : ∀ k, k < 8 → ∀ i, i < 8 →
      (~~~ (BitVec.ofNat 8 (2 ^ k - 1))).getLsbD i = decide (k ≤ i) := by decide
  rw [Nat.testBit_and, BitVec.testBit_toNat, BitVec.getLsbD_setWidth,
    show (256 : Nat) = 2 ^ 8 from rfl, Nat.testBit_mod_two_pow, testBit_mul_pow]
  by_cases hi : i < 8
  · rw [hmask k hk i hi]
    have : i < w := by omega
    simp [hi, this, Bool.and_comm]
  · rw [BitVec.getLsbD_of_ge _ _ (by omega)]; simp [hi]

theorem toNat_pow_sub (k : Nat) (hk : k < 8) : (BitVec.ofNat 8 (2 ^ k - 1)).toNat = 2 ^ k - 1 := by
  revert k; decide

theorem setWidth_toNat (x : U8) (w : Nat) (hw : 8 ≤ w) : (x.setWidth w).toNat = x.toNat := by
  rw [BitVec.toNat_setWidth]
  apply Nat.mod_eq_of_lt
  calc x.toNat < 2 ^ 8 := x.isLt
    _ ≤ 2 ^ w := Nat.pow_le_pow_right (by decide) hw

theorem pow_sub_one (p : Profile) (k : Nat) (hk : k < 8) :
    subChk (ε := CompileError) p (BitVec.ofNat 8 (2 ^ k)) 1#8 = .ok (BitVec.ofNat 8 (2 ^ k - 1)) := by
  revert k; cases p <;> decide

theorem two_pow_dvd_mod (x k w : Nat) (hw : 8 ≤ w) (hk : k < 8) :
    (x % 2 ^ w) / 2 ^ k * 2 ^ k % 256 = x / 2 ^ k * 2 ^ k % 256 := by
  apply Nat.eq_of_testBit_eq
  intro i
  rw [show (256 : Nat) = 2 ^ 8 from rfl, Nat.testBit_mod_two_pow, Nat.testBit_mod_two_pow,
    testBit_mul_pow, testBit_mul_pow, Nat.testBit_mod_two_pow]
  by_cases hi : i < 8
  · have : i < w := by omega
    simp [this]
  · simp [hi]

theorem roundDownN_val (p : Profile) {w : Nat} (hw : 8 ≤ w) (a : BitVec w) (k : Nat) (hk : k < 8) :
    ∃ r, roundDownN p a (BitVec.ofNat 8 (2 ^ k)) = .ok r ∧ r.toNat = a.toNat / 2 ^ k * 2 ^ k % 256 := by
  refine ⟨a &&& ((~~~ (BitVec.ofNat 8 (2 ^ k - 1))).setWidth w), ?_, ?_⟩
  · unfold roundDownN; rw [pow_sub_one p k hk]; rfl
  · rw [BitVec.toNat_and, maskAnd _ _ _ hk hw]

theorem roundUpN_val (p : Profile) {w : Nat} (hw : 8 ≤ w) (a : BitVec w) (k : Nat) (hk : k < 8)
    (h : p = .release ∨ a.toNat + (2 ^ k - 1) < 2 ^ w) :
    ∃ r, roundUpN p a (BitVec.ofNat 8 (2 ^ k)) = .ok r ∧
      r.toNat = (a.toNat + (2 ^ k - 1)) / 2 ^ k * 2 ^ k % 256 := by
  have hn : ((BitVec.ofNat 8 (2 ^ k - 1)).setWidth w).toNat = 2 ^ k - 1 := by
    rw [setWidth_toNat _ _ hw, toNat_pow_sub k hk]
  refine ⟨(a + (BitVec.ofNat 8 (2 ^ k - 1)).setWidth w) &&&
    ((~~~ (BitVec.ofNat 8 (2 ^ k - 1))).setWidth w), ?_, ?_⟩
  · unfold roundUpN
    rw [pow_sub_one p k hk, Outcome.ok_bind]
    unfold addChk
    rw [hn, if_neg]
    · rfl
    · rintro ⟨h1, h2⟩
      rcases h with h | h
      · rw [h] at h1; cases h1
      · omega
  · rw [BitVec.toNat_and, maskAnd _ _ _ hk hw, BitVec.toNat_add, hn, two_pow_dvd_mod _ _ _ hw hk]

theorem roundUpN_overflow {w : Nat} (hw : 8 ≤ w) (a : BitVec w) (k : Nat) (hk : k < 8)
    (h : 2 ^ w ≤ a.toNat + (2 ^ k - 1)) :
    roundUpN .debug a (BitVec.ofNat 8 (2 ^ k)) = .panic "attempt to add with overflow" := by
  have hn : ((BitVec.ofNat 8 (2 ^ k - 1)).setWidth w).toNat = 2 ^ k - 1 := by
    rw [setWidth_toNat _ _ hw, toNat_pow_sub k hk]
  unfold roundUpN
  rw [pow_sub_one .debug k hk, Outcome.ok_bind]
  unfold addChk
  rw [hn, if_pos ⟨rfl, h⟩]; rfl

theorem roundUp16_eq (p : Profile) {w : Nat} (a : BitVec w) : roundUp16 p a = roundUpN p a 16#8 := by
  have : subChk (ε := CompileError) p 16#8 1#8 = .ok 0x0f#8 := by cases p <;> decide
  unfold roundUp16 roundUpN; rw [this]; rfl
theorem roundUpCacheLine_eq (p : Profile) {w : Nat} (a : BitVec w) :
    roundUpCacheLine p a = roundUpN p a 64#8 := by
  have : subChk (ε := CompileError) p 64#8 1#8 = .ok 0x3f#8 := by cases p <;> decide
  unfold roundUpCacheLine roundUpN; rw [this]; rfl
theorem roundDown16_eq (p : Profile) {w : Nat} (a : BitVec w) :
    roundDownN p a 16#8 = .ok (roundDown16 a) := by
  have : subChk (ε := CompileError) p 16#8 1#8 = .ok 0x0f#8 := by cases p <;> decide
  unfold roundDown16 roundDownN; rw [this]; rfl

end Rescan
