import Verif.Proofs.BitField
/-! # Lemmas about `set_range` -/
namespace Rescan.BitField256

theorem low_mask_getLsbD (m j : Nat) (hm : m < 64) :
    ((1#64 <<< m) - 1#64).getLsbD j = decide (j < m) := by
  have h1 : (1#64 <<< m).toNat = 2 ^ m := by
    rw [BitVec.toNat_shiftLeft]
    simp only [BitVec.toNat_ofNat, Nat.one_mod_two_pow_eq_one.2 (show 0 < 64 by decide),
      Nat.shiftLeft_eq, Nat.one_mul]
    exact Nat.mod_eq_of_lt (Nat.pow_lt_pow_right (by decide) hm)
  have hpos : 0 < 2 ^ m := Nat.two_pow_pos m
  have hlt : 2 ^ m < 2 ^ 64 := Nat.pow_lt_pow_right (by decide) hm
  have h2 : ((1#64 <<< m) - 1#64).toNat = 2 ^ m - 1 := by
    rw [BitVec.toNat_sub, h1]
    simp only [BitVec.toNat_ofNat, Nat.reducePow, Nat.reduceMod] at *
    omega
  rw [← BitVec.testBit_toNat, h2, Nat.testBit_two_pow_sub_one]

theorem maskBit_toNat_pos (n : U8) : 1 ≤ (maskBit n).toNat := by
  have h : (maskBit n).getLsbD (n.toNat % 64) = true := by rw [maskBit_getLsbD]; simp
  rcases Nat.eq_zero_or_pos (maskBit n).toNat with h0 | h0
  · rw [← BitVec.testBit_toNat, h0] at h; simp at h
  · exact h0

theorem subChk_maskBit (p : Profile) (n : U8) :
    subChk (ε := CompileError) p (maskBit n) 1#64 = .ok (maskBit n - 1#64) := by
  have := maskBit_toNat_pos n
  unfold subChk
  rw [if_neg]
  simp
  intro _; omega

theorem maskBit_sub_one (n : U8) (j : Nat) :
    (maskBit n - 1#64).getLsbD j = decide (j < n.toNat % 64) := by
  unfold maskBit; rw [mod64_toNat, low_mask_getLsbD _ _ (by omega)]

theorem shl_allOnes_getLsbD (m j : Nat) :
    (allOnes <<< m).getLsbD j = (decide (j < 64) && decide (m ≤ j)) := by
  rw [BitVec.getLsbD_shiftLeft, allOnes_getLsbD]
  by_cases h1 : j < 64 <;> by_cases h2 : j < m <;> simp [h1, h2] <;> omega

theorem modifyWord_ok (b : BitField256) (i : Nat) (f : U64 → U64) (hi : i < 4) :
    ∃ b', b.modifyWord i f = .ok b' ∧ ∀ k, k < 256 → b'.bit k =
      if k / 64 = i then (f b.bits[i]).getLsbD (k % 64) else b.bit k := by
  refine ⟨_, by rw [modifyWord, dif_pos hi], ?_⟩
  intro k hk; exact bit_set b i hi _ k hk

theorem roundUp64 (p : Profile) : ∀ i : Fin 192,
    roundUpN p (BitVec.ofNat 64 i.val) 64#8 = .ok (BitVec.ofNat 64 ((i.val + 63) / 64 * 64)) := by
  cases p <;> decide +kernel

theorem setRangeLoop_ok (to : Nat) (hto : to < 256) : ∀ (fuel : Nat) (b : BitField256) (i : Nat),
    i % 64 = 0 → i ≤ to + 1 → (to + 1 - i) / 64 < fuel →
    ∃ b' i', setRangeLoop fuel b i to = .ok (b', i') ∧ i' % 64 = 0 ∧ i ≤ i' ∧ i' ≤ to + 1 ∧
      to + 1 < i' + 64 ∧
      ∀ k, k < 256 → b'.bit k = (b.bit k || (decide (i ≤ k) && decide (k < i'))) := by
  intro fuel
  induction fuel with
  | zero => intro b i _ _ h; omega
  | succ fuel ih =>
    intro b i hi hle hf
    unfold setRangeLoop
    by_cases hc : i + 64 ≤ to + 1
    · rw [if_pos hc]
      obtain ⟨b1, hb1, hbit1⟩ := modifyWord_ok b (i / 64) (fun _ => allOnes) (by omega)
      obtain ⟨b2, i2, h2, hm, h3, h4, h5, hbit2⟩ := ih b1 (i + 64) (by omega) (by omega) (by omega)
      refine ⟨b2, i2, ?_, hm, by omega, h4, h5, ?_⟩
      · rw [hb1, Outcome.ok_bind, h2]
      · intro k hk
        rw [hbit2 k hk, hbit1 k hk]
        have hk64 : k % 64 < 64 := by omega
        by_cases he : k / 64 = i / 64
        · rw [if_pos he, allOnes_getLsbD]
          have e1 : i ≤ k := by omega
          have e2 : k < i2 := by omega
          simp [hk64, e1, e2]
        · rw [if_neg he]
          have : (decide (i + 64 ≤ k) && decide (k < i2)) = (decide (i ≤ k) && decide (k < i2)) := by
            have : (i + 64 ≤ k) ↔ (i ≤ k) := by omega
            simp [this]
          rw [this]
    · rw [if_neg hc]
      refine ⟨b, i, rfl, hi, Nat.le_refl _, hle, by omega, ?_⟩
      intro k _
      have : (decide (i ≤ k) && decide (k < i)) = false := by simp
      simp [this]

theorem setRange_ok (p : Profile) (b : BitField256) (from_ to : U8) (h : from_ ≤ to) :
    ∃ b', b.setRange p from_ to = .ok b' ∧
      ∀ n : U8, b'.test n = (b.test n || (decide (from_ ≤ n) && decide (n ≤ to))) := by
  have hf := from_.isLt
  have ht := to.isLt
  have hle : from_.toNat ≤ to.toNat := h
  suffices hs : ∃ b', b.setRange p from_ to = .ok b' ∧
      ∀ k, k < 256 → b'.bit k = (b.bit k || (decide (from_.toNat ≤ k) && decide (k ≤ to.toNat))) by
    obtain ⟨b', h1, h2⟩ := hs
    refine ⟨b', h1, fun n => ?_⟩
    rw [test_eq_bit, test_eq_bit, h2 _ n.isLt]; rfl
  unfold setRange
  simp only [rassert, h, decide_true, if_true, Outcome.ok_bind]
  have hdiv : (from_ / 64#8 = to / 64#8) ↔ (from_.toNat / 64 = to.toNat / 64) := by
    rw [← BitVec.toNat_inj]; simp
  by_cases hb : from_.toNat / 64 = to.toNat / 64
  · rw [if_pos (hdiv.2 hb)]
    have hmod : (to % 64#8 ≠ 64#8 - 1#8) ↔ to.toNat % 64 ≠ 63 := by
      rw [Ne, ← BitVec.toNat_inj]; simp
    have hwi : (from_ / 64#8).toNat = from_.toNat / 64 := by simp
    by_cases hm : to.toNat % 64 ≠ 63
    · rw [if_pos (hmod.2 hm)]
      have ha : addChk (ε := CompileError) p to 1#8 = .ok (to + 1#8) := by
        unfold addChk; rw [if_neg]; simp; intro _; omega
      have hto1 : (to + 1#8).toNat = to.toNat + 1 := by
        rw [BitVec.toNat_add]; simp; omega
      simp only [ha, Outcome.ok_bind, subChk_maskBit, Outcome.pure_eq]
      rw [hwi, mod64_toNat]
      obtain ⟨b', h1, h2⟩ := modifyWord_ok b (from_.toNat / 64)
        (fun w => w ||| allOnes <<< (from_.toNat % 64) &&& maskBit (to + 1#8) - 1#64) (by omega)
      refine ⟨b', h1, fun k hk => ?_⟩
      rw [h2 k hk, bit_eq b k hk]
      by_cases he : k / 64 = from_.toNat / 64
      · simp only [he, if_true, BitVec.getLsbD_or, BitVec.getLsbD_and, shl_allOnes_getLsbD,
          maskBit_sub_one, hto1]
        congr 1
        rw [Bool.eq_iff_iff]; simp; omega
      · simp only [if_neg he]
        have : (decide (from_.toNat ≤ k) && decide (k ≤ to.toNat)) = false := by simp; omega
        simp [this]
    · rw [if_neg (fun e => hm (hmod.1 e))]
      simp only [Outcome.ok_bind, Outcome.pure_eq]
      rw [hwi, mod64_toNat]
      obtain ⟨b', h1, h2⟩ := modifyWord_ok b (from_.toNat / 64)
        (fun w => w ||| allOnes <<< (from_.toNat % 64)) (by omega)
      refine ⟨b', h1, fun k hk => ?_⟩
      rw [h2 k hk, bit_eq b k hk]
      by_cases he : k / 64 = from_.toNat / 64
      · simp only [he, if_true, BitVec.getLsbD_or, shl_allOnes_getLsbD]
        congr 1
        rw [Bool.eq_iff_iff]; simp; omega
      · simp only [if_neg he]
        have : (decide (from_.toNat ≤ k) && decide (k ≤ to.toNat)) = false := by simp; omega
        simp [this]
  · rw [if_neg (fun e => hb (hdiv.1 e))]
    -- head
    have hhead : ∃ b1 i1, setRangeHead p b from_.toNat = .ok (b1, i1) ∧
        i1 % 64 = 0 ∧ from_.toNat ≤ i1 ∧ i1 < from_.toNat + 64 ∧
        ∀ k, k < 256 → b1.bit k = (b.bit k || (decide (from_.toNat ≤ k) && decide (k < i1))) := by
      unfold setRangeHead
      by_cases hz : from_.toNat % 64 ≠ 0
      · rw [if_pos hz]
        obtain ⟨b1, h1, h2⟩ := modifyWord_ok b (from_.toNat / 64)
          (fun w => w ||| allOnes <<< (from_.toNat % 64)) (by omega)
        have hr := roundUp64 p ⟨from_.toNat, by omega⟩
        have hr' : (BitVec.ofNat 64 ((from_.toNat + 63) / 64 * 64)).toNat
            = (from_.toNat + 63) / 64 * 64 := by
          rw [BitVec.toNat_ofNat]; apply Nat.mod_eq_of_lt; omega
        refine ⟨b1, (from_.toNat + 63) / 64 * 64, ?_, by omega, by omega, by omega, ?_⟩
        · simp only [h1, Outcome.ok_bind]; rw [hr, Outcome.ok_bind, Outcome.pure_eq, hr']
        · intro k hk
          rw [h2 k hk, bit_eq b k hk]
          by_cases he : k / 64 = from_.toNat / 64
          · simp only [he, if_true, BitVec.getLsbD_or, shl_allOnes_getLsbD]
            congr 1
            rw [Bool.eq_iff_iff]; simp; omega
          · simp only [if_neg he]
            have : (decide (from_.toNat ≤ k) && decide (k < (from_.toNat + 63) / 64 * 64)) = false := by
              simp; omega
            simp [this]
      · rw [if_neg hz]
        refine ⟨b, from_.toNat, rfl, by omega, Nat.le_refl _, by omega, ?_⟩
        intro k hk
        have : (decide (from_.toNat ≤ k) && decide (k < from_.toNat)) = false := by simp
        simp [this]
    obtain ⟨b1, i1, hh, hm1, hl1, hu1, hbit1⟩ := hhead
    rw [hh, Outcome.ok_bind]
    obtain ⟨b2, i2, hl, hm2, hl2, hu2, hu2', hbit2⟩ :=
      setRangeLoop_ok to.toNat ht 5 b1 i1 hm1 (by omega) (by omega)
    simp only [hl, Outcome.ok_bind]
    by_cases ht2 : i2 ≤ to.toNat
    · rw [if_pos ht2]
      have hd : decide (to.toNat - i2 + 1 < 64) = true := by simp; omega
      simp only [rdebugAssert, hd, Bool.true_eq_false, and_false, if_false, Outcome.ok_bind,
        subChk_maskBit]
      obtain ⟨b3, h3, hbit3⟩ := modifyWord_ok b2 (i2 / 64)
        (fun w => w ||| (maskBit (to + 1#8) - 1#64)) (by omega)
      refine ⟨b3, h3, fun k hk => ?_⟩
      have hto1 : (to + 1#8).toNat = to.toNat + 1 := by
        rw [BitVec.toNat_add]; simp; omega
      rw [hbit3 k hk]
      by_cases he : k / 64 = i2 / 64
      · rw [if_pos he]
        have hb2 := hbit2 k hk
        rw [bit_eq b2 k hk, hbit1 k hk] at hb2
        simp only [he] at hb2
        simp only [BitVec.getLsbD_or, maskBit_sub_one, hto1, hb2]
        rw [Bool.eq_iff_iff]; simp only [Bool.or_eq_true, Bool.and_eq_true, decide_eq_true_eq]
        constructor
        · rintro (((h|h)|h)|h)
          · exact .inl h
          · right; omega
          · right; omega
          · right; omega
        · rintro (h|h)
          · exact .inl (.inl (.inl h))
          · right; omega
      · rw [if_neg he, hbit2 k hk, hbit1 k hk]
        rw [Bool.eq_iff_iff]; simp only [Bool.or_eq_true, Bool.and_eq_true, decide_eq_true_eq]
        constructor
        · rintro ((h|h)|h)
          · exact .inl h
          · right; omega
          · right; omega
        · rintro (h|h)
          · exact .inl (.inl h)
          · by_cases k < i1
            · left; right; omega
            · right; omega
    · rw [if_neg ht2]
      refine ⟨b2, rfl, fun k hk => ?_⟩
      rw [hbit2 k hk, hbit1 k hk]
      rw [Bool.eq_iff_iff]; simp only [Bool.or_eq_true, Bool.and_eq_true, decide_eq_true_eq]
      constructor
      · rintro ((h|h)|h)
        · exact .inl h
        · right; omega
        · right; omega
      · rintro (h|h)
        · exact .inl (.inl h)
        · by_cases k < i1
          · left; right; omega
          · right; omega

theorem setRange_panic (p : Profile) (b : BitField256) (from_ to : U8) (h : ¬ from_ ≤ to) :
    b.setRange p from_ to = .panic "`from` is greater than `to`" := by
  unfold setRange
  simp [rassert, h, Outcome.panic_bind]

end Rescan.BitField256
