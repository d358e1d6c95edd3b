import Verif.Proofs.Round
import Verif.Spec.Arith
import Verif.Model.Literal
/-! # C18, C19: rounding helpers and depths -/
namespace Rescan

open Spec

/-! ## C18 -/

/-- C18, full statement for one width and `n = 2^k`: `round_down_n` gives the greatest multiple at or
below, and `round_up_n` the least multiple at or above whenever that computation does not overflow. -/
def RoundingSpec (p : Profile) (w k : Nat) : Prop :=
  ∀ a : BitVec w,
    (∃ r, roundDownN p a (BitVec.ofNat 8 (2 ^ k)) = .ok r ∧ IsFloorMultiple (2 ^ k) a.toNat r.toNat) ∧
    (a.toNat + (2 ^ k - 1) < 2 ^ w →
      ∃ r, roundUpN p a (BitVec.ofNat 8 (2 ^ k)) = .ok r ∧ IsCeilMultiple (2 ^ k) a.toNat r.toNat)

/-- C18 is false of the code for **every** type wider than `u8`, every `n` and both profiles
(witness: the value 256). -/
theorem C18_false (p : Profile) (w k : Nat) (hw : 8 < w) (hk : k < 8) : ¬ RoundingSpec p w k := by
  intro h
  obtain ⟨⟨r, h1, h2⟩, -⟩ := h (BitVec.ofNat w 256)
  obtain ⟨r', h3, h4⟩ := roundDownN_val p (by omega) (BitVec.ofNat w 256) k hk
  rw [h1] at h3
  injection h3 with h3
  subst h3
  have hpos : 0 < 2 ^ k := Nat.two_pow_pos k
  have h256 : (BitVec.ofNat w 256).toNat = 256 := by
    rw [BitVec.toNat_ofNat]
    apply Nat.mod_eq_of_lt
    calc 256 < 2 ^ 9 := by decide
      _ ≤ 2 ^ w := Nat.pow_le_pow_right (by decide) (by omega)
  rw [isFloorMultiple_iff hpos, h256] at h2
  rw [h256] at h4
  have : ∀ k, k < 8 → 256 / 2 ^ k * 2 ^ k = 256 := by decide
  rw [this k hk] at h2 h4
  omega

example : ¬ RoundingSpec .release 64 4 := C18_false _ _ _ (by decide) (by decide)

/-- C18 for `u8`: the full statement. -/
theorem C18_u8 (p : Profile) (k : Nat) (hk : k < 8) : RoundingSpec p 8 k := by
  intro a
  have hpos : 0 < 2 ^ k := Nat.two_pow_pos k
  constructor
  · obtain ⟨r, h1, h2⟩ := roundDownN_val p (Nat.le_refl 8) a k hk
    refine ⟨r, h1, ?_⟩
    rw [isFloorMultiple_iff hpos, h2]
    have := Nat.div_mul_le_self a.toNat (2 ^ k)
    have := a.isLt
    exact Nat.mod_eq_of_lt (by omega)
  · intro hlt
    obtain ⟨r, h1, h2⟩ := roundUpN_val p (Nat.le_refl 8) a k hk (Or.inr hlt)
    refine ⟨r, h1, ?_⟩
    rw [isCeilMultiple_iff hpos, h2]
    have := Nat.div_mul_le_self (a.toNat + (2 ^ k - 1)) (2 ^ k)
    exact Nat.mod_eq_of_lt (by omega)

example (p : Profile) : RoundingSpec p 8 4 := C18_u8 p 4 (by decide)

/-- C18, what holds at every width: the result is the right one reduced modulo 256 (missing: the
right one itself, which is returned iff it is below 256).  Release builds never panic; debug builds
panic exactly when the intermediate sum overflows. -/
theorem C18_rounding_partial (p : Profile) (w k : Nat) (hw : 8 ≤ w) (hk : k < 8) (a : BitVec w) :
    (∃ r m, roundDownN p a (BitVec.ofNat 8 (2 ^ k)) = .ok r ∧ IsFloorMultiple (2 ^ k) a.toNat m ∧
      r.toNat = m % 256) ∧
    (p = .release ∨ a.toNat + (2 ^ k - 1) < 2 ^ w →
      ∃ r m, roundUpN p a (BitVec.ofNat 8 (2 ^ k)) = .ok r ∧ IsCeilMultiple (2 ^ k) a.toNat m ∧
        r.toNat = m % 256) ∧
    (p = .debug → 2 ^ w ≤ a.toNat + (2 ^ k - 1) →
      (roundUpN p a (BitVec.ofNat 8 (2 ^ k))).isPanic = true) := by
  have hpos : 0 < 2 ^ k := Nat.two_pow_pos k
  refine ⟨?_, ?_, ?_⟩
  · obtain ⟨r, h1, h2⟩ := roundDownN_val p hw a k hk
    exact ⟨r, _, h1, (isFloorMultiple_iff hpos).2 rfl, h2⟩
  · intro h
    obtain ⟨r, h1, h2⟩ := roundUpN_val p hw a k hk h
    exact ⟨r, _, h1, (isCeilMultiple_iff hpos).2 rfl, h2⟩
  · rintro rfl h
    rw [roundUpN_overflow hw a k hk h]; rfl

example : (BitVec.ofNat 64 200).toNat + (2 ^ 4 - 1) < 2 ^ 64 ∧
    roundUpN .debug (BitVec.ofNat 64 200) 16#8 = .ok 208#64 ∧
    roundUpN .debug (BitVec.ofNat 64 250) 16#8 = .ok 0#64 := by decide

/-- C18: the fixed-size helpers are the general ones at 16 and 64. -/
theorem C18_fixed (p : Profile) (w : Nat) (a : BitVec w) :
    roundUp16 p a = roundUpN p a 16#8 ∧ roundDownN p a 16#8 = .ok (roundDown16 a) ∧
    roundUpCacheLine p a = roundUpN p a 64#8 :=
  ⟨roundUp16_eq p a, roundDown16_eq p a, roundUpCacheLine_eq p a⟩

/-- C18, any other `n`: powers of two are needed.  If `n` is none, `round_down_n` rounds `n` itself down to less
and `round_up_n` gives less than `n` for 1; and for 0 debug builds panic and release builds return 0. -/
theorem C18_other_n (p : Profile) (w : Nat) (hw : 8 ≤ w) (n : U8) :
    ((¬ ∃ k, n.toNat = 2 ^ k) → n ≠ 0#8 →
      (∃ r, roundDownN p (n.setWidth w) n = .ok r ∧ r.toNat < n.toNat) ∧
      (∃ r, roundUpN p (1#w) n = .ok r ∧ r.toNat < n.toNat)) ∧
    (n = 0#8 → ∀ a : BitVec w,
      (p = .release → roundDownN p a n = .ok 0#w ∧ roundUpN p a n = .ok 0#w) ∧
      (p = .debug → (roundDownN p a n).isPanic = true ∧ (roundUpN p a n).isPanic = true)) := by
  have key : ∀ n : U8, n ≠ 0#8 → (n &&& ~~~(n - 1#8)).toNat < n.toNat ∨ ∃ k : Fin 8, n.toNat = 2 ^ k.val := by
    decide +kernel
  have h256 : 2 ^ 8 ≤ 2 ^ w := Nat.pow_le_pow_right (by decide) hw
  refine ⟨fun hn h0 => ?_, ?_⟩
  · have hlow : (n &&& ~~~(n - 1#8)).toNat < n.toNat := by
      rcases key n h0 with h | ⟨k, hk⟩
      · exact h
      · exact absurd ⟨k.val, hk⟩ hn
    have hn1 : 1 ≤ n.toNat := by
      rcases Nat.eq_zero_or_pos n.toNat with h | h
      · exact absurd (BitVec.eq_of_toNat_eq (by simpa using h)) h0
      · exact h
    have hsub : subChk (ε := CompileError) p n 1#8 = .ok (n - 1#8) := by
      unfold subChk
      rw [if_neg]
      rintro ⟨_, h⟩
      simp at h; omega
    have hnat : (n - 1#8).toNat = n.toNat - 1 := by
      rw [BitVec.toNat_sub]
      have := n.isLt
      simp; omega
    have hb := n.isLt
    have hres : (n.setWidth w &&& (~~~(n - 1#8)).setWidth w).toNat = (n &&& ~~~(n - 1#8)).toNat := by
      rw [← BitVec.setWidth_and, BitVec.toNat_setWidth, Nat.mod_eq_of_lt]
      exact Nat.lt_of_lt_of_le (BitVec.isLt _) h256
    refine ⟨⟨n.setWidth w &&& (~~~(n - 1#8)).setWidth w, ?_, by rw [hres]; exact hlow⟩,
      ⟨n.setWidth w &&& (~~~(n - 1#8)).setWidth w, ?_, by rw [hres]; exact hlow⟩⟩
    · show Outcome.bind (subChk p n 1#8) _ = _
      rw [hsub]; rfl
    · show Outcome.bind (subChk p n 1#8) _ = _
      rw [hsub]
      show Outcome.bind (addChk p 1#w ((n - 1#8).setWidth w)) _ = _
      have h1w : (1#w).toNat = 1 := by
        rw [BitVec.toNat_ofNat, Nat.mod_eq_of_lt]
        exact Nat.lt_of_lt_of_le (by decide) h256
      have hsw : ((n - 1#8).setWidth w).toNat = n.toNat - 1 := by
        rw [BitVec.toNat_setWidth, hnat, Nat.mod_eq_of_lt]
        omega
      have hadd : addChk (ε := CompileError) p (1#w) ((n - 1#8).setWidth w) = .ok (n.setWidth w) := by
        unfold addChk
        rw [if_neg]
        · congr 1
          apply BitVec.eq_of_toNat_eq
          rw [BitVec.toNat_add, h1w, hsw, BitVec.toNat_setWidth]
          congr 1; omega
        · rintro ⟨_, h⟩
          rw [h1w, hsw] at h; omega
      rw [hadd]; rfl
  · rintro rfl a
    have hz : (0#8).toNat < (1#8).toNat := by decide
    refine ⟨?_, ?_⟩
    · rintro rfl
      have : ∀ x : BitVec w, x &&& (~~~(0#8 - 1#8)).setWidth w = 0#w := by
        intro x
        have : (~~~(0#8 - 1#8)) = 0#8 := by decide
        rw [this]; simp
      refine ⟨?_, ?_⟩
      · show Outcome.ok _ = _
        rw [this]
      · show Outcome.ok _ = _
        rw [this]
    · rintro rfl
      exact ⟨rfl, rfl⟩

example : (¬ ∃ k, (12#8).toNat = 2 ^ k) ∧ roundDownN .debug 12#64 12#8 = .ok 4#64 ∧
    roundUpN .debug 1#64 12#8 = .ok 4#64 ∧ roundDownN .release 77#64 0#8 = .ok 0#64 := by
  refine ⟨?_, by decide, by decide, by decide⟩
  rintro ⟨k, h⟩
  have hk : k < 4 := by
    rcases Nat.lt_or_ge k 4 with h' | h'
    · exact h'
    · have := Nat.pow_le_pow_right (show 0 < 2 by decide) h'
      simp at h this; omega
  have : k = 0 ∨ k = 1 ∨ k = 2 ∨ k = 3 := by omega
  rcases this with rfl | rfl | rfl | rfl <;> simp at h

/-- Rounding down and reducing modulo 256 does not see multiples of `2^w`. -/
private theorem round_shift (x q : Int) (w k : Nat) (hw : 8 ≤ w) (hk : k < 8) :
    ((x - q * 2 ^ w) / 2 ^ k * 2 ^ k) % 256 = (x / 2 ^ k * 2 ^ k) % 256 := by
  obtain ⟨d, rfl⟩ : ∃ d, w = 8 + d := ⟨w - 8, by omega⟩
  obtain ⟨e, he⟩ : ∃ e, 8 = k + e := ⟨8 - k, by omega⟩
  have h1 : (2 : Int) ^ (8 + d) = 256 * 2 ^ d := by rw [Int.pow_add]; rfl
  have h2 : (256 : Int) = 2 ^ k * 2 ^ e := by rw [← Int.pow_add, ← he]; rfl
  have hpos : (0 : Int) < 2 ^ k := Int.pow_pos (by decide)
  have h3 : x - q * 2 ^ (8 + d) = x + (-(q * 2 ^ e * 2 ^ d)) * 2 ^ k := by
    rw [h1, h2]
    have : q * (2 ^ k * 2 ^ e * 2 ^ d) = (q * 2 ^ e * 2 ^ d) * 2 ^ k := by
      simp only [Int.mul_comm, Int.mul_left_comm, Int.mul_assoc]
    rw [this, Int.neg_mul]
    omega
  rw [h3, Int.add_mul_ediv_right _ _ (by omega), Int.add_mul]
  have h4 : -(q * 2 ^ e * 2 ^ d) * 2 ^ k = 256 * (-(q * 2 ^ d)) := by
    rw [h2]
    simp only [Int.neg_mul, Int.mul_neg, Int.mul_comm, Int.mul_left_comm, Int.mul_assoc]
  rw [h4, Int.add_mul_emod_self_left]

private theorem floor_mod (x : Int) (k : Nat) :
    (2 ^ k : Int) ∣ x / 2 ^ k * 2 ^ k ∧ x / 2 ^ k * 2 ^ k ≤ x ∧ x < x / 2 ^ k * 2 ^ k + 2 ^ k := by
  have hpos : (0 : Int) < 2 ^ k := Int.pow_pos (by decide)
  have h1 := Int.mul_ediv_add_emod x (2 ^ k)
  have h2 := Int.emod_nonneg x (Int.ne_of_gt hpos)
  have h3 := Int.emod_lt_of_pos x hpos
  rw [Int.mul_comm] at h1
  exact ⟨⟨_, Int.mul_comm _ _⟩, by omega, by omega⟩

private theorem small_toInt {w : Nat} (hw : 16 ≤ w) (r : BitVec w) (h : r.toNat < 256) : r.toInt = (r.toNat : Int) := by
  apply BitVec.toInt_eq_toNat_of_lt
  have : 2 ^ 16 ≤ 2 ^ w := Nat.pow_le_pow_right (by decide) hw
  omega

private theorem toInt_shift {w : Nat} (a : BitVec w) : ∃ q : Int, (a.toInt = (a.toNat : Int) - q * 2 ^ w) := by
  rw [BitVec.toInt_eq_toNat_cond]
  split
  · exact ⟨0, by omega⟩
  · exact ⟨1, by simp⟩

/-- C18 for the signed types (from 16 bits on; `i8` has no `From<u8>`): again the right multiple modulo 256, so that
no negative number is ever rounded down rightly.  Release builds never panic; debug builds panic exactly when the
intermediate sum exceeds the greatest number. -/
theorem C18_signed_partial (p : Profile) (w k : Nat) (hw : 16 ≤ w) (hk : k < 8) (a : BitVec w) :
    (∃ r m, roundDownN p a (BitVec.ofNat 8 (2 ^ k)) = .ok r ∧ (2 ^ k ∣ m ∧ m ≤ a.toInt ∧ a.toInt < m + 2 ^ k) ∧
      r.toInt = m % 256) ∧
    (p = .release ∨ a.toInt + (2 ^ k - 1) < 2 ^ (w - 1) →
      ∃ r m, roundUpNSigned p a (BitVec.ofNat 8 (2 ^ k)) = .ok r ∧
        (2 ^ k ∣ m ∧ a.toInt ≤ m ∧ m < a.toInt + 2 ^ k) ∧ r.toInt = m % 256) ∧
    (p = .debug → 2 ^ (w - 1) ≤ a.toInt + (2 ^ k - 1) →
      (roundUpNSigned p a (BitVec.ofNat 8 (2 ^ k))).isPanic = true) := by
  have h256 : 2 ^ 16 ≤ 2 ^ w := Nat.pow_le_pow_right (by decide) hw
  have hn : ((BitVec.ofNat 8 (2 ^ k - 1)).setWidth w).toNat = 2 ^ k - 1 := by
    rw [setWidth_toNat _ _ (by omega), toNat_pow_sub k hk]
  have hk7 : 2 ^ k ≤ 2 ^ 7 := Nat.pow_le_pow_right (by decide) (by omega)
  have hk1 : 1 ≤ 2 ^ k := Nat.two_pow_pos k
  have hcast : ((2 ^ k - 1 : Nat) : Int) = 2 ^ k - 1 := by
    rw [Int.natCast_sub hk1]; simp
  have hni : ((BitVec.ofNat 8 (2 ^ k - 1)).setWidth w).toInt = 2 ^ k - 1 := by
    rw [small_toInt hw _ (by omega), hn, hcast]
  have hlow : -(2 : Int) ^ (w - 1) ≤ a.toInt := BitVec.le_toInt a
  have hposk : (0 : Int) < 2 ^ k := Int.pow_pos (by decide)
  obtain ⟨q, hq⟩ := toInt_shift a
  refine ⟨?_, ?_, ?_⟩
  · obtain ⟨r, h1, h2⟩ := roundDownN_val p (by omega) a k hk
    refine ⟨r, a.toInt / 2 ^ k * 2 ^ k, h1, floor_mod _ _, ?_⟩
    rw [small_toInt hw r (by omega), h2, hq, round_shift _ _ _ _ (by omega) hk]
    simp
  · intro h
    have hr : roundUpNSigned p a (BitVec.ofNat 8 (2 ^ k))
        = .ok ((a + (BitVec.ofNat 8 (2 ^ k - 1)).setWidth w) &&& ((~~~ (BitVec.ofNat 8 (2 ^ k - 1))).setWidth w)) := by
      unfold roundUpNSigned
      rw [pow_sub_one p k hk, Outcome.ok_bind]
      unfold addSignedChk
      rw [hni, if_neg]
      · rfl
      · rintro ⟨h1, h2⟩
        rcases h with h | h
        · rw [h] at h1; cases h1
        · omega
    have hv : ((a + (BitVec.ofNat 8 (2 ^ k - 1)).setWidth w) &&&
        ((~~~ (BitVec.ofNat 8 (2 ^ k - 1))).setWidth w)).toNat = (a.toNat + (2 ^ k - 1)) / 2 ^ k * 2 ^ k % 256 := by
      rw [BitVec.toNat_and, maskAnd _ _ _ hk (by omega), BitVec.toNat_add, hn, two_pow_dvd_mod _ _ _ (by omega) hk]
    obtain ⟨g1, g2, g3⟩ := floor_mod (a.toInt + (2 ^ k - 1)) k
    refine ⟨_, (a.toInt + (2 ^ k - 1)) / 2 ^ k * 2 ^ k, hr, ⟨g1, by omega, by omega⟩, ?_⟩
    rw [small_toInt hw _ (by rw [hv]; omega), hv, hq]
    have : (a.toNat : Int) - q * 2 ^ w + (2 ^ k - 1) = (a.toNat + (2 ^ k - 1)) - q * 2 ^ w := by omega
    rw [this, round_shift _ _ _ _ (by omega) hk]
    rw [← hcast]
    simp
  · rintro rfl h
    unfold roundUpNSigned
    rw [pow_sub_one .debug k hk, Outcome.ok_bind]
    unfold addSignedChk
    rw [hni, if_pos ⟨rfl, .inr h⟩]
    rfl

example : roundDownN .debug (BitVec.ofInt 32 (-5)) 16#8 = .ok (BitVec.ofInt 32 240) ∧
    roundUpNSigned .debug (BitVec.ofInt 32 (-5)) 16#8 = .ok 0#32 ∧
    roundUpNSigned .debug (BitVec.ofInt 32 300) 16#8 = .ok (BitVec.ofInt 32 48) ∧
    (roundUpNSigned .debug (BitVec.ofInt 16 32767) 16#8).isPanic = true ∧
    (BitVec.ofInt 32 (-5)).toInt + (2 ^ 4 - 1) < 2 ^ (32 - 1) := by decide

/-! ## C19 -/

/-- C19: which lengths are depths, and that conversion keeps the order; infinity is above. -/
theorem C19_conversion (a b : Nat) :
    ((Depth.tryFrom a).isSome = true ↔ a ≤ 2 ^ 31 - 2) ∧
    (∀ x y, Depth.tryFrom a = some x → Depth.tryFrom b = some y →
      x.cmp y = compare a b ∧ (x.eq y = true ↔ a = b) ∧ x.cmp Depth.infinity = .lt) := by
  unfold Depth.tryFrom
  refine ⟨?_, ?_⟩
  · have : Depth.maxValue = 2 ^ 31 - 2 := rfl
    rw [this]
    by_cases h : a ≤ 2 ^ 31 - 2
    · rw [if_pos h]; simp [h]
    · rw [if_neg h]; simp at h ⊢; exact h
  · intro x y hx hy
    have hm : Depth.maxValue < Depth.infinityVal := by decide
    split at hx
    · next h1 =>
      split at hy
      · injection hx with hx; injection hy with hy
        subst hx; subst hy
        refine ⟨rfl, by simp [Depth.eq], ?_⟩
        unfold Depth.cmp Depth.infinity
        rw [Nat.compare_eq_lt]; exact Nat.lt_of_le_of_lt h1 hm
      · cases hy
    · cases hx

example : Depth.tryFrom 3 = some ⟨3⟩ ∧ Depth.tryFrom (2 ^ 31 - 2) = some ⟨2 ^ 31 - 2⟩ ∧
    (⟨3⟩ : Depth).cmp ⟨2 ^ 31 - 2⟩ = .lt := by decide

/-- C19: the minimum is one of the two and not above either. -/
theorem C19_min (x y : Depth) :
    (x.min y = x ∨ x.min y = y) ∧ (x.min y).cmp x ≠ .gt ∧ (x.min y).cmp y ≠ .gt := by
  unfold Depth.min Depth.cmp
  by_cases h : compare x.val y.val = .gt
  · rw [if_pos h]
    rw [Nat.compare_eq_gt] at h
    refine ⟨Or.inr rfl, ?_, ?_⟩
    · rw [Ne, Nat.compare_eq_gt]; omega
    · rw [Ne, Nat.compare_eq_gt]; omega
  · rw [if_neg h]
    refine ⟨Or.inl rfl, ?_, h⟩
    rw [Ne, Nat.compare_eq_gt]; omega

example : (Depth.tryFrom (2 ^ 31 - 2)).isSome = true ∧ Depth.tryFrom (2 ^ 31 - 1) = none ∧
    (⟨3⟩ : Depth).min ⟨5⟩ = ⟨3⟩ := by decide

end Rescan
