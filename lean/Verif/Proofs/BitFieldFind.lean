import Verif.Proofs.BitField
/-! # Lemmas about `count` and the `find_*` functions -/
namespace Rescan.BitField256

/-! ## Bits of a word -/

theorem exists_bit_of_ne_zero {w : U64} (h : w ≠ 0#64) : ∃ j, j < 64 ∧ w.getLsbD j = true := by
  by_cases hx : ∃ j, j < 64 ∧ w.getLsbD j = true
  · exact hx
  · exfalso; apply h
    apply BitVec.eq_of_getLsbD_eq
    intro i hi
    cases hc : w.getLsbD i
    · simp
    · exact absurd ⟨i, hi, hc⟩ hx

theorem ne_zero_of_bit {w : U64} {j : Nat} (h : w.getLsbD j = true) : w ≠ 0#64 := by
  rintro rfl; simp at h

theorem find_range_spec (f : Nat → Bool) (n : Nat) :
    match (List.range n).find? f with
    | some x => x < n ∧ f x = true ∧ ∀ j, j < x → f j = false
    | .none => ∀ j, j < n → f j = false := by
  split
  · next x h =>
    rw [List.find?_range_eq_some] at h
    refine ⟨List.mem_range.1 h.2.1, h.1, fun j hj => ?_⟩
    have := h.2.2 j hj
    simpa using this
  · next h =>
    intro j hj
    rw [List.find?_range_eq_none] at h
    simpa using h j hj

theorem trailingZeros_spec {w : U64} (h : w ≠ 0#64) :
    trailingZeros w < 64 ∧ w.getLsbD (trailingZeros w) = true ∧
      ∀ j, j < trailingZeros w → w.getLsbD j = false := by
  have hs := find_range_spec (fun i => w.getLsbD i) 64
  unfold trailingZeros
  split at hs
  · next x hx => rw [hx]; exact hs
  · obtain ⟨j, hj, hb⟩ := exists_bit_of_ne_zero h
    rw [hs j hj] at hb; cases hb

theorem leadingZeros_spec {w : U64} (h : w ≠ 0#64) :
    leadingZeros w < 64 ∧ w.getLsbD (63 - leadingZeros w) = true ∧
      ∀ j, j < 64 → 63 - leadingZeros w < j → w.getLsbD j = false := by
  have hs := find_range_spec (fun i => w.getLsbD (63 - i)) 64
  unfold leadingZeros
  split at hs
  · next x hx =>
    rw [hx]
    refine ⟨hs.1, hs.2.1, fun j hj hlt => ?_⟩
    have hx64 := hs.1
    simp only [Option.getD_some] at hlt
    have := hs.2.2 (63 - j) (by omega)
    rwa [show 63 - (63 - j) = j by omega] at this
  · obtain ⟨j, hj, hb⟩ := exists_bit_of_ne_zero h
    have := hs (63 - j) (by omega)
    rw [show 63 - (63 - j) = j by omega, hb] at this; cases this

/-! ## Words -/

/-- Word `i`. -/
def word (b : BitField256) (i : Nat) : U64 := b.bits[i]?.getD 0#64

theorem bit_word (b : BitField256) (i j : Nat) (hj : j < 64) :
    b.bit (64 * i + j) = (b.word i).getLsbD j := by
  unfold bit word
  rw [show (64 * i + j) / 64 = i by omega, show (64 * i + j) % 64 = j by omega]

theorem bit_word' (b : BitField256) (k : Nat) : b.bit k = (b.word (k / 64)).getLsbD (k % 64) := rfl

theorem words_drop (b : BitField256) (d : Nat) (h : d < 4) :
    b.words.drop d = (d, b.word d) :: b.words.drop (d + 1) := by
  match d, h with
  | 0, _ => rfl
  | 1, _ => rfl
  | 2, _ => rfl
  | 3, _ => rfl

/-- `r` is the least set bit at or above `lo`. -/
def LeastGE (b : BitField256) (lo : Nat) : Option U8 → Prop
  | Option.none => ∀ k, lo ≤ k → b.bit k = false
  | some x => lo ≤ x.toNat ∧ b.bit x.toNat = true ∧ ∀ k, lo ≤ k → k < x.toNat → b.bit k = false

theorem toNat_pos (i t : Nat) (hi : i < 4) (ht : t < 64) :
    (BitVec.ofNat 8 i * 64#8 + BitVec.ofNat 8 t).toNat = 64 * i + t := by
  simp only [BitVec.toNat_add, BitVec.toNat_mul, BitVec.toNat_ofNat, Nat.reducePow, Nat.reduceMod]
  omega

theorem firstIn_drop (b : BitField256) : ∀ m d, m + d = 4 →
    LeastGE b (64 * d) (firstIn (b.words.drop d)) := by
  intro m
  induction m with
  | zero =>
    intro d hd
    have : d = 4 := by omega
    subst this
    have : b.words.drop 4 = [] := rfl
    rw [this]
    intro k hk
    exact bit_ge b k (by omega)
  | succ m ih =>
    intro d hd
    rw [words_drop b d (by omega)]
    unfold firstIn
    by_cases hw : b.word d ≠ 0#64
    · rw [if_pos hw]
      obtain ⟨h1, h2, h3⟩ := trailingZeros_spec hw
      dsimp only [LeastGE]
      rw [toNat_pos d _ (by omega) h1]
      refine ⟨by omega, ?_, ?_⟩
      · rw [bit_word _ _ _ h1, h2]
      · intro k hk hlt
        have := h3 (k % 64) (by omega)
        rw [bit_word', show k / 64 = d by omega]
        exact this
    · rw [if_neg hw]
      have hw0 : b.word d = 0#64 := by simpa using hw
      have hzero : ∀ k, 64 * d ≤ k → k < 64 * (d + 1) → b.bit k = false := by
        intro k h1 h2
        rw [bit_word', show k / 64 = d by omega, hw0]; simp
      have := ih (d + 1) (by omega)
      revert this
      cases firstIn (b.words.drop (d + 1)) with
      | none =>
        intro h k hk
        by_cases hlt : k < 64 * (d + 1)
        · exact hzero k hk hlt
        · exact h k (by omega)
      | some x =>
        rintro ⟨h1, h2, h3⟩
        refine ⟨by omega, h2, fun k hk hlt => ?_⟩
        by_cases hlt' : k < 64 * (d + 1)
        · exact hzero k hk hlt'
        · exact h3 k (by omega) hlt

theorem findFirst_spec (b : BitField256) : LeastGE b 0 b.findFirst := firstIn_drop b 4 0 rfl

theorem shl_allOnes_getLsbD' (m j : Nat) :
    (allOnes <<< m).getLsbD j = (decide (j < 64) && decide (m ≤ j)) := by
  rw [BitVec.getLsbD_shiftLeft, allOnes_getLsbD]
  by_cases h1 : j < 64 <;> by_cases h2 : j < m <;> simp [h1, h2] <;> omega

theorem word_getWord (b : BitField256) (n : U8) :
    b.bits[(getWord n).toNat]'(getWord_lt n) = b.word (n.toNat / 64) := by
  have h4 : n.toNat / 64 < 4 := by have := n.isLt; omega
  unfold word
  rw [Vector.getElem?_eq_getElem h4]
  simp only [toNat_getWord]; rfl

theorem findNext_spec (b : BitField256) (last : U8) : LeastGE b (last.toNat + 1) (b.findNext last) := by
  have hl := last.isLt
  unfold findNext
  dsimp only
  rw [word_getWord]
  simp only [toNat_getWord]
  have hrest := firstIn_drop b (4 - (last.toNat / 64 + 1)) (last.toNat / 64 + 1) (by omega)
  have hcond : (last % 64#8 ≠ 64#8 - 1#8) ↔ last.toNat % 64 ≠ 63 := by
    rw [Ne, ← BitVec.toNat_inj]; simp
  have hsh : last.toNat % 64 ≠ 63 → (last % 64#8 + 1#8).toNat = last.toNat % 64 + 1 := by
    intro h
    rw [BitVec.toNat_add, mod64_toNat]; simp only [BitVec.toNat_ofNat, Nat.reducePow, Nat.reduceMod]
    omega
  -- the tail result is right whenever the current word has nothing left
  have htail : (∀ k, last.toNat + 1 ≤ k → k < 64 * (last.toNat / 64 + 1) → b.bit k = false) →
      LeastGE b (last.toNat + 1) (firstIn (b.words.drop (last.toNat / 64 + 1))) := by
    intro hz
    revert hrest
    cases firstIn (b.words.drop (last.toNat / 64 + 1)) with
    | none =>
      intro h k hk
      by_cases hlt : k < 64 * (last.toNat / 64 + 1)
      · exact hz k hk hlt
      · exact h k (by omega)
    | some x =>
      rintro ⟨h1, h2, h3⟩
      refine ⟨by omega, h2, fun k hk hlt => ?_⟩
      by_cases hlt' : k < 64 * (last.toNat / 64 + 1)
      · exact hz k hk hlt'
      · exact h3 k (by omega) hlt
  by_cases hm : last.toNat % 64 ≠ 63
  · simp only [if_pos (hcond.2 hm), hsh hm]
    by_cases hw : b.word (last.toNat / 64) &&& allOnes <<< (last.toNat % 64 + 1) ≠ 0#64
    · simp only [if_pos hw]
      obtain ⟨h1, h2, h3⟩ := trailingZeros_spec hw
      rw [BitVec.getLsbD_and, shl_allOnes_getLsbD'] at h2
      simp only [Bool.and_eq_true, decide_eq_true_eq] at h2
      have hgw : getWord last = BitVec.ofNat 8 (last.toNat / 64) := by
        rw [← BitVec.toNat_inj, toNat_getWord, BitVec.toNat_ofNat]; omega
      unfold LeastGE
      rw [hgw]
      simp only [toNat_pos _ _ (show last.toNat / 64 < 4 by omega) h1]
      refine ⟨by omega, ?_, ?_⟩
      · rw [bit_word _ _ _ h1, h2.1]
      · intro k hk hlt
        have := h3 (k % 64) (by omega)
        rw [BitVec.getLsbD_and, shl_allOnes_getLsbD'] at this
        rw [bit_word', show k / 64 = last.toNat / 64 by omega]
        have e1 : k % 64 < 64 := by omega
        have e2 : last.toNat % 64 + 1 ≤ k % 64 := by omega
        simpa [e1, e2] using this
    · simp only [if_neg hw]
      apply htail
      intro k hk hlt
      have hw0 : b.word (last.toNat / 64) &&& allOnes <<< (last.toNat % 64 + 1) = 0#64 := by
        simpa using hw
      have := congrArg (fun w => BitVec.getLsbD w (k % 64)) hw0
      simp only [BitVec.getLsbD_and, shl_allOnes_getLsbD', BitVec.getLsbD_zero] at this
      rw [bit_word', show k / 64 = last.toNat / 64 by omega]
      have e1 : k % 64 < 64 := by omega
      have e2 : last.toNat % 64 + 1 ≤ k % 64 := by omega
      simpa [e1, e2] using this
  · simp only [if_neg (fun e => hm (hcond.1 e))]
    apply htail
    intro k hk hlt; omega

theorem words_eq (b : BitField256) :
    b.words = [(0, b.word 0), (1, b.word 1), (2, b.word 2), (3, b.word 3)] := rfl

theorem toNat_last (i t : Nat) (hi : i < 4) (ht : t < 64) :
    (BitVec.ofNat 8 i * 64#8 + (64#8 - 1#8) - BitVec.ofNat 8 t).toNat = 64 * i + (63 - t) := by
  simp only [BitVec.toNat_add, BitVec.toNat_sub, BitVec.toNat_mul, BitVec.toNat_ofNat,
    Nat.reducePow, Nat.reduceMod]
  omega

/-- `r` is the greatest set bit below `hi`. -/
def GreatestLT (b : BitField256) (hi : Nat) : Option U8 → Prop
  | Option.none => ∀ k, k < hi → b.bit k = false
  | some x => x.toNat < hi ∧ b.bit x.toNat = true ∧ ∀ k, x.toNat < k → k < hi → b.bit k = false

theorem take_reverse (b : BitField256) (d : Nat) (h : d < 4) :
    (b.words.take (d + 1)).reverse = (d, b.word d) :: (b.words.take d).reverse := by
  match d, h with
  | 0, _ => rfl
  | 1, _ => rfl
  | 2, _ => rfl
  | 3, _ => rfl

theorem lastIn_take (b : BitField256) : ∀ d, d ≤ 4 →
    GreatestLT b (64 * d) (lastIn (b.words.take d).reverse) := by
  intro d
  induction d with
  | zero => intro _ k hk; omega
  | succ d ih =>
    intro hd
    rw [take_reverse b d (by omega)]
    unfold lastIn
    by_cases hw : b.word d ≠ 0#64
    · rw [if_pos hw]
      obtain ⟨h1, h2, h3⟩ := leadingZeros_spec hw
      dsimp only [GreatestLT]
      rw [toNat_last d _ (by omega) h1]
      refine ⟨by omega, ?_, ?_⟩
      · rw [bit_word _ _ _ (by omega), h2]
      · intro k hk hlt
        rw [bit_word', show k / 64 = d by omega]
        exact h3 (k % 64) (by omega) (by omega)
    · rw [if_neg hw]
      have hw0 : b.word d = 0#64 := by simpa using hw
      have hzero : ∀ k, 64 * d ≤ k → k < 64 * (d + 1) → b.bit k = false := by
        intro k h1 h2
        rw [bit_word', show k / 64 = d by omega, hw0]; simp
      have := ih (by omega)
      revert this
      cases lastIn (b.words.take d).reverse with
      | none =>
        intro h k hk
        by_cases hlt : 64 * d ≤ k
        · exact hzero k hlt hk
        · exact h k (by omega)
      | some x =>
        rintro ⟨h1, h2, h3⟩
        refine ⟨by omega, h2, fun k hk hlt => ?_⟩
        by_cases hlt' : 64 * d ≤ k
        · exact hzero k hlt' hlt
        · exact h3 k hk (by omega)

theorem findLast_spec (b : BitField256) : GreatestLT b 256 b.findLast := by
  have := lastIn_take b 4 (by omega)
  exact this

/-! ## Counting -/

/-- Number of set bits below `n`. -/
def rank (f : Nat → Bool) (n : Nat) : Nat := (List.range n).countP f

theorem rank_zero (f : Nat → Bool) : rank f 0 = 0 := rfl

theorem rank_succ (f : Nat → Bool) (n : Nat) :
    rank f (n + 1) = rank f n + (if f n then 1 else 0) := by
  simp [rank, List.range_succ, List.countP_append, List.countP_cons]

theorem rank_add (f : Nat → Bool) (m n : Nat) :
    rank f (m + n) = rank f m + rank (fun j => f (m + j)) n := by
  induction n with
  | zero => simp [rank_zero]
  | succ n ih => rw [← Nat.add_assoc, rank_succ, rank_succ, ih]; omega

theorem rank_congr {f g : Nat → Bool} {n : Nat} (h : ∀ j, j < n → f j = g j) :
    rank f n = rank g n := by
  induction n with
  | zero => rfl
  | succ n ih =>
    rw [rank_succ, rank_succ, ih (fun j hj => h j (by omega)), h n (by omega)]

theorem rank_mono (f : Nat → Bool) {m n : Nat} (h : m ≤ n) : rank f m ≤ rank f n := by
  obtain ⟨d, rfl⟩ := Nat.exists_eq_add_of_le h
  rw [rank_add]; omega

theorem rank_eq_zero {f : Nat → Bool} {n : Nat} (h : ∀ j, j < n → f j = false) : rank f n = 0 := by
  induction n with
  | zero => rfl
  | succ n ih => rw [rank_succ, ih (fun j hj => h j (by omega)), h n (by omega)]; simp

theorem rank_remove {f g : Nat → Bool} {t : Nat} (hf : f t = true) (hg : g t = false)
    (h : ∀ j, j ≠ t → f j = g j) (n : Nat) (hn : t < n) : rank f n = rank g n + 1 := by
  induction n with
  | zero => omega
  | succ n ih =>
    rw [rank_succ, rank_succ]
    by_cases e : t = n
    · subst e
      rw [rank_congr (fun j hj => h j (by omega)), hf, hg]; simp
    · rw [ih (by omega), h n (by omega)]; omega

theorem countOnes_eq (w : U64) : countOnes w = rank w.getLsbD 64 := rfl

theorem rank_word (b : BitField256) (i n : Nat) (hn : n ≤ 64) :
    rank b.bit (64 * i + n) = rank b.bit (64 * i) + rank (b.word i).getLsbD n := by
  rw [rank_add]
  congr 1
  exact rank_congr (fun j hj => bit_word b i j (by omega))

theorem rank_block (b : BitField256) (i : Nat) :
    rank b.bit (64 * (i + 1)) = rank b.bit (64 * i) + countOnes (b.word i) := by
  rw [Nat.mul_add, Nat.mul_one, rank_word b i 64 (Nat.le_refl _), countOnes_eq]

theorem count_eq_rank (b : BitField256) : b.count = rank b.bit 256 := by
  have h1 := rank_block b 0; have h2 := rank_block b 1
  have h3 := rank_block b 2; have h4 := rank_block b 3
  have h0 : rank b.bit (64 * 0) = 0 := rfl
  have hc : b.count = countOnes (b.word 0) + countOnes (b.word 1) + countOnes (b.word 2)
      + countOnes (b.word 3) := rfl
  rw [hc, show (256 : Nat) = 64 * (3 + 1) from rfl, h4, h3, h2, h1, h0]
  omega

/-! ## Selection -/

theorem clear_lowest_bit {w : U64} (h : w ≠ 0#64) (j : Nat) (hj : j < 64) :
    (w &&& (w - 1#64)).getLsbD j = (w.getLsbD j && decide (j ≠ trailingZeros w)) := by
  obtain ⟨ht, hb, hlow⟩ := trailingZeros_spec h
  generalize trailingZeros w = t at ht hb hlow
  -- w.toNat = 2^t * (2q+1)
  have hmod : w.toNat % 2 ^ t = 0 := by
    apply Nat.eq_of_testBit_eq
    intro i
    rw [Nat.testBit_mod_two_pow, Nat.zero_testBit]
    by_cases hi : i < t
    · simp [hi, BitVec.testBit_toNat, hlow i hi]
    · simp [hi]
  have hdiv : w.toNat / 2 ^ t % 2 = 1 := by
    have : w.toNat.testBit t = true := by rw [BitVec.testBit_toNat]; exact hb
    rw [Nat.testBit_eq_decide_div_mod_eq] at this
    simpa using this
  obtain ⟨q, hq⟩ : ∃ q, w.toNat / 2 ^ t = 2 * q + 1 := ⟨w.toNat / 2 ^ t / 2, by omega⟩
  have hpos : 0 < 2 ^ t := Nat.two_pow_pos t
  have hw : w.toNat = 2 ^ t * (2 * q + 1) := by
    have := Nat.div_add_mod w.toNat (2 ^ t)
    rw [hmod, hq] at this; omega
  have hwpos : 1 ≤ w.toNat := by
    rw [hw]; exact Nat.mul_pos hpos (by omega)
  have hsub : (w - 1#64).toNat = 2 ^ (t + 1) * q + (2 ^ t - 1) := by
    have hlt := w.isLt
    have h1 : (w - 1#64).toNat = w.toNat - 1 := by
      rw [BitVec.toNat_sub]; simp only [BitVec.toNat_ofNat, Nat.reducePow, Nat.reduceMod] at *; omega
    rw [h1, hw, Nat.mul_add, Nat.pow_succ, ← Nat.mul_assoc]; omega
  have hwj : w.getLsbD j = (2 ^ (t + 1) * q + 2 ^ t).testBit j := by
    rw [← BitVec.testBit_toNat, hw, Nat.mul_add, Nat.pow_succ, ← Nat.mul_assoc, Nat.mul_one]
  rw [BitVec.getLsbD_and, ← BitVec.testBit_toNat (w - 1#64), hsub, hwj]
  have hp : 2 ^ t < 2 ^ (t + 1) := Nat.pow_lt_pow_right (by decide) (by omega)
  rw [Nat.testBit_two_pow_mul_add _ hp, Nat.testBit_two_pow_mul_add _ (by omega)]
  by_cases hjt : j < t + 1
  · simp only [if_pos hjt, Nat.testBit_two_pow_sub_one, Nat.testBit_two_pow]
    by_cases e : j = t
    · subst e; simp
    · have : ¬ t = j := fun h => e h.symm
      simp [this]
  · simp only [if_neg hjt, Bool.and_self]
    have : j ≠ t := by omega
    simp [this]

theorem bv_pos_of_ne_zero {w : U64} (h : w ≠ 0#64) : decide (w > 0#64) = true := by
  have : w.toNat ≠ 0 := fun e => h (by rw [← BitVec.toNat_inj]; simpa using e)
  rw [decide_eq_true_eq, gt_iff_lt, BitVec.lt_def]; simp; omega

theorem subChk_one {ε : Type} (p : Profile) {w : U64} (h : w ≠ 0#64) : subChk (ε := ε) p w 1#64 = .ok (w - 1#64) := by
  have : w.toNat ≠ 0 := fun e => h (by rw [← BitVec.toNat_inj]; simpa using e)
  unfold subChk; rw [if_neg]; simp; intro _; omega

theorem ne_zero_of_rank {w : U64} {n : Nat} (h : n < countOnes w) : w ≠ 0#64 := by
  rintro rfl
  rw [countOnes_eq, rank_eq_zero (by simp)] at h; omega

/-- Clearing the `k` lowest set bits leaves the bits of rank at least `k`. -/
theorem clearLowest_spec (p : Profile) : ∀ (k : Nat) (w : U64), k < countOnes w →
    ∃ w', clearLowest p k w = .ok w' ∧ w' ≠ 0#64 ∧
      w.getLsbD (trailingZeros w') = true ∧ rank w.getLsbD (trailingZeros w') = k := by
  intro k
  induction k with
  | zero =>
    intro w h
    have hw := ne_zero_of_rank h
    obtain ⟨h1, h2, h3⟩ := trailingZeros_spec hw
    exact ⟨w, rfl, hw, h2, rank_eq_zero h3⟩
  | succ k ih =>
    intro w h
    have hw := ne_zero_of_rank h
    obtain ⟨h1, h2, h3⟩ := trailingZeros_spec hw
    have hbits : ∀ j, (w &&& (w - 1#64)).getLsbD j
        = (w.getLsbD j && decide (j ≠ trailingZeros w)) := by
      intro j
      by_cases hj : j < 64
      · exact clear_lowest_bit hw j hj
      · rw [BitVec.getLsbD_of_ge _ _ (by omega), BitVec.getLsbD_of_ge w _ (by omega)]; simp
    have hrem : ∀ n, trailingZeros w < n →
        rank w.getLsbD n = rank (w &&& (w - 1#64)).getLsbD n + 1 := by
      intro n hn
      apply rank_remove h2 (t := trailingZeros w) _ _ n hn
      · rw [hbits]; simp
      · intro j hj; rw [hbits]; simp [hj]
    have hc : k < countOnes (w &&& (w - 1#64)) := by
      have := hrem 64 h1
      rw [countOnes_eq] at h ⊢; omega
    obtain ⟨w', e1, e2, e3, e4⟩ := ih _ hc
    refine ⟨w', ?_, e2, ?_, ?_⟩
    · unfold clearLowest
      simp only [rdebugAssert, bv_pos_of_ne_zero hw, Bool.true_eq_false, and_false, if_false,
        Outcome.ok_bind, subChk_one p hw, e1]
    · rw [hbits] at e3; simp only [Bool.and_eq_true] at e3; exact e3.1
    · rw [hbits] at e3
      simp only [Bool.and_eq_true, decide_eq_true_eq] at e3
      have hgt : trailingZeros w < trailingZeros w' := by
        rcases Nat.lt_trichotomy (trailingZeros w) (trailingZeros w') with hlt | heq | hgt
        · exact hlt
        · exact absurd heq.symm e3.2
        · have := h3 _ hgt
          rw [e3.1] at this; cases this
      rw [hrem _ hgt, e4]

/-- The bit of rank `n`. -/
def IsNth (b : BitField256) (n : Nat) : Option U8 → Prop
  | Option.none => rank b.bit 256 ≤ n
  | some x => b.bit x.toNat = true ∧ rank b.bit x.toNat = n

theorem nthIn_spec (p : Profile) (b : BitField256) (n : Nat) : ∀ m d, m + d = 4 →
    rank b.bit (64 * d) ≤ n →
    ∃ r, nthIn p b n (rank b.bit (64 * d)) (b.words.drop d) = .ok r ∧ IsNth b n r := by
  intro m
  induction m with
  | zero =>
    intro d hd hr
    have : d = 4 := by omega
    subst this
    have hd4 : b.words.drop 4 = [] := rfl
    refine ⟨Option.none, ?_, hr⟩
    rw [hd4]
    unfold nthIn
    have hc : decide (b.count ≤ n) = true := by
      rw [count_eq_rank]; simpa using hr
    simp only [rdebugAssert, hc, Bool.true_eq_false, and_false, if_false, Outcome.ok_bind,
      Outcome.pure_eq]
  | succ m ih =>
    intro d hd hr
    rw [words_drop b d (by omega)]
    unfold nthIn
    simp only [← rank_block]
    by_cases hgt : rank b.bit (64 * (d + 1)) > n
    · rw [if_pos hgt]
      obtain ⟨w', e1, e2, e3, e4⟩ := clearLowest_spec p (n - rank b.bit (64 * d)) (b.word d)
        (by rw [rank_block] at hgt; omega)
      obtain ⟨t1, t2, t3⟩ := trailingZeros_spec e2
      have hx := toNat_pos d (trailingZeros w') (by omega) t1
      have hbit : b.bit (64 * d + trailingZeros w') = true := by rw [bit_word _ _ _ t1, e3]
      refine ⟨some (BitVec.ofNat 8 d * 64#8 + BitVec.ofNat 8 (trailingZeros w')), ?_, ?_, ?_⟩
      · rw [e1]
        have htest : b.test (BitVec.ofNat 8 d * 64#8 + BitVec.ofNat 8 (trailingZeros w')) = true := by
          rw [test_eq_bit, hx, hbit]
        simp only [Outcome.ok_bind, rdebugAssert, bv_pos_of_ne_zero e2, htest, Bool.true_eq_false,
          and_false, if_false, Outcome.pure_eq]
      · rw [hx, hbit]
      · rw [hx, rank_word b d _ (by omega), e4]; omega
    · rw [if_neg hgt]
      exact ih (d + 1) (by omega) (by omega)

theorem findNth_spec (p : Profile) (b : BitField256) (n : U8) :
    ∃ r, b.findNth p n = .ok r ∧ IsNth b n.toNat r :=
  nthIn_spec p b n.toNat 4 0 rfl (Nat.zero_le _)

end Rescan.BitField256
