import Verif.Model.BitField
/-! # Lexicographic comparison of word lists -/
namespace Rescan.BitField256

theorem cmpWords_refl : ∀ a : List U64, cmpWords a a = .eq
  | [] => rfl
  | x :: xs => by
    unfold cmpWords
    rw [if_neg (by simp), if_neg (by simp)]; exact cmpWords_refl xs

theorem cmpWords_eq : ∀ a b : List U64, cmpWords a b = .eq → a = b
  | [], [], _ => rfl
  | [], _ :: _, h => by cases h
  | _ :: _, [], h => by cases h
  | x :: xs, y :: ys, h => by
    unfold cmpWords at h
    split at h
    · cases h
    · split at h
      · cases h
      · next h1 h2 =>
        rw [BitVec.lt_def] at h1 h2
        rw [cmpWords_eq xs ys h, BitVec.eq_of_toNat_eq (by omega : x.toNat = y.toNat)]

theorem cmpWords_swap : ∀ a b : List U64, cmpWords b a = (cmpWords a b).swap
  | [], [] => rfl
  | [], _ :: _ => rfl
  | _ :: _, [] => rfl
  | x :: xs, y :: ys => by
    unfold cmpWords
    by_cases h1 : x < y
    · have h2 : ¬ y < x := by rw [BitVec.lt_def] at *; omega
      simp [h1, h2]
    · by_cases h2 : y < x
      · simp [h1, h2]
      · simp only [h1, h2, if_false]; exact cmpWords_swap xs ys

theorem cmpWords_le_trans : ∀ a b c : List U64, cmpWords a b ≠ .gt → cmpWords b c ≠ .gt →
    cmpWords a c ≠ .gt
  | [], [], _, _, h => h
  | [], _ :: _, [], _, _ => by simp [cmpWords]
  | [], _ :: _, _ :: _, _, _ => by simp [cmpWords]
  | _ :: _, [], _, h, _ => by simp [cmpWords] at h
  | _ :: _, _ :: _, [], _, h => by simp [cmpWords] at h
  | x :: xs, y :: ys, z :: zs, h1, h2 => by
    unfold cmpWords at h1 h2 ⊢
    have ih := cmpWords_le_trans xs ys zs
    simp only [BitVec.lt_def] at *
    split at h1
    · split at h2
      · rw [if_pos (by omega)]; simp
      · split at h2
        · simp at h2
        · rw [if_pos (by omega)]; simp
    · split at h1
      · simp at h1
      · split at h2
        · rw [if_pos (by omega)]; simp
        · split at h2
          · simp at h2
          · rw [if_neg (by omega), if_neg (by omega)]; exact ih h1 h2

theorem cmpWords_lt_iff : ∀ xs ys : List U64, xs.length = ys.length → (cmpWords xs ys = .lt ↔
    ∃ (i : Nat) (x y : U64), xs[i]? = some x ∧ ys[i]? = some y ∧ x < y ∧
      ∀ j < i, xs[j]? = ys[j]?)
  | [], [], _ => by simp [cmpWords]
  | [], _ :: _, h => by simp at h
  | _ :: _, [], h => by simp at h
  | x :: xs, y :: ys, h => by
    have ih := cmpWords_lt_iff xs ys (by simpa using h)
    unfold cmpWords
    by_cases h1 : x < y
    · rw [if_pos h1]
      exact iff_of_true rfl ⟨0, x, y, rfl, rfl, h1, fun j hj => absurd hj (Nat.not_lt_zero j)⟩
    · rw [if_neg h1]
      by_cases h2 : y < x
      · rw [if_pos h2]
        refine iff_of_false (by simp) ?_
        rintro ⟨i, u, v, hu, hv, huv, hj⟩
        cases i with
        | zero => simp at hu hv; subst hu; subst hv; exact h1 huv
        | succ i =>
          have := hj 0 (by omega)
          simp at this
          rw [this] at h2
          exact absurd h2 (by simp)
      · rw [if_neg h2, ih]
        have hxy : x = y := by
          rw [BitVec.lt_def] at h1 h2
          exact BitVec.eq_of_toNat_eq (by omega)
        constructor
        · rintro ⟨i, u, v, hu, hv, huv, hj⟩
          refine ⟨i + 1, u, v, by simpa using hu, by simpa using hv, huv, ?_⟩
          intro j hji
          cases j with
          | zero => simp [hxy]
          | succ j => simpa using hj j (by omega)
        · rintro ⟨i, u, v, hu, hv, huv, hj⟩
          cases i with
          | zero => simp at hu hv; subst hu; subst hv; exact absurd huv h1
          | succ i =>
            refine ⟨i, u, v, by simpa using hu, by simpa using hv, huv, ?_⟩
            intro j hji
            simpa using hj (j + 1) (by omega)

/-- Two words that differ have a greatest bit position where they do. -/
theorem greatest_diff (x y : U64) (h : x ≠ y) :
    ∃ k, k < 64 ∧ x.getLsbD k ≠ y.getLsbD k ∧ ∀ j, k < j → x.getLsbD j = y.getLsbD j := by
  suffices H : ∀ n, n ≤ 64 → (∀ j, n ≤ j → x.getLsbD j = y.getLsbD j) →
      ∃ k, k < 64 ∧ x.getLsbD k ≠ y.getLsbD k ∧ ∀ j, k < j → x.getLsbD j = y.getLsbD j by
    refine H 64 (Nat.le_refl _) (fun j hj => ?_)
    rw [BitVec.getLsbD_of_ge x j hj, BitVec.getLsbD_of_ge y j hj]
  intro n
  induction n with
  | zero =>
    intro _ hj
    exact absurd (BitVec.eq_of_getLsbD_eq (fun i _ => hj i (Nat.zero_le _))) h
  | succ n ih =>
    intro hn hj
    by_cases e : x.getLsbD n = y.getLsbD n
    · refine ih (by omega) (fun j hj' => ?_)
      by_cases ej : j = n
      · rw [ej]; exact e
      · exact hj j (by omega)
    · exact ⟨n, by omega, e, fun j hjn => hj j (by omega)⟩

theorem lt_of_bit {a b : Nat} (k : Nat) (ha : a.testBit k = false) (hb : b.testBit k = true)
    (h : ∀ j, k < j → a.testBit j = b.testBit j) : a < b := by
  have e : a / 2 ^ (k + 1) = b / 2 ^ (k + 1) := by
    apply Nat.eq_of_testBit_eq
    intro i
    rw [Nat.testBit_div_two_pow, Nat.testBit_div_two_pow]
    exact h _ (by omega)
  have hk : 0 < 2 ^ k := Nat.two_pow_pos k
  have e1 : a / 2 ^ k / 2 = b / 2 ^ k / 2 := by
    rw [Nat.div_div_eq_div_mul, Nat.div_div_eq_div_mul, ← Nat.pow_succ]; exact e
  have ha' : a / 2 ^ k % 2 = 0 := by
    rw [Nat.testBit_eq_decide_div_mod_eq] at ha
    have := of_decide_eq_false ha
    omega
  have hb' : b / 2 ^ k % 2 = 1 := by
    rw [Nat.testBit_eq_decide_div_mod_eq] at hb
    exact of_decide_eq_true hb
  have hlt : a / 2 ^ k < b / 2 ^ k := by omega
  exact Nat.lt_of_not_le fun hle => absurd (Nat.div_le_div_right (c := 2 ^ k) hle) (by omega)

theorem word_lt_iff (x y : U64) : x < y ↔ ∃ k, k < 64 ∧ x.getLsbD k = false ∧ y.getLsbD k = true ∧
    ∀ j, k < j → x.getLsbD j = y.getLsbD j := by
  constructor
  · intro h
    have hne : x ≠ y := by rintro rfl; exact absurd h (by simp)
    obtain ⟨k, hk, hd, hj⟩ := greatest_diff x y hne
    cases hx : x.getLsbD k <;> cases hy : y.getLsbD k
    · rw [hx, hy] at hd; exact absurd rfl hd
    · exact ⟨k, hk, hx, hy, hj⟩
    · have : y.toNat < x.toNat := lt_of_bit k hy hx (fun j hkj => (hj j hkj).symm)
      rw [BitVec.lt_def] at h; omega
    · rw [hx, hy] at hd; exact absurd rfl hd
  · rintro ⟨k, _, hx, hy, hj⟩
    rw [BitVec.lt_def]
    exact lt_of_bit k hx hy hj

theorem toList_inj {a b : BitField256} (h : a.bits.toList = b.bits.toList) : a = b := by
  cases a with | mk va => cases b with | mk vb =>
  congr 1
  exact Vector.toList_inj.1 h

end Rescan.BitField256
