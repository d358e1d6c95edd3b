/-! # Specification of rounding -/
namespace Rescan.Spec

/-- `m` is the greatest multiple of `n` that is at most `a`. -/
def IsFloorMultiple (n a m : Nat) : Prop := n ∣ m ∧ m ≤ a ∧ ∀ m', n ∣ m' → m' ≤ a → m' ≤ m

/-- `m` is the least multiple of `n` that is at least `a`. -/
def IsCeilMultiple (n a m : Nat) : Prop := n ∣ m ∧ a ≤ m ∧ ∀ m', n ∣ m' → a ≤ m' → m ≤ m'

theorem isFloorMultiple_iff {n a m : Nat} (hn : 0 < n) : IsFloorMultiple n a m ↔ m = a / n * n := by
  have h1 : a / n * n ≤ a := Nat.div_mul_le_self a n
  have h2 : n ∣ a / n * n := ⟨a / n, Nat.mul_comm _ _⟩
  have h3 : ∀ m', n ∣ m' → m' ≤ a → m' ≤ a / n * n := by
    rintro m' ⟨q, rfl⟩ h
    have : q ≤ a / n := (Nat.le_div_iff_mul_le hn).2 (by rw [Nat.mul_comm]; exact h)
    rw [Nat.mul_comm]; exact Nat.mul_le_mul_right n this
  constructor
  · rintro ⟨g1, g2, g3⟩
    exact Nat.le_antisymm (h3 m g1 g2) (g3 _ h2 h1)
  · rintro rfl; exact ⟨h2, h1, h3⟩

theorem isCeilMultiple_iff {n a m : Nat} (hn : 0 < n) :
    IsCeilMultiple n a m ↔ m = (a + (n - 1)) / n * n := by
  have h1 : a ≤ (a + (n - 1)) / n * n := by
    have := Nat.div_add_mod (a + (n - 1)) n
    have h := Nat.mod_lt (a + (n - 1)) hn
    rw [Nat.mul_comm] at this; omega
  have h2 : n ∣ (a + (n - 1)) / n * n := ⟨_, Nat.mul_comm _ _⟩
  have h3 : ∀ m', n ∣ m' → a ≤ m' → (a + (n - 1)) / n * n ≤ m' := by
    rintro m' ⟨q, rfl⟩ h
    have h4 : (a + (n - 1)) / n < q + 1 := by
      rw [Nat.div_lt_iff_lt_mul hn, Nat.add_mul, Nat.mul_comm q n]; omega
    rw [Nat.mul_comm n q]
    exact Nat.mul_le_mul_right n (by omega)
  constructor
  · rintro ⟨g1, g2, g3⟩
    exact Nat.le_antisymm (g3 _ h2 h1) (h3 m g1 g2)
  · rintro rfl; exact ⟨h2, h1, h3⟩

end Rescan.Spec
