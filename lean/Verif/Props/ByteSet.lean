import Verif.Proofs.CharReach
import Verif.Proofs.Order
/-! # C01-C10: bytes and byte sets

A byte set is specified by its membership test (`test`); the statements below mention only the API
functions, their results and `Spec`. -/
namespace Rescan

open Spec

/-! ## C01 -/

/-- C01: lower-casing moves exactly `A`-`Z` up by 32. -/
theorem C01_tolower (c : U8) :
    (isUpper c → (mytolower c).toNat = c.toNat + 32) ∧ (¬ isUpper c → mytolower c = c) :=
  ⟨mytolower_upper c, mytolower_other c⟩

example : isUpper 0x51#8 ∧ mytolower 0x51#8 = 0x71#8 ∧ ¬ isUpper 0x5b#8 := by decide

/-- C01: upper-casing moves exactly `a`-`z` down by 32. -/
theorem C01_toupper (c : U8) :
    (isLower c → (mytoupper c).toNat + 32 = c.toNat) ∧ (¬ isLower c → mytoupper c = c) :=
  ⟨mytoupper_lower c, mytoupper_other c⟩

example : isLower 0x71#8 ∧ mytoupper 0x71#8 = 0x51#8 ∧ ¬ isLower 0x7b#8 := by decide

/-- C01: "alphabetic" means ASCII letter. -/
theorem C01_isalpha (c : U8) : ourisalpha c = true ↔ isLetter c := by
  rw [ourisalpha_iff]; simp

/-- C01: the maps are idempotent, absorb one another, and are mutually inverse on letters: two bytes
have the same lower case iff they are equal or the two cases of one letter. -/
theorem C01_inverse (c d : U8) :
    mytolower (mytolower c) = mytolower c ∧ mytoupper (mytoupper c) = mytoupper c ∧
    mytolower (mytoupper c) = mytolower c ∧ mytoupper (mytolower c) = mytoupper c ∧
    (mytolower c = mytolower d ↔ c = d ∨ casePair c d) := by
  refine ⟨?_, ?_, ?_, ?_, ?_⟩
  · revert c; decide +kernel
  · revert c; decide +kernel
  · revert c; decide +kernel
  · revert c; decide +kernel
  · have h1 := C01_tolower c
    have h2 := C01_tolower d
    rw [← BitVec.toNat_inj, ← BitVec.toNat_inj (x := c)]
    unfold casePair
    by_cases hc : isUpper c <;> by_cases hd : isUpper d
    · rw [h1.1 hc, h2.1 hd]; unfold isUpper at *; omega
    · rw [h1.1 hc, h2.2 hd]; unfold isUpper at *; omega
    · rw [h1.2 hc, h2.1 hd]; unfold isUpper at *; omega
    · rw [h1.2 hc, h2.2 hd]; unfold isUpper at *; omega

example : isUpper 0x51#8 ∧ ¬ isUpper 0x5b#8 ∧ isLower 0x71#8 ∧ casePair 0x51#8 0x71#8 := by decide

namespace BitField256

/-! ## C02, C03 -/

/-- C02: `set`, `reset` and `flip` change membership of the given byte only. -/
theorem C02_single_updates (b : BitField256) (n m : U8) :
    (b.set n).test m = (if m = n then true else b.test m) ∧
    (b.reset n).test m = (if m = n then false else b.test m) ∧
    (b.flip n).test m = (if m = n then !b.test m else b.test m) :=
  ⟨by rw [set_test]; by_cases h : m = n <;> simp [h],
   by rw [reset_test]; by_cases h : m = n <;> simp [h],
   by rw [flip_test]; by_cases h : m = n <;> simp [h]⟩

/-- C03: the whole-set updates. -/
theorem C03_whole_updates (b : BitField256) (m : U8) :
    b.setAll.test m = true ∧ b.resetAll.test m = false ∧ b.flipAll.test m = !b.test m ∧
    BitField256.default.test m = false :=
  ⟨setAll_test b m, resetAll_test b m, flipAll_test b m, default_test m⟩

/-- C03: the whole-set queries. -/
theorem C03_whole_queries (b : BitField256) :
    (b.none = true ↔ ∀ n, b.test n = false) ∧ (b.any = true ↔ ∃ n, b.test n = true) ∧
    (b.all = true ↔ ∀ n, b.test n = true) :=
  ⟨none_iff b, any_iff b, all_iff b⟩

example : ((BitField256.default.set 3#8).set 200#8).test 200#8 = true ∧
    ((BitField256.default.set 3#8).set 200#8).any = true ∧
    ((BitField256.default.set 3#8).set 200#8).all = false := by decide +kernel

/-! ## C04 -/

/-- C04: `set_range` adds exactly the bytes `from..=to`, in both profiles without panicking. -/
theorem C04_set_range (p : Profile) (b : BitField256) (from_ to : U8) (h : from_ ≤ to) :
    ∃ b', b.setRange p from_ to = .ok b' ∧
      ∀ n, (b'.test n = true ↔ b.test n = true ∨ (from_ ≤ n ∧ n ≤ to)) := by
  obtain ⟨b', h1, h2⟩ := setRange_ok p b from_ to h
  exact ⟨b', h1, fun n => by rw [h2]; simp⟩

example : (3#8 : U8) ≤ 200#8 := by decide
example : (match (BitField256.default.set 250#8).setRange .debug 3#8 200#8 with
    | .ok b => b.test 250#8 && !b.test 2#8 && b.test 3#8 && b.test 200#8 && !b.test 201#8
    | _ => false) = true := by decide +kernel

/-- C04: an inverted range is refused by a panic in both profiles. -/
theorem C04_set_range_inverted (p : Profile) (b : BitField256) (from_ to : U8) (h : to < from_) :
    (b.setRange p from_ to).isPanic = true := by
  rw [setRange_panic p b from_ to (by rw [BitVec.le_def]; rw [BitVec.lt_def] at h; omega)]; rfl

example : (3#8 : U8) < 4#8 := by decide

/-! ## C05-C08 -/

/-- C05: `count` is the number of members. -/
theorem C05_count (b : BitField256) : b.count = (members b.test).length := count_members b

example : (members ((BitField256.default.set 3#8).set 200#8).test).length = 2 := by decide +kernel

/-- C06: `find_first` is the least member, `find_last` the greatest; `None` iff there is none. -/
theorem C06_first_last (b : BitField256) :
    IsLeastOpt b.test b.findFirst ∧ IsGreatestOpt b.test b.findLast :=
  ⟨findFirst_least b, findLast_greatest b⟩

/-- C07: `find_next(last)` is the least member above `last`. -/
theorem C07_find_next (b : BitField256) (last : U8) :
    IsLeastOpt (fun y => b.test y && decide (last < y)) (b.findNext last) := findNext_least b last

/-- C07: following `find_next` from `find_first` for as long as it answers visits the members in
increasing order and then stops: any bound on the number of steps from 256 on gives the same. -/
theorem C07_iteration (b : BitField256) (fuel : Nat) (h : 256 ≤ fuel) :
    CharReach.memberLoop ⟨b⟩ fuel b.findFirst = members b.test :=
  CharReach.memberLoop_members ⟨b⟩ fuel h

example : ((BitField256.default.set 3#8).set 200#8).findFirst = some 3#8 ∧
    ((BitField256.default.set 3#8).set 200#8).findNext 3#8 = some 200#8 ∧
    ((BitField256.default.set 3#8).set 200#8).findNext 200#8 = Option.none := by decide +kernel

/-- C08: `find_nth(n)` is the `n`-th member in increasing order, `None` iff there are at most `n`
members; it never panics, so none of its debug assertions fires. -/
theorem C08_find_nth (p : Profile) (b : BitField256) (n : U8) :
    b.findNth p n = .ok (members b.test)[n.toNat]? := findNth_members p b n

example : ((BitField256.default.set 3#8).set 200#8).findNth .debug 1#8 = .ok (some 200#8) := by
  decide +kernel

/-! ## C09 -/

/-- C09: the Boolean operations act pointwise. -/
theorem C09_pointwise (a b : BitField256) (n : U8) :
    (a.and b).test n = (a.test n && b.test n) ∧ (a.or b).test n = (a.test n || b.test n) ∧
    (a.xor b).test n = (a.test n ^^ b.test n) ∧ (a.not).test n = !a.test n :=
  ⟨and_test a b n, or_test a b n, xor_test a b n, not_test a n⟩

/-- C09: the assigning forms agree with the plain ones. -/
theorem C09_assign (a b : BitField256) :
    a.andAssign b = a.and b ∧ a.orAssign b = a.or b ∧ a.xorAssign b = a.xor b := by
  refine ⟨ext_test fun n => ?_, ext_test fun n => ?_, ext_test fun n => ?_⟩
  · rw [andAssign_test, and_test]
  · rw [orAssign_test, or_test]
  · rw [xorAssign_test, xor_test]

/-- C09: sets are equal iff they have the same members. -/
theorem C09_extensional (a b : BitField256) : a = b ↔ ∀ n, a.test n = b.test n :=
  ⟨fun h _ => h ▸ rfl, ext_test⟩

example : (BitField256.default.set 3#8) ≠ (BitField256.default.set 200#8) := by decide +kernel

/-! ## C10 -/

/-- C10: the derived ordering is a total order whose "equal" is equality. -/
theorem C10_total_order (a b c : BitField256) :
    (a.cmp b = .eq ↔ a = b) ∧ b.cmp a = (a.cmp b).swap ∧
    (a.cmp b ≠ .gt → b.cmp c ≠ .gt → a.cmp c ≠ .gt) := by
  refine ⟨⟨fun h => toList_inj (cmpWords_eq _ _ h), fun h => ?_⟩, cmpWords_swap _ _,
    cmpWords_le_trans _ _ _⟩
  rw [h]; exact cmpWords_refl _

example : (BitField256.default.set 200#8).cmp ((BitField256.default.set 3#8)) = .lt ∧
    (BitField256.default.set 3#8).cmp (BitField256.default.set 4#8) = .lt := by decide +kernel

/-- C10: which order it is.  `a` comes before `b` iff `b` has, and `a` lacks, some byte `n` such that
the two sets agree on all blocks of 64 bytes before that of `n` and on the bytes above `n` in its
block. -/
theorem C10_order (a b : BitField256) :
    a.cmp b = .lt ↔ ∃ n : U8, a.test n = false ∧ b.test n = true ∧
      ∀ m : U8, m.toNat / 64 < n.toNat / 64 ∨ (m.toNat / 64 = n.toNat / 64 ∧ n < m) →
        a.test m = b.test m := by
  unfold cmp
  rw [cmpWords_lt_iff _ _ (by simp)]
  have hbit : ∀ (c : BitField256) (i : Nat) (x : U64), c.bits.toList[i]? = some x →
      i < 4 ∧ ∀ k, k < 64 → c.bit (64 * i + k) = x.getLsbD k := by
    intro c i x h
    have hi : i < 4 := by
      have := (List.getElem?_eq_some_iff.1 h).1
      simpa using this
    refine ⟨hi, fun k hk => ?_⟩
    have h1 : (64 * i + k) / 64 = i := by omega
    have h2 : (64 * i + k) % 64 = k := by omega
    have h3 : c.bits[i]? = some x := by rw [← Vector.getElem?_toList]; exact h
    rw [bit, h1, h2, h3]; rfl
  have hget : ∀ (c : BitField256) (i : Nat), i < 4 → ∃ x, c.bits.toList[i]? = some x := by
    intro c i hi
    exact ⟨_, List.getElem?_eq_getElem (by simpa using hi)⟩
  constructor
  · rintro ⟨i, x, y, hx, hy, hxy, hj⟩
    obtain ⟨k, hk, hxk, hyk, hgt⟩ := (word_lt_iff x y).1 hxy
    obtain ⟨hi, hbx⟩ := hbit a i x hx
    obtain ⟨_, hby⟩ := hbit b i y hy
    have hn : (BitVec.ofNat 8 (64 * i + k)).toNat = 64 * i + k := by
      rw [BitVec.toNat_ofNat]; omega
    refine ⟨BitVec.ofNat 8 (64 * i + k), ?_, ?_, ?_⟩
    · rw [test_eq_bit, hn, hbx k hk, hxk]
    · rw [test_eq_bit, hn, hby k hk, hyk]
    · intro m hm
      rw [BitVec.lt_def, hn] at hm
      rw [test_eq_bit, test_eq_bit]
      have hdm : m.toNat = 64 * (m.toNat / 64) + m.toNat % 64 := (Nat.div_add_mod _ _).symm
      have hmod : m.toNat % 64 < 64 := by omega
      rcases hm with hm | ⟨hm, hlt⟩
      · have hji : m.toNat / 64 < i := by omega
        obtain ⟨u, hu⟩ := hget a (m.toNat / 64) (by omega)
        have hv := hu
        rw [hj _ hji] at hv
        rw [hdm, (hbit a _ u hu).2 _ hmod, (hbit b _ u hv).2 _ hmod]
      · have e : m.toNat / 64 = i := by omega
        rw [hdm, e, hbx _ hmod, hby _ hmod]
        exact hgt _ (by omega)
  · rintro ⟨n, ha, hb, hm⟩
    have hlt := n.isLt
    obtain ⟨x, hx⟩ := hget a (n.toNat / 64) (by omega)
    obtain ⟨y, hy⟩ := hget b (n.toNat / 64) (by omega)
    have hdm : n.toNat = 64 * (n.toNat / 64) + n.toNat % 64 := (Nat.div_add_mod _ _).symm
    have hmod : n.toNat % 64 < 64 := by omega
    have hbx := (hbit a _ x hx).2
    have hby := (hbit b _ y hy).2
    have key : ∀ i k, i < 4 → k < 64 → (i < n.toNat / 64 ∨ (i = n.toNat / 64 ∧ n.toNat % 64 < k)) →
        a.bit (64 * i + k) = b.bit (64 * i + k) := by
      intro i k hi hk h
      have hn : (BitVec.ofNat 8 (64 * i + k)).toNat = 64 * i + k := by
        rw [BitVec.toNat_ofNat]; omega
      have := hm (BitVec.ofNat 8 (64 * i + k)) (by rw [BitVec.lt_def, hn]; omega)
      rwa [test_eq_bit, test_eq_bit, hn] at this
    refine ⟨n.toNat / 64, x, y, hx, hy, (word_lt_iff x y).2 ⟨n.toNat % 64, hmod, ?_, ?_, ?_⟩, ?_⟩
    · rw [← hbx _ hmod, ← hdm, ← test_eq_bit, ha]
    · rw [← hby _ hmod, ← hdm, ← test_eq_bit, hb]
    · intro j hj
      by_cases hj64 : j < 64
      · rw [← hbx _ hj64, ← hby _ hj64]
        exact key _ _ (by omega) hj64 (Or.inr ⟨rfl, hj⟩)
      · rw [BitVec.getLsbD_of_ge x j (by omega), BitVec.getLsbD_of_ge y j (by omega)]
    · intro j hj
      obtain ⟨u, hu⟩ := hget a j (by omega)
      obtain ⟨v, hv⟩ := hget b j (by omega)
      rw [hu, hv]
      congr 1
      apply BitVec.eq_of_getLsbD_eq
      intro k hk
      rw [← (hbit a j u hu).2 k hk, ← (hbit b j v hv).2 k hk]
      exact key j k (by omega) hk (Or.inl hj)

example : ((BitField256.default.set 3#8).set 64#8).cmp ((BitField256.default.set 5#8)) = .lt ∧
    ((BitField256.default.set 3#8).set 64#8).cmp ((BitField256.default.set 3#8).set 200#8) = .gt := by
  decide +kernel

end BitField256
end Rescan
