import Verif.Props.ByteSet
import Verif.Props.CharReach
/-! # C01-C10 for `CharReach`: the wrappers of src/util/charreach.rs around the bit set -/
namespace Rescan.CharReach

open Spec

/-- C01: the case tests. -/
theorem C01_case_tests (c : U8) :
    (myisupper c = true ↔ isUpper c) ∧ (myislower c = true ↔ isLower c) := by
  unfold myisupper myislower isUpper isLower
  simp only [Bool.and_eq_true, decide_eq_true_eq, BitVec.le_def]
  exact ⟨Iff.rfl, Iff.rfl⟩

example : myisupper 0x41#8 = true ∧ myisupper 0x5b#8 = false ∧ myislower 0x7a#8 = true := by decide

/-- C02: `set`, `reset` and `flip` of a byte class change membership of the given byte only. -/
theorem C02_class_updates (a : CharReach) (n m : U8) :
    (a.set n).test m = (if m = n then true else a.test m) ∧
    (a.reset n).test m = (if m = n then false else a.test m) ∧
    (a.flip n).test m = (if m = n then !a.test m else a.test m) :=
  BitField256.C02_single_updates a.bits n m

example : (((CharReach.default.set 3#8).flip 3#8).flip 4#8).test 4#8 = true := by decide +kernel

/-- C03: the whole-class updates and the empty class. -/
theorem C03_class_updates (a : CharReach) (m : U8) :
    a.setAll.test m = true ∧ a.resetAll.test m = false ∧ a.flipAll.test m = !a.test m ∧
    CharReach.default.test m = false :=
  BitField256.C03_whole_updates a.bits m

/-- C03: the whole-class queries. -/
theorem C03_class_queries (a : CharReach) :
    (a.none = true ↔ ∀ n, a.test n = false) ∧ (a.any = true ↔ ∃ n, a.test n = true) ∧
    (a.all = true ↔ ∀ n, a.test n = true) :=
  BitField256.C03_whole_queries a.bits

example : (CharReach.default.set 9#8).any = true ∧ (CharReach.default.set 9#8).all = false ∧
    CharReach.default.setAll.all = true ∧ CharReach.default.none = true := by decide +kernel

/-- C04: `set_range` adds exactly the bytes `from..=to`, in both profiles without panicking. -/
theorem C04_class_range (p : Profile) (a : CharReach) (from_ to : U8) (h : from_ ≤ to) :
    ∃ a', a.setRange p from_ to = .ok a' ∧
      ∀ n, (a'.test n = true ↔ a.test n = true ∨ (from_ ≤ n ∧ n ≤ to)) := by
  obtain ⟨b, h1, h2⟩ := BitField256.C04_set_range p a.bits from_ to h
  refine ⟨⟨b⟩, ?_, h2⟩
  show (a.bits.setRange p from_ to).bind _ = _
  rw [h1]; rfl

example := C04_class_range .debug (fromBytes [7#8, 200#8]) 0x61#8 0x7a#8 (by decide)

/-- C04: an inverted range is refused by a panic, by `from_range` as well. -/
theorem C04_class_range_inverted (p : Profile) (a : CharReach) (from_ to : U8) (h : to < from_) :
    (a.setRange p from_ to).isPanic = true ∧ (fromRange p from_ to).isPanic = true := by
  have key : ∀ x : CharReach, (x.setRange p from_ to).isPanic = true := by
    intro x
    have h1 := BitField256.C04_set_range_inverted p x.bits from_ to h
    show ((x.bits.setRange p from_ to).bind _).isPanic = true
    cases hb : x.bits.setRange p from_ to <;> simp_all [Outcome.isPanic, Outcome.bind]
  exact ⟨key a, key _⟩

example : (0x61#8 : U8) ≤ 0x7a#8 ∧ (0x61#8 : U8) < 0x7a#8 := by decide

/-- C05: `count` is the number of members. -/
theorem C05_class_count (a : CharReach) : a.count = (members a.test).length :=
  BitField256.C05_count a.bits

/-- C06: the least and the greatest member. -/
theorem C06_class_first_last (a : CharReach) :
    IsLeastOpt a.test a.findFirst ∧ IsGreatestOpt a.test a.findLast :=
  BitField256.C06_first_last a.bits

/-- C07: the next member. -/
theorem C07_class_find_next (a : CharReach) (last : U8) :
    IsLeastOpt (fun y => a.test y && decide (last < y)) (a.findNext last) :=
  BitField256.C07_find_next a.bits last

/-- C07: iteration visits the members in increasing order. -/
theorem C07_class_iteration (a : CharReach) (fuel : Nat) (h : 256 ≤ fuel) :
    memberLoop a fuel a.findFirst = members a.test :=
  BitField256.C07_iteration a.bits fuel h

example : memberLoop (fromBytes [7#8, 200#8, 64#8]) 256 (fromBytes [7#8, 200#8, 64#8]).findFirst
    = members (fromBytes [7#8, 200#8, 64#8]).test := C07_class_iteration _ 256 (Nat.le_refl _)

/-- C08: `find_nth(n)` is the `n`-th member in increasing order; it never panics. -/
theorem C08_class_find_nth (p : Profile) (a : CharReach) (n : U8) :
    a.findNth p n = .ok (members a.test)[n.toNat]? := BitField256.C08_find_nth p a.bits n

example : (fromBytes [7#8, 200#8, 64#8]).count = 3 ∧
    (fromBytes [7#8, 200#8, 64#8]).findFirst = some 7#8 ∧
    (fromBytes [7#8, 200#8, 64#8]).findLast = some 200#8 ∧
    (fromBytes [7#8, 200#8, 64#8]).findNext 7#8 = some 64#8 ∧
    (fromBytes [7#8, 200#8, 64#8]).findNth .debug 2#8 = .ok (some 200#8) := by decide +kernel

/-- C09: the Boolean operations of classes act pointwise, plain and assigning. -/
theorem C09_class_pointwise (a b : CharReach) (n : U8) :
    (a.and b).test n = (a.test n && b.test n) ∧ (a.or b).test n = (a.test n || b.test n) ∧
    (a.xor b).test n = (a.test n ^^ b.test n) ∧ (a.not).test n = !a.test n ∧
    (a.andAssign b).test n = (a.test n && b.test n) ∧
    (a.orAssign b).test n = (a.test n || b.test n) ∧
    (a.xorAssign b).test n = (a.test n ^^ b.test n) := by
  have hab := BitField256.C09_pointwise a.bits b.bits n
  have hba := BitField256.C09_pointwise b.bits a.bits n
  have sab := BitField256.C09_assign a.bits b.bits
  have sba := BitField256.C09_assign b.bits a.bits
  simp only [CharReach.test, CharReach.and, CharReach.or, CharReach.xor, CharReach.not,
    CharReach.andAssign, CharReach.orAssign, CharReach.xorAssign, sab.1, sab.2.1, sab.2.2,
    sba.1, sba.2.1, sba.2.2]
  refine ⟨?_, ?_, ?_, hab.2.2.2, hab.1, hab.2.1, hab.2.2.1⟩
  · rw [hba.1, Bool.and_comm]
  · rw [hba.2.1, Bool.or_comm]
  · rw [hba.2.2.1, Bool.xor_comm]

/-- C09: classes are equal iff they have the same members. -/
theorem C09_class_extensional (a b : CharReach) : a = b ↔ ∀ n, a.test n = b.test n := by
  cases a with | mk a => cases b with | mk b =>
  rw [CharReach.mk.injEq]; exact BitField256.C09_extensional a b

example : ((fromBytes [1#8, 2#8]).xor (fromBytes [2#8, 3#8])) = fromBytes [1#8, 3#8] := by
  decide +kernel

/-- C10: the derived ordering of classes is a total order whose "equal" is equality. -/
theorem C10_class_total_order (a b c : CharReach) :
    (a.cmp b = .eq ↔ a = b) ∧ b.cmp a = (a.cmp b).swap ∧
    (a.cmp b ≠ .gt → b.cmp c ≠ .gt → a.cmp c ≠ .gt) := by
  have h := BitField256.C10_total_order a.bits b.bits c.bits
  refine ⟨h.1.trans ⟨fun e => ?_, fun e => e ▸ rfl⟩, h.2⟩
  cases a; cases b; exact congrArg _ e

example : (fromBytes [64#8]).cmp (fromBytes [1#8]) ≠ .gt ∧ (fromBytes [1#8]).cmp (fromBytes [2#8]) ≠ .gt := by
  decide +kernel

/-- C10: which order it is (see `BitField256.C10_order`). -/
theorem C10_class_order (a b : CharReach) :
    a.cmp b = .lt ↔ ∃ n : U8, a.test n = false ∧ b.test n = true ∧
      ∀ m : U8, m.toNat / 64 < n.toNat / 64 ∨ (m.toNat / 64 = n.toNat / 64 ∧ n < m) →
        a.test m = b.test m := BitField256.C10_order a.bits b.bits

example : (fromBytes [65#8]).cmp (fromBytes [1#8]) = .lt := by decide +kernel

end Rescan.CharReach
