import Verif.Model.CharReach
import Verif.Spec.ByteSet
import Verif.Proofs.BitFieldFind
import Verif.Proofs.BitFieldRange
/-! # Lemmas about byte classes: iteration, masks, case closure -/
namespace Rescan

open Spec

/-! ## Case mapping: statements over all 256 bytes -/

theorem forall_u8 {P : U8 → Prop} (h : ∀ i : Fin 256, P (BitVec.ofFin i)) (c : U8) : P c := h c.toFin

theorem ourisalpha_iff (c : U8) : ourisalpha c = decide (isLetter c) := by
  revert c; decide +kernel

theorem mytolower_upper (c : U8) : isUpper c → (mytolower c).toNat = c.toNat + 32 := by
  revert c; decide +kernel

theorem mytolower_other (c : U8) : ¬ isUpper c → mytolower c = c := by
  revert c; decide +kernel

theorem mytoupper_lower (c : U8) : isLower c → (mytoupper c).toNat + 32 = c.toNat := by
  revert c; decide +kernel

theorem mytoupper_other (c : U8) : ¬ isLower c → mytoupper c = c := by
  revert c; decide +kernel

theorem casePair_comm (c d : U8) : casePair c d ↔ casePair d c := by
  unfold casePair; exact Or.comm

/-! ## Members -/

namespace BitField256

theorem ofNat_toNat8 (k : Nat) (h : k < 256) : (BitVec.ofNat 8 k).toNat = k := by
  rw [BitVec.toNat_ofNat]; exact Nat.mod_eq_of_lt h

/-- Members at or above `lo`. -/
def membersFrom (b : BitField256) (lo : Nat) : List U8 :=
  ((List.range' lo (256 - lo)).map (BitVec.ofNat 8)).filter b.test

theorem membersFrom_ge (b : BitField256) (lo : Nat) (h : 256 ≤ lo) : b.membersFrom lo = [] := by
  unfold membersFrom
  rw [show 256 - lo = 0 by omega]; rfl

theorem membersFrom_step (b : BitField256) (lo : Nat) (h : lo < 256) :
    b.membersFrom lo = (if b.bit lo then [BitVec.ofNat 8 lo] else []) ++ b.membersFrom (lo + 1) := by
  unfold membersFrom
  rw [show 256 - lo = (256 - (lo + 1)) + 1 by omega, List.range'_succ, List.map_cons,
    List.filter_cons, test_eq_bit, ofNat_toNat8 lo h]
  split <;> rfl

theorem membersFrom_skip (b : BitField256) (lo : Nat) : ∀ d, (∀ k, lo ≤ k → k < lo + d → b.bit k = false) →
    b.membersFrom lo = b.membersFrom (lo + d) := by
  intro d
  induction d with
  | zero => intro _; rfl
  | succ d ih =>
    intro h
    rw [ih (fun k h1 h2 => h k h1 (by omega))]
    by_cases hl : lo + d < 256
    · rw [membersFrom_step b _ hl, h (lo + d) (by omega) (by omega)]; rfl
    · rw [membersFrom_ge _ _ (by omega), membersFrom_ge _ _ (by omega)]

theorem membersFrom_none (b : BitField256) (lo : Nat) (h : LeastGE b lo Option.none) :
    b.membersFrom lo = [] := by
  rw [membersFrom_skip b lo 256 (fun k h1 _ => h k h1), membersFrom_ge _ _ (by omega)]

theorem membersFrom_some (b : BitField256) (lo : Nat) (x : U8) (h : LeastGE b lo (some x)) :
    b.membersFrom lo = x :: b.membersFrom (x.toNat + 1) := by
  obtain ⟨h1, h2, h3⟩ := h
  rw [membersFrom_skip b lo (x.toNat - lo) (fun k h4 h5 => h3 k h4 (by omega)),
    show lo + (x.toNat - lo) = x.toNat by omega, membersFrom_step b _ x.isLt, h2]
  simp

theorem members_eq (b : BitField256) : members b.test = b.membersFrom 0 := by
  unfold members allBytes membersFrom
  rw [List.range_eq_range']

theorem mem_members (s : U8 → Bool) (x : U8) : x ∈ members s ↔ s x = true := by
  unfold members allBytes
  rw [List.mem_filter, List.mem_map]
  constructor
  · exact fun h => h.2
  · intro h
    exact ⟨⟨x.toNat, List.mem_range.2 x.isLt, by rw [BitVec.ofNat_toNat]; simp⟩, h⟩

theorem count_members (b : BitField256) : b.count = (members b.test).length := by
  rw [count_eq_rank]
  unfold rank members allBytes
  rw [← List.countP_eq_length_filter, List.countP_map]
  apply List.countP_congr
  intro k hk
  have := List.mem_range.1 hk
  rw [Function.comp, test_eq_bit, ofNat_toNat8 k this]

theorem findFirst_least (b : BitField256) : IsLeastOpt b.test b.findFirst := by
  have h := findFirst_spec b
  revert h
  cases b.findFirst with
  | none => intro h y; rw [test_eq_bit]; exact h _ (Nat.zero_le _)
  | some x =>
    rintro ⟨-, h2, h3⟩
    refine ⟨by rw [test_eq_bit]; exact h2, fun y hy => ?_⟩
    rw [test_eq_bit] at hy
    rw [BitVec.le_def]
    rcases Nat.lt_or_ge y.toNat x.toNat with hlt | hge
    · rw [h3 _ (Nat.zero_le _) hlt] at hy; cases hy
    · exact hge

theorem findLast_greatest (b : BitField256) : IsGreatestOpt b.test b.findLast := by
  have h := findLast_spec b
  revert h
  cases b.findLast with
  | none => intro h y; rw [test_eq_bit]; exact h _ y.isLt
  | some x =>
    rintro ⟨-, h2, h3⟩
    refine ⟨by rw [test_eq_bit]; exact h2, fun y hy => ?_⟩
    rw [test_eq_bit] at hy
    rw [BitVec.le_def]
    rcases Nat.lt_or_ge x.toNat y.toNat with hlt | hge
    · rw [h3 _ hlt y.isLt] at hy; cases hy
    · exact hge

theorem findNext_least (b : BitField256) (last : U8) :
    IsLeastOpt (fun y => b.test y && decide (last < y)) (b.findNext last) := by
  have h := findNext_spec b last
  revert h
  cases b.findNext last with
  | none =>
    intro h y
    by_cases hy : last < y
    · rw [BitVec.lt_def] at hy
      simp only [test_eq_bit, h _ hy, Bool.false_and]
    · simp [hy]
  | some x =>
    rintro ⟨h1, h2, h3⟩
    refine ⟨?_, fun y hy => ?_⟩
    · have : last < x := by rw [BitVec.lt_def]; omega
      simp [test_eq_bit, h2, this]
    · simp only [test_eq_bit, Bool.and_eq_true, decide_eq_true_eq, BitVec.lt_def] at hy
      rw [BitVec.le_def]
      rcases Nat.lt_or_ge y.toNat x.toNat with hlt | hge
      · rw [h3 _ hy.2 hlt] at hy; cases hy.1
      · exact hge

theorem range_split (x : Nat) (h : x ≤ 256) :
    List.range 256 = List.range x ++ List.range' x (256 - x) := by
  rw [List.range_eq_range', List.range_eq_range']
  have := List.range'_append (s := 0) (m := x) (n := 256 - x) (step := 1)
  rw [show 0 + 1 * x = x by omega, show x + (256 - x) = 256 by omega] at this
  exact this.symm

theorem members_getElem_rank (b : BitField256) (x : U8) (h : b.bit x.toNat = true) :
    (members b.test)[rank b.bit x.toNat]? = some x := by
  have hx := x.isLt
  have hlen : (List.filter b.test ((List.range x.toNat).map (BitVec.ofNat 8))).length
      = rank b.bit x.toNat := by
    unfold rank
    rw [← List.countP_eq_length_filter, List.countP_map]
    apply List.countP_congr
    intro k hk
    have := List.mem_range.1 hk
    rw [Function.comp, test_eq_bit, ofNat_toNat8 k (by omega)]
  unfold members allBytes
  rw [range_split x.toNat (by omega), List.map_append, List.filter_append, ← hlen,
    List.getElem?_append_right (Nat.le_refl _), Nat.sub_self]
  have := membersFrom_step b x.toNat hx
  unfold membersFrom at this
  rw [this, h]
  simp

theorem findNth_members (p : Profile) (b : BitField256) (n : U8) :
    b.findNth p n = .ok (members b.test)[n.toNat]? := by
  obtain ⟨r, h1, h2⟩ := findNth_spec p b n
  rw [h1]
  cases r with
  | none =>
    have : (members b.test).length ≤ n.toNat := by
      rw [← count_members, count_eq_rank]; exact h2
    rw [List.getElem?_eq_none this]
  | some x =>
    rw [← h2.2, members_getElem_rank b x h2.1]

end BitField256

namespace CharReach

theorem memberLoop_eq (cr : CharReach) : ∀ (fuel lo : Nat) (r : Option U8),
    BitField256.LeastGE cr.bits lo r → 256 ≤ fuel + lo →
    memberLoop cr fuel r = cr.bits.membersFrom lo := by
  intro fuel
  induction fuel with
  | zero =>
    intro lo r h hf
    rw [BitField256.membersFrom_ge _ _ (by omega)]; rfl
  | succ fuel ih =>
    intro lo r h hf
    cases r with
    | none => rw [BitField256.membersFrom_none _ _ h]; rfl
    | some x =>
      have hx : lo ≤ x.toNat := h.1
      rw [BitField256.membersFrom_some _ _ _ h]
      unfold memberLoop
      rw [ih (x.toNat + 1) (cr.findNext x) (BitField256.findNext_spec cr.bits x) (by omega)]

/-- Any number of iterations from 256 on gives the members in order. -/
theorem memberLoop_members (cr : CharReach) (fuel : Nat) (h : 256 ≤ fuel) :
    memberLoop cr fuel cr.findFirst = members cr.test := by
  rw [memberLoop_eq cr fuel 0 cr.findFirst (BitField256.findFirst_spec cr.bits) (by omega)]
  exact (BitField256.members_eq cr.bits).symm

theorem memberSeq_eq (cr : CharReach) : cr.memberSeq = members cr.test :=
  memberLoop_members cr 256 (Nat.le_refl _)

theorem mem_memberSeq (cr : CharReach) (x : U8) : x ∈ cr.memberSeq ↔ cr.test x = true := by
  rw [memberSeq_eq, BitField256.mem_members]

theorem ext_test {a b : CharReach} (h : ∀ n, a.test n = b.test n) : a = b := by
  cases a; cases b; congr 1; exact BitField256.ext_test h

theorem set_test (cr : CharReach) (c m : U8) :
    (cr.set c).test m = (cr.test m || decide (m = c)) := by
  have := BitField256.set_test cr.bits c m
  show (cr.bits.set c).test m = (cr.bits.test m || _)
  rw [this]
  by_cases h : m = c <;> simp [h]

theorem default_test (m : U8) : CharReach.default.test m = false := BitField256.default_test m

theorem fromChar_test (c m : U8) : (fromChar c).test m = decide (m = c) := by
  unfold fromChar; rw [set_test, default_test]; simp

theorem setBytes_test (bs : List U8) : ∀ (cr : CharReach) (m : U8),
    (cr.setBytes bs).test m = (cr.test m || decide (m ∈ bs)) := by
  induction bs with
  | nil => intro cr m; simp [setBytes]
  | cons c bs ih =>
    intro cr m
    have := ih (cr.set c) m
    unfold setBytes at this ⊢
    rw [List.foldl_cons, this, set_test]
    by_cases h1 : m = c <;> by_cases h2 : m ∈ bs <;> simp [h1, h2]

theorem fromBytes_test (bs : List U8) (m : U8) : (fromBytes bs).test m = decide (m ∈ bs) := by
  unfold fromBytes; rw [setBytes_test, default_test]; simp

theorem fromRange_ok (p : Profile) (a b : U8) (h : a ≤ b) :
    ∃ cr, fromRange p a b = .ok cr ∧ ∀ m, cr.test m = (decide (a ≤ m) && decide (m ≤ b)) := by
  obtain ⟨b', h1, h2⟩ := BitField256.setRange_ok p BitField256.default a b h
  refine ⟨⟨b'⟩, ?_, fun m => ?_⟩
  · unfold fromRange setRange
    show (BitField256.default.setRange p a b >>= _) = _
    rw [h1]; rfl
  · have := h2 m
    rw [BitField256.default_test, Bool.false_or] at this
    exact this

theorem dot_ok (p : Profile) : ∃ cr, dot p = .ok cr ∧ ∀ m, cr.test m = true := by
  obtain ⟨cr, h1, h2⟩ := fromRange_ok p 0#8 255#8 (by decide)
  refine ⟨cr, h1, fun m => ?_⟩
  rw [h2]
  have h3 : (0#8 ≤ m) := by rw [BitVec.le_def]; simp
  have h4 : (m ≤ 255#8) := by rw [BitVec.le_def]; have := m.isLt; simp; omega
  simp [h3, h4]

theorem and_test (a b : CharReach) (m : U8) : (a.and b).test m = (a.test m && b.test m) :=
  BitField256.and_test a.bits b.bits m
theorem or_test (a b : CharReach) (m : U8) : (a.or b).test m = (a.test m || b.test m) :=
  BitField256.or_test a.bits b.bits m
theorem xor_test (a b : CharReach) (m : U8) : (a.xor b).test m = (a.test m ^^ b.test m) :=
  BitField256.xor_test a.bits b.bits m
theorem not_test (a : CharReach) (m : U8) : (a.not).test m = !a.test m :=
  BitField256.not_test a.bits m

theorem none_iff (a : CharReach) : a.none = true ↔ ∀ n, a.test n = false := BitField256.none_iff a.bits
theorem any_iff (a : CharReach) : a.any = true ↔ ∃ n, a.test n = true := BitField256.any_iff a.bits
theorem all_iff (a : CharReach) : a.all = true ↔ ∀ n, a.test n = true := BitField256.all_iff a.bits

theorem isAlphabetic_iff (cr : CharReach) : cr.isAlphabetic = true ↔
    (∃ c, cr.test c = true) ∧ ∀ c, cr.test c = true → isLetter c := by
  unfold isAlphabetic
  cases hn : cr.none
  · simp only [Bool.false_eq_true, if_false, List.all_eq_true, mem_memberSeq, ourisalpha_iff,
      decide_eq_true_eq]
    have : ¬ ∀ n, cr.test n = false := by rw [← none_iff, hn]; simp
    have h2 : ∃ c, cr.test c = true := by
      by_cases hx : ∃ c, cr.test c = true
      · exact hx
      · exfalso; apply this; intro n
        cases h : cr.test n
        · rfl
        · exact absurd ⟨n, h⟩ hx
    constructor
    · exact fun h => ⟨h2, h⟩
    · exact fun h => h.2
  · have := (none_iff cr).1 hn
    simp only [if_true, Bool.false_eq_true, false_iff]
    rintro ⟨⟨c, hc⟩, -⟩
    rw [this c] at hc; cases hc

theorem isBit5Insensitive_iff (cr : CharReach) : cr.isBit5Insensitive = true ↔
    ∀ c, cr.test c = true → cr.test (c ^^^ 0x20#8) = true := by
  unfold isBit5Insensitive
  simp only [List.all_eq_true, mem_memberSeq]

theorem isSubsetOf_iff (a b : CharReach) : a.isSubsetOf b = true ↔
    ∀ c, a.test c = true → b.test c = true := by
  unfold isSubsetOf
  rw [beq_iff_eq]
  constructor
  · intro h c hc
    have := BitField256.and_test a.bits b.bits c
    rw [h] at this
    unfold test at hc ⊢
    rw [hc] at this
    simpa using this.symm
  · intro h
    apply BitField256.ext_test
    intro c
    rw [BitField256.and_test]
    have := h c
    unfold test at this
    cases h1 : a.bits.test c
    · rfl
    · rw [this h1]; rfl

theorem overlaps_iff (a b : CharReach) : a.overlaps b = true ↔
    ∃ c, a.test c = true ∧ b.test c = true := by
  unfold overlaps
  rw [any_iff]
  simp only [and_test, Bool.and_eq_true]

theorem isAscii_ok (p : Profile) (cr : CharReach) :
    ∃ r, cr.isAscii p = .ok r ∧ (r = true ↔ ∀ c, cr.test c = true → c.toNat < 128) := by
  obtain ⟨rg, h1, h2⟩ := fromRange_ok p 0x00#8 0x7f#8 (by decide)
  refine ⟨(cr.and rg.not).none, ?_, ?_⟩
  · unfold isAscii; rw [h1]; rfl
  · rw [none_iff]
    simp only [and_test, not_test, h2]
    have key : ∀ c : U8, (decide (0x00#8 ≤ c) && decide (c ≤ 0x7f#8)) = decide (c.toNat < 128) := by
      decide +kernel
    simp only [key]
    constructor
    · intro h c hc
      have := h c
      rw [hc] at this; simpa using this
    · intro h c
      cases hc : cr.test c
      · rfl
      · simp [h c hc]

theorem isUtf8Start_ok (p : Profile) (cr : CharReach) :
    ∃ r, cr.isUtf8Start p = .ok r ∧ (r = true ↔ ∀ c, cr.test c = true → 192 ≤ c.toNat) := by
  obtain ⟨rg, h1, h2⟩ := fromRange_ok p 0x00#8 utfContMax (by decide)
  refine ⟨(cr.and rg).none, ?_, ?_⟩
  · unfold isUtf8Start; rw [h1]; rfl
  · rw [none_iff]
    simp only [and_test, h2]
    have key : ∀ c : U8, (decide (0x00#8 ≤ c) && decide (c ≤ utfContMax)) = decide (c.toNat < 192) := by
      decide +kernel
    simp only [key]
    constructor
    · intro h c hc
      have := h c
      rw [hc] at this; simpa using this
    · intro h c
      cases hc : cr.test c
      · rfl
      · simp [h c hc]

/-! ## Caseless pairs -/

theorem toupper_pair (a b : U8) (h : a < b) : (a == mytoupper b) = decide (casePair a b) := by
  have key : ∀ a b : U8, a < b → (a == mytoupper b) = decide (casePair a b) := by
    intro a b hab
    by_cases hb : isLower b
    · have h1 := mytoupper_lower b hb
      rw [Bool.eq_iff_iff, beq_iff_eq, decide_eq_true_eq, ← BitVec.toNat_inj]
      unfold casePair isUpper
      unfold isLower at hb
      rw [BitVec.lt_def] at hab
      omega
    · rw [mytoupper_other b hb, Bool.eq_iff_iff, beq_iff_eq, decide_eq_true_eq, ← BitVec.toNat_inj]
      unfold casePair isUpper
      unfold isLower at hb
      rw [BitVec.lt_def] at hab
      omega
  exact key a b h

theorem memberSeq_two (cr : CharReach) (h : cr.count = 2) : ∃ a b, a < b ∧ members cr.test = [a, b] ∧
    cr.findFirst = some a ∧ cr.findNext a = some b := by
  have hlen : (members cr.test).length = 2 := by rw [← h]; exact (BitField256.count_members cr.bits).symm
  have hm : members cr.test = cr.bits.membersFrom 0 := BitField256.members_eq cr.bits
  have hf := BitField256.findFirst_spec cr.bits
  cases hff : cr.bits.findFirst with
  | none =>
    rw [hff] at hf
    rw [hm, BitField256.membersFrom_none _ _ hf] at hlen; cases hlen
  | some a =>
    rw [hff] at hf
    have h1 := BitField256.membersFrom_some _ _ _ hf
    have hn := BitField256.findNext_spec cr.bits a
    cases hfn : cr.bits.findNext a with
    | none =>
      rw [hfn] at hn
      rw [hm, h1, BitField256.membersFrom_none _ _ hn] at hlen; cases hlen
    | some b =>
      rw [hfn] at hn
      have h2 := BitField256.membersFrom_some _ _ _ hn
      refine ⟨a, b, ?_, ?_, hff, hfn⟩
      · rw [BitVec.lt_def]; exact hn.1
      · rw [hm, h1, h2] at hlen ⊢
        rw [List.length_cons, List.length_cons] at hlen
        have : (cr.bits.membersFrom (b.toNat + 1)) = [] := List.length_eq_zero_iff.1 (by omega)
        rw [this]

theorem members_pair_iff (s : U8 → Bool) (a b : U8) (h : members s = [a, b]) (c : U8) :
    s c = true ↔ c = a ∨ c = b := by
  rw [← BitField256.mem_members, h]; simp

theorem isCaselessChar_ok {ε : Type} (cr : CharReach) : ∃ r, cr.isCaselessChar (ε := ε) = .ok r ∧
    (r = true ↔ ∃ u l, isUpper u ∧ l.toNat = u.toNat + 32 ∧
      ∀ c, cr.test c = true ↔ (c = u ∨ c = l)) := by
  unfold isCaselessChar
  by_cases hc : cr.count = 2
  · obtain ⟨a, b, hab, hm, hf, hn⟩ := memberSeq_two cr hc
    refine ⟨a == mytoupper b, ?_, ?_⟩
    · rw [if_neg (by simp [hc]), hf]
      show (Outcome.ok a >>= fun first => Outcome.expect (cr.findNext first) _ >>= fun second =>
        pure (first == mytoupper second)) = _
      rw [Outcome.ok_bind, hn]; rfl
    · rw [toupper_pair a b hab, decide_eq_true_eq]
      have hmem := members_pair_iff _ _ _ hm
      rw [BitVec.lt_def] at hab
      constructor
      · rintro (⟨h1, h2⟩ | ⟨h1, h2⟩)
        · exact ⟨a, b, h1, h2, hmem⟩
        · omega
      · rintro ⟨u, l, hu, hl, hul⟩
        have h1 := (hul u).2 (Or.inl rfl); rw [hmem] at h1
        have h2 := (hul l).2 (Or.inr rfl); rw [hmem] at h2
        left
        rcases h1 with rfl | rfl <;> rcases h2 with rfl | rfl
        · omega
        · exact ⟨hu, hl⟩
        · omega
        · omega
  · refine ⟨false, by rw [if_pos hc], ?_⟩
    simp only [Bool.false_eq_true, false_iff]
    rintro ⟨u, l, hu, hl, hul⟩
    apply hc
    -- the members are exactly two
    have hne : u ≠ l := by intro h; rw [h] at hl; omega
    have hset : cr = (fromChar u).set l := by
      apply ext_test
      intro c
      rw [set_test, fromChar_test, Bool.eq_iff_iff, hul]; simp
    have hcnt : ∀ u : U8, isUpper u → ((fromChar u).set (u + 32#8)).count = 2 := by
      decide +kernel
    rw [hset]
    have hl' : l = u + 32#8 := by
      rw [← BitVec.toNat_inj, BitVec.toNat_add, hl]
      unfold isUpper at hu
      simp only [BitVec.toNat_ofNat, Nat.reducePow, Nat.reduceMod]; omega
    rw [hl']; exact hcnt u hu

/-! ## Case closure -/

theorem mem_upperLetters (c : U8) : c ∈ upperLetters ↔ isUpper c := by
  revert c; decide +kernel

/-- One step of the loop of `make_caseless`. -/
def caseStep (cr : CharReach) (c : U8) : CharReach :=
  if cr.test c || cr.test (mytolower c) then (cr.set c).set (mytolower c) else cr

theorem caseStep_test (cr : CharReach) (c m : U8) : (caseStep cr c).test m =
    (cr.test m || ((cr.test c || cr.test (mytolower c)) && (decide (m = c) || decide (m = mytolower c)))) := by
  unfold caseStep
  cases h : (cr.test c || cr.test (mytolower c))
  · simp
  · simp [set_test, Bool.or_assoc]

theorem casePair_letter {c m d : U8} (hc : isUpper c) (h : m = c ∨ m = mytolower c) :
    casePair m d ↔ (d = c ∨ d = mytolower c) ∧ d ≠ m := by
  have h1 := mytolower_upper c hc
  unfold isUpper at hc
  simp only [ne_eq, ← BitVec.toNat_inj] at h ⊢
  unfold casePair isUpper
  omega

theorem caseFold_test : ∀ (ls : List U8) (cr : CharReach) (m : U8), ls.Nodup →
    (∀ c ∈ ls, isUpper c) →
    ((ls.foldl caseStep cr).test m = true ↔ cr.test m = true ∨
      ∃ c ∈ ls, (m = c ∨ m = mytolower c) ∧ (cr.test c = true ∨ cr.test (mytolower c) = true)) := by
  intro ls
  induction ls with
  | nil => intro cr m _ _; simp
  | cons c ls ih =>
    intro cr m hnd hup
    rw [List.foldl_cons, ih _ m (List.nodup_cons.1 hnd).2 (fun d hd => hup d (List.mem_cons_of_mem _ hd))]
    have hnc := (List.nodup_cons.1 hnd).1
    have hc := hup c List.mem_cons_self
    have hlow : ∀ d, isUpper d → (mytolower d).toNat = d.toNat + 32 := mytolower_upper
    -- the step leaves the other letters alone
    have hother : ∀ d ∈ ls, ((caseStep cr c).test d = true ∨ (caseStep cr c).test (mytolower d) = true) ↔
        (cr.test d = true ∨ cr.test (mytolower d) = true) := by
      intro d hd
      have hdu := hup d (List.mem_cons_of_mem _ hd)
      have hdc : d ≠ c := fun e => hnc (e ▸ hd)
      have e1 := hlow d hdu; have e2 := hlow c hc
      have g1 : d ≠ mytolower c := by
        intro e; rw [← BitVec.toNat_inj] at e; unfold isUpper at *; omega
      have g2 : mytolower d ≠ c := by
        intro e; rw [← BitVec.toNat_inj] at e; unfold isUpper at *; omega
      have g3 : mytolower d ≠ mytolower c := by
        intro e; apply hdc; rw [← BitVec.toNat_inj] at e ⊢; omega
      rw [caseStep_test, caseStep_test]
      simp [hdc, g1, g2, g3]
    constructor
    · rintro (h | ⟨d, hd, h1, h2⟩)
      · rw [caseStep_test] at h
        simp only [Bool.or_eq_true, Bool.and_eq_true, decide_eq_true_eq] at h
        rcases h with h | ⟨h1, h2⟩
        · exact Or.inl h
        · exact Or.inr ⟨c, List.mem_cons_self, h2, h1⟩
      · exact Or.inr ⟨d, List.mem_cons_of_mem _ hd, h1, (hother d hd).1 h2⟩
    · rintro (h | ⟨d, hd, h1, h2⟩)
      · left; rw [caseStep_test, h]; rfl
      · rcases List.mem_cons.1 hd with rfl | hd'
        · left; rw [caseStep_test]
          simp only [Bool.or_eq_true, Bool.and_eq_true, decide_eq_true_eq]
          exact Or.inr ⟨h2, h1⟩
        · right; exact ⟨d, hd', h1, (hother d hd').2 h2⟩

theorem makeCaseless_test (cr : CharReach) (m : U8) :
    (cr.makeCaseless.test m = true ↔ cr.test m = true ∨ ∃ d, casePair m d ∧ cr.test d = true) := by
  have hm : cr.makeCaseless = upperLetters.foldl caseStep cr := rfl
  rw [hm, caseFold_test upperLetters cr m (by decide +kernel) (fun c hc => (mem_upperLetters c).1 hc)]
  constructor
  · rintro (h | ⟨c, hc, h1, h2⟩)
    · exact Or.inl h
    · have hu := (mem_upperLetters c).1 hc
      rcases h2 with h2 | h2
      · by_cases e : m = c
        · left; rw [e]; exact h2
        · right; exact ⟨c, (casePair_letter hu h1).2 ⟨Or.inl rfl, fun x => e x.symm⟩, h2⟩
      · by_cases e : m = mytolower c
        · left; rw [e]; exact h2
        · right; exact ⟨mytolower c, (casePair_letter hu h1).2 ⟨Or.inr rfl, fun x => e x.symm⟩, h2⟩
  · rintro (h | ⟨d, hd, h⟩)
    · exact Or.inl h
    · right
      rcases hd with ⟨hu, hd⟩ | ⟨hu, hd⟩
      · have e : d = mytolower m := by rw [← BitVec.toNat_inj, mytolower_upper m hu, hd]
        exact ⟨m, (mem_upperLetters m).2 hu, Or.inl rfl, Or.inr (e ▸ h)⟩
      · have e : m = mytolower d := by rw [← BitVec.toNat_inj, mytolower_upper d hu, hd]
        exact ⟨d, (mem_upperLetters d).2 hu, Or.inr e, Or.inl h⟩

/-! ## and/cmp masks -/

theorem loHi_getLsbD (l : List U8) : ∀ (s : U8 × U8) (i : Nat), i < 8 →
    ((l.foldl (fun (s : U8 × U8) pos => (s.1 &&& pos, s.2 ||| pos)) s).1.getLsbD i
        = (s.1.getLsbD i && l.all (fun c => c.getLsbD i))) ∧
    ((l.foldl (fun (s : U8 × U8) pos => (s.1 &&& pos, s.2 ||| pos)) s).2.getLsbD i
        = (s.2.getLsbD i || l.any (fun c => c.getLsbD i))) := by
  induction l with
  | nil => intro s i _; simp
  | cons c l ih =>
    intro s i hi
    rw [List.foldl_cons]
    obtain ⟨h1, h2⟩ := ih (s.1 &&& c, s.2 ||| c) i hi
    rw [h1, h2]
    simp [Bool.and_assoc, Bool.or_assoc]

theorem makeAndCmpMask_bits (cr : CharReach) (i : Nat) (hi : i < 8) :
    ((makeAndCmpMask cr).1.getLsbD i = true ↔
      (∀ c, cr.test c = true → c.getLsbD i = true) ∧ (∃ c, cr.test c = true ∧ c.getLsbD i = true) ∨
      ((∃ c, cr.test c = true ∧ c.getLsbD i = false) ∧ ∀ c, cr.test c = true → c.getLsbD i = false)) ∧
    ((makeAndCmpMask cr).2.getLsbD i = true ↔ ∀ c, cr.test c = true → c.getLsbD i = true) := by
  obtain ⟨h1, h2⟩ := loHi_getLsbD cr.memberSeq (0xff#8, 0x00#8) i hi
  have hff : (0xff#8).getLsbD i = true :=
    (by decide : ∀ i, i < 8 → (0xff#8).getLsbD i = true) i hi
  have h00 : (0x00#8).getLsbD i = false := by simp
  simp only [hff, h00, Bool.true_and, Bool.false_or] at h1 h2
  unfold makeAndCmpMask
  simp only
  generalize cr.memberSeq.foldl (fun (s : U8 × U8) pos => (s.1 &&& pos, s.2 ||| pos)) (0xff#8, 0x00#8)
    = s at h1 h2
  have hall : (cr.memberSeq.all (fun c => c.getLsbD i) = true) ↔
      ∀ c, cr.test c = true → c.getLsbD i = true := by
    rw [List.all_eq_true]; simp only [mem_memberSeq]
  have hany : (cr.memberSeq.any (fun c => c.getLsbD i) = true) ↔
      ∃ c, cr.test c = true ∧ c.getLsbD i = true := by
    rw [List.any_eq_true]; simp only [mem_memberSeq]
  constructor
  · rw [BitVec.getLsbD_not, BitVec.getLsbD_xor, h1, h2]
    simp only [hi, decide_true, Bool.true_and]
    cases ha : cr.memberSeq.all (fun c => c.getLsbD i) <;>
      cases hb : cr.memberSeq.any (fun c => c.getLsbD i)
    · -- neither: some member has 0, none has 1
      have ha' : ¬ ∀ c, cr.test c = true → c.getLsbD i = true := by rw [← hall, ha]; simp
      have hb' : ¬ ∃ c, cr.test c = true ∧ c.getLsbD i = true := by rw [← hany, hb]; simp
      simp only [Bool.xor_false, Bool.not_false, true_iff]
      right
      constructor
      · apply Classical.byContradiction
        intro hx; apply ha'; intro c hc
        cases hcc : c.getLsbD i
        · exact absurd ⟨c, hc, hcc⟩ hx
        · rfl
      · intro c hc
        cases hcc : c.getLsbD i
        · rfl
        · exact absurd ⟨c, hc, hcc⟩ hb'
    · have ha' : ¬ ∀ c, cr.test c = true → c.getLsbD i = true := by rw [← hall, ha]; simp
      obtain ⟨c, hc, hci⟩ := hany.1 hb
      simp only [Bool.false_bne, Bool.not_true, Bool.false_eq_true, false_iff]
      rintro (⟨h, -⟩ | ⟨-, h⟩)
      · exact ha' h
      · rw [h c hc] at hci; cases hci
    · have hb' : ¬ ∃ c, cr.test c = true ∧ c.getLsbD i = true := by rw [← hany, hb]; simp
      have ha' := hall.1 ha
      simp only [Bool.xor_false, Bool.not_true, Bool.false_eq_true, false_iff]
      rintro (⟨-, h⟩ | ⟨⟨c, hc, -⟩, -⟩)
      · exact hb' h
      · exact hb' ⟨c, hc, ha' c hc⟩
    · simp only [Bool.xor_self, Bool.not_false, true_iff]
      exact Or.inl ⟨hall.1 ha, hany.1 hb⟩
  · rw [h1]; exact hall

end CharReach
end Rescan
