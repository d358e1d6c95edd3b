import Verif.Proofs.CharReachExport
/-! # C11-C17: byte classes -/
namespace Rescan.CharReach

open Spec

/-! ## C11 -/

/-- C11: members of the constructed classes. -/
theorem C11_constructors (c m : U8) (bs : List U8) :
    ((fromChar c).test m = true ↔ m = c) ∧ ((fromBytes bs).test m = true ↔ m ∈ bs) := by
  rw [fromChar_test, fromBytes_test]; simp

/-- C11: `set_bytes` adds exactly the given bytes. -/
theorem C11_set_bytes (cr : CharReach) (bs : List U8) (m : U8) :
    (cr.setBytes bs).test m = true ↔ cr.test m = true ∨ m ∈ bs := by
  rw [setBytes_test]; simp

/-- C11: `dot` has every byte and does not panic. -/
theorem C11_dot (p : Profile) : ∃ cr, dot p = .ok cr ∧ ∀ m, cr.test m = true := dot_ok p

/-- C11: `from_range` has exactly the bytes of the range. -/
theorem C11_from_range (p : Profile) (a b : U8) (h : a ≤ b) :
    ∃ cr, fromRange p a b = .ok cr ∧ ∀ m, (cr.test m = true ↔ a ≤ m ∧ m ≤ b) := by
  obtain ⟨cr, h1, h2⟩ := fromRange_ok p a b h
  exact ⟨cr, h1, fun m => by rw [h2]; simp⟩

example : (0x41#8 : U8) ≤ 0x5a#8 := by decide
example : (fromBytes [1#8, 2#8, 1#8]).count = 2 := by decide +kernel

/-! ## C12 -/

/-- C12: the predicates that cannot panic by construction. -/
theorem C12_predicates (a b : CharReach) :
    (a.isAlphabetic = true ↔ (∃ c, a.test c = true) ∧ ∀ c, a.test c = true → isLetter c) ∧
    (a.isBit5Insensitive = true ↔ ∀ c, a.test c = true → a.test (c ^^^ 0x20#8) = true) ∧
    (a.isSubsetOf b = true ↔ ∀ c, a.test c = true → b.test c = true) ∧
    (a.overlaps b = true ↔ ∃ c, a.test c = true ∧ b.test c = true) :=
  ⟨isAlphabetic_iff a, isBit5Insensitive_iff a, isSubsetOf_iff a b, overlaps_iff a b⟩

example : (∀ c, (fromBytes [0x41#8, 0x62#8]).test c = true → isLetter c) ∧
    (∀ c, (fromBytes [0x41#8, 0x61#8]).test c = true → (fromBytes [0x41#8, 0x61#8]).test (c ^^^ 0x20#8) = true) ∧
    (fromBytes [0x41#8]).isSubsetOf (fromBytes [0x41#8, 0x62#8]) = true := by decide +kernel

/-- C12: `is_ascii` and `is_utf8_start` do not panic and mean what they say. -/
theorem C12_ranges (p : Profile) (a : CharReach) :
    (∃ r, a.isAscii p = .ok r ∧ (r = true ↔ ∀ c, a.test c = true → c.toNat < 0x80)) ∧
    (∃ r, a.isUtf8Start p = .ok r ∧ (r = true ↔ ∀ c, a.test c = true → 0xc0 ≤ c.toNat)) :=
  ⟨isAscii_ok p a, isUtf8Start_ok p a⟩

example : (fromBytes [0x41#8, 0x62#8]).isAlphabetic = true ∧
    (fromBytes [0x41#8, 0x5b#8]).isAlphabetic = false ∧
    (fromBytes [0x41#8, 0x61#8]).isBit5Insensitive = true ∧
    (fromBytes [0x41#8, 0xff#8]).isAscii .release = .ok false := by decide +kernel

/-! ## C13 -/

/-- C13: `is_caseless_char` is true exactly for a letter in its two cases, and never panics. -/
theorem C13_is_caseless_char {ε : Type} (cr : CharReach) :
    ∃ r, cr.isCaselessChar (ε := ε) = .ok r ∧
      (r = true ↔ ∃ u l, isUpper u ∧ l.toNat = u.toNat + 32 ∧
        ∀ c, cr.test c = true ↔ (c = u ∨ c = l)) := isCaselessChar_ok cr

example : (fromBytes [0x41#8, 0x61#8]).isCaselessChar (ε := Empty) = .ok true ∧
    (fromBytes [0x40#8, 0x60#8]).isCaselessChar (ε := Empty) = .ok false := by decide +kernel

/-! ## C14 -/

/-- C14: `make_caseless` adds exactly the other-case partners of the letters present. -/
theorem C14_members (cr : CharReach) (m : U8) :
    cr.makeCaseless.test m = true ↔ cr.test m = true ∨ ∃ d, casePair m d ∧ cr.test d = true :=
  makeCaseless_test cr m

/-- C14: the result is the least case-closed superset. -/
theorem C14_least (cr : CharReach) :
    (∀ c, cr.test c = true → cr.makeCaseless.test c = true) ∧
    (∀ c d, casePair c d → cr.makeCaseless.test c = true → cr.makeCaseless.test d = true) ∧
    (∀ s : CharReach, (∀ c, cr.test c = true → s.test c = true) →
      (∀ c d, casePair c d → s.test c = true → s.test d = true) →
      ∀ c, cr.makeCaseless.test c = true → s.test c = true) := by
  have hp : ∀ c d e, casePair c d → casePair c e → d = e := by
    intro c d e h1 h2
    rw [← BitVec.toNat_inj]
    unfold casePair isUpper at *
    omega
  refine ⟨fun c h => (makeCaseless_test cr c).2 (Or.inl h), fun c d hcd h => ?_, fun s h1 h2 c h => ?_⟩
  · rw [makeCaseless_test] at h ⊢
    rcases h with h | ⟨e, he, h⟩
    · exact Or.inr ⟨c, (casePair_comm c d).1 hcd, h⟩
    · rw [hp c d e hcd he]; exact Or.inl h
  · rw [makeCaseless_test] at h
    rcases h with h | ⟨e, he, h⟩
    · exact h1 c h
    · exact h2 e c ((casePair_comm c e).1 he) (h1 e h)

example : (∀ c, (fromBytes [0x41#8]).test c = true → (fromBytes [0x41#8, 0x61#8]).test c = true) ∧
    (∀ c d, casePair c d → (fromBytes [0x41#8, 0x61#8]).test c = true → (fromBytes [0x41#8, 0x61#8]).test d = true) := by
  refine ⟨by decide +kernel, ?_⟩
  have h : ∀ c, (fromBytes [0x41#8, 0x61#8]).test c = true → ∀ d, casePair c d →
      (fromBytes [0x41#8, 0x61#8]).test d = true := by
    intro c hc
    have : c = 0x41#8 ∨ c = 0x61#8 := by revert c; decide +kernel
    rcases this with rfl | rfl <;> decide +kernel
  exact fun c d hp hc => h c hc d hp

/-- C14: idempotent and monotone. -/
theorem C14_closure (a b : CharReach) :
    a.makeCaseless.makeCaseless = a.makeCaseless ∧
    ((∀ c, a.test c = true → b.test c = true) →
      ∀ c, a.makeCaseless.test c = true → b.makeCaseless.test c = true) := by
  constructor
  · apply ext_test
    intro c
    rw [Bool.eq_iff_iff]
    have h1 := C14_least a
    have h2 := C14_least a.makeCaseless
    exact ⟨h2.2.2 a.makeCaseless (fun _ h => h) h1.2.1 c, h2.1 c⟩
  · intro h c hc
    have hb := C14_least b
    exact (C14_least a).2.2 b.makeCaseless (fun c hc => hb.1 c (h c hc)) hb.2.1 c hc

example : casePair 0x41#8 0x61#8 ∧ (fromBytes [0x41#8, 0x5b#8]).makeCaseless.test 0x61#8 = true ∧
    (fromBytes [0x41#8, 0x5b#8]).makeCaseless.test 0x7b#8 = false := by decide +kernel

/-! ## C15 -/

/-- C15: every member passes the masks. -/
theorem C15_accepts (cr : CharReach) (c : U8) (h : cr.test c = true) :
    c &&& (makeAndCmpMask cr).1 = (makeAndCmpMask cr).2 := by
  apply BitVec.eq_of_getLsbD_eq
  intro i hi
  obtain ⟨h1, h2⟩ := makeAndCmpMask_bits cr i hi
  rw [BitVec.getLsbD_and, Bool.eq_iff_iff, Bool.and_eq_true, h1, h2]
  constructor
  · rintro ⟨hc, ⟨hall, -⟩ | ⟨-, hall⟩⟩
    · exact hall
    · rw [hall c h] at hc; cases hc
  · intro hall
    exact ⟨hall c h, Or.inl ⟨hall, c, h, hall c h⟩⟩

example := C15_accepts (fromBytes [0x41#8, 0x61#8]) 0x61#8 (by decide +kernel)

/-- C15: for the empty class the masks accept nothing. -/
theorem C15_empty (cr : CharReach) (h : ∀ c, cr.test c = false) (x : U8) :
    x &&& (makeAndCmpMask cr).1 ≠ (makeAndCmpMask cr).2 := by
  intro hx
  obtain ⟨h1, h2⟩ := makeAndCmpMask_bits cr 0 (by decide)
  have hxi := congrArg (fun w => BitVec.getLsbD w 0) hx
  simp only [BitVec.getLsbD_and] at hxi
  have hcmp := h2.2 (fun c hc => by rw [h c] at hc; cases hc)
  rw [hcmp, Bool.and_eq_true, h1] at hxi
  rcases hxi.2 with ⟨-, c, hc, -⟩ | ⟨⟨c, hc, -⟩, -⟩ <;> (rw [h c] at hc; cases hc)

example := C15_empty CharReach.default (by decide +kernel) 0x61#8

/-- C15: no and/cmp pair accepting all members accepts less (also for the empty class, where the
returned pair accepts nothing). -/
theorem C15_tightest (cr : CharReach) (a k : U8) (h : ∀ c, cr.test c = true → c &&& a = k) (x : U8)
    (hx : x &&& (makeAndCmpMask cr).1 = (makeAndCmpMask cr).2) : x &&& a = k := by
  by_cases he : ∃ c, cr.test c = true
  · obtain ⟨m, hm⟩ := he
    apply BitVec.eq_of_getLsbD_eq
    intro i hi
    obtain ⟨h1, h2⟩ := makeAndCmpMask_bits cr i hi
    have hxi := congrArg (fun w => BitVec.getLsbD w i) hx
    simp only [BitVec.getLsbD_and] at hxi
    have hbit : ∀ c, cr.test c = true → (c.getLsbD i && a.getLsbD i) = k.getLsbD i := by
      intro c hc
      have := congrArg (fun w => BitVec.getLsbD w i) (h c hc)
      simpa only [BitVec.getLsbD_and] using this
    rw [BitVec.getLsbD_and]
    cases ha : a.getLsbD i
    · have := hbit m hm; rw [ha] at this; simp at this ⊢; exact this
    · have hk : ∀ c, cr.test c = true → c.getLsbD i = k.getLsbD i := by
        intro c hc; have := hbit c hc; rw [ha] at this; simpa using this
      cases hkb : k.getLsbD i
      · have hand : (makeAndCmpMask cr).1.getLsbD i = true :=
          h1.2 (Or.inr ⟨⟨m, hm, by rw [hk m hm, hkb]⟩, fun c hc => by rw [hk c hc, hkb]⟩)
        have hcmp : (makeAndCmpMask cr).2.getLsbD i = false := by
          rw [Bool.eq_false_iff, Ne, h2]
          intro hall
          have := hall m hm; rw [hk m hm, hkb] at this; cases this
        rw [hand, hcmp] at hxi; simpa using hxi
      · have hall : ∀ c, cr.test c = true → c.getLsbD i = true := fun c hc => by rw [hk c hc, hkb]
        have hand : (makeAndCmpMask cr).1.getLsbD i = true := h1.2 (Or.inl ⟨hall, m, hm, hall m hm⟩)
        rw [hand, h2.2 hall] at hxi; simpa using hxi
  · refine absurd hx (C15_empty cr (fun c => ?_) x)
    cases hc : cr.test c
    · rfl
    · exact absurd ⟨c, hc⟩ he

example : makeAndCmpMask (fromBytes [0x41#8, 0x61#8]) = (0xdf#8, 0x41#8) := by decide +kernel
example : ∀ c, (fromBytes [0x41#8, 0x61#8]).test c = true → c &&& 0x01#8 = 0x01#8 := by decide +kernel

/-! ## C16 -/

/-- C16, full statement: bitmap of the class in the first 32 bytes, the rest untouched. -/
def FillBitvectorSpec (p : Profile) : Prop :=
  ∀ (cr : CharReach) (bits : List U8), 32 ≤ bits.length →
    ∃ out, cr.fillBitvector p bits = .ok out ∧ out.length = bits.length ∧
      (∀ j, 32 ≤ j → out[j]? = bits[j]?) ∧
      ∀ c : U8, (out[c.toNat / 8]?.getD 0#8).getLsbD (c.toNat % 8) = cr.test c

/-- C16 is false of the code in both profiles (witness: a class of one byte). -/
theorem C16_false (p : Profile) : ¬ FillBitvectorSpec p := by
  intro h
  obtain ⟨out, h1, -, -, h4⟩ := h (fromChar 9#8) (List.replicate 32 0#8) (by simp)
  have h5 := h4 9#8
  cases p with
  | debug =>
    have : (fromChar 9#8).fillBitvector .debug (List.replicate 32 0#8)
        = .panic "attempt to shift left with overflow" := by decide +kernel
    rw [this] at h1; cases h1
  | release =>
    have : (fromChar 9#8).fillBitvector .release (List.replicate 32 0#8)
        = .ok ((List.replicate 32 0#8).set 1 1#8) := by decide +kernel
    rw [this] at h1
    injection h1 with h1
    subst h1
    revert h5; decide +kernel

/-- C16, what holds (missing: the bitmap itself).  Short buffers panic.  Otherwise, in release builds
and in debug builds for classes without a member having bit 3 set, byte `j` becomes 1 if some member
lies in `8j..8j+7` and 0 if not, for `j < 32`; later bytes are untouched.  In debug builds a member
with bit 3 set makes the call panic. -/
theorem C16_fill_bitvector_partial (p : Profile) (cr : CharReach) (bits : List U8) :
    (bits.length < 32 → (cr.fillBitvector p bits).isPanic = true) ∧
    (32 ≤ bits.length → p = .debug → (∃ c, cr.test c = true ∧ c.getLsbD 3 = true) →
      (cr.fillBitvector p bits).isPanic = true) ∧
    (32 ≤ bits.length → (p = .release ∨ ∀ c, cr.test c = true → c.getLsbD 3 = false) →
      ∃ out, cr.fillBitvector p bits = .ok out ∧ out.length = bits.length ∧
        (∀ j, 32 ≤ j → out[j]? = bits[j]?) ∧
        ∀ j, j < 32 → ((∃ c, cr.test c = true ∧ c.toNat / 8 = j) → out[j]? = some 1#8) ∧
          ((¬ ∃ c, cr.test c = true ∧ c.toNat / 8 = j) → out[j]? = some 0#8)) := by
  have hany : (cr.memberSeq.any (fun c => c.getLsbD 3) = true) ↔
      ∃ c, cr.test c = true ∧ c.getLsbD 3 = true := by
    rw [List.any_eq_true]; simp only [mem_memberSeq]
  have hout : ∀ bits : List U8, 32 ≤ bits.length →
      let out := (List.replicate 32 0#8 ++ bits.drop 32).mapIdx (fillByte cr.memberSeq)
      out.length = bits.length ∧ (∀ j, 32 ≤ j → out[j]? = bits[j]?) ∧
        ∀ j, j < 32 → ((∃ c, cr.test c = true ∧ c.toNat / 8 = j) → out[j]? = some 1#8) ∧
          ((¬ ∃ c, cr.test c = true ∧ c.toNat / 8 = j) → out[j]? = some 0#8) := by
    intro bits hb
    refine ⟨by simp; omega, fun j hj => ?_, fun j hj => ?_⟩
    · rw [List.getElem?_mapIdx, List.getElem?_append_right (by simpa using hj)]
      simp only [List.length_replicate, List.getElem?_drop, show 32 + (j - 32) = j by omega]
      have : ∀ b, fillByte cr.memberSeq j b = b := by
        intro b
        rw [fillByte_members, if_neg]
        rintro ⟨c, -, hc⟩
        have := c.isLt; omega
      cases bits[j]? <;> simp [this]
    · rw [List.getElem?_mapIdx, List.getElem?_append_left (by simpa using hj),
        List.getElem?_replicate, if_pos hj, Option.map_some, fillByte_members]
      constructor
      · intro h; rw [if_pos h]; rfl
      · intro h; rw [if_neg h]
  refine ⟨fun h => ?_, fun h hp hc => ?_, fun h hp => ?_⟩
  · unfold fillBitvector; rw [if_pos h]; rfl
  · unfold fillBitvector
    rw [if_neg (by omega), hp, foldlM_debug, if_pos (hany.2 hc)]; rfl
  · refine ⟨_, ?_, hout bits h⟩
    unfold fillBitvector
    rw [if_neg (by omega)]
    cases p with
    | release => exact foldlM_release _ _
    | debug =>
      rw [foldlM_debug, if_neg]
      rw [hany]
      rintro ⟨c, h1, h2⟩
      rcases hp with hp | hp
      · cases hp
      · rw [hp c h1] at h2; cases h2

example : (fromBytes [0x41#8, 0x50#8]).fillBitvector .debug (List.replicate 33 7#8)
    = .ok (((List.replicate 33 0#8).set 8 1#8).set 10 1#8 |>.set 32 7#8) := by decide +kernel

/-! ## C17 -/

/-- C17: the display is the members as characters, in increasing order. -/
theorem C17_display (cr : CharReach) :
    cr.display = (members cr.test).map (fun c => Char.ofNat c.toNat) := by
  unfold display; rw [memberSeq_eq]

/-- C17: different classes display differently. -/
theorem C17_display_injective (a b : CharReach) (h : a.display = b.display) : a = b := by
  unfold display at h
  have := map_inj _ char_inj_u8 _ _ h
  apply ext_test
  intro c
  rw [Bool.eq_iff_iff, ← mem_memberSeq, ← mem_memberSeq, this]

example : (fromBytes [0x62#8, 0x61#8]).display = ['a', 'b'] := by decide +kernel

end Rescan.CharReach
