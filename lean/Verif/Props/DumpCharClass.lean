import Verif.Proofs.DumpCharClass
/-! # C59-C61: descriptions of bytes, ranges and classes -/
namespace Rescan.Dump

open Spec

/-! ## C59 -/

/-- C59: no description of a byte is a prefix of the description of another one (both modes). -/
theorem C59_prefix_free (out : CcOutput) (c d : U8) (h : describeChar c out <+: describeChar d out) :
    c = d := by
  obtain ⟨t, ht⟩ := h
  exact (describe_cancel out c d t [] (by simpa using ht)).1

example : describeChar 0x2e#8 .text <+: describeChar 0x2e#8 .text ∧ ¬ describeChar 0x5c#8 .text <+: describeChar 0x2e#8 .text := by
  decide +kernel

/-- C59: the description of a byte string, byte by byte, determines it (both modes). -/
theorem C59_unambiguous (out : CcOutput) : ∀ (s t : List U8),
    s.flatMap (fun c => describeChar c out) = t.flatMap (fun c => describeChar c out) → s = t := by
  have hne : ∀ (c : U8) (r : Str), ([] : Str) ≠ describeChar c out ++ r := by
    intro c r h
    have := dec_describeChar_append out c r
    rw [← h] at this; cases this
  intro s
  induction s with
  | nil =>
    intro t h
    cases t with
    | nil => rfl
    | cons d t => exact absurd h (hne d _)
  | cons c s ih =>
    intro t h
    cases t with
    | nil => exact absurd h.symm (hne c _)
    | cons d t =>
      rw [List.flatMap_cons, List.flatMap_cons] at h
      obtain ⟨h1, h2⟩ := describe_cancel out c d _ _ h
      rw [h1, ih t h2]

example : describeChar 0x5c#8 .text = "\\x5c".toList ∧ describeChar 0x2d#8 .text = "\\-".toList ∧
    describeChar 0x01#8 .dot = "\\\\x 1".toList := by decide +kernel

/-! ## C60 -/

/-- C60, full statement: for `c1 ≤ c2` the function returns (some number of iterations suffices). -/
def DescribeRangeTerminates (p : Profile) : Prop :=
  ∀ (c1 c2 : U8) (out : CcOutput), c1 ≤ c2 → ∃ fuel s, describeRange p fuel c1 c2 out = .ok s

/-- C60 is false of the code in both profiles (witness: the range 0xfe..=0xff). -/
theorem C60_false (p : Profile) : ¬ DescribeRangeTerminates p := by
  intro h
  obtain ⟨fuel, s, hs⟩ := h 0xfe#8 0xff#8 .text (by decide)
  rw [describeRange_bad p fuel 0xfe#8 .text (by decide) (by decide)] at hs
  cases p with
  | release => rw [rangeLoop_release_diverges] at hs; cases hs
  | debug =>
    match fuel, hs with
    | 0, hs => cases hs
    | 1, hs =>
      have : rangeLoop .debug .text 0xff#8 1 0xfe#8 = .timeout := by decide +kernel
      rw [this] at hs; cases hs
    | f + 2, hs =>
      rw [rangeLoop_debug_panics .text 1 (f + 2) 0xfe#8 (by decide) (by omega)] at hs; cases hs

/-- C60, exact characterisation (missing from the full statement: short ranges ending at 0xff).
For `c1 ≤ c2`, unless the range ends at 0xff and has two to four bytes, `describe_range` returns
within four iterations the expected text: all bytes if there are at most four, else
`first-last`. -/
theorem C60_describe_range_partial (p : Profile) (fuel : Nat) (hf : 4 ≤ fuel) (c1 c2 : U8)
    (out : CcOutput) (h : c1 ≤ c2) (hne : ¬ (c2.toNat = 255 ∧ 252 ≤ c1.toNat ∧ c1.toNat < 255)) :
    describeRange p fuel c1 c2 out = .ok
      (if c2.toNat - c1.toNat < 4
       then ((members (fun c => decide (c1 ≤ c) && decide (c ≤ c2))).flatMap (fun c => describeChar c out))
       else describeChar c1 out ++ ['-'] ++ describeChar c2 out) := by
  have h' := h
  rw [BitVec.le_def] at h'
  have hlt1 := c1.isLt
  have hlt2 := c2.isLt
  have hm : members (fun c => decide (c1 ≤ c) && decide (c ≤ c2)) = runFrom c1 (c2.toNat - c1.toNat) := by
    unfold members allBytes runFrom
    rw [BitField256.range_split c1.toNat (by omega),
      show 256 - c1.toNat = (c2.toNat - c1.toNat + 1) + (256 - (c2.toNat + 1)) by omega,
      ← List.range'_append_1, List.map_append, List.map_append, List.filter_append, List.filter_append]
    have e1 : List.filter (fun c => decide (c1 ≤ c) && decide (c ≤ c2))
        ((List.range c1.toNat).map (BitVec.ofNat 8)) = [] := by
      rw [List.filter_eq_nil_iff]
      intro x hx
      rw [List.mem_map] at hx
      obtain ⟨k, hk, rfl⟩ := hx
      have := List.mem_range.1 hk
      have e := BitField256.ofNat_toNat8 k (by omega)
      simp only [BitVec.le_def, e, Bool.and_eq_true, decide_eq_true_eq]
      omega
    have e3 : List.filter (fun c => decide (c1 ≤ c) && decide (c ≤ c2))
        ((List.range' (c1.toNat + (c2.toNat - c1.toNat + 1)) (256 - (c2.toNat + 1))).map (BitVec.ofNat 8)) = [] := by
      rw [List.filter_eq_nil_iff]
      intro x hx
      rw [List.mem_map] at hx
      obtain ⟨k, hk, rfl⟩ := hx
      rw [List.mem_range'_1] at hk
      have e := BitField256.ofNat_toNat8 k (by omega)
      simp only [BitVec.le_def, e, Bool.and_eq_true, decide_eq_true_eq]
      omega
    rw [e1, e3, List.nil_append, List.append_nil, List.filter_eq_self.2]
    · rw [List.range'_eq_map_range, List.map_map]; rfl
    · intro x hx
      rw [List.mem_map] at hx
      obtain ⟨k, hk, rfl⟩ := hx
      rw [List.mem_range'_1] at hk
      have e := BitField256.ofNat_toNat8 k (by omega)
      simp only [BitVec.le_def, e, Bool.and_eq_true, decide_eq_true_eq]
      omega
  rw [hm]
  apply describeRange_ok p fuel hf c1 c2 out h
  rw [Ne, ← BitVec.toNat_inj, ← BitVec.toNat_inj]
  simp; omega

example : (0x61#8 : U8) ≤ 0x63#8 ∧ describeRange .debug 4 0x61#8 0x63#8 .text = .ok "abc".toList ∧
    describeRange .debug 4 0x61#8 0x7a#8 .text = .ok "a-z".toList := by decide +kernel

/-- C60: in the excluded cases a release build loops forever (every bound on the iterations is too
small) and a debug build panics. -/
theorem C60_bad_ranges (c1 : U8) (out : CcOutput) (h1 : 252 ≤ c1.toNat) (h2 : c1.toNat < 255) :
    (∀ fuel, describeRange .release fuel c1 0xff#8 out = .timeout) ∧
    (∀ fuel, 4 ≤ fuel → (describeRange .debug fuel c1 0xff#8 out).isPanic = true) := by
  refine ⟨fun fuel => ?_, fun fuel hf => ?_⟩
  · rw [describeRange_bad _ _ _ _ h1 h2, rangeLoop_release_diverges]
  · rw [describeRange_bad _ _ _ _ h1 h2,
      rangeLoop_debug_panics out (255 - c1.toNat) fuel c1 (by omega) (by omega)]; rfl

example : 252 ≤ (0xfd#8 : U8).toNat ∧ (0xfd#8 : U8).toNat < 255 := by decide

/-- C60: for `c1 > c2` a debug build panics, as documented. -/
theorem C60_inverted (fuel : Nat) (c1 c2 : U8) (out : CcOutput) (h : c2 < c1) :
    (describeRange .debug fuel c1 c2 out).isPanic = true := by
  rw [BitVec.lt_def] at h
  unfold describeRange
  have e : c1 ≠ c2 := by rw [Ne, ← BitVec.toNat_inj]; omega
  rw [if_neg e]
  unfold subChk
  rw [if_pos ⟨rfl, h⟩]; rfl

example : (3#8 : U8) < 4#8 := by decide

/-! ## C61 -/

/-- C61, full statement: descriptions (as used by the tree dump: 256, text mode) identify classes. -/
def DescriptionsIdentify (p : Profile) : Prop :=
  ∀ (fuel : Nat) (a b : CharReach) (s : Str), describeClass p fuel a 256 .text = .ok s →
    describeClass p fuel b 256 .text = .ok s → a = b

/-- C61 is false of the code in both profiles: `{a}` and `{a, c}` are both described as `a`, because
the last range of a class is dropped. -/
theorem C61_false (p : Profile) : ¬ DescriptionsIdentify p := by
  intro h
  have := h 300 (CharReach.fromBytes [0x61#8]) (CharReach.fromBytes [0x61#8, 0x63#8]) "a".toList
    (by cases p <;> decide +kernel) (by cases p <;> decide +kernel)
  revert this
  decide +kernel

/-- Classes with at most one member, or lacking at most one byte. -/
def IsSimple (cr : CharReach) : Prop :=
  (∀ c, cr.test c = false) ∨ (∀ c, cr.test c = true) ∨ (∃ x, ∀ c, cr.test c = true ↔ c = x) ∨
    (∃ x, ∀ c, cr.test c = true ↔ c ≠ x)

/-- C61, what holds (missing: classes with 2 to 254 members): simple classes are told apart from one
another, and their description neither panics nor diverges. -/
theorem C61_simple_partial (p : Profile) (fuel : Nat) (n : Nat) (out : CcOutput) (a b : CharReach)
    (ha : IsSimple a) (hb : IsSimple b) :
    (∃ s, describeClass p fuel a n out = .ok s) ∧
    (describeClass p fuel a n out = describeClass p fuel b n out → a = b) := by
  have hone : ∀ (cr : CharReach) (x : U8), (∀ c, cr.test c = true ↔ c = x) → cr = CharReach.fromChar x := by
    intro cr x h
    apply CharReach.ext_test; intro c; rw [CharReach.fromChar_test, Bool.eq_iff_iff, h]; simp
  have hco : ∀ (cr : CharReach) (x : U8), (∀ c, cr.test c = true ↔ c ≠ x) →
      cr = (CharReach.fromChar x).not := by
    intro cr x h
    apply CharReach.ext_test; intro c
    rw [CharReach.not_test, CharReach.fromChar_test, Bool.eq_iff_iff, h]; simp
  have d1 : ∀ x, describeChar x out ≠ "<any>".toList := fun x => dec_ne x _ _ (by decide) (by simp) out
  have d2 : ∀ x, describeChar x out ≠ "<empty>".toList := fun x => dec_ne x _ _ (by decide) (by simp) out
  have d3 : ∀ x y, describeChar x out ≠ "[^".toList ++ describeChar y out ++ [']'] :=
    fun x y => dec_ne x _ _ (by decide) (by simp) out
  have d4 : ∀ y, "<any>".toList ≠ "[^".toList ++ describeChar y out ++ [']'] := by
    intro y h; simp at h
  have d5 : ∀ y, "<empty>".toList ≠ "[^".toList ++ describeChar y out ++ [']'] := by
    intro y h; simp at h
  have d6 : "<any>".toList ≠ "<empty>".toList := by decide
  rcases ha with ha | ha | ⟨x, ha⟩ | ⟨x, ha⟩
  · rw [describeClass_none p fuel a n out ha]
    refine ⟨⟨_, rfl⟩, fun h => ?_⟩
    rcases hb with hb | hb | ⟨y, hb⟩ | ⟨y, hb⟩
    · exact CharReach.ext_test fun c => by rw [ha, hb]
    · rw [describeClass_all p fuel b n out hb] at h; injection h with h; exact absurd h.symm d6
    · rw [hone b y hb, describeClass_singleton] at h; injection h with h; exact absurd h.symm (d2 y)
    · rw [hco b y hb, describeClass_cosingleton] at h; injection h with h; exact absurd h (d5 y)
  · rw [describeClass_all p fuel a n out ha]
    refine ⟨⟨_, rfl⟩, fun h => ?_⟩
    rcases hb with hb | hb | ⟨y, hb⟩ | ⟨y, hb⟩
    · rw [describeClass_none p fuel b n out hb] at h; injection h with h; exact absurd h d6
    · exact CharReach.ext_test fun c => by rw [ha, hb]
    · rw [hone b y hb, describeClass_singleton] at h; injection h with h; exact absurd h.symm (d1 y)
    · rw [hco b y hb, describeClass_cosingleton] at h; injection h with h; exact absurd h (d4 y)
  · rw [hone a x ha, describeClass_singleton]
    refine ⟨⟨_, rfl⟩, fun h => ?_⟩
    rcases hb with hb | hb | ⟨y, hb⟩ | ⟨y, hb⟩
    · rw [describeClass_none p fuel b n out hb] at h; injection h with h; exact absurd h (d2 x)
    · rw [describeClass_all p fuel b n out hb] at h; injection h with h; exact absurd h (d1 x)
    · rw [hone b y hb, describeClass_singleton] at h; injection h with h
      rw [hone b y hb, (describe_cancel out x y [] [] (by simpa using h)).1]
    · rw [hco b y hb, describeClass_cosingleton] at h; injection h with h; exact absurd h (d3 x y)
  · rw [hco a x ha, describeClass_cosingleton]
    refine ⟨⟨_, rfl⟩, fun h => ?_⟩
    rcases hb with hb | hb | ⟨y, hb⟩ | ⟨y, hb⟩
    · rw [describeClass_none p fuel b n out hb] at h; injection h with h; exact absurd h.symm (d5 x)
    · rw [describeClass_all p fuel b n out hb] at h; injection h with h; exact absurd h.symm (d4 x)
    · rw [hone b y hb, describeClass_singleton] at h; injection h with h; exact absurd h.symm (d3 y x)
    · rw [hco b y hb, describeClass_cosingleton] at h; injection h with h
      rw [hco b y hb, (describe_cancel out x y [']'] [']'] (by simpa using h)).1]

example : IsSimple (CharReach.fromChar 0x61#8) ∧ IsSimple (CharReach.fromChar 0x61#8).not :=
  ⟨Or.inr (Or.inr (Or.inl ⟨0x61#8, fun c => by rw [CharReach.fromChar_test]; simp⟩)),
   Or.inr (Or.inr (Or.inr ⟨0x61#8, fun c => by
     rw [CharReach.not_test, CharReach.fromChar_test]; simp⟩))⟩

end Rescan.Dump
