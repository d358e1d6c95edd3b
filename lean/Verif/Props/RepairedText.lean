import Verif.Model.Repaired
import Verif.Props.ClassText
import Verif.Props.DumpUnique
/-! # C98 (continued): repaired descriptions of bytes and classes

`Model/Repaired.lean` is **not code that exists**. -/
namespace Rescan.RepairedText
open Spec Dump

/-! ## C76: bytes -/

/-- C76's full statement about a function. -/
def DescriptionsReadBackOf (f : U8 → CcOutput → Str) : Prop :=
  ∀ c : U8, readByte (f c .text) = some c.toNat ∧ readByte (unquote (f c .dot)) = some c.toNat

example : DescriptionsReadBackOf describeChar ↔ DescriptionsReadBack := Iff.rfl

/-- C98, C76 repaired: with the number padded with a zero every byte can be read back. -/
theorem C98_describe_char : DescriptionsReadBackOf Repaired.describeChar := by
  unfold DescriptionsReadBackOf
  decide +kernel

/-- Nothing else changes. -/
theorem C98_describe_char_same (c : U8) (out : CcOutput)
    (h : 16 ≤ c.toNat ∨ c.toNat = 9 ∨ c.toNat = 10 ∨ c.toNat = 13) :
    Repaired.describeChar c out = describeChar c out := by
  revert h
  revert c
  cases out <;> decide +kernel

example : Repaired.describeChar 1#8 .text = "\\x01".toList ∧ describeChar 1#8 .text = "\\x 1".toList := by
  decide +kernel

/-! ## C60: ranges -/

theorem loop_text (p : Profile) (out : CcOutput) (c2 : U8) : ∀ (k fuel : Nat) (c1 : U8),
    c1.toNat + k = c2.toNat → k < fuel →
    Repaired.rangeLoop p out c2 fuel c1 = .ok ((runFrom c1 k).flatMap (fun c => describeChar c out)) := by
  intro k
  induction k with
  | zero =>
    intro fuel c1 h hf
    obtain ⟨f, rfl⟩ : ∃ f, fuel = f + 1 := ⟨fuel - 1, by omega⟩
    unfold Repaired.rangeLoop
    rw [if_pos (by rw [← BitVec.toNat_inj]; omega)]
    simp [runFrom_zero]
  | succ k ih =>
    intro fuel c1 h hf
    obtain ⟨f, rfl⟩ : ∃ f, fuel = f + 1 := ⟨fuel - 1, by omega⟩
    have := c2.isLt
    have hs := ih f (c1 + 1#8) (by rw [BitVec.toNat_add]; simp; omega) (by omega)
    unfold Repaired.rangeLoop
    rw [if_neg (by rw [← BitVec.toNat_inj]; omega)]
    have : addChk (ε := CompileError) p c1 1#8 = .ok (c1 + 1#8) := by
      unfold addChk; rw [if_neg]; rintro ⟨_, h'⟩; simp at h'; omega
    rw [this, Outcome.ok_bind, hs, Outcome.ok_bind]
    rw [runFrom_succ c1 (c1 + 1#8) k (by have := c2.isLt; rw [BitVec.toNat_add]; simp; omega)]
    simp [Pure.pure]

/-- C98, C60 repaired: `describe_range` writes every range `a..=b` as it should: up to four bytes one by one,
more as two ends. -/
theorem C98_range_text (p : Profile) (fuel : Nat) (hf : 4 ≤ fuel) (a b : U8) (out : CcOutput) (h : a ≤ b) :
    Repaired.describeRange p fuel a b out = .ok (runText out (a, b)) := by
  rw [runText_eq out a b h]
  have h' := h; rw [BitVec.le_def] at h'
  unfold Repaired.describeRange rangeText
  by_cases e : a = b
  · subst e; rw [if_pos rfl]; simp [runFrom_zero]
  · rw [if_neg e, subChk_le p a b h, Outcome.ok_bind]
    have hs := sub_toNat a b h
    by_cases hd : b.toNat - a.toNat < 4
    · have : b - a < 4#8 := by rw [BitVec.lt_def, hs]; simpa using hd
      rw [if_pos this, if_pos hd]
      exact loop_text p out b _ fuel a (by omega) (by omega)
    · have : ¬ b - a < 4#8 := by rw [BitVec.lt_def, hs]; simpa using hd
      rw [if_neg this, if_neg hd]; rfl

example : Repaired.describeRange .debug 4 0xfc#8 0xff#8 .text = .ok "\\xfc\\xfd\\xfe\\xff".toList := by
  decide +kernel

/-! ## C61: classes -/

theorem ranges_text (p : Profile) (fuel : Nat) (hf : 4 ≤ fuel) (maxLen : Nat) (out : CcOutput) :
    ∀ (cs : List U8) (s l : U8) (i : Nat) (acc : Str), s ≤ l → (l :: cs).Pairwise (· < ·) →
    (maxLen ≤ i ∨ i + (runsFrom s l cs).length ≤ maxLen) →
    Repaired.rangesLoop p fuel maxLen out s l i acc cs =
      .ok (acc ++ (runsFrom s l cs).flatMap (runText out), i + (runsFrom s l cs).length)
  | [], s, l, i, acc, hsl, _, _ => by
    unfold Repaired.rangesLoop
    rw [C98_range_text p fuel hf s l out hsl, Outcome.ok_bind]
    simp [runsFrom, Pure.pure]
  | c :: cs, s, l, i, acc, hsl, hp, hm => by
    have hp' : (c :: cs).Pairwise (· < ·) := (List.pairwise_cons.1 hp).2
    have hlc : l < c := (List.pairwise_cons.1 hp).1 c (by simp)
    rw [BitVec.lt_def] at hlc
    have hsl' := hsl
    rw [BitVec.le_def] at hsl'
    unfold Repaired.rangesLoop
    by_cases h : c ≠ l + 1#8
    · have hr : runsFrom s l (c :: cs) = (s, l) :: runsFrom c c cs := by
        rw [runsFrom, if_pos h]
      rw [hr] at hm ⊢
      have hne := runsFrom_ne_nil cs c c
      obtain ⟨x, xs, hx⟩ := List.exists_cons_of_ne_nil hne
      rw [if_pos h, C98_range_text p fuel hf s l out hsl, Outcome.ok_bind]
      have hmx : ¬ i + 1 = maxLen := by rw [hx] at hm; simp at hm; omega
      rw [if_neg hmx, ranges_text p fuel hf maxLen out cs c c (i + 1) _ (BitVec.le_refl _) hp'
        (by simp at hm; omega)]
      simp [Nat.add_assoc, Nat.add_comm 1]
    · have hr : runsFrom s l (c :: cs) = runsFrom s c cs := by rw [runsFrom, if_neg h]
      rw [if_neg h]
      rw [hr] at hm ⊢
      exact ranges_text p fuel hf maxLen out cs s c i acc (by rw [BitVec.le_def]; omega) hp' hm

/-- The text of a class is made of items that stand for its members. -/
theorem int_items (p : Profile) (fuel : Nat) (hf : 4 ≤ fuel) (cr : CharReach) (out : CcOutput) :
    ∃ l : List ClassItem, ∃ n, Repaired.describeClassInt p fuel cr 256 out = .ok (itemsText out l, n) ∧
      (∀ x, Denotes l x ↔ cr.test x = true) ∧ (n ≤ 1 → l.length ≤ 4) := by
  unfold Repaired.describeClassInt
  cases hc : contiguousRange cr with
  | some x =>
    obtain ⟨a, b⟩ := x
    have hr := (contiguousRange_iff cr a b).1 hc
    have hrun := (hr.1 a b).1 (by simp)
    refine ⟨runItems (a, b), 2, ?_, fun x => ?_, by omega⟩
    · show (Repaired.describeRange p fuel a b out).bind _ = _
      rw [C98_range_text p fuel hf a b out hrun.1, runItems_text]; rfl
    · rw [runItems_has, areRuns_cover hr]; simp
  | none =>
    obtain ⟨rest, hrest, hm⟩ := mnemonicLoop_eq 256 (by decide) out fuel hf cr
    have hfun : rest.test = restOf cr.test := funext hrest
    have hsub : ∀ x, restOf cr.test x = true → cr.test x = true := by
      intro x; unfold restOf; cases cr.test x <;> simp
    simp only
    rw [hm, Outcome.ok_bind]
    simp only
    rw [CharReach.memberSeq_eq, hfun, ← mnemonicItems_text]
    have hb := mnemonics_bound cr.test
    have hp := members_pairwise (restOf cr.test)
    have hmem := BitField256.mem_members (restOf cr.test)
    have hl4 : (mnemonicItems cr.test).length ≤ 2 := by
      unfold mnemonicItems
      cases covers isWordByte cr.test <;> cases covers isDigitByte cr.test <;>
        cases covers isSpaceByte cr.test <;> simp
    cases hl : members (restOf cr.test) with
    | nil =>
      have hz : ∀ c, restOf cr.test c = false := by
        intro c
        have := hmem c
        rw [hl] at this
        simpa using this
      have hnone : rest.none = true := by
        rw [CharReach.none_iff]
        intro c
        rw [hrest]; exact hz c
      rw [if_pos hnone]
      refine ⟨mnemonicItems cr.test, _, rfl, fun x => ?_, fun _ => by omega⟩
      rw [mnemonicItems_has, hz]; simp
    | cons c cs =>
      have hruns := runsOf_members (restOf cr.test)
      rw [hl] at hb hp hruns
      have hnone : ¬ rest.none = true := by
        rw [CharReach.none_iff]
        intro h
        have := (hmem c).1 (by rw [hl]; simp)
        rw [← hrest, h] at this; cases this
      rw [if_neg hnone]
      have hlen := runsFrom_length cs c c
      simp only [List.length_cons] at hb
      simp only
      rw [ranges_text p fuel hf 256 out cs c c _ _ (BitVec.le_refl _) hp (.inr (by omega))]
      refine ⟨mnemonicItems cr.test ++ (runsFrom c c cs).flatMap runItems,
        (mnemonics cr.test).length + (runsFrom c c cs).length, ?_, fun x => ?_, fun hn => ?_⟩
      · congr 2
        rw [show (runsFrom c c cs).flatMap (runText out) = itemsText out ((runsFrom c c cs).flatMap runItems) by
          unfold itemsText
          rw [List.flatMap_assoc]
          exact congrArg (fun f => List.flatMap f _) (funext fun r => (runItems_text out r).symm)]
        simp [itemsText]
      · rw [denotes_append, mnemonicItems_has, denotes_runs]
        have hcov := areRuns_cover hruns x
        unfold runsOf at hcov
        rw [← hcov]
        cases h1 : restOf cr.test x with
        | false => simp
        | true => simp [hsub x h1]
      · cases hr : runsFrom c c cs with
        | nil => exact absurd hr (runsFrom_ne_nil cs c c)
        | cons r l =>
          rw [hr] at hn
          simp only [List.length_cons] at hn
          have h0 : l = [] := by rw [← List.length_eq_zero_iff]; omega
          subst h0
          have := runItems_length r
          rw [List.length_append, mnemonicItems_length]
          simp only [List.flatMap_cons, List.flatMap_nil, List.append_nil]
          omega

theorem simple_same (p : Profile) (fuel n : Nat) (cr : CharReach) (out : CcOutput) (h : ¬ Compound cr.test) :
    Repaired.describeClass p fuel cr n out = Dump.describeClass p fuel cr n out := by
  unfold Repaired.describeClass Dump.describeClass
  by_cases h1 : cr.all = true
  · rw [if_pos h1, if_pos h1]
  rw [if_neg h1, if_neg h1]
  by_cases h2 : cr.none = true
  · rw [if_pos h2, if_pos h2]
  rw [if_neg h2, if_neg h2]
  by_cases h3 : cr.count = 1
  · rw [if_pos h3, if_pos h3]
  rw [if_neg h3, if_neg h3]
  by_cases h4 : cr.not.count = 1
  · rw [if_pos h4, if_pos h4]
  exfalso
  apply h
  rw [count_test] at h3 h4
  have nz : ∀ s : U8 → Bool, (∃ x, s x = true) → (members s).length ≠ 0 := by
    rintro s ⟨x, hx⟩ h0
    rw [List.length_eq_zero_iff] at h0
    have := (BitField256.mem_members s x).2 hx
    rw [h0] at this; cases this
  refine ⟨two_members.1 ?_, not_two_members.1 ?_⟩
  · have := nz cr.test (by
      apply Classical.byContradiction
      intro hn
      apply h2
      rw [CharReach.none_iff]
      intro c
      cases hx : cr.test c with
      | false => rfl
      | true => exact absurd ⟨c, hx⟩ hn)
    omega
  · have := nz cr.not.test (by
      apply Classical.byContradiction
      intro hn
      apply h1
      rw [CharReach.all_iff]
      intro c
      cases hx : cr.test c with
      | true => rfl
      | false => exact absurd ⟨c, by rw [CharReach.not_test, hx]; rfl⟩ hn)
    omega

/-- The forms a repaired description can take: like `IsDescription`, but nothing is left out. -/
def IsFullDescription (s : U8 → Bool) (out : CcOutput) (t : Str) : Prop :=
  (t = "<any>".toList ∧ ∀ c, s c = true) ∨ (t = "<empty>".toList ∧ ∀ c, s c = false) ∨
  (∃ l, t = itemsText out l ∧ l.length ≤ 4 ∧ ∀ x, Denotes l x ↔ s x = true) ∨
  (∃ l, t = ['['] ++ itemsText out l ++ [']'] ∧ ∀ x, Denotes l x ↔ s x = true) ∨
  (∃ l, t = "[^".toList ++ itemsText out l ++ [']'] ∧ ∀ x, Denotes l x ↔ s x = false)

/-- C98, C61 repaired: every class is described within four iterations, and the description names the full
or the empty class or lists, bare or in brackets, items that stand for the members of the class or, after
`^`, of its complement. -/
theorem C98_describe_class (p : Profile) (fuel : Nat) (hf : 4 ≤ fuel) (cr : CharReach) (out : CcOutput) :
    ∃ t, Repaired.describeClass p fuel cr 256 out = .ok t ∧ IsFullDescription cr.test out t := by
  by_cases hc : Compound cr.test
  · obtain ⟨l1, n1, e1, d1, k1⟩ := int_items p fuel hf cr out
    obtain ⟨l2, n2, e2, d2, _⟩ := int_items p fuel hf cr.not out
    have d2' : ∀ x, Denotes l2 x ↔ cr.test x = false := by
      intro x; rw [d2, CharReach.not_test]; cases cr.test x <;> simp
    obtain ⟨h1, h2⟩ := hc
    have c1 : 2 ≤ cr.count := by rw [count_test]; exact two_members.2 h1
    have c2 : 2 ≤ cr.not.count := by rw [count_test]; exact not_two_members.2 h2
    obtain ⟨a, _, _, ha, _⟩ := h1
    obtain ⟨b, _, _, hb, _⟩ := h2
    unfold Repaired.describeClass
    rw [if_neg (by rw [CharReach.all_iff]; intro h; rw [h b] at hb; cases hb),
      if_neg (by rw [CharReach.none_iff]; intro h; rw [h a] at ha; cases ha),
      if_neg (by omega), if_neg (by omega)]
    rw [e1, Outcome.ok_bind]
    simp only
    rw [e2, Outcome.ok_bind]
    simp only
    by_cases hu : utf8Len (itemsText out l1) ≤ utf8Len (itemsText out l2)
    · rw [if_pos hu]
      by_cases hn : n1 > 1
      · rw [if_pos hn]
        exact ⟨_, rfl, .inr (.inr (.inr (.inl ⟨l1, rfl, d1⟩)))⟩
      · rw [if_neg hn]
        exact ⟨_, rfl, .inr (.inr (.inl ⟨l1, rfl, k1 (by omega), d1⟩))⟩
    · rw [if_neg hu]
      exact ⟨_, rfl, .inr (.inr (.inr (.inr ⟨l2, rfl, d2'⟩)))⟩
  · rw [simple_same p fuel 256 cr out hc]
    obtain ⟨s1, s2, s3, s4⟩ := C71_simple_text p fuel 256 cr out
    by_cases h1 : ∃ a, cr.test a = true
    · by_cases h2 : ∃ a, cr.test a = false
      · obtain ⟨a, ha⟩ := h1
        obtain ⟨b, hb⟩ := h2
        by_cases h3 : ∃ a b, a ≠ b ∧ cr.test a = true ∧ cr.test b = true
        · have h4 : ∀ c, cr.test c = false ↔ c = b := by
            intro c
            constructor
            · intro hc'
              apply Classical.byContradiction
              intro hne
              exact hc ⟨h3, c, b, hne, hc', hb⟩
            · rintro rfl; exact hb
          refine ⟨_, s4 b (by
            intro c
            have := h4 c
            cases hx : cr.test c <;> simp_all), .inr (.inr (.inr (.inr ⟨[.one b], ?_, fun x => ?_⟩)))⟩
          · simp [itemsText, ClassItem.text]
          · rw [h4]; simp [Denotes, ClassItem.has]
        · have h4 : ∀ c, cr.test c = true ↔ c = a := by
            intro c
            constructor
            · intro hc'
              apply Classical.byContradiction
              intro hne
              exact h3 ⟨c, a, hne, hc', ha⟩
            · rintro rfl; exact ha
          refine ⟨_, s3 a h4, .inr (.inr (.inl ⟨[.one a], ?_, by simp, fun x => ?_⟩))⟩
          · simp [itemsText, ClassItem.text]
          · rw [h4]; simp [Denotes, ClassItem.has]
      · have h3 : ∀ c, cr.test c = true := by
          intro c
          cases hx : cr.test c with
          | true => rfl
          | false => exact absurd ⟨c, hx⟩ h2
        exact ⟨_, s1 h3, .inl ⟨rfl, h3⟩⟩
    · have h3 : ∀ c, cr.test c = false := by
        intro c
        cases hx : cr.test c with
        | false => rfl
        | true => exact absurd ⟨c, hx⟩ h1
      exact ⟨_, s2 h3, .inr (.inl ⟨rfl, h3⟩)⟩

/-! ### More iterations change nothing -/

/-- `y` succeeds with the same result whenever `x` succeeds. -/
def Le {α : Type} (x y : Res α) : Prop := ∀ a, x = .ok a → y = .ok a

theorem le_refl {α : Type} (x : Res α) : Le x x := fun _ h => h

theorem le_bind {α β : Type} {x y : Res α} {f g : α → Res β} (h : Le x y) (hf : ∀ a, Le (f a) (g a)) :
    Le (x.bind f) (y.bind g) := by
  intro b hb
  cases hx : x with
  | ok a =>
    rw [hx] at hb
    rw [h a hx]
    exact hf a b hb
  | err e => rw [hx] at hb; cases hb
  | panic m => rw [hx] at hb; cases hb
  | timeout => rw [hx] at hb; cases hb

theorem rangeLoop_le (p : Profile) (out : CcOutput) (c2 : U8) (k : Nat) : ∀ (f : Nat) (c1 : U8),
    Le (Repaired.rangeLoop p out c2 f c1) (Repaired.rangeLoop p out c2 (f + k) c1)
  | 0, _ => fun _ h => by cases h
  | f + 1, c1 => by
    rw [show f + 1 + k = (f + k) + 1 by omega]
    unfold Repaired.rangeLoop
    by_cases h : c1 = c2
    · rw [if_pos h, if_pos h]; exact le_refl _
    · rw [if_neg h, if_neg h]
      exact le_bind (le_refl _) fun a => le_bind (rangeLoop_le p out c2 k f a) fun _ => le_refl _

theorem describeRange_le (p : Profile) (f k : Nat) (a b : U8) (out : CcOutput) :
    Le (Repaired.describeRange p f a b out) (Repaired.describeRange p (f + k) a b out) := by
  unfold Repaired.describeRange
  by_cases h : a = b
  · rw [if_pos h, if_pos h]; exact le_refl _
  · rw [if_neg h, if_neg h]
    refine le_bind (le_refl _) fun d => ?_
    by_cases hd : d < 4#8
    · rw [if_pos hd, if_pos hd]; exact rangeLoop_le p out b k f a
    · rw [if_neg hd, if_neg hd]; exact le_refl _

theorem mnemonicLoop_le (n : Nat) (out : CcOutput) (k : Nat) : ∀ (f : Nat) (cr : CharReach) (i : Nat) (acc : Str),
    Le (Dump.mnemonicLoop n out f cr i acc) (Dump.mnemonicLoop n out (f + k) cr i acc)
  | 0, _, _, _ => fun _ h => by cases h
  | f + 1, cr, i, acc => by
    rw [show f + 1 + k = (f + k) + 1 by omega]
    unfold Dump.mnemonicLoop
    cases extractMnemonic cr out with
    | none => exact le_refl _
    | some x =>
      simp only
      by_cases h : i + 1 = n
      · rw [if_pos h, if_pos h]; exact le_refl _
      · rw [if_neg h, if_neg h]; exact mnemonicLoop_le n out k f _ _ _

theorem rangesLoop_le (p : Profile) (f k n : Nat) (out : CcOutput) : ∀ (cs : List U8) (a b : U8) (i : Nat) (acc : Str),
    Le (Repaired.rangesLoop p f n out a b i acc cs) (Repaired.rangesLoop p (f + k) n out a b i acc cs)
  | [], a, b, i, acc => le_bind (describeRange_le p f k a b out) fun _ => le_refl _
  | c :: cs, a, b, i, acc => by
    unfold Repaired.rangesLoop
    by_cases h : c ≠ b + 1#8
    · rw [if_pos h, if_pos h]
      refine le_bind (describeRange_le p f k a b out) fun d => ?_
      by_cases hn : i + 1 = n
      · rw [if_pos hn, if_pos hn]; exact le_refl _
      · rw [if_neg hn, if_neg hn]; exact rangesLoop_le p f k n out cs _ _ _ _
    · rw [if_neg h, if_neg h]; exact rangesLoop_le p f k n out cs _ _ _ _

theorem describeClassInt_le (p : Profile) (f k n : Nat) (cr : CharReach) (out : CcOutput) :
    Le (Repaired.describeClassInt p f cr n out) (Repaired.describeClassInt p (f + k) cr n out) := by
  unfold Repaired.describeClassInt
  cases contiguousRange cr with
  | some x => exact le_bind (describeRange_le p f k x.1 x.2 out) fun _ => le_refl _
  | none =>
    refine le_bind (mnemonicLoop_le n out k f cr 0 []) fun r => ?_
    cases r with
    | inl s => exact le_refl _
    | inr x =>
      simp only
      by_cases hn : x.2.1.none = true
      · rw [if_pos hn, if_pos hn]; exact le_refl _
      · rw [if_neg hn, if_neg hn]
        cases x.2.1.memberSeq with
        | nil => exact le_refl _
        | cons c cs => exact rangesLoop_le p f k n out cs c c _ _

theorem describeClass_le (p : Profile) (f k n : Nat) (cr : CharReach) (out : CcOutput) :
    Le (Repaired.describeClass p f cr n out) (Repaired.describeClass p (f + k) cr n out) := by
  unfold Repaired.describeClass
  by_cases h1 : cr.all = true
  · rw [if_pos h1, if_pos h1]; exact le_refl _
  rw [if_neg h1, if_neg h1]
  by_cases h2 : cr.none = true
  · rw [if_pos h2, if_pos h2]; exact le_refl _
  rw [if_neg h2, if_neg h2]
  by_cases h3 : cr.count = 1
  · rw [if_pos h3, if_pos h3]; exact le_refl _
  rw [if_neg h3, if_neg h3]
  by_cases h4 : cr.not.count = 1
  · rw [if_pos h4, if_pos h4]; exact le_refl _
  rw [if_neg h4, if_neg h4]
  exact le_bind (describeClassInt_le p f k n cr out) fun o =>
    le_bind (describeClassInt_le p f k n cr.not out) fun neg => le_refl _

/-- C61's full statement about a function. -/
def DescriptionsIdentifyOf (f : Nat → CharReach → Nat → CcOutput → Res Str) : Prop :=
  ∀ (fuel : Nat) (a b : CharReach) (s : Str), f fuel a 256 .text = .ok s → f fuel b 256 .text = .ok s → a = b

example (p : Profile) : DescriptionsIdentifyOf (Dump.describeClass p) ↔ DescriptionsIdentify p := Iff.rfl

/-- In either output mode. -/
theorem C98_descriptions_of_mode (p : Profile) (fuel : Nat) (a b : CharReach) (out : CcOutput) (s : Str)
    (ha : Repaired.describeClass p fuel a 256 out = .ok s) (hb : Repaired.describeClass p fuel b 256 out = .ok s) :
    a = b := by
  have ha := describeClass_le p fuel 4 256 a out s ha
  have hb := describeClass_le p fuel 4 256 b out s hb
  obtain ⟨t, h, fa⟩ := C98_describe_class p (fuel + 4) (by omega) a out
  rw [ha] at h; injection h with h; subst h
  obtain ⟨t, h, fb⟩ := C98_describe_class p (fuel + 4) (by omega) b out
  rw [hb] at h; injection h with h; subst h
  apply CharReach.ext_test
  intro c
  rcases form_unique (A := ∀ c, a.test c = true) (E := ∀ c, a.test c = false)
    (A' := ∀ c, b.test c = true) (E' := ∀ c, b.test c = false) (S := fun x => a.test x = true)
    (N := fun x => a.test x = false) (S' := fun x => b.test x = true) (N' := fun x => b.test x = false) fa fb
    with ⟨h, h'⟩ | ⟨h, h'⟩ | h | h
  · rw [h, h']
  · rw [h, h']
  · rw [Bool.eq_iff_iff]; exact h c
  · have := h c
    cases ha : a.test c <;> cases hb : b.test c <;> simp_all

example (b : CharReach) (hb : Repaired.describeClass .debug 4 b 256 .dot = .ok "[ac]".toList) :
    CharReach.fromBytes [0x61#8, 0x63#8] = b :=
  C98_descriptions_of_mode .debug 4 _ b .dot "[ac]".toList (by decide +kernel) hb

/-- C98, C61 repaired: with the last range always written (and C60's loop repaired) descriptions identify
classes. -/
theorem C98_descriptions (p : Profile) : DescriptionsIdentifyOf (Repaired.describeClass p) :=
  fun fuel a b s => C98_descriptions_of_mode p fuel a b .text s

example : Repaired.describeClass .debug 4 (CharReach.fromBytes [0x61#8, 0x63#8]) 256 .text = .ok "[ac]".toList ∧
    Dump.describeClass .debug 4 (CharReach.fromBytes [0x61#8, 0x63#8]) 256 .text = .ok "a".toList := by
  decide +kernel

end Rescan.RepairedText
