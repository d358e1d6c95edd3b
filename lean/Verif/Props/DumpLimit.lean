import Verif.Proofs.DumpLimit
import Verif.Spec.DumpLimit
/-! # C77: describing byte classes under a length limit -/
namespace Rescan.Dump
open Spec

theorem truncated_iff {n : Nat} {s : U8 → Bool} (hno : ¬ ∃ r, AreRuns s [r]) {rs : List (U8 × U8)}
    (hr : AreRuns (restOf s) rs) :
    Truncated n s ↔ (0 < n ∧ n ≤ (mnemonics s).length + (rs.length - 1)) := by
  constructor
  · rintro ⟨_, rs', hr', h⟩
    rw [areRuns_unique hr hr']; exact h
  · exact fun h => ⟨hno, rs, hr, h⟩

theorem describeClassInt_full (p : Profile) (fuel : Nat) (hf : 4 ≤ fuel) (n : Nat) (cr : CharReach)
    (out : CcOutput) (h : ¬ Truncated n cr.test) :
    describeClassInt p fuel cr n out = describeClassInt p fuel cr 256 out := by
  unfold describeClassInt
  cases hc : contiguousRange cr with
  | some x => rfl
  | none =>
    have hno : ¬ ∃ r, AreRuns cr.test [r] := by
      rintro ⟨⟨a, b⟩, h⟩
      rw [← contiguousRange_iff, hc] at h; cases h
    have hruns := runsOf_members (restOf cr.test)
    rw [truncated_iff hno hruns] at h
    obtain ⟨rest, hrest, hm⟩ := mnemonicLoop_any out fuel hf cr
    have hfun : rest.test = restOf cr.test := funext hrest
    have hb := mnemonics_bound cr.test
    have hlen2 : (mnemonics cr.test).length ≤ 2 := by
      unfold mnemonics
      cases covers isWordByte cr.test <;> cases covers isDigitByte cr.test <;>
        cases covers isSpaceByte cr.test <;> simp
    simp only
    rw [hm, hm, if_neg (by omega), if_neg (by omega), Outcome.ok_bind, Outcome.ok_bind]
    simp only
    rw [CharReach.memberSeq_eq, hfun]
    have hp := members_pairwise (restOf cr.test)
    cases hl : members (restOf cr.test) with
    | nil => rfl
    | cons c cs =>
      rw [hl] at hb hp h
      simp only
      have hlen := runsFrom_length cs c c
      simp only [List.length_cons] at hb
      have hne : 0 < (runsFrom c c cs).length := List.length_pos_iff.2 (runsFrom_ne_nil cs c c)
      simp only [runsOf] at h
      by_cases hlast : ∀ r ∈ (runsFrom c c cs).getLast?, r.2 ≠ 0xff#8
      · rw [rangesLoop_open p fuel hf n out cs c c _ _ (BitVec.le_refl _) hp (by omega) hlast,
          rangesLoop_open p fuel hf 256 out cs c c _ _ (BitVec.le_refl _) hp (by omega) hlast]
      · have : ∃ a, (runsFrom c c cs).getLast? = some (a, 0xff#8) := by
          cases hg : (runsFrom c c cs).getLast? with
          | none => exact absurd (by rw [hg]; simp) hlast
          | some r =>
            obtain ⟨a, b⟩ := r
            rw [hg] at hlast
            simp at hlast
            exact ⟨a, by rw [hlast]⟩
        obtain ⟨a, ha⟩ := this
        rw [rangesLoop_closed p fuel hf n out a cs c c _ _ (BitVec.le_refl _) hp (by omega) ha,
          rangesLoop_closed p fuel hf 256 out a cs c c _ _ (BitVec.le_refl _) hp (by omega) ha]

theorem describeClassInt_trunc (p : Profile) (fuel : Nat) (hf : 4 ≤ fuel) (n : Nat) (cr : CharReach)
    (out : CcOutput) (h : Truncated n cr.test) :
    ∃ rs, AreRuns (restOf cr.test) rs ∧ describeClassInt p fuel cr n out =
      .ok (((checkedParts cr.test out rs).take n).flatten ++ "...]".toList, n) := by
  have hno := h.1
  have hruns := runsOf_members (restOf cr.test)
  rw [truncated_iff hno hruns] at h
  refine ⟨_, hruns, ?_⟩
  unfold describeClassInt
  cases hc : contiguousRange cr with
  | some x =>
    obtain ⟨a, b⟩ := x
    exact absurd ⟨_, (contiguousRange_iff cr a b).1 hc⟩ hno
  | none =>
    obtain ⟨rest, hrest, hm⟩ := mnemonicLoop_any out fuel hf cr
    have hfun : rest.test = restOf cr.test := funext hrest
    simp only
    rw [hm]
    unfold checkedParts
    rw [List.take_append, List.flatten_append, List.length_map, ← List.map_take, ← List.map_take,
      ← List.flatMap_def, ← List.flatMap_def]
    by_cases hn : n ≤ (mnemonics cr.test).length
    · rw [if_pos ⟨h.1, hn⟩, Outcome.ok_bind]
      simp only
      rw [show n - (mnemonics cr.test).length = 0 by omega]
      simp [Pure.pure]
    · rw [if_neg (by omega), Outcome.ok_bind]
      simp only
      rw [CharReach.memberSeq_eq, hfun]
      have hp := members_pairwise (restOf cr.test)
      have hmem := BitField256.mem_members (restOf cr.test)
      cases hl : members (restOf cr.test) with
      | nil => rw [hl] at h; simp [runsOf] at h; omega
      | cons c cs =>
        rw [hl] at hp h
        have hnone : ¬ rest.none = true := by
          rw [CharReach.none_iff]
          intro h
          have := (hmem c).1 (by rw [hl]; simp)
          rw [← hrest, h] at this; cases this
        rw [if_neg hnone]
        simp only
        simp only [runsOf] at h ⊢
        rw [rangesLoop_trunc p fuel hf n out cs c c _ _ (BitVec.le_refl _) hp (by omega)
          (by rw [List.length_dropLast]; omega)]
        rw [List.take_of_length_le (show (mnemonics cr.test).length ≤ n by omega)]

/-- Describing a class under the limit `n` fails: the description is not cut short and its last run is one
of two to four bytes up to 0xff. -/
def FailsAt (n : Nat) (s : U8 → Bool) : Prop := EndsShort s ∧ ¬ Truncated n s

theorem describeClassInt_limit_ok (p : Profile) (fuel : Nat) (hf : 4 ≤ fuel) (n : Nat) (cr : CharReach)
    (out : CcOutput) (h : ¬ FailsAt n cr.test) :
    ∃ t k, describeClassInt p fuel cr n out = .ok (t, k) ∧ IsLimitedBody n cr.test out t k := by
  by_cases ht : Truncated n cr.test
  · obtain ⟨rs, hr, he⟩ := describeClassInt_trunc p fuel hf n cr out ht
    exact ⟨_, _, he, .inl ⟨ht, rfl, rs, hr, rfl⟩⟩
  · obtain ⟨t, k, he, hb⟩ := describeClassInt_ok p fuel hf cr out (fun h' => h ⟨h', ht⟩)
    exact ⟨t, k, by rw [describeClassInt_full p fuel hf n cr out ht, he], .inr ⟨ht, hb⟩⟩

theorem describeClassInt_limit_fails (p : Profile) (fuel : Nat) (hf : 4 ≤ fuel) (n : Nat) (cr : CharReach)
    (out : CcOutput) (h : FailsAt n cr.test) :
    (p = .release → describeClassInt p fuel cr n out = .timeout) ∧
    (p = .debug → (describeClassInt p fuel cr n out).isPanic = true) := by
  rw [describeClassInt_full p fuel hf n cr out h.2]
  exact describeClassInt_short p fuel hf cr out h.1

/-- C77: limits 0 and 256 never cut anything short, so every description is complete. -/
theorem C77_no_limit (s : U8 → Bool) : ¬ Truncated 0 s ∧ ∀ n, 256 ≤ n → ¬ Truncated n s := by
  refine ⟨fun ⟨_, _, _, h, _⟩ => absurd h (by omega), fun n hn => ?_⟩
  rintro ⟨_, rs, hr, _, h⟩
  have := areRuns_unique hr (runsOf_members (restOf s))
  have hb := mnemonics_bound s
  have hlen2 : (mnemonics s).length ≤ 2 := by
    unfold mnemonics
    cases covers isWordByte s <;> cases covers isDigitByte s <;> cases covers isSpaceByte s <;> simp
  cases hl : members (restOf s) with
  | nil => rw [hl] at this; subst this; simp [runsOf] at h; omega
  | cons c cs =>
    rw [hl] at this hb
    have hlen := runsFrom_length cs c c
    simp only [runsOf] at this
    rw [this] at h
    simp only [List.length_cons] at hb
    omega

example : ¬ Truncated 300 (CharReach.fromBytes [0x61#8, 0x63#8]).test := (C77_no_limit _).2 300 (by decide)

/-- C77: under the limit `n`, describing a class of 2 to 254 bytes fails (debug builds panic, release
builds never return) exactly when the text of the class or that of its complement is not cut short and
ends in a run of two to four bytes up to 0xff. -/
theorem C77_limit_fails (fuel : Nat) (hf : 4 ≤ fuel) (n : Nat) (cr : CharReach) (out : CcOutput) :
    (¬ (Compound cr.test ∧ (FailsAt n cr.test ∨ FailsAt n (fun c => !cr.test c))) →
      ∀ p, ∃ s, describeClass p fuel cr n out = .ok s) ∧
    ((Compound cr.test ∧ (FailsAt n cr.test ∨ FailsAt n (fun c => !cr.test c))) →
      (describeClass .release fuel cr n out = .timeout ∧
       (describeClass .debug fuel cr n out).isPanic = true)) := by
  have hnot : (fun c => !cr.test c) = cr.not.test := by
    funext c; rw [CharReach.not_test]
  rw [hnot]
  constructor
  · intro h p
    by_cases hc : Compound cr.test
    · obtain ⟨t, k, he, _⟩ := describeClassInt_limit_ok p fuel hf n cr out (fun h' => h ⟨hc, .inl h'⟩)
      obtain ⟨t', k', he', _⟩ := describeClassInt_limit_ok p fuel hf n cr.not out (fun h' => h ⟨hc, .inr h'⟩)
      rw [describeClass_compound p fuel n cr out hc, he]
      simp only [Outcome.bind]
      rw [he']
      simp only
      by_cases hu : utf8Len t ≤ utf8Len t'
      · rw [if_pos hu]
        by_cases hn : k > 1
        · rw [if_pos hn]; exact ⟨_, rfl⟩
        · rw [if_neg hn]; exact ⟨_, rfl⟩
      · rw [if_neg hu]; exact ⟨_, rfl⟩
    · exact describeClass_simple p fuel n cr out hc
  · rintro ⟨hc, h⟩
    rw [describeClass_compound .release fuel n cr out hc, describeClass_compound .debug fuel n cr out hc]
    by_cases h1 : FailsAt n cr.test
    · have hr := (describeClassInt_limit_fails .release fuel hf n cr out h1).1 rfl
      have hd := (describeClassInt_limit_fails .debug fuel hf n cr out h1).2 rfl
      rw [hr]
      refine ⟨rfl, ?_⟩
      cases hx : describeClassInt .debug fuel cr n out with
      | panic m => rfl
      | ok x => rw [hx] at hd; cases hd
      | err x => rw [hx] at hd; cases hd
      | timeout => rw [hx] at hd; cases hd
    · have h2 : FailsAt n cr.not.test := h.resolve_left h1
      have hr := (describeClassInt_limit_fails .release fuel hf n cr.not out h2).1 rfl
      have hd := (describeClassInt_limit_fails .debug fuel hf n cr.not out h2).2 rfl
      obtain ⟨t, k, he, _⟩ := describeClassInt_limit_ok .release fuel hf n cr out h1
      obtain ⟨t', k', he', _⟩ := describeClassInt_limit_ok .debug fuel hf n cr out h1
      rw [he, he']
      simp only [Outcome.bind]
      rw [hr]
      refine ⟨rfl, ?_⟩
      cases hx : describeClassInt .debug fuel cr.not n out with
      | panic m => rfl
      | ok x => rw [hx] at hd; cases hd
      | err x => rw [hx] at hd; cases hd
      | timeout => rw [hx] at hd; cases hd

/-- The class `{a, c, 0xfe, 0xff}`: with limit 2 its text is cut short after `ac`, so it can be described
although it ends in a short run; without a limit it cannot. -/
example : Compound (CharReach.fromBytes [0x61#8, 0x63#8, 0xfe#8, 0xff#8]).test ∧
    Truncated 2 (CharReach.fromBytes [0x61#8, 0x63#8, 0xfe#8, 0xff#8]).test ∧
    FailsAt 0 (CharReach.fromBytes [0x61#8, 0x63#8, 0xfe#8, 0xff#8]).test ∧
    describeClass .debug 4 (CharReach.fromBytes [0x61#8, 0x63#8, 0xfe#8, 0xff#8]) 2 .text
      = .ok "[ac...]]".toList ∧
    (describeClass .debug 4 (CharReach.fromBytes [0x61#8, 0x63#8, 0xfe#8, 0xff#8]) 0 .text).isPanic = true := by
  have ht : (CharReach.fromBytes [0x61#8, 0x63#8, 0xfe#8, 0xff#8]).test
      = fun c => decide (c ∈ [0x61#8, 0x63#8, 0xfe#8, 0xff#8]) := funext (CharReach.fromBytes_test _)
  refine ⟨?_, ?_, ?_, by decide +kernel, by decide +kernel⟩
  · rw [ht]
    exact ⟨⟨0xfe#8, 0xff#8, by decide, by decide, by decide⟩, 0#8, 1#8, by decide, by decide, by decide⟩
  · have hno : ¬ ∃ r, AreRuns (CharReach.fromBytes [0x61#8, 0x63#8, 0xfe#8, 0xff#8]).test [r] := by
      rintro ⟨r, hr⟩
      have := areRuns_unique hr (runsOf_members _)
      rw [ht] at this
      have h2 : (runsOf (members (fun c => decide (c ∈ [0x61#8, 0x63#8, 0xfe#8, 0xff#8])))).length = 3 := by
        decide +kernel
      rw [← this] at h2; cases h2
    refine ⟨hno, _, runsOf_members _, by decide, ?_⟩
    rw [ht]
    decide +kernel
  · refine ⟨⟨0xfe#8, by decide, by decide, ?_⟩, (C77_no_limit _).1⟩
    rw [ht]
    refine ⟨by decide, ?_⟩
    decide +kernel

/-- C77: the description under the limit `n` of a class of 2 to 254 bytes.  A text that reaches the limit
is its first `n` parts followed by `...]`; the choice between the text of the class and the negated text
of its complement, and the brackets, are as without a limit. -/
theorem C77_limit_text (p : Profile) (fuel : Nat) (hf : 4 ≤ fuel) (n : Nat) (cr : CharReach) (out : CcOutput)
    (hc : Compound cr.test) (h1 : ¬ FailsAt n cr.test) (h2 : ¬ FailsAt n (fun c => !cr.test c)) :
    ∃ t k t' k', IsLimitedBody n cr.test out t k ∧ IsLimitedBody n (fun c => !cr.test c) out t' k' ∧
      describeClass p fuel cr n out = .ok
        (if utf8Len t ≤ utf8Len t' then (if k > 1 then ['['] ++ t ++ [']'] else t)
         else "[^".toList ++ t' ++ [']']) := by
  have hnot : (fun c => !cr.test c) = cr.not.test := by
    funext c; rw [CharReach.not_test]
  rw [hnot] at h2 ⊢
  obtain ⟨t, k, he, hb⟩ := describeClassInt_limit_ok p fuel hf n cr out h1
  obtain ⟨t', k', he', hb'⟩ := describeClassInt_limit_ok p fuel hf n cr.not out h2
  refine ⟨t, k, t', k', hb, hb', ?_⟩
  rw [describeClass_compound p fuel n cr out hc, he]
  simp only [Outcome.bind]
  rw [he']
  simp only
  by_cases hu : utf8Len t ≤ utf8Len t'
  · rw [if_pos hu, if_pos hu]
    by_cases hn : k > 1
    · rw [if_pos hn, if_pos hn]
    · rw [if_neg hn, if_neg hn]
  · rw [if_neg hu, if_neg hu]

example := C77_limit_text .debug 4 (Nat.le_refl _) 1 (CharReach.fromBytes [0x61#8, 0x63#8]) .text ac_compound.1
  (fun h => ac_compound.2.1 h.1) (fun h => ac_compound.2.2 h.1)

/-- C77: the text under a limit is determined by the class and the limit. -/
theorem C77_text_unique (n : Nat) (s : U8 → Bool) (out : CcOutput) (t t' : Str) (k k' : Nat)
    (h : IsLimitedBody n s out t k) (h' : IsLimitedBody n s out t' k') : t = t' ∧ k = k' := by
  rcases h with ⟨ht, rfl, rs, hr, rfl⟩ | ⟨ht, hb⟩
  · rcases h' with ⟨_, rfl, rs', hr', rfl⟩ | ⟨ht', _⟩
    · rw [areRuns_unique hr hr']; exact ⟨rfl, rfl⟩
    · exact absurd ht ht'
  · rcases h' with ⟨ht', _⟩ | ⟨_, hb'⟩
    · exact absurd ht' ht
    · exact C71_text_unique s out t t' k k' hb hb'

example : ∃ t k, IsLimitedBody 1 (CharReach.fromBytes [0x61#8, 0x63#8]).test .text t k := by
  obtain ⟨t, k, _, _, h, _⟩ := C77_limit_text .debug 4 (Nat.le_refl _) 1 (CharReach.fromBytes [0x61#8, 0x63#8]) .text
    ac_compound.1 (fun h => ac_compound.2.1 h.1) (fun h => ac_compound.2.2 h.1)
  exact ⟨t, k, h⟩


end Rescan.Dump
