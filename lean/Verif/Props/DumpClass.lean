import Verif.Proofs.DumpClass
/-! # C70, C71: describing byte classes -/
namespace Rescan.Dump
open Spec

theorem restOf_high (s : U8 → Bool) (c : U8) (h : 128 ≤ c.toNat) : restOf s c = s c := by
  have h1 : isWordByte c = false := by
    revert h; revert c; decide +kernel
  have h2 : isDigitByte c = false := by
    revert h; revert c; decide +kernel
  have h3 : isSpaceByte c = false := by
    revert h; revert c; decide +kernel
  unfold restOf; rw [h1, h2, h3]; simp

theorem isRun_high (s s' : U8 → Bool) (h : ∀ c : U8, 128 ≤ c.toNat → s' c = s c) (a b : U8)
    (ha : 129 ≤ a.toNat) (hr : IsRun s a b) : IsRun s' a b := by
  obtain ⟨h1, h2, h3, h4⟩ := hr
  rw [BitVec.le_def] at h1
  refine ⟨h1, fun c h5 h6 => ?_, fun c h5 => ?_, fun c h5 => ?_⟩
  · rw [h c (by rw [BitVec.le_def] at h5; omega)]; exact h2 c h5 h6
  · rw [h c (by omega)]; exact h3 c h5
  · rw [h c (by omega)]; exact h4 c h5

theorem members_length_le (s : U8 → Bool) : (members s).length ≤ 256 := by
  have := List.length_filter_le s allBytes
  unfold members
  have h : allBytes.length = 256 := by simp [allBytes]
  omega

theorem two_le_length {α : Type} {l : List α} {a b : α} (hab : a ≠ b) (ha : a ∈ l) (hb : b ∈ l) :
    2 ≤ l.length := by
  match l, ha, hb with
  | [x], ha, hb =>
    rw [List.mem_singleton] at ha hb
    exact absurd (ha.trans hb.symm) hab
  | _ :: _ :: _, _, _ => simp

theorem members_length_lt (s : U8 → Bool) (a b : U8) (hab : a ≠ b) (ha : s a = false) (hb : s b = false) :
    (members s).length ≤ 254 := by
  have hmem : ∀ c : U8, c ∈ allBytes := by
    intro c
    unfold allBytes
    rw [List.mem_map]
    exact ⟨c.toNat, by rw [List.mem_range]; exact c.isLt, by simp⟩
  have h := List.length_eq_countP_add_countP s (l := allBytes)
  rw [List.countP_eq_length_filter, List.countP_eq_length_filter] at h
  have h256 : allBytes.length = 256 := by simp [allBytes]
  have hsub : [a, b] ⊆ List.filter (fun c => decide ¬ s c = true) allBytes := by
    intro x hx
    rw [List.mem_filter]
    simp only [List.mem_cons, List.not_mem_nil, or_false] at hx
    rcases hx with rfl | rfl
    · exact ⟨hmem _, by rw [ha]; rfl⟩
    · exact ⟨hmem _, by rw [hb]; rfl⟩
  have h2 := two_le_length hab (hsub (List.mem_cons_self)) (hsub (List.mem_cons_of_mem _ List.mem_cons_self))
  unfold members
  rw [h256] at h
  omega

theorem mnemonics_bound (s : U8 → Bool) :
    (mnemonics s).length + (members (restOf s)).length ≤ 256 := by
  have h256 := members_length_le (restOf s)
  have hlen : (mnemonics s).length ≤ 2 := by
    unfold mnemonics
    cases covers isWordByte s <;> cases covers isDigitByte s <;> cases covers isSpaceByte s <;> simp
  cases hs : covers isSpaceByte s with
  | true =>
    have hz : ∀ c, isSpaceByte c = true → restOf s c = false := by
      intro c hc; unfold restOf; rw [hs, hc]; simp
    have := members_length_lt (restOf s) 0x20#8 0x09#8 (by decide) (hz _ (by decide)) (hz _ (by decide))
    omega
  | false =>
    by_cases hw : covers isDigitByte s = true
    · have hz : ∀ c, isDigitByte c = true → restOf s c = false := by
        intro c hc; unfold restOf; rw [hw, hc]; simp
      have := members_length_lt (restOf s) 0x30#8 0x31#8 (by decide) (hz _ (by decide)) (hz _ (by decide))
      omega
    · have hw' : ¬ covers isWordByte s = true := by
        intro h; apply hw; rw [covers_iff] at h ⊢; exact fun c hc => h c (digit_word c hc)
      have : (mnemonics s).length = 0 := by unfold mnemonics; rw [if_neg hw', if_neg hw, hs]; rfl
      omega

/-- What `describe_class_int` does: with one run, that run; otherwise the mnemonics and the runs of
the rest, the last of them only if it ends at 0xff. -/
theorem describeClassInt_eq (p : Profile) (fuel : Nat) (hf : 4 ≤ fuel) (cr : CharReach) (out : CcOutput) :
    (∃ a b, AreRuns cr.test [(a, b)] ∧ describeClassInt p fuel cr 256 out =
      (describeRange p fuel a b out).bind (fun d => .ok (d, 2))) ∨
    ((¬ ∃ r, AreRuns cr.test [r]) ∧ ∃ rs, AreRuns (restOf cr.test) rs ∧
      ((∀ r ∈ rs.getLast?, r.2 ≠ 0xff#8) ∧ describeClassInt p fuel cr 256 out =
        .ok ((mnemonics cr.test).flatMap (fun m => backslash out ++ [m]) ++ rs.dropLast.flatMap (runText out),
          (mnemonics cr.test).length + rs.dropLast.length) ∨
       ∃ a, rs.getLast? = some (a, 0xff#8) ∧ describeClassInt p fuel cr 256 out =
        (describeRange p fuel a 0xff#8 out).bind (fun d => .ok
         ((mnemonics cr.test).flatMap (fun m => backslash out ++ [m]) ++ rs.dropLast.flatMap (runText out) ++ d,
          (mnemonics cr.test).length + rs.length)))) := by
  unfold describeClassInt
  cases hc : contiguousRange cr with
  | some x =>
    obtain ⟨a, b⟩ := x
    left
    exact ⟨a, b, (contiguousRange_iff cr a b).1 hc, rfl⟩
  | none =>
    right
    refine ⟨?_, ?_⟩
    · rintro ⟨⟨a, b⟩, h⟩
      rw [← contiguousRange_iff, hc] at h; cases h
    · obtain ⟨rest, hrest, hm⟩ := mnemonicLoop_eq 256 (by decide) out fuel hf cr
      have hfun : rest.test = restOf cr.test := funext hrest
      have hruns := runsOf_members (restOf cr.test)
      refine ⟨_, hruns, ?_⟩
      simp only
      rw [hm, Outcome.ok_bind]
      simp only
      rw [CharReach.memberSeq_eq, hfun]
      have hb := mnemonics_bound cr.test
      have hp := members_pairwise (restOf cr.test)
      have hmem := BitField256.mem_members (restOf cr.test)
      cases hl : members (restOf cr.test) with
      | nil =>
        left
        refine ⟨fun r hr => by simp [runsOf] at hr, ?_⟩
        have hnone : rest.none = true := by
          rw [CharReach.none_iff]
          intro c
          have := hmem c
          rw [hl] at this
          rw [hrest]; simpa using this
        rw [if_pos hnone]
        simp [runsOf, Pure.pure]
      | cons c cs =>
        rw [hl] at hb hp
        have hnone : ¬ rest.none = true := by
          rw [CharReach.none_iff]
          intro h
          have := (hmem c).1 (by rw [hl]; simp)
          rw [← hrest, h] at this; cases this
        rw [if_neg hnone]
        have hlen := runsFrom_length cs c c
        simp only [List.length_cons] at hb
        show _ ∨ _
        by_cases hlast : ∀ r ∈ (runsFrom c c cs).getLast?, r.2 ≠ 0xff#8
        · left
          exact ⟨hlast, rangesLoop_open p fuel hf 256 out cs c c _ _ (BitVec.le_refl _) hp (.inr (by omega)) hlast⟩
        · right
          have : ∃ a, (runsFrom c c cs).getLast? = some (a, 0xff#8) := by
            cases hg : (runsFrom c c cs).getLast? with
            | none => exact absurd (by rw [hg]; simp) hlast
            | some r =>
              obtain ⟨a, b⟩ := r
              rw [hg] at hlast
              simp at hlast
              exact ⟨a, by rw [hlast]⟩
          obtain ⟨a, ha⟩ := this
          refine ⟨a, ha, ?_⟩
          exact rangesLoop_closed p fuel hf 256 out a cs c c _ _ (BitVec.le_refl _) hp (.inr (by omega)) ha

theorem describeRange_ff (p : Profile) (fuel : Nat) (hf : 4 ≤ fuel) (a : U8) (out : CcOutput)
    (h : ¬ (252 ≤ a.toNat ∧ a.toNat < 255)) :
    describeRange p fuel a 0xff#8 out = .ok (runText out (a, 0xff#8)) :=
  C60_describe_range_partial p fuel hf a 0xff#8 out (by rw [BitVec.le_def]; have := a.isLt; simp; omega)
    (fun h' => h h'.2)

theorem describeRange_any (p : Profile) (fuel : Nat) (hf : 4 ≤ fuel) (a b : U8) (out : CcOutput) (h : a ≤ b)
    (hn : ¬ (b = 0xff#8 ∧ 252 ≤ a.toNat ∧ a.toNat < 255)) :
    describeRange p fuel a b out = .ok (runText out (a, b)) :=
  C60_describe_range_partial p fuel hf a b out h
    (fun h' => hn ⟨by rw [← BitVec.toNat_inj]; exact h'.1, h'.2⟩)

theorem describeClassInt_ok (p : Profile) (fuel : Nat) (hf : 4 ≤ fuel) (cr : CharReach) (out : CcOutput)
    (h : ¬ EndsShort cr.test) :
    ∃ t n, describeClassInt p fuel cr 256 out = .ok (t, n) ∧ IsClassBody cr.test out t n := by
  rcases describeClassInt_eq p fuel hf cr out with ⟨a, b, hr, he⟩ | ⟨hno, rs, hr, ⟨hlast, he⟩ | ⟨a, hlast, he⟩⟩
  · have hrun := (hr.1 a b).1 (by simp)
    rw [describeRange_any p fuel hf a b out hrun.1 (by rintro ⟨rfl, h1, h2⟩; exact h ⟨a, h1, h2, hrun⟩)] at he
    exact ⟨_, _, he, .inl ⟨(a, b), hr, rfl, rfl⟩⟩
  · refine ⟨_, _, he, .inr ⟨hno, rs, hr, ?_⟩⟩
    have : writtenRuns rs = rs.dropLast := by
      unfold writtenRuns
      cases hg : rs.getLast? with
      | none => rw [List.getLast?_eq_none_iff] at hg; subst hg; rfl
      | some r => simp only; rw [if_neg (hlast r (by rw [hg]; rfl))]
    rw [this]
    exact ⟨rfl, rfl⟩
  · have hmem : (a, 0xff#8) ∈ rs := List.mem_of_getLast? hlast
    have hrun := (hr.1 _ _).1 hmem
    have hgood : ¬ (252 ≤ a.toNat ∧ a.toNat < 255) := by
      rintro ⟨h1, h2⟩
      exact h ⟨a, h1, h2, isRun_high _ _ (fun c hc => (restOf_high _ c hc).symm) _ _ (by omega) hrun⟩
    rw [describeRange_ff p fuel hf a out hgood] at he
    refine ⟨_, _, he, .inr ⟨hno, rs, hr, ?_⟩⟩
    have hw : writtenRuns rs = rs := by
      unfold writtenRuns; rw [hlast]; simp
    have hsplit : rs = rs.dropLast ++ [(a, 0xff#8)] := by
      have hne : rs ≠ [] := by intro h'; rw [h'] at hmem; cases hmem
      rw [List.getLast?_eq_some_getLast hne] at hlast
      injection hlast with hlast
      conv => lhs; rw [← List.dropLast_concat_getLast hne, hlast]
    rw [hw]
    refine ⟨?_, rfl⟩
    conv => rhs; rw [hsplit]
    simp

theorem runs_last_ff {s : U8 → Bool} {rs : List (U8 × U8)} (h : AreRuns s rs) {a : U8}
    (hr : IsRun s a 0xff#8) : rs.getLast? = some (a, 0xff#8) := by
  have hm := (h.1 a 0xff#8).2 hr
  obtain ⟨pre, post, he⟩ := List.append_of_mem hm
  cases post with
  | nil => rw [he]; simp
  | cons x xs =>
    have hp := h.2
    rw [he, List.pairwise_append] at hp
    have := (List.pairwise_cons.1 hp.2.1).1 x (by simp)
    rw [BitVec.lt_def] at this
    have h2 := x.1.isLt
    simp at this
    omega

theorem describeClassInt_short (p : Profile) (fuel : Nat) (hf : 4 ≤ fuel) (cr : CharReach) (out : CcOutput)
    (h : EndsShort cr.test) :
    (p = .release → describeClassInt p fuel cr 256 out = .timeout) ∧
    (p = .debug → (describeClassInt p fuel cr 256 out).isPanic = true) := by
  obtain ⟨a, h1, h2, hrun⟩ := h
  have hbad := C60_bad_ranges a out h1 h2
  have key : ∃ (k : Str → Res (Str × Nat)), describeClassInt p fuel cr 256 out =
      (describeRange p fuel a 0xff#8 out).bind k := by
    rcases describeClassInt_eq p fuel hf cr out with ⟨x, y, hr, he⟩ | ⟨hno, rs, hr, ⟨hlast, he⟩ | ⟨x, hlast, he⟩⟩
    · have := runs_last_ff hr hrun
      simp at this
      obtain ⟨rfl, rfl⟩ := this
      exact ⟨_, he⟩
    · have := runs_last_ff hr (isRun_high _ _ (fun c hc => restOf_high _ c hc) _ _ (by omega) hrun)
      exact absurd rfl (hlast _ this)
    · have := runs_last_ff hr (isRun_high _ _ (fun c hc => restOf_high _ c hc) _ _ (by omega) hrun)
      rw [this] at hlast
      injection hlast with hlast
      injection hlast with hlast
      subst hlast
      exact ⟨_, he⟩
  obtain ⟨k, hk⟩ := key
  refine ⟨fun hp => ?_, fun hp => ?_⟩
  · subst hp; rw [hk, hbad.1]; rfl
  · subst hp
    have := hbad.2 fuel hf
    rw [hk]
    cases hd : describeRange .debug fuel a 0xff#8 out with
    | panic m => rfl
    | ok x => rw [hd] at this; cases this
    | err x => rw [hd] at this; cases this
    | timeout => rw [hd] at this; cases this

/-! ## C70: when describing a class fails -/

/-- Classes with 2 to 254 members. -/
def Compound (s : U8 → Bool) : Prop :=
  (∃ a b, a ≠ b ∧ s a = true ∧ s b = true) ∧ (∃ a b, a ≠ b ∧ s a = false ∧ s b = false)

theorem count_test (cr : CharReach) : cr.count = (members cr.test).length := BitField256.count_members cr.bits

theorem two_members {s : U8 → Bool} : 2 ≤ (members s).length ↔ ∃ a b, a ≠ b ∧ s a = true ∧ s b = true := by
  have hm := BitField256.mem_members s
  have hp := members_pairwise s
  constructor
  · intro h
    cases hl : members s with
    | nil => rw [hl] at h; simp at h
    | cons a l =>
      cases l with
      | nil => rw [hl] at h; simp at h
      | cons b l =>
        rw [hl] at hp
        have := (List.pairwise_cons.1 hp).1 b (by simp)
        rw [BitVec.lt_def] at this
        refine ⟨a, b, fun h => by subst h; omega, (hm a).1 (by rw [hl]; simp), (hm b).1 (by rw [hl]; simp)⟩
  · rintro ⟨a, b, hab, ha, hb⟩
    have hsub : [a, b] ⊆ members s := by
      intro x hx
      simp only [List.mem_cons, List.not_mem_nil, or_false] at hx
      rw [hm]
      rcases hx with rfl | rfl
      · exact ha
      · exact hb
    exact two_le_length hab (hsub (List.mem_cons_self)) (hsub (List.mem_cons_of_mem _ List.mem_cons_self))

theorem not_two_members {cr : CharReach} :
    2 ≤ (members cr.not.test).length ↔ ∃ a b, a ≠ b ∧ cr.test a = false ∧ cr.test b = false := by
  rw [two_members]
  simp only [CharReach.not_test, Bool.not_eq_true']

theorem describeClass_compound (p : Profile) (fuel maxLen : Nat) (cr : CharReach) (out : CcOutput)
    (h : Compound cr.test) : describeClass p fuel cr maxLen out =
      (describeClassInt p fuel cr maxLen out).bind (fun o =>
        (describeClassInt p fuel cr.not maxLen out).bind (fun neg =>
          if utf8Len o.1 ≤ utf8Len neg.1 then
            (if o.2 > 1 then .ok (['['] ++ o.1 ++ [']']) else .ok o.1)
          else .ok ("[^".toList ++ neg.1 ++ [']']))) := by
  obtain ⟨h1, h2⟩ := h
  have c1 : 2 ≤ cr.count := by rw [count_test]; exact two_members.2 h1
  have c2 : 2 ≤ cr.not.count := by rw [count_test]; exact not_two_members.2 h2
  obtain ⟨a, _, _, ha, _⟩ := h1
  obtain ⟨b, _, _, hb, _⟩ := h2
  unfold describeClass
  rw [if_neg (by rw [CharReach.all_iff]; intro h; rw [h b] at hb; cases hb),
    if_neg (by rw [CharReach.none_iff]; intro h; rw [h a] at ha; cases ha),
    if_neg (by omega), if_neg (by omega)]
  rfl

theorem describeClass_simple (p : Profile) (fuel maxLen : Nat) (cr : CharReach) (out : CcOutput)
    (h : ¬ Compound cr.test) : ∃ s, describeClass p fuel cr maxLen out = .ok s := by
  refine (C61_simple_partial p fuel maxLen out cr cr ?_ ?_).1 <;>
  · by_cases h1 : ∃ a b, a ≠ b ∧ cr.test a = true ∧ cr.test b = true
    · have h2 : ¬ ∃ a b, a ≠ b ∧ cr.test a = false ∧ cr.test b = false := fun h2 => h ⟨h1, h2⟩
      by_cases h3 : ∃ x, cr.test x = false
      · obtain ⟨x, hx⟩ := h3
        refine .inr (.inr (.inr ⟨x, fun c => ⟨fun hc he => ?_, fun hc => ?_⟩⟩))
        · subst he; rw [hx] at hc; cases hc
        · cases ht : cr.test c with
          | true => rfl
          | false => exact absurd ⟨c, x, hc, ht, hx⟩ h2
      · refine .inr (.inl fun c => ?_)
        cases ht : cr.test c with
        | true => rfl
        | false => exact absurd ⟨c, ht⟩ h3
    · by_cases h3 : ∃ x, cr.test x = true
      · obtain ⟨x, hx⟩ := h3
        refine .inr (.inr (.inl ⟨x, fun c => ⟨fun hc => ?_, fun hc => ?_⟩⟩))
        · by_cases he : c = x
          · exact he
          · exact absurd ⟨c, x, he, hc, hx⟩ h1
        · subst hc; exact hx
      · refine .inl fun c => ?_
        cases ht : cr.test c with
        | false => rfl
        | true => exact absurd ⟨c, ht⟩ h3

theorem endsShort_not (cr : CharReach) (s : U8 → Bool) (hs : ∀ c, cr.test c = s c) :
    cr.test = s := funext hs

/-- C70: exactly when describing a class fails.  It does for a class of 2 to 254 bytes that ends in a
run of two to four bytes up to 0xff or whose complement does: then a debug build panics and a release
build never returns.  Every other class is described within four iterations. -/
theorem C70_describe_class_fails (fuel : Nat) (hf : 4 ≤ fuel) (cr : CharReach) (out : CcOutput) :
    (¬ (Compound cr.test ∧ (EndsShort cr.test ∨ EndsShort (fun c => !cr.test c))) →
      ∀ p, ∃ s, describeClass p fuel cr 256 out = .ok s) ∧
    ((Compound cr.test ∧ (EndsShort cr.test ∨ EndsShort (fun c => !cr.test c))) →
      (describeClass .release fuel cr 256 out = .timeout ∧
       (describeClass .debug fuel cr 256 out).isPanic = true)) := by
  have hnot : (fun c => !cr.test c) = cr.not.test := by
    funext c; rw [CharReach.not_test]
  rw [hnot]
  constructor
  · intro h p
    by_cases hc : Compound cr.test
    · have h1 : ¬ EndsShort cr.test := fun h' => h ⟨hc, .inl h'⟩
      have h2 : ¬ EndsShort cr.not.test := fun h' => h ⟨hc, .inr h'⟩
      obtain ⟨t, n, he, _⟩ := describeClassInt_ok p fuel hf cr out h1
      obtain ⟨t', n', he', _⟩ := describeClassInt_ok p fuel hf cr.not out h2
      rw [describeClass_compound p fuel 256 cr out hc, he]
      simp only [Outcome.bind]
      rw [he']
      simp only
      by_cases hu : utf8Len t ≤ utf8Len t'
      · rw [if_pos hu]
        by_cases hn : n > 1
        · rw [if_pos hn]; exact ⟨_, rfl⟩
        · rw [if_neg hn]; exact ⟨_, rfl⟩
      · rw [if_neg hu]; exact ⟨_, rfl⟩
    · exact describeClass_simple p fuel 256 cr out hc
  · rintro ⟨hc, h⟩
    rw [describeClass_compound .release fuel 256 cr out hc, describeClass_compound .debug fuel 256 cr out hc]
    by_cases h1 : EndsShort cr.test
    · have hr := (describeClassInt_short .release fuel hf cr out h1).1 rfl
      have hd := (describeClassInt_short .debug fuel hf cr out h1).2 rfl
      rw [hr]
      refine ⟨rfl, ?_⟩
      cases hx : describeClassInt .debug fuel cr 256 out with
      | panic m => rfl
      | ok x => rw [hx] at hd; cases hd
      | err x => rw [hx] at hd; cases hd
      | timeout => rw [hx] at hd; cases hd
    · have h2 : EndsShort cr.not.test := h.resolve_left h1
      have hr := (describeClassInt_short .release fuel hf cr.not out h2).1 rfl
      have hd := (describeClassInt_short .debug fuel hf cr.not out h2).2 rfl
      obtain ⟨t, n, he, _⟩ := describeClassInt_ok .release fuel hf cr out h1
      obtain ⟨t', n', he', _⟩ := describeClassInt_ok .debug fuel hf cr out h1
      rw [he, he']
      simp only [Outcome.bind]
      rw [hr]
      refine ⟨rfl, ?_⟩
      cases hx : describeClassInt .debug fuel cr.not 256 out with
      | panic m => rfl
      | ok x => rw [hx] at hd; cases hd
      | err x => rw [hx] at hd; cases hd
      | timeout => rw [hx] at hd; cases hd

/-- The class `{0xfe, 0xff}` fails, as does its complement. -/
example : Compound (CharReach.fromBytes [0xfe#8, 0xff#8]).test ∧
    EndsShort (CharReach.fromBytes [0xfe#8, 0xff#8]).test := by
  have ht : ∀ c, (CharReach.fromBytes [0xfe#8, 0xff#8]).test c = decide (c ∈ [0xfe#8, 0xff#8]) :=
    CharReach.fromBytes_test _
  refine ⟨⟨⟨0xfe#8, 0xff#8, by decide, by rw [ht]; rfl, by rw [ht]; rfl⟩,
    ⟨0#8, 1#8, by decide, by rw [ht]; rfl, by rw [ht]; rfl⟩⟩, 0xfe#8, by decide, by decide, by decide, ?_⟩
  simp only [ht]
  decide +kernel

/-! ## C71: the text -/

/-- The class `[ac]` is one whose description neither fails nor is trivial. -/
theorem ac_compound : Compound (CharReach.fromBytes [0x61#8, 0x63#8]).test ∧
    (¬ EndsShort (CharReach.fromBytes [0x61#8, 0x63#8]).test) ∧
    (¬ EndsShort (fun c => !(CharReach.fromBytes [0x61#8, 0x63#8]).test c)) := by
  have ht : ∀ c, (CharReach.fromBytes [0x61#8, 0x63#8]).test c = decide (c ∈ [0x61#8, 0x63#8]) :=
    CharReach.fromBytes_test _
  refine ⟨⟨⟨0x61#8, 0x63#8, by decide, by rw [ht]; rfl, by rw [ht]; rfl⟩,
    ⟨0#8, 1#8, by decide, by rw [ht]; rfl, by rw [ht]; rfl⟩⟩, ?_, ?_⟩
  · rintro ⟨a, h1, h2, h3⟩
    have := h3.2.1 0xff#8 h3.1 (by decide)
    rw [ht] at this; revert this; decide
  · rintro ⟨a, h1, h2, h3⟩
    have := h3.2.2.1 (BitVec.ofNat 8 (a.toNat - 1)) (by
      rw [BitField256.ofNat_toNat8 _ (by omega)]; omega)
    simp only [ht] at this
    have h4 : (252 ≤ a.toNat) := h1
    have h5 : BitVec.ofNat 8 (a.toNat - 1) ∈ [0x61#8, 0x63#8] := by
      simpa only [Bool.not_eq_false', decide_eq_true_eq] using this
    simp only [List.mem_cons, List.not_mem_nil, or_false, ← BitVec.toNat_inj,
      BitField256.ofNat_toNat8 _ (show a.toNat - 1 < 256 by omega)] at h5
    simp at h5
    omega

/-- C71: the description of a class of 2 to 254 bytes.  With `t` the text of the class and `t'` that of
its complement (mnemonics, then all runs but the last, which is written only if it ends at 0xff), the
description is `t`, in brackets unless it has at most one part, or `[^t']` if that is shorter. -/
theorem C71_class_text (p : Profile) (fuel : Nat) (hf : 4 ≤ fuel) (cr : CharReach) (out : CcOutput)
    (hc : Compound cr.test) (h1 : ¬ EndsShort cr.test) (h2 : ¬ EndsShort (fun c => !cr.test c)) :
    ∃ t n t' n', IsClassBody cr.test out t n ∧ IsClassBody (fun c => !cr.test c) out t' n' ∧
      describeClass p fuel cr 256 out = .ok
        (if utf8Len t ≤ utf8Len t' then (if n > 1 then ['['] ++ t ++ [']'] else t)
         else "[^".toList ++ t' ++ [']']) := by
  have hnot : (fun c => !cr.test c) = cr.not.test := by
    funext c; rw [CharReach.not_test]
  rw [hnot] at h2 ⊢
  obtain ⟨t, n, he, hb⟩ := describeClassInt_ok p fuel hf cr out h1
  obtain ⟨t', n', he', hb'⟩ := describeClassInt_ok p fuel hf cr.not out h2
  refine ⟨t, n, t', n', hb, hb', ?_⟩
  rw [describeClass_compound p fuel 256 cr out hc, he]
  simp only [Outcome.bind]
  rw [he']
  simp only
  by_cases hu : utf8Len t ≤ utf8Len t'
  · rw [if_pos hu, if_pos hu]
    by_cases hn : n > 1
    · rw [if_pos hn, if_pos hn]
    · rw [if_neg hn, if_neg hn]
  · rw [if_neg hu, if_neg hu]

example := C71_class_text .debug 4 (Nat.le_refl _) (CharReach.fromBytes [0x61#8, 0x63#8]) .text ac_compound.1
  ac_compound.2.1 ac_compound.2.2
example : describeClass .debug 4 (CharReach.fromBytes [0x61#8, 0x63#8]) 256 .text = .ok "a".toList := by decide +kernel

/-- C71, the remaining classes (any length limit): the full and the empty class have names, a single byte
is described by itself and the class lacking one byte as its negation. -/
theorem C71_simple_text (p : Profile) (fuel n : Nat) (cr : CharReach) (out : CcOutput) :
    ((∀ c, cr.test c = true) → describeClass p fuel cr n out = .ok "<any>".toList) ∧
    ((∀ c, cr.test c = false) → describeClass p fuel cr n out = .ok "<empty>".toList) ∧
    (∀ x, (∀ c, cr.test c = true ↔ c = x) → describeClass p fuel cr n out = .ok (describeChar x out)) ∧
    (∀ x, (∀ c, cr.test c = true ↔ c ≠ x) →
      describeClass p fuel cr n out = .ok ("[^".toList ++ describeChar x out ++ [']'])) := by
  refine ⟨describeClass_all p fuel cr n out, describeClass_none p fuel cr n out, fun x h => ?_, fun x h => ?_⟩
  · have : cr = CharReach.fromChar x := by
      apply CharReach.ext_test; intro c; rw [CharReach.fromChar_test, Bool.eq_iff_iff, h]; simp
    rw [this, describeClass_singleton]
  · have : cr = (CharReach.fromChar x).not := by
      apply CharReach.ext_test; intro c
      rw [CharReach.not_test, CharReach.fromChar_test, Bool.eq_iff_iff, h]; simp
    rw [this, describeClass_cosingleton]

example : describeClass .debug 4 (CharReach.fromChar 0x61#8).not 256 .text = .ok "[^a]".toList := by
  decide +kernel

/-- The text of a class is determined by the class. -/
theorem C71_text_unique (s : U8 → Bool) (out : CcOutput) (t t' : Str) (n n' : Nat)
    (h : IsClassBody s out t n) (h' : IsClassBody s out t' n') : t = t' ∧ n = n' := by
  rcases h with ⟨r, hr, rfl, rfl⟩ | ⟨hno, rs, hr, rfl, rfl⟩
  · rcases h' with ⟨r', hr', rfl, rfl⟩ | ⟨hno', _⟩
    · have := areRuns_unique hr hr'
      injection this with this
      subst this
      exact ⟨rfl, rfl⟩
    · exact absurd ⟨r, hr⟩ hno'
  · rcases h' with ⟨r', hr', _⟩ | ⟨_, rs', hr', rfl, rfl⟩
    · exact absurd ⟨r', hr'⟩ hno
    · have := areRuns_unique hr hr'
      subst this
      exact ⟨rfl, rfl⟩

example : ∃ t n, IsClassBody (CharReach.fromBytes [0x61#8, 0x63#8]).test .text t n := by
  obtain ⟨t, n, _, _, h, _⟩ := C71_class_text .debug 4 (Nat.le_refl _) (CharReach.fromBytes [0x61#8, 0x63#8]) .text
    ac_compound.1 ac_compound.2.1 ac_compound.2.2
  exact ⟨t, n, h⟩



end Rescan.Dump
