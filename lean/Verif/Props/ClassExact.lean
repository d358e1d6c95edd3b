import Verif.Props.ClassText
/-! # C61: exactly which classes share a description -/
namespace Rescan.Dump
open Spec

/-! ## The text of a class, from the bytes it shows -/

open Classical in
/-- The bytes shown, as a class. -/
noncomputable def shownSet (s : U8 → Bool) : U8 → Bool := fun x => decide (Shown s x)

theorem shownSet_iff (s : U8 → Bool) (x : U8) : shownSet s x = true ↔ Shown s x := by
  unfold shownSet; simp

theorem restOf_sub {s : U8 → Bool} {x : U8} (h : restOf s x = true) : s x = true := by
  unfold restOf at h; revert h; cases s x <;> simp

theorem restOf_uncovered {s : U8 → Bool} {x : U8} (h : restOf s x = true) :
    (covers isWordByte s && isWordByte x) = false ∧ (covers isDigitByte s && isDigitByte x) = false ∧
      (covers isSpaceByte s && isSpaceByte x) = false := by
  unfold restOf at h
  revert h
  cases covers isWordByte s && isWordByte x <;> cases covers isDigitByte s && isDigitByte x <;>
    cases covers isSpaceByte s && isSpaceByte x <;> simp

theorem leftOut_rest {s : U8 → Bool} {x : U8} (h : LeftOut s x) : restOf s x = true := by
  obtain ⟨_, a, b, hr, _, h1, h2, _⟩ := h
  exact hr.2.1 x h1 h2

theorem covers_shown {s q : U8 → Bool} (hq : q = isWordByte ∨ q = isDigitByte ∨ q = isSpaceByte) :
    covers q (shownSet s) = covers q s := by
  rw [Bool.eq_iff_iff, covers_iff, covers_iff]
  constructor
  · intro h c hc
    exact ((shownSet_iff s c).1 (h c hc)).1
  · intro h c hc
    rw [shownSet_iff]
    refine ⟨h c hc, fun hl => ?_⟩
    obtain ⟨h1, h2, h3⟩ := restOf_uncovered (leftOut_rest hl)
    have hcov := (covers_iff q s).2 h
    rcases hq with rfl | rfl | rfl
    · rw [hcov, hc] at h1; cases h1
    · rw [hcov, hc] at h2; cases h2
    · rw [hcov, hc] at h3; cases h3

theorem rest_shown (s : U8 → Bool) (x : U8) :
    restOf (shownSet s) x = true ↔ restOf s x = true ∧ ¬ LeftOut s x := by
  unfold restOf
  rw [covers_shown (.inl rfl), covers_shown (.inr (.inl rfl)), covers_shown (.inr (.inr rfl))]
  simp only [Bool.and_eq_true, shownSet_iff, Shown]
  constructor
  · rintro ⟨⟨⟨⟨h0, h1⟩, h2⟩, h3⟩, h4⟩; exact ⟨⟨⟨⟨h0, h2⟩, h3⟩, h4⟩, h1⟩
  · rintro ⟨⟨⟨⟨h0, h2⟩, h3⟩, h4⟩, h1⟩; exact ⟨⟨⟨⟨h0, h1⟩, h2⟩, h3⟩, h4⟩

theorem mnemonicItems_shown (s : U8 → Bool) : mnemonicItems (shownSet s) = mnemonicItems s := by
  unfold mnemonicItems
  rw [covers_shown (.inl rfl), covers_shown (.inr (.inl rfl)), covers_shown (.inr (.inr rfl))]

/-- Two runs with a common member are one. -/
theorem isRun_unique {s : U8 → Bool} {a b a' b' x : U8} (h : IsRun s a b) (h' : IsRun s a' b') (h1 : a ≤ x)
    (h2 : x ≤ b) (h3 : a' ≤ x) (h4 : x ≤ b') : a = a' ∧ b = b' := by
  have key : ∀ {a b a' b' : U8}, IsRun s a b → IsRun s a' b' → a ≤ x → x ≤ b → a' ≤ x → x ≤ b' →
      ¬ a.toNat < a'.toNat ∧ ¬ b.toNat < b'.toNat := by
    intro a b a' b' h h' h1 h2 h3 h4
    rw [BitVec.le_def] at h1 h2 h3 h4
    have l1 := b'.isLt
    have l2 := a'.isLt
    constructor
    · intro hlt
      have e : (BitVec.ofNat 8 (a'.toNat - 1)).toNat = a'.toNat - 1 := BitField256.ofNat_toNat8 _ (by omega)
      have i1 := h'.2.2.1 (BitVec.ofNat 8 (a'.toNat - 1)) (by omega)
      have i2 := h.2.1 (BitVec.ofNat 8 (a'.toNat - 1)) (by rw [BitVec.le_def]; omega) (by rw [BitVec.le_def]; omega)
      rw [i1] at i2; cases i2
    · intro hlt
      have e : (BitVec.ofNat 8 (b.toNat + 1)).toNat = b.toNat + 1 := BitField256.ofNat_toNat8 _ (by omega)
      have i1 := h.2.2.2 (BitVec.ofNat 8 (b.toNat + 1)) (by omega)
      have i2 := h'.2.1 (BitVec.ofNat 8 (b.toNat + 1)) (by rw [BitVec.le_def]; omega) (by rw [BitVec.le_def]; omega)
      rw [i1] at i2; cases i2
  obtain ⟨k1, k2⟩ := key h h' h1 h2 h3 h4
  obtain ⟨k3, k4⟩ := key h' h h3 h4 h1 h2
  rw [← BitVec.toNat_inj, ← BitVec.toNat_inj]
  omega

theorem writtenRuns_sublist (rs : List (U8 × U8)) : (writtenRuns rs).Sublist rs := by
  unfold writtenRuns
  split
  · split
    · exact List.Sublist.refl _
    · exact List.dropLast_sublist _
  · exact List.nil_sublist _

/-- The runs written are the runs of what is shown. -/
theorem written_runs {s : U8 → Bool} (hno : ¬ ∃ r, AreRuns s [r]) {rs : List (U8 × U8)} (h : AreRuns (restOf s) rs) :
    AreRuns (restOf (shownSet s)) (writtenRuns rs) := by
  have hrest := rest_shown s
  have hfalse : ∀ c, restOf s c = false → restOf (shownSet s) c = false := by
    intro c hc
    cases hx : restOf (shownSet s) c with
    | false => rfl
    | true => rw [((hrest c).1 hx).1] at hc; cases hc
  refine ⟨fun a b => ?_, h.2.sublist (writtenRuns_sublist rs)⟩
  rw [mem_writtenRuns h, h.1]
  constructor
  · rintro ⟨hr, hw⟩
    refine ⟨hr.1, fun c h1 h2 => ?_, fun c hc => hfalse c (hr.2.2.1 c hc), fun c hc => hfalse c (hr.2.2.2 c hc)⟩
    rw [hrest]
    refine ⟨hr.2.1 c h1 h2, ?_⟩
    rintro ⟨_, a', b', hr', hb', h3, h4, hmax⟩
    obtain ⟨_, rfl⟩ := isRun_unique hr hr' h1 h2 h3 h4
    exact hw ⟨hb', hmax⟩
  · intro hr
    have hmem : ∀ c, a ≤ c → c ≤ b → restOf s c = true ∧ ¬ LeftOut s c := fun c h1 h2 => (hrest c).1 (hr.2.1 c h1 h2)
    have hab := hr.1
    have ha := hmem a (BitVec.le_refl _) hab
    have hb := hmem b hab (BitVec.le_refl _)
    have hrun : IsRun (restOf s) a b := by
      refine ⟨hab, fun c h1 h2 => (hmem c h1 h2).1, fun c hc => ?_, fun c hc => ?_⟩
      · cases hx : restOf s c with
        | false => rfl
        | true =>
          have hl : LeftOut s c := Classical.byContradiction fun hl => by
            have := hr.2.2.1 c hc
            rw [(hrest c).2 ⟨hx, hl⟩] at this; cases this
          obtain ⟨_, a', b', hr', hb', h3, h4, hmax⟩ := hl
          refine absurd ⟨hno, a', b', hr', hb', ?_, hmax a ha.1, hmax⟩ ha.2
          rw [BitVec.le_def] at h3 ⊢; omega
      · cases hx : restOf s c with
        | false => rfl
        | true =>
          have hl : LeftOut s c := Classical.byContradiction fun hl => by
            have := hr.2.2.2 c hc
            rw [(hrest c).2 ⟨hx, hl⟩] at this; cases this
          obtain ⟨_, a', b', hr', hb', h3, h4, hmax⟩ := hl
          by_cases hlt : a' ≤ b
          · exact absurd ⟨hno, a', b', hr', hb', hlt, hmax b hb.1, hmax⟩ hb.2
          · rw [BitVec.le_def] at h3 hlt
            have := hr'.2.2.1 b (by omega)
            rw [hb.1] at this; cases this
    refine ⟨hrun, ?_⟩
    rintro ⟨hff, hmax⟩
    exact ha.2 ⟨hno, a, b, hrun, hff, BitVec.le_refl _, hab, hmax⟩

theorem covers_word {s : U8 → Bool} (h : covers isDigitByte s = false) : covers isWordByte s = false := by
  cases hw : covers isWordByte s with
  | false => rfl
  | true =>
    rw [covers_iff] at hw
    have := (covers_iff isDigitByte s).2 fun c hc => hw c (digit_word c hc)
    rw [this] at h; cases h

theorem runsText (out : CcOutput) (rs : List (U8 × U8)) :
    itemsText out (rs.flatMap runItems) = rs.flatMap (runText out) := by
  unfold itemsText
  rw [List.flatMap_assoc]
  exact congrArg (fun f => List.flatMap f rs) (funext fun r => runItems_text out r)

theorem itemsText_append (out : CcOutput) (l m : List ClassItem) :
    itemsText out (l ++ m) = itemsText out l ++ itemsText out m := by simp [itemsText]

/-- What is written for a class, in terms of the bytes shown and of whether mnemonics are used. -/
theorem body_shown {s : U8 → Bool} {out : CcOutput} {t : Str} {n : Nat} (h : IsClassBody s out t n) :
    ∃ (rs : List (U8 × U8)) (l : List ClassItem), t = itemsText out l ∧
      (Shorthand s → AreRuns (restOf (shownSet s)) rs ∧ l = mnemonicItems (shownSet s) ++ rs.flatMap runItems) ∧
      (¬ Shorthand s → AreRuns (shownSet s) rs ∧ l = rs.flatMap runItems) := by
  rcases h with ⟨r, hr, rfl, rfl⟩ | ⟨hno, rs, hr, rfl, rfl⟩
  · refine ⟨[r], runItems r, (runItems_text out r).symm, fun hs => absurd ⟨r, hr⟩ hs.1, fun _ => ⟨?_, by simp⟩⟩
    have : shownSet s = s := funext fun x => by rw [Bool.eq_iff_iff, shownSet_iff, single_shown ⟨r, hr⟩]
    rw [this]; exact hr
  · refine ⟨writtenRuns rs, mnemonicItems s ++ (writtenRuns rs).flatMap runItems, ?_,
      fun _ => ⟨written_runs hno hr, by rw [mnemonicItems_shown]⟩, fun hs => ?_⟩
    · rw [itemsText_append, runsText, mnemonicItems_text]
    · have hd : covers isDigitByte s = false := by
        cases hx : covers isDigitByte s with
        | false => rfl
        | true => exact absurd ⟨hno, .inl hx⟩ hs
      have hsp : covers isSpaceByte s = false := by
        cases hx : covers isSpaceByte s with
        | false => rfl
        | true => exact absurd ⟨hno, .inr hx⟩ hs
      have hw := covers_word hd
      constructor
      · have : restOf (shownSet s) = shownSet s := funext fun x => by
          unfold restOf
          rw [covers_shown (.inl rfl), covers_shown (.inr (.inl rfl)), covers_shown (.inr (.inr rfl)), hd, hsp, hw]
          simp
        rw [← this]
        exact written_runs hno hr
      · simp [mnemonicItems, hd, hsp, hw]

/-- No mnemonic is written for a run. -/
theorem runItems_plain {rs : List (U8 × U8)} {i : ClassItem} (h : i ∈ rs.flatMap runItems) :
    i ≠ .word ∧ i ≠ .digit ∧ i ≠ .space := by
  rw [List.mem_flatMap] at h
  obtain ⟨r, _, h⟩ := h
  unfold runItems at h
  split at h
  · rw [List.mem_map] at h
    obtain ⟨c, _, rfl⟩ := h
    exact ⟨(nomatch ·), (nomatch ·), (nomatch ·)⟩
  · rw [List.mem_singleton] at h
    subst h
    exact ⟨(nomatch ·), (nomatch ·), (nomatch ·)⟩

/-- Shorthand shows in the items. -/
theorem mnemonicItems_ne {s : U8 → Bool} (h : Shorthand s) :
    ∃ i ∈ mnemonicItems (shownSet s), i = .word ∨ i = .digit ∨ i = .space := by
  rw [mnemonicItems_shown]
  unfold mnemonicItems
  rcases h.2 with hd | hs
  · rw [hd]
    cases covers isWordByte s
    · exact ⟨.digit, by simp, by simp⟩
    · exact ⟨.word, by simp, by simp⟩
  · rw [hs]
    exact ⟨.space, by simp, by simp⟩

/-- The same is written for two classes iff they are written alike. -/
theorem body_same {s s' : U8 → Bool} {out : CcOutput} {t t' : Str} {n n' : Nat} (h : IsClassBody s out t n)
    (h' : IsClassBody s' out t' n') : t = t' ↔ WrittenAlike s s' := by
  obtain ⟨rs, l, e, h1, h2⟩ := body_shown h
  obtain ⟨rs', l', e', h1', h2'⟩ := body_shown h'
  constructor
  · intro ht
    have hl : l = l' := C61_items_unique out _ _ (by rw [← e, ← e', ht])
    refine ⟨fun x => ?_, ?_⟩
    · obtain ⟨m, f, d, _⟩ := body_items h
      obtain ⟨m', f', d', _⟩ := body_items h'
      have : m = m' := C61_items_unique out _ _ (by rw [← f, ← f', ht])
      rw [← d, ← d', this]
    · have key : ∀ {s s' : U8 → Bool} {l l' : List ClassItem} {rs rs' : List (U8 × U8)}, l = l' →
          (Shorthand s → l = mnemonicItems (shownSet s) ++ rs.flatMap runItems) →
          (¬ Shorthand s' → l' = rs'.flatMap runItems) → Shorthand s → Shorthand s' := by
        intro s s' l l' rs rs' hl h1 h2 hs
        refine Classical.byContradiction fun hn => ?_
        obtain ⟨i, hi, hk⟩ := mnemonicItems_ne hs
        have hm : i ∈ rs'.flatMap runItems := by
          rw [← h2 hn, ← hl, h1 hs]; exact List.mem_append_left _ hi
        obtain ⟨k1, k2, k3⟩ := runItems_plain hm
        rcases hk with hk | hk | hk
        · exact k1 hk
        · exact k2 hk
        · exact k3 hk
      exact ⟨key hl (fun hs => (h1 hs).2) (fun hs => (h2' hs).2),
        key hl.symm (fun hs => (h1' hs).2) (fun hs => (h2 hs).2)⟩
  · rintro ⟨hx, hs⟩
    have hσ : shownSet s = shownSet s' := funext fun x => by
      rw [Bool.eq_iff_iff, shownSet_iff, shownSet_iff, hx]
    rw [e, e']
    by_cases hsh : Shorthand s
    · obtain ⟨a, b⟩ := h1 hsh
      obtain ⟨a', b'⟩ := h1' (hs.1 hsh)
      rw [hσ] at a b
      rw [b, b', areRuns_unique a a']
    · obtain ⟨a, b⟩ := h2 hsh
      obtain ⟨a', b'⟩ := h2' fun k => hsh (hs.2 k)
      rw [hσ] at a
      rw [b, b', areRuns_unique a a']

/-! ## The style of a description -/

/-- The style in which a class is described that is neither full nor empty: a single byte bare, all bytes but one
negated; other classes negated if the text of the complement is the shorter one, and else in brackets if there are
two parts or more. -/
def HasStyle (s : U8 → Bool) (out : CcOutput) : Style → Prop
  | .bare => (∃ x, ∀ c, s c = true ↔ c = x) ∨ (Compound s ∧ ∃ t n t' n', IsClassBody s out t n ∧
      IsClassBody (fun c => !s c) out t' n' ∧ utf8Len t ≤ utf8Len t' ∧ n ≤ 1)
  | .bracketed => Compound s ∧ ∃ t n t' n', IsClassBody s out t n ∧
      IsClassBody (fun c => !s c) out t' n' ∧ utf8Len t ≤ utf8Len t' ∧ 1 < n
  | .negated => (∃ x, ∀ c, s c = true ↔ c ≠ x) ∨ (Compound s ∧ ∃ t n t' n', IsClassBody s out t n ∧
      IsClassBody (fun c => !s c) out t' n' ∧ utf8Len t' < utf8Len t)

theorem singleton_body {s : U8 → Bool} {x : U8} (h : ∀ c, s c = true ↔ c = x) (out : CcOutput) :
    IsClassBody s out (describeChar x out) 2 := by
  refine .inl ⟨(x, x), singleton_run h, ?_, rfl⟩
  have : members (fun c : U8 => decide (x ≤ c) && decide (c ≤ x)) = [x] := by
    have := members_pairwise (fun c : U8 => decide (x ≤ c) && decide (c ≤ x))
    have hm := BitField256.mem_members (fun c : U8 => decide (x ≤ c) && decide (c ≤ x))
    generalize members (fun c : U8 => decide (x ≤ c) && decide (c ≤ x)) = m at this hm
    have hx : ∀ c, c ∈ m ↔ c = x := by
      intro c
      rw [hm]
      simp only [Bool.and_eq_true, decide_eq_true_eq, BitVec.le_def, ← BitVec.toNat_inj]
      omega
    match m, this, hx with
    | [], _, hx => exact absurd ((hx x).2 rfl) (by simp)
    | [y], _, hx => rw [(hx y).1 (by simp)]
    | y :: z :: m, hp, hx =>
      have h1 := (hx y).1 (by simp)
      have h2 := (hx z).1 (by simp)
      subst h1 h2
      simp at hp
  unfold runText
  rw [this]
  simp

/-- A class that is described in a style has the description of that style. -/
theorem style_text {p : Profile} {fuel : Nat} (hf : 4 ≤ fuel) {cr : CharReach} {out : CcOutput}
    (hok : ∃ t, describeClass p fuel cr 256 out = .ok t) {st : Style} (h : HasStyle cr.test out st) :
    ∃ t n, IsClassBody (st.side cr.test) out t n ∧ describeClass p fuel cr 256 out = .ok (st.put t) ∧
      (st = .bare → ∃ l : List ClassItem, t = itemsText out l ∧ l.length ≤ 4) := by
  obtain ⟨u, hu⟩ := hok
  obtain ⟨s1, s2, s3, s4⟩ := C71_simple_text p fuel 256 cr out
  have hcomp : Compound cr.test → ∃ t n t' n', IsClassBody cr.test out t n ∧
      IsClassBody (fun c => !cr.test c) out t' n' ∧ describeClass p fuel cr 256 out = .ok
        (if utf8Len t ≤ utf8Len t' then (if n > 1 then ['['] ++ t ++ [']'] else t)
         else "[^".toList ++ t' ++ [']']) := by
    intro hc
    have hgood : ¬ (EndsShort cr.test ∨ EndsShort (fun c => !cr.test c)) := by
      intro h'
      obtain ⟨h1, h2⟩ := (C70_describe_class_fails fuel hf cr out).2 ⟨hc, h'⟩
      cases p with
      | debug => rw [hu] at h2; cases h2
      | release => rw [hu] at h1; cases h1
    exact C71_class_text p fuel hf cr out hc (fun h' => hgood (.inl h')) (fun h' => hgood (.inr h'))
  cases st with
  | bare =>
    rcases h with ⟨x, hx⟩ | ⟨hc, t, n, t', n', b1, b2, hle, hn⟩
    · exact ⟨_, 2, singleton_body hx out, s3 x hx, fun _ => ⟨[.one x], by simp [itemsText, ClassItem.text], by simp⟩⟩
    · obtain ⟨v, m, v', m', c1, c2, he⟩ := hcomp hc
      obtain ⟨rfl, rfl⟩ := C71_text_unique _ _ _ _ _ _ b1 c1
      obtain ⟨rfl, rfl⟩ := C71_text_unique _ _ _ _ _ _ b2 c2
      rw [if_pos hle, if_neg (by omega)] at he
      obtain ⟨l, e, _, hl⟩ := body_items b1
      exact ⟨t, n, b1, he, fun _ => ⟨l, e, hl hn⟩⟩
  | bracketed =>
    obtain ⟨hc, t, n, t', n', b1, b2, hle, hn⟩ := h
    obtain ⟨v, m, v', m', c1, c2, he⟩ := hcomp hc
    obtain ⟨rfl, rfl⟩ := C71_text_unique _ _ _ _ _ _ b1 c1
    obtain ⟨rfl, rfl⟩ := C71_text_unique _ _ _ _ _ _ b2 c2
    rw [if_pos hle, if_pos hn] at he
    exact ⟨t, n, b1, he, fun h' => nomatch h'⟩
  | negated =>
    rcases h with ⟨x, hx⟩ | ⟨hc, t, n, t', n', b1, b2, hlt⟩
    · refine ⟨_, 2, singleton_body (x := x) (fun c => ?_) out, s4 x hx, fun h' => nomatch h'⟩
      have := hx c
      show (!cr.test c) = true ↔ _
      cases hcc : cr.test c <;> simp_all
    · obtain ⟨v, m, v', m', c1, c2, he⟩ := hcomp hc
      obtain ⟨rfl, rfl⟩ := C71_text_unique _ _ _ _ _ _ b1 c1
      obtain ⟨rfl, rfl⟩ := C71_text_unique _ _ _ _ _ _ b2 c2
      rw [if_neg (by omega)] at he
      exact ⟨t', n', b2, he, fun h' => nomatch h'⟩

/-- Every described class other than the full and the empty one has a style. -/
theorem has_style {p : Profile} {fuel : Nat} (hf : 4 ≤ fuel) {cr : CharReach} {out : CcOutput}
    (hok : ∃ t, describeClass p fuel cr 256 out = .ok t) :
    (∀ c, cr.test c = true) ∨ (∀ c, cr.test c = false) ∨ ∃ st, HasStyle cr.test out st := by
  obtain ⟨u, hu⟩ := hok
  by_cases hc : Compound cr.test
  · right; right
    have hgood : ¬ (EndsShort cr.test ∨ EndsShort (fun c => !cr.test c)) := by
      intro h'
      obtain ⟨h1, h2⟩ := (C70_describe_class_fails fuel hf cr out).2 ⟨hc, h'⟩
      cases p with
      | debug => rw [hu] at h2; cases h2
      | release => rw [hu] at h1; cases h1
    obtain ⟨t, n, t', n', b1, b2, _⟩ := C71_class_text p fuel hf cr out hc (fun h' => hgood (.inl h'))
      (fun h' => hgood (.inr h'))
    by_cases hle : utf8Len t ≤ utf8Len t'
    · by_cases hn : n ≤ 1
      · exact ⟨.bare, .inr ⟨hc, t, n, t', n', b1, b2, hle, hn⟩⟩
      · exact ⟨.bracketed, hc, t, n, t', n', b1, b2, hle, by omega⟩
    · exact ⟨.negated, .inr ⟨hc, t, n, t', n', b1, b2, by omega⟩⟩
  · by_cases h1 : ∃ a, cr.test a = true
    · by_cases h2 : ∃ a, cr.test a = false
      · obtain ⟨a, ha⟩ := h1
        obtain ⟨b, hb⟩ := h2
        right; right
        by_cases h3 : ∃ a b, a ≠ b ∧ cr.test a = true ∧ cr.test b = true
        · refine ⟨.negated, .inl ⟨b, fun c => ⟨?_, fun hne => ?_⟩⟩⟩
          · rintro hc' rfl; rw [hb] at hc'; cases hc'
          · cases hx : cr.test c with
            | true => rfl
            | false => exact absurd ⟨h3, c, b, hne, hx, hb⟩ hc
        · refine ⟨.bare, .inl ⟨a, fun c => ⟨fun hc' => ?_, ?_⟩⟩⟩
          · exact Classical.byContradiction fun hne => h3 ⟨c, a, hne, hc', ha⟩
          · rintro rfl; exact ha
      · left
        intro c
        cases hx : cr.test c with
        | true => rfl
        | false => exact absurd ⟨c, hx⟩ h2
    · right; left
      intro c
      cases hx : cr.test c with
      | false => rfl
      | true => exact absurd ⟨c, hx⟩ h1

/-- Style and items can be read off a description. -/
theorem put_unique {out : CcOutput} {st st' : Style} {l l' : List ClassItem}
    (h : st.put (itemsText out l) = st'.put (itemsText out l')) : st = st' ∧ l = l' := by
  have hbr : ∀ (l : List ClassItem) (u : Str), itemsText out l ≠ '[' :: u :=
    fun l u => itemsText_head out l '[' u rfl
  have hcar : ∀ (l : List ClassItem) (u : Str), itemsText out l ++ [']'] ≠ '^' :: u := by
    intro l u h
    cases l with
    | nil => simp [itemsText] at h
    | cons i l =>
      obtain ⟨y, w, h', hy⟩ := item_head out i
      rw [itemsText_cons, h'] at h
      injection h with h1 _
      rw [h1] at hy; cases hy
  have e1 : ∀ t, Style.put .bracketed t = '[' :: (t ++ [']']) := fun t => rfl
  have e2 : ∀ t, Style.put .negated t = '[' :: '^' :: (t ++ [']']) := fun t => rfl
  have e3 : ∀ t, Style.put .bare t = t := fun t => rfl
  cases st <;> cases st' <;> simp only [e1, e2, e3] at h
  · exact ⟨rfl, C61_items_unique out _ _ h⟩
  · exact absurd h (hbr l _)
  · exact absurd h (hbr l _)
  · exact absurd h.symm (hbr l' _)
  · injection h with _ h
    rw [List.append_cancel_right_eq] at h
    exact ⟨rfl, C61_items_unique out _ _ h⟩
  · injection h with _ h
    exact absurd h (hcar l _)
  · exact absurd h.symm (hbr l' _)
  · injection h with _ h
    exact absurd h.symm (hcar l' _)
  · injection h with _ h
    injection h with _ h
    rw [List.append_cancel_right_eq] at h
    exact ⟨rfl, C61_items_unique out _ _ h⟩

/-- C61, exactly (the full statement is false): two described classes have the same description iff they are equal, or
are described in the same style (bare, in brackets, or negated) and the classes whose items are written — the
complements, if negated — are written alike, that is show the same bytes with or without mnemonics. -/
theorem C61_exact_partial (p : Profile) (fuel : Nat) (hf : 4 ≤ fuel) (a b : CharReach) (out : CcOutput)
    (ha : ∃ t, describeClass p fuel a 256 out = .ok t) (hb : ∃ t, describeClass p fuel b 256 out = .ok t) :
    describeClass p fuel a 256 out = describeClass p fuel b 256 out ↔
      a = b ∨ ∃ st : Style, HasStyle a.test out st ∧ HasStyle b.test out st ∧
        WrittenAlike (st.side a.test) (st.side b.test) := by
  constructor
  · intro h
    have named : ∀ {c d : CharReach}, describeClass p fuel c 256 out = describeClass p fuel d 256 out →
        (∃ t, describeClass p fuel d 256 out = .ok t) →
        ((∀ x, c.test x = true) ∨ ∀ x, c.test x = false) → c = d := by
      intro c d h hd hc
      obtain ⟨s1, s2, -, -⟩ := C71_simple_text p fuel 256 c out
      obtain ⟨r1, r2, -, -⟩ := C71_simple_text p fuel 256 d out
      have hsty : ∀ st, HasStyle d.test out st → describeClass p fuel d 256 out ≠ .ok "<any>".toList ∧
          describeClass p fuel d 256 out ≠ .ok "<empty>".toList := by
        intro st hst
        obtain ⟨t, n, _, he, hbare⟩ := style_text hf hd hst
        rw [he]
        cases st with
        | bare =>
          obtain ⟨l, rfl, hl⟩ := hbare rfl
          obtain ⟨k1, k2⟩ := any_items out l hl
          exact ⟨fun e => k1 (by injection e), fun e => k2 (by injection e)⟩
        | bracketed =>
          constructor <;> intro e <;> injection e with e <;> simp [Style.put] at e
        | negated =>
          constructor <;> intro e <;> injection e with e <;> simp [Style.put] at e
      apply CharReach.ext_test
      intro x
      rcases hc with hc | hc <;> rcases has_style hf hd with hd' | hd' | ⟨st, hd'⟩
      · rw [hc, hd']
      · rw [s1 hc, r2 hd'] at h; injection h with h; exact absurd h (by decide)
      · rw [s1 hc] at h; exact absurd h.symm (hsty st hd').1
      · rw [s2 hc, r1 hd'] at h; injection h with h; exact absurd h (by decide)
      · rw [hc, hd']
      · rw [s2 hc] at h; exact absurd h.symm (hsty st hd').2
    rcases has_style hf ha with h1 | h1 | ⟨st, h1⟩
    · exact .inl (named h hb (.inl h1))
    · exact .inl (named h hb (.inr h1))
    rcases has_style hf hb with h2 | h2 | ⟨st', h2⟩
    · exact .inl (named h.symm ha (.inl h2)).symm
    · exact .inl (named h.symm ha (.inr h2)).symm
    right
    obtain ⟨t, n, b1, e1, -⟩ := style_text hf ha h1
    obtain ⟨t', n', b2, e2, -⟩ := style_text hf hb h2
    rw [e1, e2] at h
    injection h with h
    obtain ⟨l, f, -⟩ := body_items b1
    obtain ⟨l', f', -⟩ := body_items b2
    rw [f, f'] at h
    obtain ⟨rfl, hl⟩ := put_unique h
    exact ⟨st, h1, h2, (body_same b1 b2).1 (by rw [f, f', hl])⟩
  · rintro (rfl | ⟨st, h1, h2, hw⟩)
    · rfl
    · obtain ⟨t, n, b1, e1, -⟩ := style_text hf ha h1
      obtain ⟨t', n', b2, e2, -⟩ := style_text hf hb h2
      rw [e1, e2, (body_same b1 b2).2 hw]

/-- `{a}` and `{a, c}`: both bare, and both show `a`. -/
example : ∃ st : Style, HasStyle (CharReach.fromBytes [0x61#8]).test .text st ∧
    HasStyle (CharReach.fromBytes [0x61#8, 0x63#8]).test .text st ∧
    WrittenAlike (st.side (CharReach.fromBytes [0x61#8]).test) (st.side (CharReach.fromBytes [0x61#8, 0x63#8]).test) := by
  have h := (C61_exact_partial .release 4 (Nat.le_refl _) (CharReach.fromBytes [0x61#8])
    (CharReach.fromBytes [0x61#8, 0x63#8]) .text ⟨"a".toList, by decide +kernel⟩ ⟨"a".toList, by decide +kernel⟩).1
    (by decide +kernel)
  rcases h with h | h
  · exact absurd (congrArg (fun c => c.test 0x63#8) h) (by decide +kernel)
  · exact h

/-- The digits by themselves are a run; with a further byte, which is left out, they are `\d`. They show the same bytes
but are not written alike. -/
example : describeClass .release 4 (CharReach.fromBytes ((List.range' 48 10).map (BitVec.ofNat 8))) 256 .text
      = .ok "[0-9]".toList ∧
    describeClass .release 4 (CharReach.fromBytes ((List.range' 48 10 ++ [97]).map (BitVec.ofNat 8))) 256 .text
      = .ok "\\d".toList := by decide +kernel

end Rescan.Dump
