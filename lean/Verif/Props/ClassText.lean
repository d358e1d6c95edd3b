import Verif.Spec.ClassItems
import Verif.Props.DumpClass
/-! # C61: what can be read back from the description of a class -/
namespace Rescan.Dump
open Spec

/-! ## Every member is in a run -/

theorem runsFrom_cover : ∀ (cs : List U8) (s l x : U8), s ≤ l → (l :: cs).Pairwise (· < ·) →
    (s ≤ x ∧ x ≤ l ∨ x ∈ cs) → ∃ r ∈ runsFrom s l cs, r.1 ≤ x ∧ x ≤ r.2
  | [], s, l, x, _, _, hx => by
    rcases hx with hx | hx
    · exact ⟨(s, l), by simp [runsFrom], hx⟩
    · cases hx
  | c :: cs, s, l, x, hsl, hp, hx => by
    have hlc : l < c := (List.pairwise_cons.1 hp).1 c (by simp)
    have hp' := (List.pairwise_cons.1 hp).2
    unfold runsFrom
    by_cases h : c ≠ l + 1#8
    · rw [if_pos h]
      rcases hx with hx | hx
      · exact ⟨(s, l), by simp, hx⟩
      · rcases List.mem_cons.1 hx with rfl | hx
        · obtain ⟨r, hr, h1⟩ := runsFrom_cover cs x x x (BitVec.le_refl _) hp'
            (.inl ⟨BitVec.le_refl _, BitVec.le_refl _⟩)
          exact ⟨r, List.mem_cons_of_mem _ hr, h1⟩
        · obtain ⟨r, hr, h1⟩ := runsFrom_cover cs c c x (BitVec.le_refl _) hp' (.inr hx)
          exact ⟨r, List.mem_cons_of_mem _ hr, h1⟩
    · rw [if_neg h]
      rw [BitVec.le_def] at hsl
      rw [BitVec.lt_def] at hlc
      refine runsFrom_cover cs s c x (by rw [BitVec.le_def]; omega) hp' ?_
      rcases hx with hx | hx
      · simp only [BitVec.le_def] at hx ⊢
        exact .inl ⟨hx.1, by omega⟩
      · rcases List.mem_cons.1 hx with rfl | hx
        · simp only [BitVec.le_def]
          exact .inl ⟨by omega, by omega⟩
        · exact .inr hx

theorem areRuns_cover {s : U8 → Bool} {rs : List (U8 × U8)} (h : AreRuns s rs) (x : U8) :
    s x = true ↔ ∃ r ∈ rs, r.1 ≤ x ∧ x ≤ r.2 := by
  constructor
  · intro hx
    have := areRuns_unique h (runsOf_members s)
    rw [this]
    have hm := (BitField256.mem_members s x).2 hx
    have hp := members_pairwise s
    cases hl : members s with
    | nil => rw [hl] at hm; cases hm
    | cons c cs =>
      rw [hl] at hm hp
      refine runsFrom_cover cs c c x (BitVec.le_refl _) hp ?_
      rcases List.mem_cons.1 hm with rfl | hm
      · exact .inl ⟨BitVec.le_refl _, BitVec.le_refl _⟩
      · exact .inr hm
  · rintro ⟨r, hr, h1, h2⟩
    exact ((h.1 r.1 r.2).1 hr).2.1 x h1 h2

/-! ## Items -/

/-- The items a run is written with. -/
def runItems (r : U8 × U8) : List ClassItem :=
  if r.2.toNat - r.1.toNat < 4 then
    (members (fun c => decide (r.1 ≤ c) && decide (c ≤ r.2))).map ClassItem.one
  else [.range r.1 r.2]

theorem runItems_text (out : CcOutput) (r : U8 × U8) : itemsText out (runItems r) = runText out r := by
  unfold itemsText runItems runText
  by_cases h : r.2.toNat - r.1.toNat < 4
  · rw [if_pos h, if_pos h, List.flatMap_map]; rfl
  · rw [if_neg h, if_neg h]; simp [ClassItem.text]

theorem runItems_has (r : U8 × U8) (x : U8) : Denotes (runItems r) x ↔ r.1 ≤ x ∧ x ≤ r.2 := by
  unfold Denotes runItems
  by_cases h : r.2.toNat - r.1.toNat < 4
  · rw [if_pos h]
    simp only [List.mem_map]
    constructor
    · rintro ⟨i, ⟨c, hc, rfl⟩, hx⟩
      rw [BitField256.mem_members] at hc
      have hx : x = c := hx
      subst hx
      simpa using hc
    · intro hx
      exact ⟨.one x, ⟨x, (BitField256.mem_members _ x).2 (by simpa using hx), rfl⟩, rfl⟩
  · rw [if_neg h]
    simp [ClassItem.has]

theorem runItems_length (r : U8 × U8) : (runItems r).length ≤ 4 := by
  unfold runItems
  by_cases h : r.2.toNat - r.1.toNat < 4
  · rw [if_pos h, List.length_map]
    have hsub : ∀ c ∈ members (fun c => decide (r.1 ≤ c) && decide (c ≤ r.2)),
        r.1.toNat ≤ c.toNat ∧ c.toNat < r.1.toNat + 4 := by
      intro c hc
      rw [BitField256.mem_members] at hc
      simp only [Bool.and_eq_true, decide_eq_true_eq, BitVec.le_def] at hc
      omega
    have hp := members_pairwise (fun c => decide (r.1 ≤ c) && decide (c ≤ r.2))
    generalize members (fun c => decide (r.1 ≤ c) && decide (c ≤ r.2)) = m at hsub hp
    match m, hsub, hp with
    | [], _, _ => simp
    | [_], _, _ => simp
    | [_, _], _, _ => simp
    | [_, _, _], _, _ => simp
    | [_, _, _, _], _, _ => simp
    | a :: b :: c :: d :: e :: l, hsub, hp =>
      have ha := (hsub a (by simp)).1
      have he := (hsub e (by simp)).2
      simp only [List.pairwise_cons, List.mem_cons, forall_eq_or_imp, BitVec.lt_def] at hp
      omega
  · rw [if_neg h]; simp

/-- The items of the mnemonics. -/
def mnemonicItems (s : U8 → Bool) : List ClassItem :=
  (if covers isWordByte s then [.word] else if covers isDigitByte s then [.digit] else []) ++
    (if covers isSpaceByte s then [.space] else [])

theorem mnemonicItems_text (out : CcOutput) (s : U8 → Bool) :
    itemsText out (mnemonicItems s) = (mnemonics s).flatMap (fun m => backslash out ++ [m]) := by
  unfold itemsText mnemonicItems mnemonics
  cases covers isWordByte s <;> cases covers isDigitByte s <;> cases covers isSpaceByte s <;>
    simp [ClassItem.text]

theorem mnemonicItems_length (s : U8 → Bool) : (mnemonicItems s).length = (mnemonics s).length := by
  unfold mnemonicItems mnemonics
  cases covers isWordByte s <;> cases covers isDigitByte s <;> cases covers isSpaceByte s <;> rfl

theorem denotes_append (l m : List ClassItem) (x : U8) : Denotes (l ++ m) x ↔ Denotes l x ∨ Denotes m x := by
  unfold Denotes
  simp only [List.mem_append]
  constructor
  · rintro ⟨i, h | h, hx⟩
    · exact .inl ⟨i, h, hx⟩
    · exact .inr ⟨i, h, hx⟩
  · rintro (⟨i, h, hx⟩ | ⟨i, h, hx⟩)
    · exact ⟨i, .inl h, hx⟩
    · exact ⟨i, .inr h, hx⟩

theorem denotes_runs (rs : List (U8 × U8)) (x : U8) :
    Denotes (rs.flatMap runItems) x ↔ ∃ r ∈ rs, r.1 ≤ x ∧ x ≤ r.2 := by
  have : Denotes (rs.flatMap runItems) x ↔ ∃ r ∈ rs, Denotes (runItems r) x := by
    unfold Denotes
    simp only [List.mem_flatMap]
    constructor
    · rintro ⟨i, ⟨r, hr, hi⟩, hx⟩; exact ⟨r, hr, i, hi, hx⟩
    · rintro ⟨r, hr, i, hi, hx⟩; exact ⟨i, ⟨r, hr, hi⟩, hx⟩
  rw [this]
  simp only [runItems_has]

theorem mnemonicItems_has (s : U8 → Bool) (x : U8) : Denotes (mnemonicItems s) x ↔
    (s x = true ∧ restOf s x = false) := by
  have hw := covers_iff isWordByte s
  have hd := covers_iff isDigitByte s
  have hs := covers_iff isSpaceByte s
  have hdw := digit_word x
  unfold mnemonicItems restOf
  rw [denotes_append]
  cases h1 : covers isWordByte s <;> cases h2 : covers isDigitByte s <;> cases h3 : covers isSpaceByte s <;>
    cases h4 : isWordByte x <;> cases h5 : isDigitByte x <;> cases h6 : isSpaceByte x <;>
    cases h7 : s x <;> simp_all [Denotes, ClassItem.has] <;>
    (first
      | (have := hw x h4; simp_all; done)
      | (have := hd x h5; simp_all; done)
      | (have := hs x h6; simp_all; done))

/-! ## The items of a class -/

theorem mem_writtenRuns {s : U8 → Bool} {rs : List (U8 × U8)} (h : AreRuns s rs) (r : U8 × U8) :
    r ∈ writtenRuns rs ↔ r ∈ rs ∧ ¬ (r.2 ≠ 0xff#8 ∧ ∀ y, s y = true → y ≤ r.2) := by
  have hle : ∀ q ∈ rs, q.1 ≤ q.2 := fun q hq => ((h.1 q.1 q.2).1 hq).1
  cases hg : rs.getLast? with
  | none =>
    rw [List.getLast?_eq_none_iff] at hg; subst hg
    simp [writtenRuns]
  | some q =>
    have hne : rs ≠ [] := by intro h'; rw [h'] at hg; cases hg
    have hsplit : rs = rs.dropLast ++ [q] := by
      rw [List.getLast?_eq_some_getLast hne] at hg
      injection hg with hg
      conv => lhs; rw [← List.dropLast_concat_getLast hne, hg]
    have hpw : ∀ z ∈ rs.dropLast, z.2 < q.1 := by
      have hp := h.2
      rw [hsplit, List.pairwise_append] at hp
      exact fun z hz => hp.2.2 z hz q (by simp)
    have hq : q ∈ rs := by rw [hsplit]; simp
    have hmax : ∀ y, s y = true → y ≤ q.2 := by
      intro y hy
      obtain ⟨z, hz, _, h2⟩ := (areRuns_cover h y).1 hy
      rw [hsplit] at hz
      rcases List.mem_append.1 hz with hz | hz
      · have h3 := hpw z hz
        have h4 := hle q hq
        rw [BitVec.le_def] at h2 h4 ⊢
        rw [BitVec.lt_def] at h3
        omega
      · rw [List.mem_singleton] at hz; subst hz; exact h2
    have hnot : ∀ z ∈ rs.dropLast, ¬ ∀ y, s y = true → y ≤ z.2 := by
      intro z hz hall
      have h3 := hpw z hz
      have h4 := hle q hq
      have h5 := hall q.2 (((h.1 q.1 q.2).1 hq).2.1 q.2 h4 (BitVec.le_refl _))
      rw [BitVec.le_def] at h4 h5
      rw [BitVec.lt_def] at h3
      omega
    unfold writtenRuns
    rw [hg]
    simp only
    by_cases hff : q.2 = 0xff#8
    · rw [if_pos hff]
      refine ⟨fun hr => ⟨hr, ?_⟩, fun hr => hr.1⟩
      rintro ⟨h1, h2⟩
      rw [hsplit] at hr
      rcases List.mem_append.1 hr with hr | hr
      · exact hnot r hr h2
      · rw [List.mem_singleton] at hr; subst hr; exact h1 hff
    · rw [if_neg hff]
      constructor
      · intro hr
        exact ⟨List.dropLast_subset _ hr, fun h' => hnot r hr h'.2⟩
      · rintro ⟨hr, h'⟩
        rw [hsplit] at hr
        rcases List.mem_append.1 hr with hr | hr
        · exact hr
        · rw [List.mem_singleton] at hr; subst hr; exact absurd ⟨hff, hmax⟩ h'

theorem single_shown {s : U8 → Bool} (h : ∃ r, AreRuns s [r]) (x : U8) : Shown s x ↔ s x = true :=
  ⟨fun h' => h'.1, fun h' => ⟨h', fun h'' => h''.1 h⟩⟩

/-- The text of a class consists of items that stand for the bytes shown. -/
theorem body_items {s : U8 → Bool} {out : CcOutput} {t : Str} {n : Nat} (h : IsClassBody s out t n) :
    ∃ l : List ClassItem, t = itemsText out l ∧ (∀ x, Denotes l x ↔ Shown s x) ∧
      (n ≤ 1 → l.length ≤ 4) := by
  rcases h with ⟨r, hr, rfl, rfl⟩ | ⟨hno, rs, hr, rfl, rfl⟩
  · refine ⟨runItems r, (runItems_text out r).symm, fun x => ?_, by omega⟩
    rw [runItems_has, single_shown ⟨r, hr⟩, areRuns_cover hr]
    simp
  · refine ⟨mnemonicItems s ++ (writtenRuns rs).flatMap runItems, ?_, fun x => ?_, fun hn => ?_⟩
    · have : itemsText out ((writtenRuns rs).flatMap runItems) = (writtenRuns rs).flatMap (runText out) := by
        unfold itemsText
        rw [List.flatMap_assoc]
        exact congrArg (fun f => List.flatMap f (writtenRuns rs)) (funext fun r => runItems_text out r)
      rw [← this, ← mnemonicItems_text]
      simp [itemsText]
    · rw [denotes_append, mnemonicItems_has, denotes_runs]
      have hsub : restOf s x = true → s x = true := by
        unfold restOf; cases s x <;> simp
      have hcov := areRuns_cover hr x
      constructor
      · rintro (⟨h1, h2⟩ | ⟨r, h1, h2⟩)
        · refine ⟨h1, ?_⟩
          rintro ⟨_, a, b, h3, _, h4, h5, _⟩
          rw [h3.2.1 x h4 h5] at h2; cases h2
        · obtain ⟨h3, h4⟩ := (mem_writtenRuns hr r).1 h1
          refine ⟨hsub (hcov.2 ⟨r, h3, h2⟩), ?_⟩
          rintro ⟨_, a, b, h5, h6, h7, h8, h9⟩
          have hab := (hr.1 a b).2 h5
          have hrr := (hr.1 r.1 r.2).1 h3
          apply h4
          have : r.2 = b := by
            have i1 := h9 r.2 (hrr.2.1 r.2 hrr.1 (BitVec.le_refl _))
            apply Classical.byContradiction
            intro hne
            rw [← BitVec.toNat_inj] at hne
            obtain ⟨h2a, h2b⟩ := h2
            rw [BitVec.le_def] at i1 h2a h2b h7 h8
            have hlt := b.isLt
            have i2 := hrr.2.2.2 (BitVec.ofNat 8 (r.2.toNat + 1)) (BitField256.ofNat_toNat8 _ (by omega))
            have i3 := h5.2.1 (BitVec.ofNat 8 (r.2.toNat + 1))
              (by rw [BitVec.le_def, BitField256.ofNat_toNat8 _ (by omega)]; omega)
              (by rw [BitVec.le_def, BitField256.ofNat_toNat8 _ (by omega)]; omega)
            rw [i2] at i3; cases i3
          rw [this]
          exact ⟨h6, h9⟩
      · rintro ⟨h1, h2⟩
        cases h3 : restOf s x with
        | false => exact .inl ⟨h1, rfl⟩
        | true =>
          right
          obtain ⟨r, hrr, h4⟩ := hcov.1 h3
          refine ⟨r, (mem_writtenRuns hr r).2 ⟨hrr, ?_⟩, h4⟩
          rintro ⟨h5, h6⟩
          exact h2 ⟨hno, r.1, r.2, (hr.1 _ _).1 hrr, h5, h4.1, h4.2, h6⟩
    · rw [List.length_append, mnemonicItems_length]
      cases hw : writtenRuns rs with
      | nil => rw [hw] at hn; simp at hn ⊢; omega
      | cons r l =>
        rw [hw] at hn
        simp only [List.length_cons] at hn
        have h0 : l = [] := by rw [← List.length_eq_zero_iff]; omega
        subst h0
        have := runItems_length r
        simp only [List.flatMap_cons, List.flatMap_nil, List.append_nil]
        omega

/-! ## Reading items back -/

/-- The first character of an item is neither `-` nor `[` nor `^` nor `]`. -/
def isFrame (c : Char) : Bool := c == '-' || c == '[' || c == '^' || c == ']'

theorem describeChar_head (out : CcOutput) (c : U8) :
    ∃ x t, describeChar c out = x :: t ∧ isFrame x = false := by
  have key : (match describeChar c out with
      | [] => false
      | x :: _ => !isFrame x) = true := by
    revert c; cases out <;> decide +kernel
  cases h : describeChar c out with
  | nil => rw [h] at key; cases key
  | cons x t => rw [h] at key; exact ⟨x, t, rfl, by simpa using key⟩

theorem item_head (out : CcOutput) (i : ClassItem) : ∃ x t, i.text out = x :: t ∧ isFrame x = false := by
  cases i with
  | one c => exact describeChar_head out c
  | range a b =>
    obtain ⟨x, t, h, hx⟩ := describeChar_head out a
    exact ⟨x, t ++ ['-'] ++ describeChar b out, by simp [ClassItem.text, h], hx⟩
  | word => cases out <;> exact ⟨'\\', _, rfl, by decide⟩
  | digit => cases out <;> exact ⟨'\\', _, rfl, by decide⟩
  | space => cases out <;> exact ⟨'\\', _, rfl, by decide⟩

theorem itemsText_cons (out : CcOutput) (i : ClassItem) (l : List ClassItem) :
    itemsText out (i :: l) = i.text out ++ itemsText out l := by simp [itemsText]

/-- A text of items does not start with a frame character. -/
theorem itemsText_head (out : CcOutput) (l : List ClassItem) (x : Char) (t : Str) (hx : isFrame x = true) :
    itemsText out l ≠ x :: t := by
  cases l with
  | nil => intro h; cases h
  | cons i l =>
    obtain ⟨y, u, h, hy⟩ := item_head out i
    rw [itemsText_cons, h]
    intro h'
    injection h' with h1 _
    rw [h1, hx] at hy; cases hy

theorem describeChar_mnemonic (out : CcOutput) (c : U8) (m : Char) (hm : m = 'w' ∨ m = 'd' ∨ m = 's')
    (r t : Str) : describeChar c out ++ r ≠ backslash out ++ [m] ++ t := by
  have key : ((backslash out ++ [m]).isPrefixOf (describeChar c out) ||
      (describeChar c out).isPrefixOf (backslash out ++ [m])) = false := by
    rcases hm with rfl | rfl | rfl <;> revert c <;> cases out <;> decide +kernel
  intro h
  have h1 : describeChar c out <+: describeChar c out ++ r := List.prefix_append _ _
  have h2 : backslash out ++ [m] <+: describeChar c out ++ r := by rw [h]; exact List.prefix_append _ _
  rw [Bool.or_eq_false_iff] at key
  rcases List.prefix_or_prefix_of_prefix h1 h2 with h3 | h3
  · rw [← List.isPrefixOf_iff_prefix, key.2] at h3; cases h3
  · rw [← List.isPrefixOf_iff_prefix, key.1] at h3; cases h3

theorem mnemonic_cancel (out : CcOutput) (m m' : Char) (r t : Str)
    (h : backslash out ++ [m] ++ r = backslash out ++ [m'] ++ t) : m = m' ∧ r = t := by
  simp only [List.append_assoc, List.append_cancel_left_eq, List.cons_append, List.nil_append] at h
  injection h with h1 h2
  exact ⟨h1, h2⟩

/-- C61: the text of a list of class items determines the items (both modes). -/
theorem C61_items_unique (out : CcOutput) : ∀ l m : List ClassItem, itemsText out l = itemsText out m → l = m
  | [], [], _ => rfl
  | [], i :: m, h => by
    obtain ⟨y, u, h', _⟩ := item_head out i
    rw [itemsText_cons, h'] at h; cases h
  | i :: l, [], h => by
    obtain ⟨y, u, h', _⟩ := item_head out i
    rw [itemsText_cons, h'] at h; cases h
  | i :: l, j :: m, h => by
    rw [itemsText_cons, itemsText_cons] at h
    have ih := C61_items_unique out l m
    cases i with
    | one c =>
      cases j with
      | one d =>
        obtain ⟨h1, h2⟩ := describe_cancel out c d _ _ h
        rw [h1, ih h2]
      | range a b =>
        simp only [ClassItem.text, List.append_assoc] at h
        obtain ⟨_, h2⟩ := describe_cancel out c a _ _ h
        exact absurd h2 (itemsText_head out l '-' _ rfl)
      | word => exact absurd h (describeChar_mnemonic out c 'w' (.inl rfl) _ _)
      | digit => exact absurd h (describeChar_mnemonic out c 'd' (.inr (.inl rfl)) _ _)
      | space => exact absurd h (describeChar_mnemonic out c 's' (.inr (.inr rfl)) _ _)
    | range a b =>
      cases j with
      | one d =>
        simp only [ClassItem.text, List.append_assoc] at h
        obtain ⟨_, h2⟩ := describe_cancel out a d _ _ h
        exact absurd h2.symm (itemsText_head out m '-' _ rfl)
      | range c d =>
        simp only [ClassItem.text, List.append_assoc] at h
        obtain ⟨h1, h2⟩ := describe_cancel out a c _ _ h
        injection h2 with _ h2
        obtain ⟨h3, h4⟩ := describe_cancel out b d _ _ h2
        rw [h1, h3, ih h4]
      | word =>
        simp only [ClassItem.text, List.append_assoc ] at h
        exact absurd (by simpa using h) (describeChar_mnemonic out a 'w' (.inl rfl) _ (itemsText out m))
      | digit =>
        simp only [ClassItem.text, List.append_assoc ] at h
        exact absurd (by simpa using h) (describeChar_mnemonic out a 'd' (.inr (.inl rfl)) _ (itemsText out m))
      | space =>
        simp only [ClassItem.text, List.append_assoc ] at h
        exact absurd (by simpa using h) (describeChar_mnemonic out a 's' (.inr (.inr rfl)) _ (itemsText out m))
    | word =>
      cases j with
      | one d => exact absurd h.symm (describeChar_mnemonic out d 'w' (.inl rfl) _ _)
      | range c d =>
        simp only [ClassItem.text, List.append_assoc ] at h
        exact absurd (by simpa using h.symm) (describeChar_mnemonic out c 'w' (.inl rfl) _ (itemsText out l))
      | word => rw [ih (mnemonic_cancel out _ _ _ _ h).2]
      | digit => exact absurd (mnemonic_cancel out _ _ _ _ h).1 (by decide)
      | space => exact absurd (mnemonic_cancel out _ _ _ _ h).1 (by decide)
    | digit =>
      cases j with
      | one d => exact absurd h.symm (describeChar_mnemonic out d 'd' (.inr (.inl rfl)) _ _)
      | range c d =>
        simp only [ClassItem.text, List.append_assoc ] at h
        exact absurd (by simpa using h.symm) (describeChar_mnemonic out c 'd' (.inr (.inl rfl)) _ (itemsText out l))
      | word => exact absurd (mnemonic_cancel out _ _ _ _ h).1 (by decide)
      | digit => rw [ih (mnemonic_cancel out _ _ _ _ h).2]
      | space => exact absurd (mnemonic_cancel out _ _ _ _ h).1 (by decide)
    | space =>
      cases j with
      | one d => exact absurd h.symm (describeChar_mnemonic out d 's' (.inr (.inr rfl)) _ _)
      | range c d =>
        simp only [ClassItem.text, List.append_assoc ] at h
        exact absurd (by simpa using h.symm) (describeChar_mnemonic out c 's' (.inr (.inr rfl)) _ (itemsText out l))
      | word => exact absurd (mnemonic_cancel out _ _ _ _ h).1 (by decide)
      | digit => exact absurd (mnemonic_cancel out _ _ _ _ h).1 (by decide)
      | space => rw [ih (mnemonic_cancel out _ _ _ _ h).2]

example : itemsText .text [.digit, .one 0x2d#8, .range 0x61#8 0x7a#8] = "\\d\\-a-z".toList := by decide +kernel

/-! ## The five forms of a description -/

/-- The forms a description can take, with what it shows. -/
def IsDescription (s : U8 → Bool) (out : CcOutput) (t : Str) : Prop :=
  (t = "<any>".toList ∧ ∀ c, s c = true) ∨ (t = "<empty>".toList ∧ ∀ c, s c = false) ∨
  (∃ l, t = itemsText out l ∧ l.length ≤ 4 ∧ ∀ x, Denotes l x ↔ Shown s x) ∨
  (∃ l, t = ['['] ++ itemsText out l ++ [']'] ∧ ∀ x, Denotes l x ↔ Shown s x) ∨
  (∃ l, t = "[^".toList ++ itemsText out l ++ [']'] ∧ ∀ x, Denotes l x ↔ Shown (fun c => !s c) x)

theorem singleton_run {s : U8 → Bool} {x : U8} (h : ∀ c, s c = true ↔ c = x) : AreRuns s [(x, x)] := by
  refine ⟨fun a b => ?_, by simp⟩
  simp only [List.mem_singleton, Prod.mk.injEq]
  constructor
  · rintro ⟨rfl, rfl⟩
    refine ⟨BitVec.le_refl _, fun c h1 h2 => ?_, fun c h1 => ?_, fun c h1 => ?_⟩
    · rw [h, ← BitVec.toNat_inj]; rw [BitVec.le_def] at h1 h2; omega
    · cases hc : s c with
      | false => rfl
      | true => rw [(h c).1 hc] at h1; omega
    · cases hc : s c with
      | false => rfl
      | true => rw [(h c).1 hc] at h1; omega
  · intro hr
    exact ⟨(h a).1 (hr.2.1 a (BitVec.le_refl _) hr.1), (h b).1 (hr.2.1 b hr.1 (BitVec.le_refl _))⟩

/-- C61, what can be read back: every description names the full or the empty class, or is a list of
items (bare, in brackets, or negated) standing for the bytes of the class (or of its complement) that
are not left out. -/
theorem C61_read_back_partial (p : Profile) (fuel : Nat) (hf : 4 ≤ fuel) (cr : CharReach) (out : CcOutput)
    (t : Str) (h : describeClass p fuel cr 256 out = .ok t) : IsDescription cr.test out t := by
  by_cases hc : Compound cr.test
  · have hgood : ¬ (EndsShort cr.test ∨ EndsShort (fun c => !cr.test c)) := by
      intro h'
      obtain ⟨h1, h2⟩ := (C70_describe_class_fails fuel hf cr out).2 ⟨hc, h'⟩
      cases p with
      | debug => rw [h] at h2; cases h2
      | release => rw [h] at h1; cases h1
    obtain ⟨t1, n1, t2, n2, b1, b2, he⟩ := C71_class_text p fuel hf cr out hc (fun h' => hgood (.inl h'))
      (fun h' => hgood (.inr h'))
    rw [h] at he
    injection he with he
    obtain ⟨l1, e1, d1, k1⟩ := body_items b1
    obtain ⟨l2, e2, d2, k2⟩ := body_items b2
    subst e1 e2
    by_cases hu : utf8Len (itemsText out l1) ≤ utf8Len (itemsText out l2)
    · rw [if_pos hu] at he
      by_cases hn : n1 > 1
      · rw [if_pos hn] at he
        exact .inr (.inr (.inr (.inl ⟨l1, he, d1⟩)))
      · rw [if_neg hn] at he
        exact .inr (.inr (.inl ⟨l1, he, k1 (by omega), d1⟩))
    · rw [if_neg hu] at he
      exact .inr (.inr (.inr (.inr ⟨l2, he, d2⟩)))
  · obtain ⟨s1, s2, s3, s4⟩ := C71_simple_text p fuel 256 cr out
    by_cases h1 : ∃ a, cr.test a = true
    · by_cases h2 : ∃ a, cr.test a = false
      · obtain ⟨a, ha⟩ := h1
        obtain ⟨b, hb⟩ := h2
        by_cases h3 : ∃ a b, a ≠ b ∧ cr.test a = true ∧ cr.test b = true
        · have h4 : ∀ c, (!cr.test c) = true ↔ c = b := by
            intro c
            constructor
            · intro hc'
              apply Classical.byContradiction
              intro hne
              exact hc ⟨h3, c, b, hne, by simpa using hc', hb⟩
            · rintro rfl; rw [hb]; rfl
          have h5 := s4 b (by
            intro c
            have := h4 c
            cases hx : cr.test c <;> simp_all)
          rw [h] at h5
          injection h5 with h5
          refine .inr (.inr (.inr (.inr ⟨[.one b], by rw [h5]; simp [itemsText, ClassItem.text], fun x => ?_⟩)))
          rw [single_shown ⟨_, singleton_run h4⟩, h4]
          simp [Denotes, ClassItem.has]
        · have h4 : ∀ c, cr.test c = true ↔ c = a := by
            intro c
            constructor
            · intro hc'
              apply Classical.byContradiction
              intro hne
              exact h3 ⟨c, a, hne, hc', ha⟩
            · rintro rfl; exact ha
          have h5 := s3 a h4
          rw [h] at h5
          injection h5 with h5
          refine .inr (.inr (.inl ⟨[.one a], by rw [h5]; simp [itemsText, ClassItem.text], by simp, fun x => ?_⟩))
          rw [single_shown ⟨_, singleton_run h4⟩, h4]
          simp [Denotes, ClassItem.has]
      · have h3 : ∀ c, cr.test c = true := by
          intro c
          cases hx : cr.test c with
          | true => rfl
          | false => exact absurd ⟨c, hx⟩ h2
        have h5 := s1 h3
        rw [h] at h5
        injection h5 with h5
        exact .inl ⟨h5, h3⟩
    · have h3 : ∀ c, cr.test c = false := by
        intro c
        cases hx : cr.test c with
        | false => rfl
        | true => exact absurd ⟨c, hx⟩ h1
      have h5 := s2 h3
      rw [h] at h5
      injection h5 with h5
      exact .inr (.inl ⟨h5, h3⟩)

example : IsDescription (CharReach.fromBytes [0x61#8, 0x62#8, 0x63#8]).test .text "[abc]".toList :=
  C61_read_back_partial .debug 4 (Nat.le_refl _) _ _ _ (by decide +kernel)

theorem any_items (out : CcOutput) (l : List ClassItem) (hl : l.length ≤ 4) :
    itemsText out l ≠ "<any>".toList ∧ itemsText out l ≠ "<empty>".toList := by
  have e1 : itemsText out ([0x3c#8, 0x61#8, 0x6e#8, 0x79#8, 0x3e#8].map ClassItem.one) = "<any>".toList := by
    cases out <;> decide +kernel
  have e2 : itemsText out ([0x3c#8, 0x65#8, 0x6d#8, 0x70#8, 0x74#8, 0x79#8, 0x3e#8].map ClassItem.one)
      = "<empty>".toList := by
    cases out <;> decide +kernel
  constructor
  · intro h
    rw [← e1] at h
    rw [C61_items_unique out _ _ h] at hl
    simp at hl
  · intro h
    rw [← e2] at h
    rw [C61_items_unique out _ _ h] at hl
    simp at hl

/-- The five forms, with what each would mean. -/
def IsForm (A E : Prop) (S N : U8 → Prop) (out : CcOutput) (t : Str) : Prop :=
  (t = "<any>".toList ∧ A) ∨ (t = "<empty>".toList ∧ E) ∨
  (∃ l, t = itemsText out l ∧ l.length ≤ 4 ∧ ∀ x, Denotes l x ↔ S x) ∨
  (∃ l, t = ['['] ++ itemsText out l ++ [']'] ∧ ∀ x, Denotes l x ↔ S x) ∨
  (∃ l, t = "[^".toList ++ itemsText out l ++ [']'] ∧ ∀ x, Denotes l x ↔ N x)

/-- A text has one form and one meaning. -/
theorem form_unique {A E A' E' : Prop} {S N S' N' : U8 → Prop} {out : CcOutput} {t : Str}
    (ha : IsForm A E S N out t) (hb : IsForm A' E' S' N' out t) :
    (A ∧ A') ∨ (E ∧ E') ∨ (∀ x, S x ↔ S' x) ∨ ∀ x, N x ↔ N' x := by
  have d6 : "<any>".toList ≠ "<empty>".toList := by decide
  have hbr : ∀ (l : List ClassItem) (u : Str), "<any>".toList ≠ ['['] ++ u ∧ "<empty>".toList ≠ ['['] ++ u ∧
      itemsText out l ≠ ['['] ++ u :=
    fun l u => ⟨by simp, by simp, itemsText_head out l '[' u rfl⟩
  have hcar : ∀ (l : List ClassItem) (u : Str), itemsText out l ++ [']'] ≠ '^' :: u := by
    intro l u h
    cases l with
    | nil => simp [itemsText] at h
    | cons i l =>
      obtain ⟨y, w, h', hy⟩ := item_head out i
      rw [itemsText_cons, h'] at h
      injection h with h1 _
      rw [h1] at hy; cases hy
  have hsame : ∀ l m : List ClassItem, l = m → ∀ s s' : U8 → Prop, (∀ x, Denotes l x ↔ s x) →
      (∀ x, Denotes m x ↔ s' x) → ∀ x, s x ↔ s' x := by
    intro l m he s s' h1 h2 x
    subst he
    rw [← h1, h2]
  rcases ha with ⟨e, ha⟩ | ⟨e, ha⟩ | ⟨l, e, hl, ha⟩ | ⟨l, e, ha⟩ | ⟨l, e, ha⟩ <;>
    rcases hb with ⟨e', hb⟩ | ⟨e', hb⟩ | ⟨m, e', hm, hb⟩ | ⟨m, e', hb⟩ | ⟨m, e', hb⟩ <;> rw [e] at e'
  · exact .inl ⟨ha, hb⟩
  · exact absurd e' d6
  · exact absurd e'.symm (any_items out m hm).1
  · rw [List.append_assoc] at e'; exact absurd e' (hbr m _).1
  · exact absurd e' (by simp)
  · exact absurd e'.symm d6
  · exact .inr (.inl ⟨ha, hb⟩)
  · exact absurd e'.symm (any_items out m hm).2
  · rw [List.append_assoc] at e'; exact absurd e' (hbr m _).2.1
  · exact absurd e' (by simp)
  · exact absurd e' (any_items out l hl).1
  · exact absurd e' (any_items out l hl).2
  · right; right; left; exact hsame _ _ (C61_items_unique out _ _ e') _ _ ha hb
  · rw [List.append_assoc] at e'; exact absurd e' (hbr l _).2.2
  · exact absurd e' (hbr l ('^' :: (itemsText out m ++ [']']))).2.2
  · rw [List.append_assoc] at e'; exact absurd e'.symm (hbr l _).1
  · rw [List.append_assoc] at e'; exact absurd e'.symm (hbr l _).2.1
  · rw [List.append_assoc] at e'; exact absurd e'.symm (hbr m _).2.2
  · right; right; left
    rw [List.append_assoc, List.append_assoc, List.append_cancel_left_eq, List.append_cancel_right_eq] at e'
    exact hsame _ _ (C61_items_unique out _ _ e') _ _ ha hb
  · rw [List.append_assoc] at e'
    have : itemsText out l ++ [']'] = '^' :: (itemsText out m ++ [']']) := by
      injection e'
    exact absurd this (hcar l _)
  · exact absurd e'.symm (by simp)
  · exact absurd e'.symm (by simp)
  · exact absurd e'.symm (hbr m ('^' :: (itemsText out l ++ [']']))).2.2
  · rw [List.append_assoc ['['] _ _] at e'
    have : itemsText out m ++ [']'] = '^' :: (itemsText out l ++ [']']) := by
      injection e'.symm
    exact absurd this (hcar m _)
  · right; right; right
    rw [List.append_assoc, List.append_assoc, List.append_cancel_left_eq, List.append_cancel_right_eq] at e'
    exact hsame _ _ (C61_items_unique out _ _ e') _ _ ha hb

/-- C61, what holds: classes with the same description show the same bytes, or their complements do; so
they differ only in bytes that are left out. -/
theorem C61_equal_descriptions_partial (p : Profile) (fuel : Nat) (hf : 4 ≤ fuel) (a b : CharReach)
    (out : CcOutput) (t : Str) (ha : describeClass p fuel a 256 out = .ok t)
    (hb : describeClass p fuel b 256 out = .ok t) :
    (∀ x, Shown a.test x ↔ Shown b.test x) ∨
    (∀ x, Shown (fun c => !a.test c) x ↔ Shown (fun c => !b.test c) x) := by
  have ha := C61_read_back_partial p fuel hf a out t ha
  have hb := C61_read_back_partial p fuel hf b out t hb
  rcases form_unique ha hb with ⟨ha, hb⟩ | ⟨ha, hb⟩ | h | h
  · left; rw [funext fun c => (ha c).trans (hb c).symm]; simp
  · left; rw [funext fun c => (ha c).trans (hb c).symm]; simp
  · exact .inl h
  · exact .inr h

example := C61_equal_descriptions_partial .release 4 (Nat.le_refl _) (CharReach.fromBytes [0x61#8])
  (CharReach.fromBytes [0x61#8, 0x63#8]) .text "a".toList (by decide +kernel) (by decide +kernel)

/-- The class, or its complement, is a single run. -/
def RunLike (s : U8 → Bool) : Prop := (∃ r, AreRuns s [r]) ∨ ∃ r, AreRuns (fun c => !s c) [r]

theorem runLike_complete {s : U8 → Bool} (h : RunLike s) (x : U8) : ¬ LeftOut s x := by
  rintro ⟨hno, a, b, hr, hb, h1, h2, h3⟩
  have hle : ∀ y, restOf s y = true → s y = true := by
    intro y; unfold restOf; cases s y <;> simp
  rcases h with h | ⟨r, h⟩
  · exact hno h
  · have hrun := (h.1 r.1 r.2).1 (by simp)
    by_cases hff : s 0xff#8 = true
    · have := h3 0xff#8 (by rw [restOf_high _ _ (by decide)]; exact hff)
      apply hb
      rw [BitVec.le_def] at this
      rw [← BitVec.toNat_inj]
      have := b.isLt
      simp at *
      omega
    · have hcov := areRuns_cover h
      have hend : r.2 = 0xff#8 := by
        obtain ⟨q, hq, _, h5⟩ := (hcov 0xff#8).1 (by simpa using hff)
        rw [List.mem_singleton] at hq
        subst hq
        rw [BitVec.le_def] at h5
        rw [← BitVec.toNat_inj]
        have := q.2.isLt
        simp at *
        omega
      have hs : ∀ y, s y = true ↔ y < r.1 := by
        intro y
        have := hcov y
        simp only [List.mem_singleton, exists_eq_left, hend, Bool.not_eq_true'] at this
        have hy := y.isLt
        rw [BitVec.lt_def]
        simp only [BitVec.le_def] at this
        cases hsy : s y with
        | true =>
          simp [hsy] at this
          simp
          omega
        | false =>
          simp [hsy] at this
          simp
          omega
      have ha : s a = true := hle a (hr.2.1 a (BitVec.le_refl _) hr.1)
      have hpos := (hs a).1 ha
      rw [BitVec.lt_def] at hpos
      apply hno
      refine ⟨(0#8, BitVec.ofNat 8 (r.1.toNat - 1)), fun c d => ?_, by simp⟩
      have hrl := r.1.isLt
      have hone : (BitVec.ofNat 8 (r.1.toNat - 1)).toNat = r.1.toNat - 1 := BitField256.ofNat_toNat8 _ (by omega)
      simp only [List.mem_singleton, Prod.mk.injEq]
      constructor
      · rintro ⟨rfl, rfl⟩
        refine ⟨by simp, fun y _ h5 => ?_, fun y h5 => ?_, fun y h5 => ?_⟩
        · rw [BitVec.le_def, hone] at h5
          rw [hs, BitVec.lt_def]; omega
        · simp at h5
        · rw [hone] at h5
          cases hy : s y with
          | false => rfl
          | true => rw [hs, BitVec.lt_def] at hy; omega
      · intro hcd
        have hc := (hs c).1 (hcd.2.1 c (BitVec.le_refl _) hcd.1)
        have hd := (hs d).1 (hcd.2.1 d hcd.1 (BitVec.le_refl _))
        rw [BitVec.lt_def] at hc hd
        refine ⟨?_, ?_⟩
        · rw [← BitVec.toNat_inj]
          apply Classical.byContradiction
          intro hne
          have hne : c.toNat ≠ 0 := by simpa using hne
          have hc1 : (BitVec.ofNat 8 (c.toNat - 1)).toNat = c.toNat - 1 := BitField256.ofNat_toNat8 _ (by omega)
          have := hcd.2.2.1 (BitVec.ofNat 8 (c.toNat - 1)) (by omega)
          have h6 := (hs (BitVec.ofNat 8 (c.toNat - 1))).2 (by rw [BitVec.lt_def]; omega)
          rw [this] at h6; cases h6
        · rw [← BitVec.toNat_inj, hone]
          apply Classical.byContradiction
          intro hne
          have hd1 : (BitVec.ofNat 8 (d.toNat + 1)).toNat = d.toNat + 1 := BitField256.ofNat_toNat8 _ (by omega)
          have := hcd.2.2.2 (BitVec.ofNat 8 (d.toNat + 1)) (by omega)
          have h6 := (hs (BitVec.ofNat 8 (d.toNat + 1))).2 (by rw [BitVec.lt_def]; omega)
          rw [this] at h6; cases h6

/-- C61, what holds: classes that are a run of bytes, or all but a run, are told apart by their
descriptions (when they are described at all, see C70). -/
theorem C61_runs_partial (p : Profile) (fuel : Nat) (hf : 4 ≤ fuel) (a b : CharReach) (out : CcOutput) (t : Str)
    (ra : RunLike a.test) (rb : RunLike b.test)
    (ha : describeClass p fuel a 256 out = .ok t) (hb : describeClass p fuel b 256 out = .ok t) : a = b := by
  have hneg : ∀ s : U8 → Bool, RunLike s → RunLike (fun c => !s c) := by
    intro s h
    rcases h with h | h
    · right; simpa using h
    · exact .inl h
  apply CharReach.ext_test
  intro c
  rcases C61_equal_descriptions_partial p fuel hf a b out t ha hb with h | h
  · have := h c
    unfold Shown at this
    rw [Bool.eq_iff_iff]
    exact ⟨fun hx => (this.1 ⟨hx, runLike_complete ra c⟩).1, fun hx => (this.2 ⟨hx, runLike_complete rb c⟩).1⟩
  · have := h c
    unfold Shown at this
    have key : (!a.test c) = true ↔ (!b.test c) = true :=
      ⟨fun hx => (this.1 ⟨hx, runLike_complete (hneg _ ra) c⟩).1,
       fun hx => (this.2 ⟨hx, runLike_complete (hneg _ rb) c⟩).1⟩
    rw [← Bool.eq_iff_iff] at key
    simpa using key

/-- `[a-z]` is a run; its description is bracketed. -/
example : AreRuns (fun c => decide (0x61#8 ≤ c) && decide (c ≤ 0x7a#8)) [(0x61#8, 0x7a#8)] ∧
    describeClass .debug 4 (CharReach.fromBytes [0x61#8, 0x62#8, 0x63#8]) 256 .text = .ok "[abc]".toList := by
  refine ⟨?_, by decide +kernel⟩
  have : members (fun c : U8 => decide (0x61#8 ≤ c) && decide (c ≤ 0x7a#8)) =
      (List.range' 0x61 26).map (BitVec.ofNat 8) := by decide +kernel
  have h := runsOf_members (fun c : U8 => decide (0x61#8 ≤ c) && decide (c ≤ 0x7a#8))
  rw [this] at h
  have e : runsOf ((List.range' 0x61 26).map (BitVec.ofNat 8)) = [(0x61#8, 0x7a#8)] := by decide +kernel
  rw [e] at h
  exact h

/-- Two classes with one description: `c` is left out of the second. -/
example : describeClass .release 4 (CharReach.fromBytes [0x61#8]) 256 .text = .ok "a".toList ∧
    describeClass .release 4 (CharReach.fromBytes [0x61#8, 0x63#8]) 256 .text = .ok "a".toList := by decide +kernel

/-- A negated description. -/
example : describeClass .debug 4 (CharReach.fromBytes [0x61#8, 0x62#8]).not 256 .text = .ok "[^ab]".toList := by
  decide +kernel

end Rescan.Dump
