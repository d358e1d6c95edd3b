import Verif.Proofs.DotText
import Verif.Props.ClassText
/-! # Property C85: DOT descriptions against text descriptions -/
namespace Rescan
open Dump Spec

/-- C85 as claimed: the DOT description of a class is its text description, quoted for DOT. -/
def DotIsQuotedText : Prop := ∀ (p : Profile) (fuel : Nat) (cr : CharReach) (maxLen : Nat),
  describeClass p fuel cr maxLen .dot = (do return dotQuote (← describeClass p fuel cr maxLen .text))

/-- The bytes up to the double quote. -/
private def lopsided : CharReach := CharReach.fromBytes ((List.range 0x23).map (BitVec.ofNat 8))

/-- C85 is false: `describe_class` takes the shorter of two texts, and quoting can change which one that is. -/
theorem C85_false : ¬ DotIsQuotedText := by
  intro h
  have := h .release 256 lopsided 16
  have e1 : describeClass .release 256 lopsided 16 .text = .ok "[\\x 0-\"]".toList := by decide +kernel
  have e2 : describeClass .release 256 lopsided 16 .dot = .ok "[^#-\\\\xff]".toList := by decide +kernel
  rw [e1, e2] at this
  exact absurd (Outcome.ok.inj this) (by decide)

/-- C85, bytes: the DOT description of a byte is its text description, quoted. -/
theorem C85_char (c : U8) : describeChar c .dot = dotQuote (describeChar c .text) := DotText.char c

example : describeChar 0x22#8 .dot = "\\\"".toList ∧ describeChar 0x27#8 .dot = "\\'".toList ∧
    describeChar 0x22#8 .text = "\"".toList ∧ describeChar 0x5b#8 .dot = "\\\\[".toList := by decide +kernel

/-- C85, ranges and lists of items: text and count, panics and endless loops included. -/
theorem C85_class_int (p : Profile) (fuel : Nat) :
    (∀ c1 c2, describeRange p fuel c1 c2 .dot = (do return dotQuote (← describeRange p fuel c1 c2 .text))) ∧
    ∀ cr maxLen, describeClassInt p fuel cr maxLen .dot = (do
      let (text, count) ← describeClassInt p fuel cr maxLen .text
      return (dotQuote text, count)) :=
  ⟨DotText.range p fuel, DotText.classInt p fuel⟩

example : describeRange .debug 256 0x21#8 0x23#8 .dot = .ok "!\\\"#".toList := by decide +kernel

/-- What `describe_class` makes of a class with at least two bytes and two others, from the two lists of
items. -/
private theorem describeClass_cases (p : Profile) (fuel : Nat) (cr : CharReach) (maxLen : Nat) :
    (∃ r : CcOutput → Str, (∀ out, describeClass p fuel cr maxLen out = .ok (r out)) ∧ r .dot = dotQuote (r .text)) ∨
    (∃ m, ∀ out, describeClass p fuel cr maxLen out = .panic m) ∨
    ∀ out, describeClass p fuel cr maxLen out =
      (describeClassInt p fuel cr maxLen out).bind (fun o =>
        (describeClassInt p fuel cr.not maxLen out).bind (fun n =>
          if utf8Len o.1 ≤ utf8Len n.1 then
            if o.2 > 1 then .ok (['['] ++ o.1 ++ [']']) else .ok o.1
          else .ok ("[^".toList ++ n.1 ++ [']']))) := by
  unfold describeClass
  by_cases h1 : cr.all = true
  · exact Or.inl ⟨fun _ => "<any>".toList, fun out => by rw [if_pos h1], by decide⟩
  by_cases h2 : cr.none = true
  · exact Or.inl ⟨fun _ => "<empty>".toList, fun out => by rw [if_neg h1, if_pos h2], by decide⟩
  by_cases h3 : cr.count = 1
  · cases hc : cr.findFirst with
    | none =>
      refine Or.inr (Or.inl ⟨"should be available", fun out => ?_⟩)
      rw [if_neg h1, if_neg h2, if_pos h3]; rfl
    | some c =>
      refine Or.inl ⟨fun out => describeChar c out, fun out => ?_, DotText.char c⟩
      rw [if_neg h1, if_neg h2, if_pos h3]; rfl
  by_cases h4 : cr.not.count = 1
  · cases hc : cr.not.findFirst with
    | none =>
      refine Or.inr (Or.inl ⟨"should be available", fun out => ?_⟩)
      rw [if_neg h1, if_neg h2, if_neg h3, if_pos h4]; rfl
    | some c =>
      refine Or.inl ⟨fun out => "[^".toList ++ describeChar c out ++ [']'], fun out => ?_, ?_⟩
      · rw [if_neg h1, if_neg h2, if_neg h3, if_pos h4]; rfl
      · simp only [DotText.quote_append, DotText.char]; rfl
  · refine Or.inr (Or.inr fun out => ?_)
    rw [if_neg h1, if_neg h2, if_neg h3, if_neg h4]
    rfl

/-- C85, classes (missing: classes for which quoting changes which of the two texts is shorter).  The DOT
description is the text description, quoted, whenever the items of the class are in both forms the shorter
text or in both forms the longer one. -/
theorem C85_class_partial (p : Profile) (fuel : Nat) (cr : CharReach) (maxLen : Nat)
    (h : ∀ own other k m, describeClassInt p fuel cr maxLen .text = .ok (own, k) →
      describeClassInt p fuel cr.not maxLen .text = .ok (other, m) →
      (utf8Len own ≤ utf8Len other ↔ utf8Len (dotQuote own) ≤ utf8Len (dotQuote other))) :
    describeClass p fuel cr maxLen .dot = (do return dotQuote (← describeClass p fuel cr maxLen .text)) := by
  rcases describeClass_cases p fuel cr maxLen with ⟨r, hr, hq⟩ | ⟨m, hm⟩ | hb
  · rw [hr, hr, hq]; rfl
  · rw [hm, hm]; rfl
  · rw [hb, hb, DotText.classInt, DotText.classInt]
    cases ho : describeClassInt p fuel cr maxLen .text with
    | err e => rfl
    | panic m => rfl
    | timeout => rfl
    | ok o =>
      cases hn : describeClassInt p fuel cr.not maxLen .text with
      | err e => rfl
      | panic m => rfl
      | timeout => rfl
      | ok n =>
        have := h o.1 n.1 o.2 n.2 ho hn
        show (if utf8Len (dotQuote o.1) ≤ utf8Len (dotQuote n.1) then _ else _) =
          Outcome.bind (if utf8Len o.1 ≤ utf8Len n.1 then _ else _) _
        by_cases hle : utf8Len o.1 ≤ utf8Len n.1
        · rw [if_pos hle, if_pos (this.mp hle)]
          by_cases hk : o.2 > 1
          · rw [if_pos hk, if_pos hk]
            show Outcome.ok _ = Outcome.ok _
            simp only [DotText.quote_append]; rfl
          · rw [if_neg hk, if_neg hk]; rfl
        · rw [if_neg hle, if_neg (fun h' => hle (this.mpr h'))]
          show Outcome.ok _ = Outcome.ok _
          simp only [DotText.quote_append]; rfl

/-- A case that meets the hypothesis: a range with a quote at its start. -/
example : let cr := CharReach.fromBytes [0x22#8, 0x23#8, 0x24#8]
    describeClassInt .debug 256 cr 16 .text = .ok ("\"#$".toList, 2) ∧
    utf8Len "\"#$".toList = 3 ∧ utf8Len (dotQuote "\"#$".toList) = 4 ∧
    describeClassInt .debug 256 cr.not 16 .text =
      .ok ("\\w\\s\\x 0-\\x 8\\x e-\\x1f!%-/:-@\\[\\x5c\\]\\^`{-\\xff".toList, 10) ∧
    describeClass .debug 256 cr 16 .text = .ok "[\"#$]".toList ∧
    describeClass .debug 256 cr 16 .dot = .ok "[\\\"#$]".toList := by
  decide +kernel

/-- A class that is not compound has at most one member or lacks at most one. -/
private theorem not_compound {s : U8 → Bool} (h : ¬ Compound s) :
    (∀ c, s c = true) ∨ (∀ c, s c = false) ∨ (∃ x, ∀ c, s c = true ↔ c = x) ∨ ∃ x, ∀ c, s c = true ↔ c ≠ x := by
  by_cases h1 : ∃ a, s a = true
  · by_cases h2 : ∃ a, s a = false
    · obtain ⟨a, ha⟩ := h1
      obtain ⟨b, hb⟩ := h2
      by_cases h3 : ∃ a b, a ≠ b ∧ s a = true ∧ s b = true
      · refine .inr (.inr (.inr ⟨b, fun c => ⟨?_, fun hne => ?_⟩⟩))
        · rintro hc rfl; rw [hb] at hc; cases hc
        · apply Classical.byContradiction
          intro hc
          exact h ⟨h3, c, b, hne, by simpa using hc, hb⟩
      · refine .inr (.inr (.inl ⟨a, fun c => ⟨fun hc => ?_, ?_⟩⟩))
        · apply Classical.byContradiction
          intro hne
          exact h3 ⟨c, a, hne, hc, ha⟩
        · rintro rfl; exact ha
    · left
      intro c
      cases hc : s c with
      | true => rfl
      | false => exact absurd ⟨c, hc⟩ h2
  · right; left
    intro c
    cases hc : s c with
    | false => rfl
    | true => exact absurd ⟨c, hc⟩ h1

/-- C85, classes, exactly (at the length the dump uses): the DOT description is the text description, quoted, iff the class
has at most one member or lacks at most one, or its two lists of items are not both written, or quoting does not change
which is the shorter. -/
theorem C85_class_exact_partial (p : Profile) (fuel : Nat) (hf : 4 ≤ fuel) (cr : CharReach) :
    describeClass p fuel cr 256 .dot = (do return dotQuote (← describeClass p fuel cr 256 .text)) ↔
      (Compound cr.test → ∀ own other k m, describeClassInt p fuel cr 256 .text = .ok (own, k) →
        describeClassInt p fuel cr.not 256 .text = .ok (other, m) →
        (utf8Len own ≤ utf8Len other ↔ utf8Len (dotQuote own) ≤ utf8Len (dotQuote other))) := by
  constructor
  · intro h hc own other k m ho hn
    have hnot : (fun c => !cr.test c) = cr.not.test := by
      funext c; rw [CharReach.not_test]
    have hgood : ¬ (EndsShort cr.test ∨ EndsShort (fun c => !cr.test c)) := by
      intro h'
      obtain ⟨h1, h2⟩ := (C70_describe_class_fails fuel hf cr .text).2 ⟨hc, h'⟩
      have hok : (describeClass p fuel cr 256 .text).isOk = true := by
        rw [describeClass_compound p fuel 256 cr .text hc, ho]
        simp only [Outcome.bind]
        rw [hn]
        dsimp only
        split
        · split <;> rfl
        · rfl
      cases p with
      | debug =>
        cases hd : describeClass .debug fuel cr 256 .text with
        | ok a => rw [hd] at h2; cases h2
        | _ => rw [hd] at hok; cases hok
      | release => rw [h1] at hok; cases hok
    obtain ⟨t1, n1, e1, b1⟩ := describeClassInt_ok p fuel hf cr .text (fun h' => hgood (.inl h'))
    obtain ⟨t2, n2, e2, b2⟩ := describeClassInt_ok p fuel hf cr.not .text (fun h' => hgood (.inr (hnot ▸ h')))
    rw [ho] at e1; rw [hn] at e2
    cases e1; cases e2
    obtain ⟨l1, e1, _, _⟩ := body_items b1
    obtain ⟨l2, e2, _, _⟩ := body_items b2
    rw [describeClass_compound p fuel 256 cr .text hc, describeClass_compound p fuel 256 cr .dot hc, DotText.classInt,
      DotText.classInt, ho, hn] at h
    have h' : (if utf8Len (dotQuote own) ≤ utf8Len (dotQuote other) then
        (if k > 1 then .ok (['['] ++ dotQuote own ++ [']']) else .ok (dotQuote own))
        else .ok ("[^".toList ++ dotQuote other ++ [']']) : Res Str) =
      Outcome.bind (if utf8Len own ≤ utf8Len other then
        (if k > 1 then .ok (['['] ++ own ++ [']']) else .ok own)
        else .ok ("[^".toList ++ other ++ [']'])) fun t => .ok (dotQuote t) := h
    have hhead : ∀ (l : List ClassItem) (x : Char) (u : Str), isFrame x = true →
        dotQuote (itemsText .text l) ≠ x :: u := by
      intro l x u hx he
      cases hl : itemsText .text l with
      | nil => rw [hl] at he; cases he
      | cons y v =>
        rw [hl, dotQuote] at he
        split at he
        · injection he with he _
          subst he
          exact absurd hx (by decide)
        · injection he with he _
          subst he
          exact itemsText_head .text l y v hx hl
    have hbody : ∀ (l : List ClassItem) (u : Str), dotQuote (itemsText .text l) ++ [']'] ≠ '^' :: u := by
      intro l u he
      cases hl : dotQuote (itemsText .text l) with
      | nil => rw [hl] at he; simp at he
      | cons y v =>
        rw [hl] at he
        injection he with he _
        exact hhead l y v (by subst he; decide) hl
    have hne : ∀ (l1 l2 : List ClassItem) (k : Nat),
        dotQuote (if k > 1 then ['['] ++ itemsText .text l1 ++ [']'] else itemsText .text l1) ≠
          "[^".toList ++ dotQuote (itemsText .text l2) ++ [']'] := by
      intro l1 l2 k he
      split at he
      · rw [DotText.quote_append, DotText.quote_append] at he
        injection he with _ he
        exact hbody l1 _ he
      · exact hhead l1 '[' _ (by decide) he
    subst e1 e2
    have hif : ∀ (c : Prop) [Decidable c] (a b : Str), (if c then .ok a else .ok b : Res Str) = .ok (if c then a else b) := by
      intro c _ a b; split <;> rfl
    have hq : ∀ l : List ClassItem, (if k > 1 then ['['] ++ dotQuote (itemsText .text l) ++ [']'] else dotQuote (itemsText .text l)) =
        dotQuote (if k > 1 then ['['] ++ itemsText .text l ++ [']'] else itemsText .text l) := by
      intro l
      split
      · simp only [DotText.quote_append]; rfl
      · rfl
    rw [hif, hif, hif, hif] at h'
    have h' := Outcome.ok.inj h'
    rw [hq] at h'
    by_cases a1 : utf8Len (itemsText .text l1) ≤ utf8Len (itemsText .text l2)
    · by_cases a2 : utf8Len (dotQuote (itemsText .text l1)) ≤ utf8Len (dotQuote (itemsText .text l2))
      · exact ⟨fun _ => a2, fun _ => a1⟩
      · rw [if_pos a1, if_neg a2] at h'
        exact absurd h'.symm (hne l1 l2 k)
    · by_cases a2 : utf8Len (dotQuote (itemsText .text l1)) ≤ utf8Len (dotQuote (itemsText .text l2))
      · rw [if_neg a1, if_pos a2, DotText.quote_append, DotText.quote_append] at h'
        exact absurd h' (hne l1 l2 k)
      · exact ⟨fun h => absurd h a1, fun h => absurd h a2⟩
  · intro h
    by_cases hc : Compound cr.test
    · exact C85_class_partial p fuel cr 256 (h hc)
    · obtain ⟨s1, s2, s3, s4⟩ := C71_simple_text p fuel 256 cr .text
      obtain ⟨d1, d2, d3, d4⟩ := C71_simple_text p fuel 256 cr .dot
      rcases not_compound hc with hc | hc | ⟨x, hc⟩ | ⟨x, hc⟩
      · rw [s1 hc, d1 hc]; rfl
      · rw [s2 hc, d2 hc]; rfl
      · rw [s3 x hc, d3 x hc, C85_char]; rfl
      · rw [s4 x hc, d4 x hc, C85_char]
        show Outcome.ok _ = Outcome.ok _
        simp only [DotText.quote_append]; rfl

/-- The class of `C85_false` is one of those that fail. -/
example : Compound lopsided.test ∧
    describeClassInt .debug 256 lopsided 256 .text = .ok ("\\x 0-\"".toList, 2) ∧
    describeClassInt .debug 256 lopsided.not 256 .text = .ok ("#-\\xff".toList, 2) ∧
    utf8Len "\\x 0-\"".toList = 6 ∧ utf8Len "#-\\xff".toList = 6 ∧
    utf8Len (dotQuote "\\x 0-\"".toList) = 8 ∧ utf8Len (dotQuote "#-\\xff".toList) = 7 :=
  ⟨⟨⟨0, 1, by decide, by decide +kernel, by decide +kernel⟩, ⟨0xfe, 0xff, by decide, by decide +kernel, by decide +kernel⟩⟩,
    by decide +kernel⟩

/-- C85, what always holds: both forms end alike, and a DOT description is a quoted text: put between double
quotes it ends where it should, and reading the string gives that text back. -/
theorem C85_dot_string (p : Profile) (fuel : Nat) (cr : CharReach) (maxLen : Nat) :
    ((∃ t, describeClass p fuel cr maxLen .dot = .ok t) ↔ ∃ t, describeClass p fuel cr maxLen .text = .ok t) ∧
    ∀ t, describeClass p fuel cr maxLen .dot = .ok t →
      (∀ rest, beforeQuote (t ++ '"' :: rest) = some t) ∧ dotQuote (unquote t) = t := by
  have fin : ∀ s : Str, (∀ rest, beforeQuote (dotQuote s ++ '"' :: rest) = some (dotQuote s)) ∧
      dotQuote (unquote (dotQuote s)) = dotQuote s :=
    fun s => ⟨DotText.beforeQuote_quote s, by rw [DotText.unquote_quote]⟩
  rcases describeClass_cases p fuel cr maxLen with ⟨r, hr, hq⟩ | ⟨m, hm⟩ | hb
  · rw [hr, hr]
    refine ⟨⟨fun _ => ⟨_, rfl⟩, fun _ => ⟨_, rfl⟩⟩, fun t ht => ?_⟩
    rw [← Outcome.ok.inj ht, hq]
    exact fin _
  · rw [hm, hm]
    exact ⟨⟨fun ⟨_, h⟩ => (by cases h), fun ⟨_, h⟩ => (by cases h)⟩, fun t ht => (by cases ht)⟩
  · rw [hb, hb, DotText.classInt, DotText.classInt]
    cases ho : describeClassInt p fuel cr maxLen .text with
    | err e => exact ⟨⟨fun ⟨_, h⟩ => (by cases h), fun ⟨_, h⟩ => (by cases h)⟩, fun t ht => (by cases ht)⟩
    | panic m => exact ⟨⟨fun ⟨_, h⟩ => (by cases h), fun ⟨_, h⟩ => (by cases h)⟩, fun t ht => (by cases ht)⟩
    | timeout => exact ⟨⟨fun ⟨_, h⟩ => (by cases h), fun ⟨_, h⟩ => (by cases h)⟩, fun t ht => (by cases ht)⟩
    | ok o =>
      cases hn : describeClassInt p fuel cr.not maxLen .text with
      | err e => exact ⟨⟨fun ⟨_, h⟩ => (by cases h), fun ⟨_, h⟩ => (by cases h)⟩, fun t ht => (by cases ht)⟩
      | panic m => exact ⟨⟨fun ⟨_, h⟩ => (by cases h), fun ⟨_, h⟩ => (by cases h)⟩, fun t ht => (by cases ht)⟩
      | timeout => exact ⟨⟨fun ⟨_, h⟩ => (by cases h), fun ⟨_, h⟩ => (by cases h)⟩, fun t ht => (by cases ht)⟩
      | ok n =>
        have tot : ∀ a b : Str, ∀ k : Nat, ∃ t, (if utf8Len a ≤ utf8Len b then
            if k > 1 then (.ok (['['] ++ a ++ [']']) : Res Str) else .ok a
            else .ok ("[^".toList ++ b ++ [']'])) = .ok t := by
          intro a b k
          split
          · split <;> exact ⟨_, rfl⟩
          · exact ⟨_, rfl⟩
        refine ⟨⟨fun _ => tot o.1 n.1 o.2, fun _ => tot (dotQuote o.1) (dotQuote n.1) o.2⟩, fun t ht => ?_⟩
        have ht' : (if utf8Len (dotQuote o.1) ≤ utf8Len (dotQuote n.1) then
            if o.2 > 1 then (.ok (['['] ++ dotQuote o.1 ++ [']']) : Res Str) else .ok (dotQuote o.1)
            else .ok ("[^".toList ++ dotQuote n.1 ++ [']'])) = .ok t := ht
        have : ∃ s, t = dotQuote s := by
          by_cases hle : utf8Len (dotQuote o.1) ≤ utf8Len (dotQuote n.1)
          · rw [if_pos hle] at ht'
            by_cases hk : o.2 > 1
            · rw [if_pos hk] at ht'
              refine ⟨['['] ++ o.1 ++ [']'], ?_⟩
              rw [← Outcome.ok.inj ht']
              simp only [DotText.quote_append]; rfl
            · rw [if_neg hk] at ht'
              exact ⟨_, (Outcome.ok.inj ht').symm⟩
          · rw [if_neg hle] at ht'
            refine ⟨"[^".toList ++ n.1 ++ [']'], ?_⟩
            rw [← Outcome.ok.inj ht']
            simp only [DotText.quote_append]; rfl
        obtain ⟨s, rfl⟩ := this
        exact fin s

/-- A bare quote would end the string early. -/
example : beforeQuote "[\"a]\"".toList = some "[".toList ∧
    beforeQuote "[\\\"a]\"".toList = some "[\\\"a]".toList := by decide

end Rescan
