import Verif.Props.Parser
import Verif.Props.Profiles
import Verif.Proofs.Patterns
import Verif.Spec.Witness
/-! # C80–C82: composing patterns, letter case, and the size of the language -/
namespace Rescan
open Spec

/-- Release builds accept the pattern, and its tree matches exactly the strings of `L`. -/
def Denotes (s : Str) (mode : ParseMode) (L : List U8 → Prop) : Prop :=
  ∃ c m, parse .release s mode = .ok (c, m) ∧ ∀ w, Lang c w ↔ L w

/-- Every accepted pattern denotes its language. -/
theorem denotes_of_ok {s : Str} {mode : ParseMode} (h : (parse .release s mode).isOk = true) :
    ∃ L, Denotes s mode L := by
  cases hp : parse .release s mode with
  | ok x => exact ⟨Lang x.1, x.1, x.2, hp, fun _ => Iff.rfl⟩
  | err e => rw [hp] at h; cases h
  | panic m => rw [hp] at h; cases h
  | timeout => rw [hp] at h; cases h

theorem denotes_tree {s : Str} {mode : ParseMode} {L : List U8 → Prop} (h : Denotes s mode L) :
    ∃ a : Alts, a.Wf ∧ IsBody s a.print ∧ IsAscii a.print ∧
      ∀ w, a.lang (litClass mode.caseless) w ↔ L w := by
  obtain ⟨c, m, h1, h2⟩ := h
  obtain ⟨a, ⟨h3, h4, h5, rfl⟩, _⟩ := C30_parse_sound _ _ _ _ _ (litClass mode.caseless)
    (fun c hc => litClass_spec _ c (by omega)) h1
  exact ⟨a, h3, h4, h5, fun w => by rw [← h2, Alts.lang_root]⟩

theorem tree_denotes {s : Str} {mode : ParseMode} {L : List U8 → Prop} (a : Alts) (hw : a.Wf)
    (hb : IsBody s a.print) (ha : IsAscii a.print)
    (hl : ∀ w, a.lang (litClass mode.caseless) w ↔ L w) : Denotes s mode L := by
  obtain ⟨m, h⟩ := C30_parse_print s mode a (litClass mode.caseless)
    (fun c hc => litClass_spec _ c (by omega)) hw ha hb
  exact ⟨_, m, h, fun w => by rw [Alts.lang_root, hl]⟩

/-! ## C80: composing patterns -/

/-- C80: `s|t` matches what `s` matches and what `t` matches.  (A control verb of `s` stays one; `t`
must start with none, as it would be read as a group.) -/
theorem C80_union (s t : Str) (mode : ParseMode) (L M : List U8 → Prop) (ht : NoVerb t)
    (h1 : Denotes s mode L) (h2 : Denotes t mode M) :
    Denotes (s ++ '|' :: t) mode (fun w => L w ∨ M w) := by
  obtain ⟨a, a1, a2, a3, a4⟩ := denotes_tree h1
  obtain ⟨b, b1, b2, b3, b4⟩ := denotes_tree h2
  have hbt := isBody_noVerb b2 ht
  refine tree_denotes (a.join b) (Alts.join_wf a b a1 b1) ?_ ?_ ?_
  · rw [Alts.join_print, hbt]
    exact isBody_append a2 (print_balanced a a1) (noVerb_of_head (by decide))
  · rw [Alts.join_print, isAscii_append]
    refine ⟨a3, fun c hc => ?_⟩
    rcases List.mem_cons.1 hc with rfl | hc
    · decide
    · exact b3 c hc
  · intro w
    rw [Alts.join_lang, a4, b4]

example : ∃ L M : List U8 → Prop, Denotes ("(*UCP)a(b|c)".toList ++ '|' :: "(x|y)z".toList) ParseMode.default (fun w => L w ∨ M w) := by
  obtain ⟨L, h1⟩ := denotes_of_ok (s := "(*UCP)a(b|c)".toList) (mode := ParseMode.default) (by decide +kernel)
  obtain ⟨M, h2⟩ := denotes_of_ok (s := "(x|y)z".toList) (mode := ParseMode.default) (by decide +kernel)
  exact ⟨L, M, C80_union _ _ _ L M (by rw [← controlVerb_none]; rfl) h1 h2⟩

/-- C80: `(s)` matches what `s` matches, unless `s` is `*` followed by something. -/
theorem C80_group (s : Str) (mode : ParseMode) (L : List U8 → Prop) (hs : NoVerb s)
    (hstar : ∀ s', s = '*' :: s' → s' = []) (h : Denotes s mode L) :
    Denotes ('(' :: s ++ [')']) mode L := by
  obtain ⟨a, a1, a2, a3, a4⟩ := denotes_tree h
  have hp := isBody_noVerb a2 hs
  refine tree_denotes (.one (.cons (.group a) .nil)) ⟨a1, trivial⟩ ?_ ?_ ?_
  · simp only [Alts.print, Seq.print, Item.print, List.append_nil, hp]
    exact .inl ⟨noVerb_group hstar, rfl⟩
  · intro c hc
    simp only [Alts.print, Seq.print, Item.print, List.append_nil, List.cons_append, List.mem_cons,
      List.mem_append, List.not_mem_nil, or_false] at hc
    rcases hc with rfl | hc | rfl
    · decide
    · exact a3 c hc
    · decide
  · intro w
    simp only [Alts.lang, Seq.lang, Item.lang, ← a4]
    constructor
    · rintro ⟨w1, w2, rfl, h, rfl⟩; simpa using h
    · intro h; exact ⟨w, [], by simp, h, rfl⟩

example : ∃ L, Denotes "x|y".toList ParseMode.default L ∧ Denotes ('(' :: "x|y".toList ++ [')']) ParseMode.default L := by
  obtain ⟨L, h⟩ := denotes_of_ok (s := "x|y".toList) (mode := ParseMode.default) (by decide +kernel)
  exact ⟨L, h, C80_group _ _ L (by rw [← controlVerb_none]; rfl) (by intro s' h; simp at h) h⟩

/-- C80, the exception: if an accepted `s` is `*` followed by something, `(s)` starts with a control
verb. -/
theorem C80_group_star (s s' : Str) (mode : ParseMode) (L : List U8 → Prop) (hs : s = '*' :: s')
    (hne : s' ≠ []) (h : Denotes s mode L) : ∃ v rest, HasVerb ('(' :: s ++ [')']) v rest := by
  obtain ⟨a, a1, a2, a3, a4⟩ := denotes_tree h
  have hp := isBody_noVerb a2 (by rw [hs]; exact noVerb_of_head (by decide))
  have hb := print_balanced a a1
  rw [hp, hs] at hb
  have hf : ∀ t : Str, ∃ v rest, t ++ [')'] = v ++ ')' :: rest ∧ ')' ∉ v := by
    intro t
    induction t with
    | nil => exact ⟨[], [], rfl, by simp⟩
    | cons c t ih =>
      by_cases hc : c = ')'
      · exact ⟨[], t ++ [')'], by simp [hc], by simp⟩
      · obtain ⟨v, rest, h1, h2⟩ := ih
        exact ⟨c :: v, rest, by simp [h1], by simp [h2, Ne.symm hc]⟩
  obtain ⟨v, rest, h1, h2⟩ := hf s'
  refine ⟨v, rest, by simp [hs, h1], ?_, h2⟩
  rintro rfl
  cases s' with
  | nil => exact hne rfl
  | cons c t =>
    have : c = ')' := by simpa using congrArg List.head? h1
    subst this
    have := hb.1 2
    simp at this

example : ∃ v rest, HasVerb ('(' :: ('*' :: "UCP".toList) ++ [')']) v rest := by
  obtain ⟨L, h⟩ := denotes_of_ok (s := '*' :: "UCP".toList) (mode := ParseMode.default) (by decide +kernel)
  exact C80_group_star _ "UCP".toList _ L rfl (by simp) h

/-- C80: `st` matches the concatenations, if neither has a `|` outside groups. -/
theorem C80_concat (s b t : Str) (mode : ParseMode) (L M : List U8 → Prop) (hb : IsBody s b)
    (hs : NoOuterBar b) (ht : NoVerb t) (hto : NoOuterBar t)
    (h1 : Denotes s mode L) (h2 : Denotes t mode M) :
    Denotes (s ++ t) mode (fun w => ∃ w1 w2, w = w1 ++ w2 ∧ L w1 ∧ M w2) := by
  obtain ⟨x, a1, a2, a3, a4⟩ := denotes_tree h1
  obtain ⟨y, b1, b2, b3, b4⟩ := denotes_tree h2
  have hx := isBody_unique a2 hb
  have hy := isBody_noVerb b2 ht
  obtain ⟨x, rfl⟩ := one_of_noOuterBar a1 (hx ▸ hs)
  obtain ⟨y, rfl⟩ := one_of_noOuterBar b1 (hy ▸ hto)
  refine tree_denotes (.one (x.app y)) (Seq.app_wf x y a1 b1) ?_ ?_ ?_
  · show IsBody _ (x.app y).print
    rw [Seq.app_print]
    show IsBody _ ((Alts.one x).print ++ (Alts.one y).print)
    rw [hy]
    exact isBody_append a2 (print_balanced _ a1) ht
  · show IsAscii (x.app y).print
    rw [Seq.app_print, isAscii_append]
    exact ⟨a3, b3⟩
  · intro w
    simp only [Alts.lang] at a4 b4 ⊢
    simp only [Seq.app_lang, a4, b4]

example : ∃ L M : List U8 → Prop, Denotes ("(*UCP)ab".toList ++ "xy".toList) ParseMode.default (fun w => ∃ w1 w2, w = w1 ++ w2 ∧ L w1 ∧ M w2) := by
  obtain ⟨L, h1⟩ := denotes_of_ok (s := "(*UCP)ab".toList) (mode := ParseMode.default) (by decide +kernel)
  obtain ⟨M, h2⟩ := denotes_of_ok (s := "xy".toList) (mode := ParseMode.default) (by decide +kernel)
  have hno : ∀ s : Str, '|' ∉ s → NoOuterBar s := fun s h pre post he => absurd (he ▸ by simp) h
  exact ⟨L, M, C80_concat _ "ab".toList _ _ L M (.inr ⟨['U', 'C', 'P'], ⟨rfl, by decide, by decide⟩, .inl rfl⟩)
    (hno _ (by decide)) (by rw [← controlVerb_none]; rfl) (hno _ (by decide)) h1 h2⟩

theorem noOuterBar_group {s : Str} (h : Balanced s) : NoOuterBar ('(' :: s ++ [')']) := by
  intro pre post he hc
  cases pre with
  | nil => simp at he
  | cons c pre =>
    simp at he
    obtain ⟨rfl, he⟩ := he
    have : ∃ n, pre = s.take n := by
      rcases List.append_eq_append_iff.1 he with ⟨x, hx, hx'⟩ | ⟨x, hx, _⟩
      · cases x with
        | nil => exact ⟨s.length, by simpa using hx⟩
        | cons z zs => simp at hx'
      · exact ⟨pre.length, by rw [hx]; simp⟩
    obtain ⟨n, rfl⟩ := this
    have := h.1 n
    simp at hc
    omega

/-- C80: `(s)(t)` matches the concatenations. -/
theorem C80_groups (s t : Str) (mode : ParseMode) (L M : List U8 → Prop) (hs : NoVerb s)
    (hstar : ∀ s', s = '*' :: s' → s' = []) (ht : NoVerb t) (h1 : Denotes s mode L)
    (h2 : Denotes t mode M) :
    Denotes (('(' :: s ++ [')']) ++ ('(' :: t ++ [')'])) mode
      (fun w => ∃ w1 w2, w = w1 ++ w2 ∧ L w1 ∧ M w2) := by
  obtain ⟨a, a1, a2, a3, a4⟩ := denotes_tree h1
  obtain ⟨b, b1, b2, b3, b4⟩ := denotes_tree h2
  have hp := isBody_noVerb a2 hs
  have hq := isBody_noVerb b2 ht
  have hbal : Balanced ('(' :: s ++ [')']) := balanced_group (hp ▸ print_balanced a a1)
  refine tree_denotes (.one (.cons (.group a) (.cons (.group b) .nil))) ⟨a1, b1, trivial⟩ ?_ ?_ ?_
  · simp only [Alts.print, Seq.print, Item.print, List.append_nil, hp, hq]
    exact .inl ⟨noVerb_append (noVerb_group hstar) hbal (by simp), rfl⟩
  · intro c hc
    simp only [Alts.print, Seq.print, Item.print, List.append_nil, List.cons_append, List.mem_cons,
      List.mem_append, List.not_mem_nil, or_false] at hc
    rcases hc with rfl | (hc | rfl) | rfl | hc | rfl
    · decide
    · exact a3 c hc
    · decide
    · decide
    · exact b3 c hc
    · decide
  · intro w
    simp only [Alts.lang, Seq.lang, Item.lang]
    constructor
    · rintro ⟨w1, w2, rfl, h1, w3, w4, rfl, h3, rfl⟩
      exact ⟨w1, w3, by simp, (a4 _).1 h1, (b4 _).1 h3⟩
    · rintro ⟨w1, w2, rfl, h1, h2⟩
      exact ⟨w1, w2, rfl, (a4 _).2 h1, w2, [], by simp, (b4 _).2 h2, rfl⟩

example : (∃ L, Denotes "(*UCP)a(b|c)".toList ParseMode.default L) ∧
    (∃ L, Denotes "x|y".toList ParseMode.default L) ∧ NoVerb "x|y".toList ∧
    IsBody "(*UCP)a(b|c)".toList "a(b|c)".toList ∧
    (∀ s', "x|y".toList = '*' :: s' → s' = []) ∧ NoOuterBar "(x|y)".toList := by
  refine ⟨denotes_of_ok (by decide +kernel), denotes_of_ok (by decide +kernel), ?_, ?_, ?_, ?_⟩
  · rw [← controlVerb_none]; rfl
  · exact .inr ⟨['U', 'C', 'P'], ⟨rfl, by decide, by decide⟩, .inl rfl⟩
  · intro s' h; simp at h
  · exact noOuterBar_group (s := "x|y".toList) (print_balanced (.more (.cons (.lit 'x') .nil)
      (.one (.cons (.lit 'y') .nil))) (by simp [Alts.Wf, Seq.Wf, Item.Wf, special]))

/-- The exception is real: `*UCP` is accepted and matches itself, `(*UCP)` only the empty string. -/
example : (∃ L, Denotes "*UCP".toList ParseMode.default L ∧ ¬ Denotes "(*UCP)".toList ParseMode.default L) := by
  obtain ⟨L, h⟩ := denotes_of_ok (s := "*UCP".toList) (mode := ParseMode.default) (by decide +kernel)
  refine ⟨L, h, fun h' => ?_⟩
  obtain ⟨a, a1, a2, a3, a4⟩ := denotes_tree h
  obtain ⟨b, b1, b2, b3, b4⟩ := denotes_tree h'
  have e1 : a.print = "*UCP".toList := isBody_noVerb a2 (noVerb_of_head (by decide))
  have e2 : b.print = [] :=
    isBody_unique b2 (.inr ⟨['U', 'C', 'P'], ⟨rfl, by decide, by decide⟩, .inl rfl⟩)
  have e1' := print_inj a (.one (.cons (.lit '*') (.cons (.lit 'U') (.cons (.lit 'C')
    (.cons (.lit 'P') .nil))))) a1 (by simp [Alts.Wf, Seq.Wf, Item.Wf, special]) e1
  have e2' := print_inj b (.one .nil) b1 trivial e2
  have h1 := (a4 []).2 ((b4 []).1 (by rw [e2']; rfl))
  subst e1'
  simp only [Alts.lang, Seq.lang, Item.lang] at h1
  obtain ⟨w1, w2, h2, h3, _⟩ := h1
  rw [lit_lang _ _ (by decide)] at h3
  obtain ⟨b, rfl, _⟩ := h3
  simp at h2

/-! ## C81: letter case -/

/-- C81: whether a pattern is accepted does not depend on the mode, in either profile. -/
theorem C81_acceptance (pr : Profile) (s : Str) (m1 m2 : ParseMode) :
    (parse pr s m1).isOk = (parse pr s m2).isOk := by
  have key : ∀ m1 m2, (parse pr s m1).isOk = true → (parse pr s m2).isOk = true := by
    intro m1 m2 h
    obtain ⟨body, hb, ha, hbal⟩ := C29_accepted_is_balanced pr s m1 h
    have hr := (C29_accepted_iff_balanced s body m2 hb ha).2 hbal
    cases pr with
    | release => exact hr
    | debug =>
      have hnp : (parse .debug s m2).isPanic = false := by
        rw [Bool.eq_false_iff]
        intro hp
        have := (C33_panics_partial .debug s m1).2 ((C33_panics_partial .debug s m2).1 hp)
        cases hx : parse .debug s m1 <;> rw [hx] at h this <;> simp [Outcome.isPanic, Outcome.isOk] at h this
      obtain ⟨m, _, _, h2⟩ := parse_isBody hb .debug m2
      obtain ⟨m', _, _, h3⟩ := parse_isBody hb .release m2
      rw [h3, bind_isOk] at hr
      rw [h2, bind_isOk]
      rw [h2, bind_isPanic] at hnp
      rcases Context.parse_debug (Context.new s body m) with h4 | h4
      · rw [hnp] at h4; cases h4
      · rw [h4]
        have : ∀ m, ((Context.new s body m).parse .release).isOk = true := by
          intro m
          obtain ⟨a, hw, rfl⟩ := exists_tree body hbal
          rw [Context.parse_print a s m hw ha]; rfl
        exact this m
  rw [Bool.eq_iff_iff]
  exact ⟨key m1 m2, key m2 m1⟩

/-- C81: parsed without regard to case, a pattern matches exactly the strings that differ only in the
case of letters from a string it matches when case counts. -/
theorem C81_closure (pr : Profile) (s : Str) (sens ins m1 m2 : ParseMode) (c1 c2 : Component)
    (h1 : sens.caseless = false) (h2 : ins.caseless = true)
    (hs : parse pr s sens = .ok (c1, m1)) (hi : parse pr s ins = .ok (c2, m2)) (w : List U8) :
    Lang c2 w ↔ ∃ v, Lang c1 v ∧ CaseEq v w := by
  obtain ⟨a, ⟨a1, a2, a3, rfl⟩, a4⟩ := C30_parse_sound _ _ _ _ _ (litClass sens.caseless)
    (fun c hc => litClass_spec _ c (by omega)) hs
  obtain ⟨b, ⟨b1, b2, b3, rfl⟩, b4⟩ := C30_parse_sound _ _ _ _ _ (litClass ins.caseless)
    (fun c hc => litClass_spec _ c (by omega)) hi
  have := a4 b b1 b2
  subst this
  simp only [Alts.lang_root, h1, h2]
  exact Alts.closure b w b3

example : ∃ x y, parse .release "a(B|c)".toList ParseMode.default = .ok x ∧
    parse .release "a(B|c)".toList { ParseMode.default with caseless := true } = .ok y ∧
    ParseMode.default.caseless = false := by
  obtain ⟨x, h⟩ := Outcome.exists_of_isOk (x := parse .release "a(B|c)".toList ParseMode.default) (by decide +kernel)
  obtain ⟨y, h'⟩ := Outcome.exists_of_isOk
    (x := parse .release "a(B|c)".toList { ParseMode.default with caseless := true }) (by decide +kernel)
  exact ⟨x, y, h, h', rfl⟩

/-- C81: parsed without regard to case, patterns that differ only in the case of letters give the same
outcome, tree and errors included, unless they start with a control verb. -/
theorem C81_pattern_case (pr : Profile) (s t : Str) (mode : ParseMode) (h : mode.caseless = true)
    (hs : NoVerb s) (hst : SameText s t) : parse pr s mode = parse pr t mode := by
  have ht := noVerb_sameText hst hs
  unfold parse
  rw [(C27_control_verbs s 0 mode).1 hs, (C27_control_verbs t 0 mode).1 ht]
  show ((Context.new s s mode).parse pr).bind _ = ((Context.new t t mode).parse pr).bind _
  rw [Context.parse_eq, Context.parse_eq]
  have e : Context.new t t mode = { Context.new s s mode with p := t } := by
    unfold Context.new
    rw [SameText.utf8Len hst]
  rw [e]
  show ((Context.loop pr s (Context.new s s mode)).bind _).bind _ = _
  rw [Context.loop_sameText pr s t (Context.new s s mode) t hst ⟨h, by simp [Context.new]⟩]

example : NoVerb "a(B|c)".toList ∧ SameText "a(B|c)".toList "A(b|c)".toList ∧
    (parse .release "a(B|c)".toList { ParseMode.default with caseless := true }).isOk = true ∧
    (parse .release "a(B|c)".toList ParseMode.default).isOk = true ∧
    CaseEq [97, 98] [65, 98] := by
  refine ⟨by rw [← controlVerb_none]; rfl, ?_, by decide +kernel, by decide +kernel, ?_⟩
  · show SameText ['a', '(', 'B', '|', 'c', ')'] ['A', '(', 'b', '|', 'c', ')']
    simp only [SameText, SameLetter]; decide
  · simp only [CaseEq]; decide

/-- With a control verb the case of letters matters: `(*UCP)` is accepted, `(*ucp)` is not. -/
example : (parse .release "(*UCP)a".toList { ParseMode.default with caseless := true }).isOk = true ∧
    (parse .release "(*ucp)a".toList { ParseMode.default with caseless := true }).isOk = false := by
  refine ⟨by decide +kernel, by decide +kernel⟩

/-! ## C82: the language of an accepted pattern -/

/-- The characters that are not special. -/
def literalChars (s : Str) : Str := s.filter (fun c => !decide (special c))

mutual
theorem Item.lang_size (caseless : Bool) : ∀ i : Item, i.Wf → IsAscii i.print →
    (∃ w, i.lang (litClass caseless) w) ∧ ∀ w, i.lang (litClass caseless) w →
      w.length ≤ (literalChars i.print).length ∧ ∀ b ∈ w, b.toNat < 128
  | .lit c, hw, ha => by
    have hc : c.toNat < 128 := ha c (by simp [Item.print])
    have hn : ¬ special c := hw
    simp only [Item.lang, lit_lang caseless c (by omega)]
    refine ⟨⟨_, BitVec.ofNat 8 c.toNat, rfl, .inl (Nat.mod_eq_of_lt (by omega))⟩, ?_⟩
    rintro w ⟨b, rfl, hb⟩
    refine ⟨by simp [literalChars, Item.print, hn], ?_⟩
    intro x hx
    simp only [List.mem_singleton] at hx
    subst hx
    have e : (BitVec.ofNat 8 c.toNat).toNat = c.toNat := Nat.mod_eq_of_lt (by omega)
    simp only [casePair, isUpper, e] at hb
    omega
  | .group a, hw, ha => by
    have := Alts.lang_size caseless a hw (fun c hc => ha c (by simp [Item.print, hc]))
    simp only [Item.lang]
    refine ⟨this.1, fun w h => ⟨?_, (this.2 w h).2⟩⟩
    have := (this.2 w h).1
    simp only [Item.print, literalChars, List.filter_append, List.filter_cons, List.cons_append] at this ⊢
    simpa [special] using this
theorem Seq.lang_size (caseless : Bool) : ∀ s : Seq, s.Wf → IsAscii s.print →
    (∃ w, s.lang (litClass caseless) w) ∧ ∀ w, s.lang (litClass caseless) w →
      w.length ≤ (literalChars s.print).length ∧ ∀ b ∈ w, b.toNat < 128
  | .nil, _, _ => by
    simp only [Seq.lang]
    refine ⟨⟨[], rfl⟩, ?_⟩
    rintro w rfl
    simp
  | .cons i s, hw, ha => by
    simp only [Seq.print, isAscii_append] at ha
    have h1 := Item.lang_size caseless i hw.1 ha.1
    have h2 := Seq.lang_size caseless s hw.2 ha.2
    obtain ⟨⟨w1, e1⟩, f1⟩ := h1
    obtain ⟨⟨w2, e2⟩, f2⟩ := h2
    simp only [Seq.lang]
    refine ⟨⟨_, w1, w2, rfl, e1, e2⟩, ?_⟩
    rintro w ⟨w1, w2, rfl, e1, e2⟩
    have f1 := f1 w1 e1
    have f2 := f2 w2 e2
    simp only [literalChars, Seq.print, List.filter_append, List.length_append] at *
    refine ⟨by omega, fun b hb => ?_⟩
    rcases List.mem_append.1 hb with hb | hb
    · exact f1.2 b hb
    · exact f2.2 b hb
theorem Alts.lang_size (caseless : Bool) : ∀ a : Alts, a.Wf → IsAscii a.print →
    (∃ w, a.lang (litClass caseless) w) ∧ ∀ w, a.lang (litClass caseless) w →
      w.length ≤ (literalChars a.print).length ∧ ∀ b ∈ w, b.toNat < 128
  | .one s, hw, ha => by simp only [Alts.lang]; exact Seq.lang_size caseless s hw ha
  | .more s a, hw, ha => by
    simp only [Alts.print, isAscii_append] at ha
    have h1 := Seq.lang_size caseless s hw.1 ha.1
    have h2 := Alts.lang_size caseless a hw.2 (fun c hc => ha.2 c (by simp [hc]))
    simp only [Alts.lang]
    obtain ⟨w, e⟩ := h1.1
    refine ⟨⟨w, .inl e⟩, ?_⟩
    intro w hw
    have hl : (literalChars (Alts.more s a).print).length
        = (literalChars s.print).length + (literalChars a.print).length := by
      simp [literalChars, Alts.print, special]
    rw [hl]
    rcases hw with hw | hw
    · have := h1.2 w hw; exact ⟨by omega, this.2⟩
    · have := h2.2 w hw; exact ⟨by omega, this.2⟩
end

/-- C82: an accepted pattern matches some string; no string it matches has more bytes than the pattern
has literal characters, and all its bytes are ASCII. -/
theorem C82_language (pr : Profile) (s body : Str) (mode m : ParseMode) (c : Component)
    (hb : IsBody s body) (h : parse pr s mode = .ok (c, m)) :
    (∃ w, Lang c w) ∧ ∀ w, Lang c w →
      w.length ≤ (body.filter (fun c => !decide (special c))).length ∧ ∀ b ∈ w, b.toNat < 128 := by
  obtain ⟨a, ⟨a1, a2, a3, rfl⟩, _⟩ := C30_parse_sound _ _ _ _ _ (litClass mode.caseless)
    (fun c hc => litClass_spec _ c (by omega)) h
  have := isBody_unique a2 hb
  subst this
  simp only [Alts.lang_root]
  exact Alts.lang_size mode.caseless a a1 a3

example : (parse .release "a(b|)".toList ParseMode.default).isOk = true ∧
    IsBody "a(b|)".toList "a(b|)".toList :=
  ⟨by decide +kernel, .inl ⟨by rw [← controlVerb_none]; rfl, rfl⟩⟩

end Rescan
