import Verif.Props.Compiler
import Verif.Spec.Witness
/-! # C47, C48, C63, C66-C68: the state after compiling -/
namespace Rescan
open Spec

/-- What success says about the builder state. -/
theorem compileNg_ok {p : Profile} {es : List Str} {fs : List Flags} {ids : List Nat} {mode : Mode} {g : Grey}
    (hs : Sane g) {ng : Ng} (h : compileNg p es fs ids mode g = .ok ng) :
    es ≠ [] ∧ es.length ≤ g.limitPatternCount ∧
    (∀ e ∈ given es fs ids, Valid p g.limitPatternLength e) ∧
    NgOk ⟨mode.isStreaming, mode.isVectored, g⟩ es.length (entriesFrom (litsOn g) 0 (given es fs ids)) ng := by
  have h1 := (C58_success_iff p es fs ids mode g hs).1 (by rw [compileMultiInt_eq, h]; rfl)
  refine ⟨h1.1, h1.2.1, h1.2.2.1, ?_⟩
  rcases compileNg_spec p es fs ids mode g hs h1.1 h1.2.1 with ⟨_, ng', h2, h3⟩ | ⟨j, e, _, _, _, h4⟩
  · rw [h] at h2
    injection h2 with h2
    subst h2; exact h3
  · rw [h] at h4; cases h4

/-- If literals are not looked for, nothing is recorded. -/
theorem addAll_idle {p : Profile} {ng : Ng} (hs : Sane ng.cc.grey) (hoff : litsOn ng.cc.grey = false) :
    ∀ (l : List Expr) (i : Nat) (ng' : Ng), i + l.length ≤ 2 ^ 32 → addAll p i ng l = .ok ng' → ng' = ng
  | [], _, _, _, h => by
    injection h with h
    exact h.symm
  | e :: l, i, ng', hi, h => by
    rw [List.length_cons] at hi
    by_cases hv : Valid p ng.cc.grey.limitPatternLength e
    · have h1 := (addExpression_shape p hs.length i (by omega) e hv).2 (.inl hoff)
      rw [(addAll_stop p i ng e l (by omega)).2.2.2 ng h1] at h
      exact addAll_idle hs hoff l (i + 1) ng' (by omega) h
    · obtain ⟨s1, -, s3, -⟩ := addAll_stop p i ng e l (show i < 2 ^ 32 by omega)
      rcases addExpression_invalid p ng i e hv with ⟨_, h2⟩ | ⟨_, _, h2⟩ | ⟨_, _, _, _, kind, reason, _, h2⟩ | ⟨_, _, _, m, h2⟩
      · rw [s1 _ h2 (.inl rfl)] at h; cases h
      · rw [s1 _ h2 (.inl rfl)] at h; cases h
      · rw [s1 _ h2 (.inl rfl)] at h; cases h
      · rw [s3 _ h2] at h; cases h

/-- If literals are not looked for, nothing is recorded. -/
theorem compileNg_idle {p : Profile} {es : List Str} {fs : List Flags} {ids : List Nat} {mode : Mode} {g : Grey}
    (hs : Sane g) (hoff : litsOn g = false) {ng : Ng} (h : compileNg p es fs ids mode g = .ok ng) :
    ng = Ng.new ⟨mode.isStreaming, mode.isVectored, g⟩ es.length mode.somPrecision := by
  have hn : es.length ≤ g.limitPatternCount := (compileNg_ok hs h).2.1
  have hne := (compileNg_ok hs h).1
  have hc := hs.count
  unfold compileNg at h
  rw [if_neg (by simpa using hne), if_neg (by omega)] at h
  refine addAll_idle (p := p)
    (ng := Ng.new ⟨mode.isStreaming, mode.isVectored, g⟩ es.length mode.somPrecision) hs hoff _ 0 ng ?_ h
  rw [izip_eq, List.length_zip]
  omega

theorem mem_entries {g : Grey} {l : List Expr} {x : LitEntry} (h : x ∈ entriesFrom (litsOn g) 0 l) :
    litsOn g = true ∧ ∃ e ∈ l, literalOf e = some x.elems ∧ x.id = e.2.2 ∧
      x.single = e.2.1.contains .SINGLEMATCH := by
  obtain ⟨h1, j, e, es, h2, h3, rfl⟩ := (mem_entriesFrom _ _ _ _).1 h
  exact ⟨h1, e, List.mem_of_getElem? h2, h3, rfl, rfl⟩

theorem entries_mem {g : Grey} {l : List Expr} {e : Expr} {es : List (U8 × Bool)} (hon : litsOn g = true)
    (he : e ∈ l) (hl : literalOf e = some es) :
    ∃ x ∈ entriesFrom (litsOn g) 0 l, x.elems = es ∧ x.id = e.2.2 ∧ x.single = e.2.1.contains .SINGLEMATCH := by
  obtain ⟨j, hj⟩ := List.mem_iff_getElem?.1 he
  exact ⟨_, (mem_entriesFrom _ _ _ _).2 ⟨hon, j, e, es, hj, hl, rfl⟩, rfl, rfl, rfl⟩

/-- The literal of an accepted expression describes its language. -/
theorem literal_lang {p : Profile} {e : Expr} {es : List (U8 × Bool)} {c : Component} {m : ParseMode}
    (hl : literalOf e = some es) (hp : parse p e.1 (ParseMode.new e.2.1) = .ok (c, m)) (w : List U8) :
    Lang c w ↔ MatchesElems es w := by
  unfold literalOf at hl
  cases hb : bodyOf e.1 with
  | none => rw [hb] at hl; cases hl
  | some body =>
    rw [hb] at hl
    simp only at hl
    split at hl
    · cases hl
    · rename_i hbar
      injection hl with hl
      subst hl
      exact C38_pattern_language p e.1 body _ c m hp ((bodyOf_some _ _).1 hb) (fun h => hbar (.inl h)) w

theorem matchesElems_length : ∀ (es : List (U8 × Bool)) (w : List U8), MatchesElems es w → w.length = es.length := by
  intro es
  induction es with
  | nil => intro w h; rw [h]; rfl
  | cons a es ih =>
    intro w h
    obtain ⟨b, w', rfl, _, h⟩ := h
    simp [ih w' h]

theorem matchesElems_self : ∀ es : List (U8 × Bool), MatchesElems es (es.map Prod.fst) := by
  intro es
  induction es with
  | nil => rfl
  | cons a es ih => exact ⟨a.1, _, rfl, .inl rfl, ih⟩

/-- A valid expression parses under its own flags. -/
theorem valid_parses {p : Profile} {limit : Nat} {e : Expr} (h : Valid p limit e) :
    ∃ c m, parse p e.1 (ParseMode.new e.2.1) = .ok (c, m) := by
  have := (parse_ok_iff p e.1 (ParseMode.new e.2.1)).2 h.2.2
  cases hp : parse p e.1 (ParseMode.new e.2.1) with
  | ok x => exact ⟨x.1, x.2, rfl⟩
  | err x => rw [hp] at this; cases this
  | panic x => rw [hp] at this; cases this
  | timeout => rw [hp] at this; cases this

/-! ## C47, C48 -/

/-- C47, full statement: the minimum width is a lower bound for the lengths of the strings matched by any
of the compiled expressions. -/
def MinWidthSound : Prop :=
  ∀ (p : Profile) (es : List Str) (fs : List Flags) (ids : List Nat) (mode : Mode) (ng : Ng),
    compileNg p es fs ids mode Grey.default = .ok ng → ∀ e ∈ given es fs ids, ∀ c m w,
      parse p e.1 (ParseMode.new e.2.1) = .ok (c, m) → Lang c w → ng.minWidth.val ≤ w.length

/-- C47 is false: `abc` and `a|b` give 3 although `a|b` matches `a`. -/
theorem C47_false : ¬ MinWidthSound := by
  intro h
  have hok : (compileNg .release ["abc".toList, "a|b".toList] [Flags.empty, Flags.empty] [0, 0] .block
      Grey.default).isOk = true := by decide +kernel
  cases hng : compileNg .release ["abc".toList, "a|b".toList] [Flags.empty, Flags.empty] [0, 0] .block
      Grey.default with
  | ok ng =>
    have hw : (match compileNg .release ["abc".toList, "a|b".toList] [Flags.empty, Flags.empty] [0, 0] .block
      Grey.default with | .ok ng => ng.minWidth.val | _ => 0) = 3 := by decide +kernel
    rw [hng] at hw
    simp only at hw
    let cls : Char → ComponentClass := fun c => litClass false c
    have hpar := C30_parse_print "a|b".toList (ParseMode.new Flags.empty)
      (.more (.cons (.lit 'a') .nil) (.one (.cons (.lit 'b') .nil))) cls
      (by intro c hc; exact litClass_spec _ _ (by omega))
      (by simp [Alts.Wf, Seq.Wf, Item.Wf, special])
      (by unfold IsAscii; decide)
      (.inl ⟨by rw [← controlVerb_none]; rfl, rfl⟩)
    obtain ⟨m, hpar⟩ := hpar
    have := h _ _ _ _ _ ng hng ("a|b".toList, Flags.empty, 0) (by simp [given]) _ m [97#8] hpar ?_
    · rw [hw] at this; simp at this
    · simp only [Alts.root, Alts.build, Alts.branches, Seq.build, Item.build, Lang, LangSeq, LangAll, LangAny]
      refine ⟨[97#8], [], rfl, .inl ⟨[97#8], [], rfl, ?_, rfl⟩, rfl⟩
      exact ⟨97#8, rfl, by decide +kernel⟩
  | err x => rw [hng] at hok; cases hok
  | panic x => rw [hng] at hok; cases hok
  | timeout => rw [hng] at hok; cases hok

theorem foldl_min_spec (h : List LitEntry) : ∀ a : Nat,
    h.foldl (fun m x => min m x.elems.length) a ≤ a ∧
    (∀ x ∈ h, h.foldl (fun m x => min m x.elems.length) a ≤ x.elems.length) ∧
    (h.foldl (fun m x => min m x.elems.length) a = a ∨
      ∃ x ∈ h, h.foldl (fun m x => min m x.elems.length) a = x.elems.length) := by
  induction h with
  | nil => intro a; exact ⟨Nat.le_refl _, by simp, .inl rfl⟩
  | cons y h ih =>
    intro a
    obtain ⟨h1, h2, h3⟩ := ih (min a y.elems.length)
    rw [List.foldl_cons]
    refine ⟨by omega, ?_, ?_⟩
    · intro x hx
      rcases List.mem_cons.1 hx with rfl | hx
      · omega
      · exact h2 x hx
    · rcases h3 with h3 | ⟨x, hx, h3⟩
      · by_cases hle : a ≤ y.elems.length
        · left; omega
        · right; exact ⟨y, List.mem_cons_self, by omega⟩
      · exact .inr ⟨x, List.mem_cons_of_mem _ hx, h3⟩

/-- C47, what holds (missing: expressions that are no literals, which are ignored): the minimum width is a
lower bound for the strings matched by literal expressions, it is attained by one of them, and it is
infinite iff there are none. -/
theorem C47_min_width_partial (p : Profile) (es : List Str) (fs : List Flags) (ids : List Nat) (mode : Mode)
    (g : Grey) (hs : Sane g) (hon : litsOn g = true) (ng : Ng) (h : compileNg p es fs ids mode g = .ok ng) :
    (∀ e ∈ given es fs ids, literalOf e ≠ none → ∀ c m w, parse p e.1 (ParseMode.new e.2.1) = .ok (c, m) →
      Lang c w → ng.minWidth.val ≤ w.length) ∧
    ((∃ e ∈ given es fs ids, literalOf e ≠ none) → ∃ e ∈ given es fs ids, literalOf e ≠ none ∧ ∃ c m w,
      parse p e.1 (ParseMode.new e.2.1) = .ok (c, m) ∧ Lang c w ∧ w.length = ng.minWidth.val) ∧
    (ng.minWidth = Depth.infinity ↔ ∀ e ∈ given es fs ids, literalOf e = none) := by
  obtain ⟨_, _, hval, hok⟩ := compileNg_ok hs h
  obtain ⟨f1, f2, f3⟩ := foldl_min_spec (entriesFrom (litsOn g) 0 (given es fs ids)) (2 ^ 31 - 1)
  rw [← hok.width] at f1 f2 f3
  -- literals are no longer than the limit
  have hshort : ∀ e ∈ given es fs ids, ∀ l, literalOf e = some l → l.length < 2 ^ 31 - 1 := by
    intro e he l hl
    have h1 := (hval e he).1
    unfold literalOf at hl
    cases hb : bodyOf e.1 with
    | none => rw [hb] at hl; cases hl
    | some body =>
      rw [hb] at hl
      simp only at hl
      split at hl
      · cases hl
      · injection hl with hl
        obtain ⟨v, hv, _⟩ := isBody_len ((bodyOf_some _ _).1 hb)
        have h2 := length_le_utf8Len e.1
        have h3 := congrArg List.length hv
        simp only [List.length_append] at h3
        have h4 : l.length ≤ body.length := by
          rw [← hl]; unfold litElems; rw [List.length_map]; exact List.length_filter_le _ _
        have := hs.length
        omega
  refine ⟨?_, ?_, ?_⟩
  · intro e he hl c m w hp hw
    obtain ⟨l, hl⟩ := Option.ne_none_iff_exists'.1 hl
    obtain ⟨x, hx, hxl, _⟩ := entries_mem hon he hl
    have := f2 x hx
    rw [hxl] at this
    rw [matchesElems_length _ _ ((literal_lang hl hp w).1 hw)]
    exact this
  · rintro ⟨e, he, hl⟩
    obtain ⟨l, hl⟩ := Option.ne_none_iff_exists'.1 hl
    obtain ⟨x, hx, hxl, _⟩ := entries_mem hon he hl
    rcases f3 with f3 | ⟨y, hy, f3⟩
    · have h1 := f2 x hx
      have h2 := hshort e he l hl
      rw [hxl] at h1
      omega
    · obtain ⟨_, e', he', hl', _⟩ := mem_entries hy
      obtain ⟨c, m, hp⟩ := valid_parses (hval e' he')
      exact ⟨e', he', by rw [hl']; simp, c, m, _, hp, (literal_lang hl' hp _).2 (matchesElems_self _), by simp [f3]⟩
  · constructor
    · intro hinf' e he
      have hinf : ng.minWidth.val = Depth.infinityVal := by rw [hinf']; rfl
      cases hl : literalOf e with
      | none => rfl
      | some l =>
        obtain ⟨x, hx, hxl, _⟩ := entries_mem hon he hl
        have h1 := f2 x hx
        have h2 := hshort e he l hl
        rw [hxl, hinf] at h1
        unfold Depth.infinityVal at h1
        omega
    · intro hno
      rcases f3 with f3 | ⟨y, hy, _⟩
      · cases hw : ng.minWidth with
        | mk v => rw [hw] at f3; simp only at f3; subst f3; rfl
      · obtain ⟨_, e', he', hl', _⟩ := mem_entries hy
        rw [hno e' he'] at hl'; cases hl'

example : (match compileNg .release ["abc".toList, "(d)e".toList] [Flags.empty, Flags.CASELESS] [0, 1] .block
    Grey.default with | .ok ng => ng.minWidth.val | _ => 0) = 2 := by decide +kernel

/-! ## C68 -/

/-- A trie accepts a string: following it leads to a vertex with a report. -/
def Accepts (t : LitTrie) (w : List U8) : Prop :=
  ∃ v props, Follows t.inner t.root w v ∧ t.inner.nodes[v]? = some props ∧ props.reports ≠ []

theorem holds_accepts {t : LitTrie} {hist : List (List U8 × Nat)} (h : Holds t hist) (w : List U8) :
    Accepts t w ↔ ∃ r, (w, r) ∈ hist := by
  constructor
  · rintro ⟨v, props, hv, hp, hne⟩
    obtain ⟨props', hp', hr⟩ := h.reports w v hv
    rw [hp] at hp'; injection hp' with hp'; subst hp'
    cases hpr : props.reports with
    | nil => exact absurd hpr hne
    | cons r rs => exact ⟨r, (hr r).1 (by rw [hpr]; exact List.mem_cons_self)⟩
  · rintro ⟨r, hr⟩
    obtain ⟨v, hv⟩ := (h.follows w).2 (.inr ⟨w, List.mem_map.2 ⟨_, hr, rfl⟩, List.prefix_refl _⟩)
    obtain ⟨props, hp, hr'⟩ := h.reports w v hv
    refine ⟨v, props, hv, hp, ?_⟩
    intro hnil
    have := (hr' r).2 hr
    rw [hnil] at this; cases this

theorem bytesOf_litOf (es : List (U8 × Bool)) : bytesOf (litOf es) = es.map Prod.fst := by
  unfold bytesOf litOf
  rw [List.zip_map', List.map_map]
  rfl

theorem contains_true_iff (es : List (U8 × Bool)) :
    (litOf es).nocase.contains true = true ↔ ∃ x ∈ es, x.2 = true := by
  show (es.map Prod.snd).contains true = true ↔ _
  rw [List.contains_iff_mem, List.mem_map]

/-- The strings held by the two tries. -/
theorem hist_iff (limit : Nat) (h : List LitEntry) (w : List U8) (r : Nat) :
    ((w, r) ∈ histOf (caselessOnes (shortOnes limit (callsOf h))) ↔
      r = 0 ∧ ∃ x ∈ h, x.elems.length ≤ limit ∧ (∃ y ∈ x.elems, y.2 = true) ∧ w = x.elems.map Prod.fst) ∧
    ((w, r) ∈ histOf (sensitiveOnes (shortOnes limit (callsOf h))) ↔
      r = 0 ∧ ∃ x ∈ h, x.elems.length ≤ limit ∧ (∀ y ∈ x.elems, y.2 = false) ∧ w = x.elems.map Prod.fst) := by
  have hlen : ∀ es : List (U8 × Bool), (litOf es).s.length = es.length := fun es => by simp [litOf]
  unfold histOf caselessOnes sensitiveOnes shortOnes callsOf
  simp only [List.mem_map, List.mem_filter, Prod.mk.injEq]
  constructor
  · constructor
    · rintro ⟨_, ⟨⟨⟨x, hx, rfl⟩, hs⟩, hc⟩, hw, rfl⟩
      exact ⟨rfl, x, hx, by simpa [hlen] using hs, (contains_true_iff _).1 hc, by rw [← hw, bytesOf_litOf]⟩
    · rintro ⟨rfl, x, hx, hs, hc, rfl⟩
      exact ⟨_, ⟨⟨⟨x, hx, rfl⟩, by simpa [hlen] using hs⟩, (contains_true_iff _).2 hc⟩, bytesOf_litOf _, rfl⟩
  · constructor
    · rintro ⟨_, ⟨⟨⟨x, hx, rfl⟩, hs⟩, hc⟩, hw, rfl⟩
      refine ⟨rfl, x, hx, by simpa [hlen] using hs, ?_, by rw [← hw, bytesOf_litOf]⟩
      intro y hy
      cases hy2 : y.2 with
      | false => rfl
      | true => rw [(contains_true_iff _).2 ⟨y, hy, hy2⟩] at hc; cases hc
    · rintro ⟨rfl, x, hx, hs, hc, rfl⟩
      refine ⟨_, ⟨⟨⟨x, hx, rfl⟩, by simpa [hlen] using hs⟩, ?_⟩, bytesOf_litOf _, rfl⟩
      cases hcc : (litOf x.elems).nocase.contains true with
      | false => rfl
      | true =>
        obtain ⟨y, hy, hy2⟩ := (contains_true_iff _).1 hcc
        rw [hc y hy] at hy2; cases hy2

/-- C68: unless the small-write builder is poisoned, its two tries accept exactly the literals of the
compiled expressions that are short enough: the caseless trie those with a caseless letter, the other
trie those without. -/
theorem C68_tries (p : Profile) (es : List Str) (fs : List Flags) (ids : List Nat) (mode : Mode)
    (g : Grey) (hs : Sane g) (hon : litsOn g = true) (ng : Ng) (h : compileNg p es fs ids mode g = .ok ng)
    (hp : ng.smwr.poisoned = false) (w : List U8) :
    (Accepts ng.smwr.litTrieNocase w ↔ ∃ e ∈ given es fs ids, ∃ l, literalOf e = some l ∧
      l.length ≤ g.smallWriteLargestBuffer ∧ (∃ y ∈ l, y.2 = true) ∧ w = l.map Prod.fst) ∧
    (Accepts ng.smwr.litTrie w ↔ ∃ e ∈ given es fs ids, ∃ l, literalOf e = some l ∧
      l.length ≤ g.smallWriteLargestBuffer ∧ (∀ y ∈ l, y.2 = false) ∧ w = l.map Prod.fst) := by
  obtain ⟨_, _, _, hok⟩ := compileNg_ok hs h
  obtain ⟨_, h1, h2⟩ := C46_tries_hold es.length g _ hs.buffer ng.smwr hok.smwr hp
  rw [holds_accepts h1, holds_accepts h2]
  constructor
  · constructor
    · rintro ⟨r, hr⟩
      obtain ⟨_, x, hx, hx1, hx2, hx3⟩ := (hist_iff _ _ _ _).1.1 hr
      obtain ⟨_, e, he, hl, _⟩ := mem_entries hx
      exact ⟨e, he, _, hl, hx1, hx2, hx3⟩
    · rintro ⟨e, he, l, hl, h3, h4, h5⟩
      obtain ⟨x, hx, rfl, _⟩ := entries_mem hon he hl
      exact ⟨0, (hist_iff _ _ _ _).1.2 ⟨rfl, x, hx, h3, h4, h5⟩⟩
  · constructor
    · rintro ⟨r, hr⟩
      obtain ⟨_, x, hx, hx1, hx2, hx3⟩ := (hist_iff _ _ _ _).2.1 hr
      obtain ⟨_, e, he, hl, _⟩ := mem_entries hx
      exact ⟨e, he, _, hl, hx1, hx2, hx3⟩
    · rintro ⟨e, he, l, hl, h3, h4, h5⟩
      obtain ⟨x, hx, rfl, _⟩ := entries_mem hon he hl
      exact ⟨0, (hist_iff _ _ _ _).2.2 ⟨rfl, x, hx, h3, h4, h5⟩⟩

example : Sane Grey.default ∧ litsOn Grey.default = true ∧ ∃ ng, compileNg .release ["aB".toList, "Cd".toList]
    [Flags.empty, Flags.CASELESS] [0, 1] .block Grey.default = .ok ng ∧ ng.smwr.poisoned = false :=
  ⟨sane_default, rfl, Outcome.exists_ok (by decide +kernel)⟩

theorem upperOf_letter (b c : U8) (hc : isLetter c) : (b = upperOf c ∨ casePair b (upperOf c)) ↔ upperOf b = upperOf c := by
  revert b c
  unfold isLetter casePair upperOf
  decide +kernel

theorem upperOf_other (b c : U8) (hc : ¬ isLetter c) : b = c ↔ upperOf b = c := by
  revert b c
  unfold isLetter upperOf
  decide +kernel

/-- Caseless literal elements match exactly the strings with the right upper-case form. -/
theorem matches_upper (body : Str) (w : List U8) :
    MatchesElems (litElems true body) w ↔ w.map upperOf = (litElems true body).map Prod.fst := by
  unfold litElems
  generalize body.filter _ = l
  induction l generalizing w with
  | nil => simp [MatchesElems]
  | cons c l ih =>
    have hc : ∀ b, (b = (litElem true c).1 ∨ ((litElem true c).2 = true ∧ casePair b (litElem true c).1)) ↔
        upperOf b = (litElem true c).1 := by
      intro b
      unfold litElem
      by_cases h : isLetter (BitVec.ofNat 8 c.toNat)
      · rw [if_pos ⟨rfl, h⟩]
        simpa using upperOf_letter b _ h
      · rw [if_neg (fun x => h x.2)]
        simpa using upperOf_other b _ h
    show (∃ b w', w = b :: w' ∧ _ ∧ MatchesElems _ w') ↔ _
    constructor
    · rintro ⟨b, w', rfl, h1, h2⟩
      rw [List.map_cons, List.map_cons, List.map_cons, (ih w').1 h2, (hc b).1 h1]
    · intro h
      cases w with
      | nil => simp at h
      | cons b w' =>
        rw [List.map_cons, List.map_cons, List.map_cons] at h
        injection h with h1 h2
        exact ⟨b, w', rfl, (hc b).2 h1, (ih w').2 h2⟩

/-- Case-sensitive literal elements match exactly one string. -/
theorem matches_exact : ∀ (es : List (U8 × Bool)) (w : List U8), (∀ y ∈ es, y.2 = false) →
    (MatchesElems es w ↔ w = es.map Prod.fst) := by
  intro es
  induction es with
  | nil => intro w _; rfl
  | cons a es ih =>
    intro w h
    show (∃ b w', w = b :: w' ∧ _ ∧ MatchesElems _ w') ↔ _
    have ha := h a List.mem_cons_self
    constructor
    · rintro ⟨b, w', rfl, h1, h2⟩
      rw [ha] at h1
      have := (ih w' (fun y hy => h y (List.mem_cons_of_mem _ hy))).1 h2
      simp at h1
      rw [h1, this]; rfl
    · rintro rfl
      exact ⟨a.1, _, rfl, .inl rfl, matchesElems_self es⟩

theorem litElems_sensitive (body : Str) : ∀ y ∈ litElems false body, y.2 = false := by
  intro y hy
  unfold litElems at hy
  obtain ⟨c, _, rfl⟩ := List.mem_map.1 hy
  unfold litElem
  rw [if_neg (by simp)]

/-- C68, end to end: unless poisoned, a byte string matches a compiled literal expression (short enough)
with a caseless letter iff the caseless trie accepts its upper-case form, and one without iff the other
trie accepts it. -/
theorem C68_language (p : Profile) (es : List Str) (fs : List Flags) (ids : List Nat) (mode : Mode)
    (g : Grey) (hs : Sane g) (hon : litsOn g = true) (ng : Ng) (h : compileNg p es fs ids mode g = .ok ng)
    (hp : ng.smwr.poisoned = false) (w : List U8) :
    (Accepts ng.smwr.litTrieNocase (w.map upperOf) ↔ ∃ e ∈ given es fs ids, ∃ l c m, literalOf e = some l ∧
      l.length ≤ g.smallWriteLargestBuffer ∧ (∃ y ∈ l, y.2 = true) ∧
      parse p e.1 (ParseMode.new e.2.1) = .ok (c, m) ∧ Lang c w) ∧
    (Accepts ng.smwr.litTrie w ↔ ∃ e ∈ given es fs ids, ∃ l c m, literalOf e = some l ∧
      l.length ≤ g.smallWriteLargestBuffer ∧ (∀ y ∈ l, y.2 = false) ∧
      parse p e.1 (ParseMode.new e.2.1) = .ok (c, m) ∧ Lang c w) := by
  obtain ⟨h1, _⟩ := C68_tries p es fs ids mode g hs hon ng h hp (w.map upperOf)
  obtain ⟨_, h2⟩ := C68_tries p es fs ids mode g hs hon ng h hp w
  obtain ⟨_, _, hval, _⟩ := compileNg_ok hs h
  rw [h1, h2]
  -- literals with a caseless letter come from caseless expressions
  have hcl : ∀ (e : Expr) (l : List (U8 × Bool)), literalOf e = some l → (∃ y ∈ l, y.2 = true) →
      ∃ body, l = litElems true body := by
    rintro e l hl ⟨y, hy, hy2⟩
    unfold literalOf at hl
    cases hb : bodyOf e.1 with
    | none => rw [hb] at hl; cases hl
    | some body =>
      rw [hb] at hl
      simp only at hl
      split at hl
      · cases hl
      · injection hl with hl
        cases hc : e.2.1.contains .CASELESS with
        | true => rw [hc] at hl; exact ⟨body, hl.symm⟩
        | false =>
          rw [hc] at hl
          rw [← hl] at hy
          rw [litElems_sensitive body y hy] at hy2
          cases hy2
  constructor
  · constructor
    · rintro ⟨e, he, l, hl, h3, h4, h5⟩
      obtain ⟨c, m, hpar⟩ := valid_parses (hval e he)
      refine ⟨e, he, l, c, m, hl, h3, h4, hpar, (literal_lang hl hpar w).2 ?_⟩
      obtain ⟨body, rfl⟩ := hcl e l hl h4
      exact (matches_upper body w).2 h5
    · rintro ⟨e, he, l, c, m, hl, h3, h4, hpar, hw⟩
      refine ⟨e, he, l, hl, h3, h4, ?_⟩
      have := (literal_lang hl hpar w).1 hw
      obtain ⟨body, rfl⟩ := hcl e l hl h4
      exact (matches_upper body w).1 this
  · constructor
    · rintro ⟨e, he, l, hl, h3, h4, h5⟩
      obtain ⟨c, m, hpar⟩ := valid_parses (hval e he)
      exact ⟨e, he, l, c, m, hl, h3, h4, hpar, (literal_lang hl hpar w).2 ((matches_exact l w h4).2 h5)⟩
    · rintro ⟨e, he, l, c, m, hl, h3, h4, hpar, hw⟩
      exact ⟨e, he, l, hl, h3, h4, (matches_exact l w h4).1 ((literal_lang hl hpar w).1 hw)⟩

example : Sane Grey.default ∧ litsOn Grey.default = true ∧ ∃ ng, compileNg .release ["a(b)".toList, "(C)d".toList]
    [Flags.empty, Flags.CASELESS] [0, 1] .block Grey.default = .ok ng ∧ ng.smwr.poisoned = false :=
  ⟨sane_default, rfl, Outcome.exists_ok (by decide +kernel)⟩

/-- C68: when the small-write builder is poisoned, in terms of the literals of the compiled expressions:
`n` and `m` are the numbers of distinct prefixes of the case-sensitive and the caseless ones. -/
theorem C68_poisoned (p : Profile) (es : List Str) (fs : List Flags) (ids : List Nat) (mode : Mode)
    (g : Grey) (hs : Sane g) (ng : Ng) (h : compileNg p es fs ids mode g = .ok ng) (n m : Nat)
    (hn : PrefixCount (strings (sensitiveOnes (shortOnes g.smallWriteLargestBuffer
      (callsOf (entriesFrom (litsOn g) 0 (given es fs ids)))))) n)
    (hm : PrefixCount (strings (caselessOnes (shortOnes g.smallWriteLargestBuffer
      (callsOf (entriesFrom (litsOn g) 0 (given es fs ids)))))) m) :
    ng.smwr.poisoned = true ↔ g.allowSmallWrite = false ∨ es.length > g.smallWriteMaxPatterns ∨
      (shortOnes g.smallWriteLargestBuffer (callsOf (entriesFrom (litsOn g) 0 (given es fs ids)))).length
        > g.smallWriteMaxLiterals ∨ n > 8000 ∨ m > 8000 := by
  obtain ⟨_, _, _, hok⟩ := compileNg_ok hs h
  obtain ⟨sw, h1, h2⟩ := C45_poisoned_iff (ε := CompileError) es.length g _ hs.buffer n m hn hm
  rw [hok.smwr] at h1
  injection h1 with h1
  rw [h1]; exact h2

example : (match compileNg .release ["aB".toList, "Cd".toList] [Flags.empty, Flags.CASELESS] [0, 1] .block
    Grey.default with | .ok ng => some (ng.smwr.poisoned, ng.smwr.litTrie.inner.nodes.map (·.c),
      ng.smwr.litTrieNocase.inner.nodes.map (·.c)) | _ => none)
    = some (false, [0#8, 97#8, 66#8], [0#8, 67#8, 68#8]) := by decide +kernel

/-! ## C48 -/

/-- C48, full statement: if no expression standing for `w` has the id of one standing for `w'`, then the
vertices of a literal trie for `w` and `w'` share no report. -/
def IdsDistinguishable : Prop :=
  ∀ (p : Profile) (es : List Str) (fs : List Flags) (ids : List Nat) (mode : Mode) (ng : Ng),
    compileNg p es fs ids mode Grey.default = .ok ng → ng.smwr.poisoned = false → ∀ w w' : List U8,
    (∀ a ∈ given es fs ids, ∀ b ∈ given es fs ids, ∀ la lb, literalOf a = some la → literalOf b = some lb →
      la.map Prod.fst = w → lb.map Prod.fst = w' → a.2.2 ≠ b.2.2) →
    ∀ t ∈ [ng.smwr.litTrie, ng.smwr.litTrieNocase], ∀ u v pu pv, Follows t.inner t.root w u →
      Follows t.inner t.root w' v → t.inner.nodes[u]? = some pu → t.inner.nodes[v]? = some pv →
      ∀ r ∈ pu.reports, r ∉ pv.reports

/-- C48, exactly (the full statement is false): there is one internal report, 0, shared by every literal
expression whatever its id. -/
theorem C48_one_report_partial (p : Profile) (es : List Str) (fs : List Flags) (ids : List Nat) (mode : Mode)
    (g : Grey) (hs : Sane g) (ng : Ng) (h : compileNg p es fs ids mode g = .ok ng) :
    (ng.rm.reportIds = if litsOn g = true ∧ ∃ e ∈ given es fs ids, literalOf e ≠ none then [⟨0⟩] else []) ∧
    (ng.smwr.poisoned = false → ∀ w v props,
      (Follows ng.smwr.litTrie.inner ng.smwr.litTrie.root w v →
        ng.smwr.litTrie.inner.nodes[v]? = some props → ∀ r ∈ props.reports, r = 0) ∧
      (Follows ng.smwr.litTrieNocase.inner ng.smwr.litTrieNocase.root w v →
        ng.smwr.litTrieNocase.inner.nodes[v]? = some props → ∀ r ∈ props.reports, r = 0)) := by
  obtain ⟨_, _, _, hok⟩ := compileNg_ok hs h
  constructor
  · rw [hok.ids]
    by_cases hex : litsOn g = true ∧ ∃ e ∈ given es fs ids, literalOf e ≠ none
    · rw [if_pos hex]
      obtain ⟨hon, e, he, hl⟩ := hex
      obtain ⟨l, hl⟩ := Option.ne_none_iff_exists'.1 hl
      obtain ⟨x, hx, _⟩ := entries_mem hon he hl
      rw [if_neg]
      intro hemp
      rw [List.isEmpty_iff] at hemp
      rw [hemp] at hx; cases hx
    · rw [if_neg hex, if_pos]
      rw [List.isEmpty_iff]
      cases hent : entriesFrom (litsOn g) 0 (given es fs ids) with
      | nil => rfl
      | cons x t =>
        obtain ⟨hon, e, he, hl, _⟩ := mem_entries (g := g) (l := given es fs ids) (x := x) (by rw [hent]; simp)
        exact absurd ⟨hon, e, he, by rw [hl]; simp⟩ hex
  · intro hp w v props
    obtain ⟨_, h1, h2⟩ := C46_tries_hold es.length g _ hs.buffer ng.smwr hok.smwr hp
    constructor
    · intro hf hn r hr
      obtain ⟨props', hp', hr'⟩ := h2.reports w v hf
      rw [hn] at hp'; injection hp' with hp'; subst hp'
      exact ((hist_iff _ _ _ _).2.1 ((hr' r).1 hr)).1
    · intro hf hn r hr
      obtain ⟨props', hp', hr'⟩ := h1.reports w v hf
      rw [hn] at hp'; injection hp' with hp'; subst hp'
      exact ((hist_iff _ _ _ _).1.1 ((hr' r).1 hr)).1

example : Sane Grey.default ∧ ∃ ng, compileNg .release ["aB".toList, "Cd".toList]
    [Flags.empty, Flags.CASELESS] [0, 1] .block Grey.default = .ok ng ∧
    ng.smwr.poisoned = false ∧ ng.smwr.litTrie.inner.nodes.length = 3 ∧ ng.rm.reportIds = [⟨0⟩] :=
  ⟨sane_default, Outcome.exists_ok (by decide +kernel)⟩

/-- C48 is false: `a` with id 1 and `b` with id 2. -/
theorem C48_false : ¬ IdsDistinguishable := by
  intro h
  have hok : (match compileNg .release ["a".toList, "b".toList] [Flags.empty, Flags.empty] [1, 2] .block
      Grey.default with
      | .ok ng => some ng.smwr.poisoned
      | _ => none) = some false := by decide +kernel
  cases hng : compileNg .release ["a".toList, "b".toList] [Flags.empty, Flags.empty] [1, 2] .block
      Grey.default with
  | ok ng =>
    rw [hng] at hok
    injection hok with hok
    have hacc := fun w => (C68_tries _ _ _ _ _ _ sane_default rfl ng hng hok w).2
    have h1 := (hacc [97#8]).2 ⟨("a".toList, Flags.empty, 1), by simp [given], [(97#8, false)],
      by decide +kernel, by decide, by decide, rfl⟩
    have h2 := (hacc [98#8]).2 ⟨("b".toList, Flags.empty, 2), by simp [given], [(98#8, false)],
      by decide +kernel, by decide, by decide, rfl⟩
    obtain ⟨u, pu, hu, hpu, hu0⟩ := h1
    obtain ⟨v, pv, hv, hpv, hv0⟩ := h2
    have hone := (C48_one_report_partial _ _ _ _ _ _ sane_default ng hng).2 hok
    have ru := (hone _ u pu).1 hu hpu
    have rv := (hone _ v pv).1 hv hpv
    have hdis := h _ _ _ _ _ ng hng hok [97#8] [98#8] (by
      intro a ha b hb la lb hla hlb e1 e2
      simp only [given, List.zip_cons_cons, List.zip_nil_right, List.mem_cons, List.not_mem_nil, or_false] at ha hb
      have l1 : literalOf ("a".toList, Flags.empty, 1) = some [(97#8, false)] := by decide +kernel
      have l2 : literalOf ("b".toList, Flags.empty, 2) = some [(98#8, false)] := by decide +kernel
      rcases ha with rfl | rfl <;> rcases hb with rfl | rfl
      · rw [l1] at hlb; injection hlb with hlb; subst hlb; exact absurd e2 (by decide)
      · decide
      · decide
      · rw [l2] at hla; injection hla with hla; subst hla; exact absurd e1 (by decide)) _ List.mem_cons_self
      u v pu pv hu hv hpu hpv
    cases hr : pu.reports with
    | nil => exact hu0 hr
    | cons r rs =>
      cases hr' : pv.reports with
      | nil => exact hv0 hr'
      | cons r' rs' =>
        have e1 := ru r (by rw [hr]; simp)
        have e2 := rv r' (by rw [hr']; simp)
        exact hdis r (by rw [hr]; simp) (by rw [hr', e1, e2]; simp)
  | err x => rw [hng] at hok; cases hok
  | panic x => rw [hng] at hok; cases hok
  | timeout => rw [hng] at hok; cases hok

/-! ## C69: exhaustion bookkeeping -/

/-- C69, full statement: the flag "all patterns are SINGLEMATCH" is right. -/
def GlobalExhaustRight : Prop :=
  ∀ (p : Profile) (es : List Str) (fs : List Flags) (ids : List Nat) (mode : Mode) (ng : Ng),
    compileNg p es fs ids mode Grey.default = .ok ng →
    (ng.rm.globalExhaust = true ↔ ∀ e ∈ given es fs ids, e.2.1.contains .SINGLEMATCH = true)

/-- C69 is false: `a|b` without SINGLEMATCH leaves the flag set. -/
theorem C69_false : ¬ GlobalExhaustRight := by
  intro h
  have hok : (match compileNg .release ["a|b".toList] [Flags.empty] [1] .block Grey.default with
      | .ok ng => some ng.rm.globalExhaust
      | _ => none) = some true := by decide +kernel
  cases hng : compileNg .release ["a|b".toList] [Flags.empty] [1] .block Grey.default with
  | ok ng =>
    rw [hng] at hok
    injection hok with hok
    have := (h _ _ _ _ _ ng hng).1 hok ("a|b".toList, Flags.empty, 1) (by simp [given])
    revert this; decide
  | err x => rw [hng] at hok; cases hok
  | panic x => rw [hng] at hok; cases hok
  | timeout => rw [hng] at hok; cases hok

/-- C69, exactly (missing: expressions that are no literals): the flag is set iff every literal expression
is SINGLEMATCH, the ids with an exhaustion key are those of SINGLEMATCH literal expressions, and
different ids have different keys. -/
theorem C69_exhaust_partial (p : Profile) (es : List Str) (fs : List Flags) (ids : List Nat) (mode : Mode)
    (g : Grey) (hs : Sane g) (hon : litsOn g = true) (ng : Ng) (h : compileNg p es fs ids mode g = .ok ng) :
    (ng.rm.globalExhaust = true ↔
      ∀ e ∈ given es fs ids, literalOf e ≠ none → e.2.1.contains .SINGLEMATCH = true) ∧
    (∀ id : Nat, (∃ k, alookup ng.rm.toExhaustibleKeyMap (id : Int) = some k) ↔
      ∃ e ∈ given es fs ids, literalOf e ≠ none ∧ e.2.1.contains .SINGLEMATCH = true ∧ e.2.2 = id) ∧
    (∀ (id id' : Nat) (k : Nat), alookup ng.rm.toExhaustibleKeyMap (id : Int) = some k →
      alookup ng.rm.toExhaustibleKeyMap (id' : Int) = some k → id = id') := by
  obtain ⟨_, _, _, hok⟩ := compileNg_ok hs h
  obtain ⟨seen, ⟨hnd, _, hlook⟩, _, hseen⟩ := hok.keys
  refine ⟨?_, ?_, ?_⟩
  · rw [hok.reg.exhaust]
    unfold regsOf
    rw [List.all_map, List.all_eq_true]
    constructor
    · intro hall e he hl
      obtain ⟨l, hl⟩ := Option.ne_none_iff_exists'.1 hl
      obtain ⟨x, hx, _, _, hx3⟩ := entries_mem hon he hl
      rw [← hx3]
      exact hall x hx
    · intro hall x hx
      obtain ⟨_, e, he, hl, _, hx3⟩ := mem_entries hx
      show x.single = true
      rw [hx3]
      exact hall e he (by rw [hl]; simp)
  · intro id
    rw [hlook]
    constructor
    · rintro ⟨k, hk⟩
      by_cases hm : id ∈ seen
      · obtain ⟨x, hx, hx1, hx2⟩ := (hseen id).1 hm
        obtain ⟨_, e, he, hl, hx3, hx4⟩ := mem_entries hx
        exact ⟨e, he, by rw [hl]; simp, by rw [← hx4]; exact hx1, by rw [← hx3]; exact hx2⟩
      · rw [if_neg hm] at hk; cases hk
    · rintro ⟨e, he, hl, h1, h2⟩
      obtain ⟨l, hl⟩ := Option.ne_none_iff_exists'.1 hl
      obtain ⟨x, hx, _, hx2, hx3⟩ := entries_mem hon he hl
      rw [if_pos ((hseen id).2 ⟨x, hx, by rw [hx3]; exact h1, by rw [hx2]; exact h2⟩)]
      exact ⟨_, rfl⟩
  · intro id id' k h1 h2
    rw [hlook] at h1 h2
    by_cases hm : id ∈ seen
    · by_cases hm' : id' ∈ seen
      · rw [if_pos hm] at h1
        rw [if_pos hm'] at h2
        injection h1 with h1
        injection h2 with h2
        have e1 := List.getElem_idxOf (List.idxOf_lt_length_iff.2 hm)
        have e2 := List.getElem_idxOf (List.idxOf_lt_length_iff.2 hm')
        rw [← e1, ← e2]
        congr 1
        omega
      · rw [if_neg hm'] at h2; cases h2
    · rw [if_neg hm] at h1; cases h1

example : (match compileNg .release ["a".toList, "b".toList, "c|d".toList]
    [Flags.SINGLEMATCH, Flags.SINGLEMATCH, Flags.empty] [9, 7, 5] .block Grey.default with
    | .ok ng => some (ng.rm.globalExhaust, alookup ng.rm.toExhaustibleKeyMap 9, alookup ng.rm.toExhaustibleKeyMap 7,
        alookup ng.rm.toExhaustibleKeyMap 5)
    | _ => none) = some (true, some 0, some 1, none) := by decide +kernel

/-! ## C63 -/

/-- C63: the mode predicates. -/
theorem C63_modes (m : Mode) :
    (m.isStreaming = true ↔ m = .vectored ∨ ∃ h, m = .stream h) ∧ (m.isVectored = true ↔ m = .vectored) ∧
    (m.somPrecision = 8 ↔ m = .vectored ∨ m = .stream (some .large)) ∧
    (m.somPrecision = 4 ↔ m = .stream (some .medium)) ∧ (m.somPrecision = 2 ↔ m = .stream (some .small)) ∧
    (m.somPrecision = 0 ↔ m = .block ∨ m = .stream none) := by
  rcases m with _ | (_ | (_ | _ | _)) | _ <;> simp [Mode.isStreaming, Mode.isVectored, Mode.somPrecision]

example : (Mode.stream (some .medium)).isStreaming = true ∧ (Mode.stream (some .medium)).somPrecision = 4 := ⟨rfl, rfl⟩

/-! ## C67 -/

/-- C67: compiling never runs forever, whatever the input and the build profile. -/
theorem C67_terminates (p : Profile) (es : List Str) (fs : List Flags) (ids : List Nat) (mode : Mode) (g : Grey)
    (hs : Sane g) : compileMultiInt p es fs ids mode g ≠ .timeout := by
  intro h
  by_cases hne : es ≠ []
  · by_cases hn : es.length ≤ g.limitPatternCount
    · rcases C58_outcome p es fs ids mode g hs hne hn with ⟨_, h2⟩ | ⟨j, e, _, _, _, h4⟩
      · rw [h2] at h; cases h
      · rw [h] at h4; cases h4
    · rw [compileMultiInt_eq] at h
      unfold compileNg at h
      rw [if_neg (by simpa using hne), if_pos (by omega)] at h
      cases h
  · have hnil : es = [] := by simpa using hne
    subst hnil
    cases h

example := C67_terminates .debug ["(a|".toList, "b)".toList] [Flags.empty, Flags.CASELESS] [0, 1] .block Grey.default sane_default

/-- C67: each step of the parse loop consumes exactly one character. -/
theorem C67_one_character (p : Profile) (ctx ctx' : Context) (c : Char) (cs : Str)
    (h : ctx.main p (c :: cs) = .ok ctx') : ctx'.p = cs := Context.main_p p ctx ctx' c cs h

example : (match (Context.new "(a".toList "(a".toList ParseMode.default).main .release "(a".toList with
    | .ok c => c.p
    | _ => []) = "a".toList := by decide +kernel

/-! ## C66 -/

/-- The flags that matter agree: CASELESS, SINGLEMATCH, and whether QUIET is combined with SOM_LEFTMOST. -/
def SameEffect (f f' : Flags) : Prop :=
  f.contains .CASELESS = f'.contains .CASELESS ∧ f.contains .SINGLEMATCH = f'.contains .SINGLEMATCH ∧
    (QuietSom f ↔ QuietSom f')

/-- `SameEffect` for each position of two lists of the same length. -/
inductive SameEffects : List Flags → List Flags → Prop
  | nil : SameEffects [] []
  | cons {f f' : Flags} {fs fs' : List Flags} : SameEffect f f' → SameEffects fs fs' →
      SameEffects (f :: fs) (f' :: fs')

theorem shortcutLiteral_congr (p : Profile) (ng : Ng) (pe pe' : ParsedExpression)
    (h1 : pe.component = pe'.component) (h2 : pe.expr.index = pe'.expr.index)
    (h3 : pe.expr.report = pe'.expr.report) (h4 : pe.expr.highlander = pe'.expr.highlander)
    (h5 : pe.expr.som = pe'.expr.som) : shortcutLiteral p ng pe = shortcutLiteral p ng pe' := by
  have hq : ∀ (lit : Ue2Literal) (i r : Nat) (hl : Bool) (s : SomType) (q q' : Bool),
      ng.addLiteral p lit i r hl s q = ng.addLiteral p lit i r hl s q' := fun _ _ _ _ _ _ _ => rfl
  unfold shortcutLiteral
  rw [h1, h2, h3, h4, h5]
  simp only [hq _ _ _ _ _ pe.expr.quiet pe'.expr.quiet]

/-- Adding an expression, once it is parsed. -/
theorem addExpression_parsed (p : Profile) (ng : Ng) (hs : Sane ng.cc.grey) (i : Nat) (t : Str) (f : Flags)
    (id : Nat) (hl : utf8Len t ≤ ng.cc.grey.limitPatternLength) (pe : ParsedExpression)
    (hpe : ParsedExpression.new p i t f id = .ok pe) :
    addExpression p ng i t f id = (shortcutLiteral p ng pe).bind (fun x => .ok x.1) := by
  obtain ⟨m, hparse, _, hexpr⟩ := parsedExpression_ok hpe
  obtain ⟨body, hb, _⟩ := (parse_ok_iff p t (ParseMode.new (f.and Flags.QUIET.not))).1 (by rw [hparse]; rfl)
  have hblen : body.length ≤ ng.cc.grey.limitPatternLength := by
    obtain ⟨v, hv, _⟩ := isBody_len hb
    have h1 := length_le_utf8Len t
    have h2 := congrArg List.length hv
    simp at h2
    omega
  obtain ⟨b, hbuild, hbexpr, _⟩ := C40_positions (ε := CompileError) p i t body f id pe hpe hb
    (by have := hs.length; omega)
  have hsom : b.expr.som = .none := by rw [hbexpr, hexpr]
  unfold addExpression
  rw [if_neg (by omega)]
  show (ParsedExpression.new p i t f id).bind _ = _
  rw [hpe]
  simp only [Outcome.bind]
  have hpf : (if pe.expr.prefilter = true then ({ pe with component := prefilterTree pe.component } : ParsedExpression) else pe) = pe := by
    split <;> rfl
  show (shortcutLiteral p ng (if pe.expr.prefilter = true then
    ({ pe with component := prefilterTree pe.component } : ParsedExpression) else pe)).bind _ = _
  simp only [hpf]
  cases hsl : shortcutLiteral p ng pe with
  | ok x =>
    obtain ⟨ng1, done⟩ := x
    simp only [Outcome.bind]
    cases done with
    | true => rfl
    | false =>
      show (buildGraph p pe).bind _ = _
      rw [hbuild]
      simp only [Outcome.bind]
      show Outcome.ok (ng1.addGraph b.expr b.graph) = _
      rw [addGraph_none _ _ _ hsom]
  | err x => rfl
  | panic x => rfl
  | timeout => rfl

theorem addExpression_congr (p : Profile) (ng : Ng) (hs : Sane ng.cc.grey) (i : Nat) (t : Str) (f f' : Flags)
    (id : Nat) (hf : SameEffect f f') : addExpression p ng i t f id = addExpression p ng i t f' id := by
  obtain ⟨hc, hsm, hq⟩ := hf
  by_cases hl : utf8Len t > ng.cc.grey.limitPatternLength
  · unfold addExpression; rw [if_pos hl, if_pos hl]
  · by_cases hqs : QuietSom f
    · have h : ∀ f : Flags, QuietSom f → ParsedExpression.new p i t f id = .err (CompileError.new .other
          "QUIET is not supported in combination with SOM_LEFTMOST.") := by
        intro f hf
        unfold ParsedExpression.new
        simp only
        rw [if_pos ((contains_or_iff _ _ _).2 hf)]
      unfold addExpression
      rw [if_neg hl, if_neg hl, h f hqs, h f' (hq.1 hqs)]
    · have h : ∀ f : Flags, ¬ QuietSom f → ParsedExpression.new p i t f id =
          (parse p t (ParseMode.new (f.and Flags.QUIET.not))).bind (fun x => .ok
            ⟨{ index := i, report := id, allowVacuous := false, highlander := f.contains .SINGLEMATCH,
               utf8 := x.2.utf8, prefilter := f.contains .PREFILTER, som := .none,
               quiet := f.contains .QUIET }, x.1⟩) := by
        intro f hf
        unfold ParsedExpression.new
        simp only
        rw [if_neg (fun h => hf ((contains_or_iff _ _ _).1 h))]
        rfl
      have hf := h f hqs
      have hf' := h f' (fun h => hqs (hq.2 h))
      have h35 := C35_only_caseless_matters p t (ParseMode.new (f.and Flags.QUIET.not))
        (ParseMode.new (f'.and Flags.QUIET.not)) (by rw [C37_caseless_flag, C37_caseless_flag]; exact hc)
      cases h1 : parse p t (ParseMode.new (f.and Flags.QUIET.not)) with
      | ok x =>
        cases h2 : parse p t (ParseMode.new (f'.and Flags.QUIET.not)) with
        | ok x' =>
          rw [h1] at h35 hf
          rw [h2] at h35 hf'
          injection h35 with h35
          rw [addExpression_parsed p ng hs i t f id (by omega) _ hf,
            addExpression_parsed p ng hs i t f' id (by omega) _ hf']
          congr 1
          exact shortcutLiteral_congr p ng _ _ h35 rfl rfl hsm rfl
        | err x => rw [h1, h2] at h35; cases h35
        | panic x => rw [h1, h2] at h35; cases h35
        | timeout => rw [h1, h2] at h35; cases h35
      | err x =>
        cases h2 : parse p t (ParseMode.new (f'.and Flags.QUIET.not)) with
        | ok x' => rw [h1, h2] at h35; cases h35
        | err x' =>
          rw [h1, h2] at h35
          injection h35 with h35
          subst h35
          rw [h1] at hf
          rw [h2] at hf'
          unfold addExpression
          rw [if_neg hl, if_neg hl, hf, hf']
          rfl
        | panic x => rw [h1, h2] at h35; cases h35
        | timeout => rw [h1, h2] at h35; cases h35
      | panic x =>
        cases h2 : parse p t (ParseMode.new (f'.and Flags.QUIET.not)) with
        | ok x' => rw [h1, h2] at h35; cases h35
        | panic x' =>
          rw [h1, h2] at h35
          injection h35 with h35
          subst h35
          rw [h1] at hf
          rw [h2] at hf'
          unfold addExpression
          rw [if_neg hl, if_neg hl, hf, hf']
          rfl
        | err x => rw [h1, h2] at h35; cases h35
        | timeout => rw [h1, h2] at h35; cases h35
      | timeout => exact absurd h1 (parse_not_timeout _ _ _)

theorem addLiteral_cc {p : Profile} {ng ng' : Ng} {lit : Ue2Literal} {i r : Nat} {hl : Bool} {som : SomType}
    {q d : Bool} (h : ng.addLiteral p lit i r hl som q = .ok (ng', d)) : ng'.cc = ng.cc := by
  unfold Ng.addLiteral at h
  obtain ⟨_, _, h⟩ := bind_eq_ok h
  split at h
  · injection h with h; injection h with h; subst h; rfl
  · split at h
    · injection h with h; injection h with h; subst h; rfl
    · split at h
      · cases h
      · obtain ⟨⟨rm, rose, id⟩, _, h⟩ := bind_eq_ok h
        simp only at h
        split at h
        · cases h
        · split at h
          · cases h
          · obtain ⟨_, _, h⟩ := bind_eq_ok h
            injection h with h; injection h with h; subst h; rfl

/-- Adding an expression leaves the context alone. -/
theorem addExpression_cc (p : Profile) (ng ng' : Ng) (hs : Sane ng.cc.grey) (i : Nat) (t : Str) (f : Flags)
    (id : Nat) (h : addExpression p ng i t f id = .ok ng') : ng'.cc = ng.cc := by
  by_cases hl : utf8Len t > ng.cc.grey.limitPatternLength
  · unfold addExpression at h; rw [if_pos hl] at h; cases h
  · have hpe : ∃ pe, ParsedExpression.new p i t f id = .ok pe := by
      unfold addExpression at h
      rw [if_neg hl] at h
      obtain ⟨pe, hpe, _⟩ := bind_eq_ok h
      exact ⟨pe, hpe⟩
    obtain ⟨pe, hpe⟩ := hpe
    rw [addExpression_parsed p ng hs i t f id (by omega) pe hpe] at h
    obtain ⟨⟨ng1, done⟩, h1, h2⟩ := bind_eq_ok h
    injection h2 with h2
    subst h2
    unfold shortcutLiteral at h1
    split at h1
    · injection h1 with h1; injection h1 with h1; subst h1; rfl
    · split at h1
      · injection h1 with h1; injection h1 with h1; subst h1; rfl
      · cases h1
      · cases h1
      · split at h1
        · injection h1 with h1; injection h1 with h1; subst h1; rfl
        · obtain ⟨_, _, h1⟩ := bind_eq_ok h1
          exact addLiteral_cc h1

theorem addAll_congr (p : Profile) : ∀ (es : List Str) (fs fs' : List Flags) (ids : List Nat) (i : Nat)
    (ng : Ng), Sane ng.cc.grey → SameEffects fs fs' →
    addAll p i ng (given es fs ids) = addAll p i ng (given es fs' ids) := by
  intro es
  induction es with
  | nil => intros; rfl
  | cons t es ih =>
    intro fs fs' ids i ng hs hf
    cases hf with
    | nil => rfl
    | @cons f f' fs fs' h1 h2 =>
      cases ids with
      | nil => rfl
      | cons id ids =>
        have hc := addExpression_congr p ng hs i t f f' id h1
        show addAll p i ng ((t, f, id) :: given es fs ids) = addAll p i ng ((t, f', id) :: given es fs' ids)
        rw [addAll, addAll, ← hc]
        cases hr : addExpression p ng i t f id with
        | ok ng' => exact ih fs fs' ids (i + 1) ng' (by rw [addExpression_cc p ng ng' hs i t f id hr]; exact hs) h2
        | err x => rfl
        | panic x => rfl
        | timeout => rfl

/-- C66, exactly which flags matter: compiling, including all of its bookkeeping, depends only on CASELESS,
SINGLEMATCH and on whether QUIET is combined with SOM_LEFTMOST. -/
theorem C66_flags_partial (p : Profile) (es : List Str) (fs fs' : List Flags) (ids : List Nat) (mode : Mode)
    (g : Grey) (hs : Sane g) (hf : SameEffects fs fs') :
    compileNg p es fs ids mode g = compileNg p es fs' ids mode g ∧
    compileMultiInt p es fs ids mode g = compileMultiInt p es fs' ids mode g := by
  have : compileNg p es fs ids mode g = compileNg p es fs' ids mode g := by
    unfold compileNg
    split
    · rfl
    · split
      · rfl
      · rw [izip_eq, izip_eq]
        exact addAll_congr p es fs fs' ids 0 _ hs hf
  exact ⟨this, by rw [compileMultiInt_eq, compileMultiInt_eq, this]⟩

example : SameEffects [Flags.empty, Flags.CASELESS] [Flags.UTF8, Flags.CASELESS.or Flags.DOTALL] ∧ Sane Grey.default := by
  refine ⟨.cons ?_ (.cons ?_ .nil), sane_default⟩ <;> (unfold SameEffect QuietSom; decide)

theorem or_contains (f x a : Flags) (h : x.bits &&& a.bits = 0#16) :
    (f.or x).contains a = f.contains a := by
  unfold Flags.or Flags.contains
  simp only
  have : (f.bits ||| x.bits) &&& a.bits = f.bits &&& a.bits := by
    apply BitVec.eq_of_getLsbD_eq
    intro i _
    have := congrArg (fun v => v.getLsbD i) h
    simp only [BitVec.getLsbD_and, BitVec.getLsbD_zero] at this
    simp only [BitVec.getLsbD_and, BitVec.getLsbD_or]
    cases hx : x.bits.getLsbD i <;> cases ha : a.bits.getLsbD i <;> rw [hx, ha] at this <;> simp at this ⊢
  rw [this]

/-- C66, full statement: for some expressions without QUIET, asking for start of match or for empty matches
changes the result or the bookkeeping. -/
def SomHonoured : Prop :=
  ∃ (p : Profile) (es : List Str) (fs : List Flags) (ids : List Nat) (mode : Mode),
    (∀ f ∈ fs, f.contains .QUIET = false) ∧
    compileNg p es (fs.map (·.or (Flags.SOM_LEFTMOST.or .ALLOWEMPTY))) ids mode Grey.default
      ≠ compileNg p es fs ids mode Grey.default

/-- C66 is false: never. -/
theorem C66_false : ¬ SomHonoured := by
  rintro ⟨p, es, fs, ids, mode, hq, hne⟩
  apply hne
  apply (C66_flags_partial p es _ fs ids mode Grey.default sane_default ?_).1
  clear hne
  induction fs with
  | nil => exact .nil
  | cons f fs ih =>
    refine .cons ?_ (ih (fun f hf => hq f (List.mem_cons_of_mem _ hf)))
    have hqf := hq f List.mem_cons_self
    refine ⟨or_contains f _ _ (by decide), or_contains f _ _ (by decide), ?_⟩
    unfold QuietSom
    rw [or_contains f _ .QUIET (by decide), hqf]
    simp

example : SameEffects [Flags.CASELESS, Flags.QUIET] [⟨0x0051#16⟩, Flags.UTF8] := by
  refine .cons ?_ (.cons ?_ .nil) <;> (unfold SameEffect QuietSom; decide)

end Rescan
