import Verif.Props.Patterns
import Verif.Spec.Express
/-! # C115: what patterns can express -/
namespace Rescan
open Spec

/-! ## The strings of a tree, listed -/

theorem mem_members (s : U8 → Bool) (b : U8) : b ∈ members s ↔ s b = true := by
  unfold members
  rw [List.mem_filter]
  refine ⟨fun h => h.2, fun h => ⟨?_, h⟩⟩
  simp only [allBytes, List.mem_map, List.mem_range]
  exact ⟨b.toNat, b.isLt, by simp⟩

mutual
theorem words_spec : ∀ (c : Component) (w : List U8), Lang c w ↔ w ∈ words c
  | .alternation (.mk cs), w => by simp only [Lang, words]; exact wordsAny_spec cs w
  | .cls (.ascii a), w => by
    simp only [Lang, words, List.mem_map, mem_members]
    exact ⟨fun ⟨b, h1, h2⟩ => ⟨b, h2, h1.symm⟩, fun ⟨b, h1, h2⟩ => ⟨b, h2.symm, h1⟩⟩
  | .sequence s, w => by simp only [Lang, words]; exact wordsSeq_spec s w
theorem wordsSeq_spec : ∀ (s : ComponentSequence) (w : List U8), LangSeq s w ↔ w ∈ wordsSeq s
  | .mk cs _ _ _, w => by simp only [LangSeq, wordsSeq]; exact wordsAll_spec cs w
theorem wordsAll_spec : ∀ (cs : List Component) (w : List U8), LangAll cs w ↔ w ∈ wordsAll cs
  | [], w => by simp [LangAll, wordsAll]
  | c :: cs, w => by
    simp only [LangAll, wordsAll, List.mem_flatMap, List.mem_map, words_spec c, wordsAll_spec cs]
    exact ⟨fun ⟨v, u, h1, h2, h3⟩ => ⟨v, h2, u, h3, h1.symm⟩,
      fun ⟨v, h2, u, h3, h1⟩ => ⟨v, u, h1.symm, h2, h3⟩⟩
theorem wordsAny_spec : ∀ (ss : List ComponentSequence) (w : List U8), LangAny ss w ↔ w ∈ wordsAny ss
  | [], w => by simp [LangAny, wordsAny]
  | s :: ss, w => by simp only [LangAny, wordsAny, List.mem_append, wordsSeq_spec s, wordsAny_spec ss]
end

/-- C115: a tree matches finitely many strings, and they can be listed. -/
theorem C115_words (c : Component) (w : List U8) : Lang c w ↔ w ∈ words c := words_spec c w

example : (parse .release "a(b|cd)".toList ParseMode.default >>= fun x => .ok (words x.1)) =
    .ok [[97, 98], [97, 99, 100]] := by decide +kernel

/-! ## Every byte of a matched string is a plain character -/

theorem plain_iff (b : U8) : Plain b ↔ b.toNat < 128 ∧ ¬ special (Char.ofNat b.toNat) := by
  revert b; decide +kernel

theorem plain_casePair (a b : U8) (h : casePair a b) : Plain a ∧ Plain b := by
  have h0 : ∀ x : U8, x.toNat ≤ 122 ∧ x.toNat ≠ 40 ∧ x.toNat ≠ 41 → Plain x := by
    rintro x ⟨h1, h2, h3⟩
    refine ⟨by omega, ?_, ?_, ?_⟩ <;> rintro rfl <;> simp at h1 h2 h3
  unfold casePair isUpper at h
  constructor <;> refine h0 _ ?_ <;> rcases h with ⟨h1, h2⟩ | ⟨h1, h2⟩ <;> omega

theorem plain_lit {caseless : Bool} {c : Char} (h : c.toNat < 128) (hs : ¬ special c) {w : List U8}
    (hw : Lang (.cls (litClass caseless c)) w) : ∀ b ∈ w, Plain b := by
  obtain ⟨b, rfl, h1⟩ := (lit_lang caseless c (by omega) w).1 hw
  intro x hx
  obtain rfl := List.mem_singleton.1 hx
  rcases h1 with h1 | ⟨_, h1⟩
  · rw [plain_iff, h1]
    exact ⟨h, by rwa [Char.ofNat_toNat]⟩
  · exact (plain_casePair _ _ h1).1

mutual
theorem Item.plain {cl : Bool} : ∀ (i : Item) (w : List U8), i.Wf → IsAscii i.print →
    i.lang (litClass cl) w → ∀ b ∈ w, Plain b
  | .lit c, w, h, ha, hw => plain_lit (ha c (by simp [Item.print])) h hw
  | .group a, w, h, ha, hw => Alts.plain a w h (fun c hc => ha c (by simp [Item.print, hc])) hw
theorem Seq.plain {cl : Bool} : ∀ (s : Seq) (w : List U8), s.Wf → IsAscii s.print →
    s.lang (litClass cl) w → ∀ b ∈ w, Plain b
  | .nil, w, _, _, hw => by cases (show w = [] from hw); simp
  | .cons i s, w, h, ha, hw => by
    simp only [Seq.print, isAscii_append] at ha
    obtain ⟨w1, w2, rfl, h1, h2⟩ := hw
    intro b hb
    rcases List.mem_append.1 hb with hb | hb
    · exact Item.plain i w1 h.1 ha.1 h1 b hb
    · exact Seq.plain s w2 h.2 ha.2 h2 b hb
theorem Alts.plain {cl : Bool} : ∀ (a : Alts) (w : List U8), a.Wf → IsAscii a.print →
    a.lang (litClass cl) w → ∀ b ∈ w, Plain b
  | .one s, w, h, ha, hw => Seq.plain s w h ha hw
  | .more s a, w, h, ha, hw => by
    simp only [Alts.print, isAscii_append] at ha
    rcases hw with hw | hw
    · exact Seq.plain s w h.1 ha.1 hw
    · exact Alts.plain a w h.2 (fun c hc => ha.2 c (by simp [hc])) hw
end

mutual
theorem Item.inhabited {cl : Bool} : ∀ (i : Item), IsAscii i.print → ∃ w, i.lang (litClass cl) w
  | .lit c, h => by
    have := h c (by simp [Item.print])
    exact ⟨[BitVec.ofNat 8 c.toNat], (lit_lang cl c (by omega) _).2 ⟨_, rfl, .inl (by simp; omega)⟩⟩
  | .group a, h => Alts.inhabited a (fun c hc => h c (by simp [Item.print, hc]))
theorem Seq.inhabited {cl : Bool} : ∀ (s : Seq), IsAscii s.print → ∃ w, s.lang (litClass cl) w
  | .nil, _ => ⟨[], rfl⟩
  | .cons i s, h => by
    simp only [Seq.print, isAscii_append] at h
    obtain ⟨w1, h1⟩ := Item.inhabited i h.1
    obtain ⟨w2, h2⟩ := Seq.inhabited s h.2
    exact ⟨w1 ++ w2, w1, w2, rfl, h1, h2⟩
theorem Alts.inhabited {cl : Bool} : ∀ (a : Alts), IsAscii a.print → ∃ w, a.lang (litClass cl) w
  | .one s, h => Seq.inhabited s h
  | .more s a, h => by
    simp only [Alts.print, isAscii_append] at h
    obtain ⟨w, h1⟩ := Seq.inhabited s h.1
    exact ⟨w, .inl h1⟩
end

/-! ## Spelling out a list of strings -/

theorem CaseEq.refl : ∀ w : List U8, CaseEq w w
  | [] => trivial
  | _ :: w => ⟨.inl rfl, CaseEq.refl w⟩

theorem casePair_partner {a b c : U8} (h1 : casePair a b) (h2 : casePair b c) : a = c := by
  apply BitVec.eq_of_toNat_eq
  unfold casePair isUpper at h1 h2
  rcases h1 with ⟨h1, e1⟩ | ⟨h1, e1⟩ <;> rcases h2 with ⟨h2, e2⟩ | ⟨h2, e2⟩ <;> omega

theorem CaseEq.trans : ∀ {u v w : List U8}, CaseEq u v → CaseEq v w → CaseEq u w
  | [], [], [], _, _ => trivial
  | a :: u, b :: v, c :: w, h1, h2 => by
    refine ⟨?_, CaseEq.trans h1.2 h2.2⟩
    rcases h1.1 with rfl | h3
    · exact h2.1
    · rcases h2.1 with rfl | h4
      · exact .inr h3
      · exact .inl (casePair_partner h3 h4)
  | [], _ :: _, _, h, _ => h.elim
  | _ :: _, [], _, h, _ => h.elim
  | [], [], _ :: _, _, h => h.elim
  | _ :: _, _ :: _, [], _, h => h.elim

def seqOf : List U8 → Seq
  | [] => .nil
  | b :: w => .cons (.lit (Char.ofNat b.toNat)) (seqOf w)

def altsOf : List (List U8) → Alts
  | [] => .one .nil
  | [w] => .one (seqOf w)
  | w :: v :: ws => .more (seqOf w) (altsOf (v :: ws))

theorem toNat_ofNat_byte (b : U8) : (Char.ofNat b.toNat).toNat = b.toNat := by
  revert b; decide +kernel

theorem seqOf_print : ∀ w, (seqOf w).print = textOf w
  | [] => rfl
  | b :: w => by simp [seqOf, Seq.print, Item.print, textOf, seqOf_print w]

theorem altsOf_print : ∀ ws, (altsOf ws).print = spellOut ws
  | [] => rfl
  | [w] => by simp [altsOf, spellOut, Alts.print, seqOf_print]
  | w :: v :: ws => by simp [altsOf, spellOut, Alts.print, seqOf_print, altsOf_print (v :: ws)]

theorem seqOf_wf : ∀ w : List U8, (∀ b ∈ w, Plain b) → (seqOf w).Wf
  | [], _ => trivial
  | b :: w, h => ⟨((plain_iff b).1 (h b (by simp))).2, seqOf_wf w (fun x hx => h x (by simp [hx]))⟩

theorem altsOf_wf : ∀ ws : List (List U8), (∀ w ∈ ws, ∀ b ∈ w, Plain b) → (altsOf ws).Wf
  | [], _ => trivial
  | [w], h => seqOf_wf w (h w (by simp))
  | w :: v :: ws, h => ⟨seqOf_wf w (h w (by simp)), altsOf_wf (v :: ws) (fun x hx => h x (by simp at hx; simp [hx]))⟩

theorem seqOf_lang : ∀ (w u : List U8), (seqOf w).lang (litClass false) u ↔ u = w
  | [], u => Iff.rfl
  | b :: w, u => by
    have hb : (Char.ofNat b.toNat).toNat < 256 := by rw [toNat_ofNat_byte]; exact b.isLt
    simp only [seqOf, Seq.lang, Item.lang, lit_lang false _ hb, toNat_ofNat_byte, seqOf_lang w,
      Bool.false_eq_true, false_and, or_false, BitVec.toNat_inj]
    constructor
    · rintro ⟨_, _, rfl, ⟨_, rfl, rfl⟩, rfl⟩; rfl
    · rintro rfl; exact ⟨[b], w, rfl, ⟨b, rfl, rfl⟩, rfl⟩

theorem altsOf_lang : ∀ (ws : List (List U8)) (u : List U8), ws ≠ [] →
    ((altsOf ws).lang (litClass false) u ↔ u ∈ ws)
  | [], _, h => absurd rfl h
  | [w], u, _ => by simp [altsOf, Alts.lang, seqOf_lang]
  | w :: v :: ws, u, _ => by
    simp only [altsOf, Alts.lang, seqOf_lang, altsOf_lang (v :: ws) u (by simp), List.mem_cons]

theorem spellOut_chars : ∀ (ws : List (List U8)), (∀ w ∈ ws, ∀ b ∈ w, Plain b) →
    ∀ c ∈ spellOut ws, c.toNat < 128 ∧ c ≠ '(' ∧ c ≠ ')' := by
  have ht : ∀ w : List U8, (∀ b ∈ w, Plain b) → ∀ c ∈ textOf w, c.toNat < 128 ∧ c ≠ '(' ∧ c ≠ ')' := by
    intro w h c hc
    obtain ⟨b, hb, rfl⟩ := List.mem_map.1 hc
    have := (plain_iff b).1 (h b hb)
    rw [toNat_ofNat_byte]
    exact ⟨this.1, fun e => this.2 (.inl e), fun e => this.2 (.inr (.inl e))⟩
  intro ws
  induction ws with
  | nil => intro _ c hc; cases hc
  | cons w ws ih =>
    intro h c hc
    cases ws with
    | nil => exact ht w (h w (by simp)) c hc
    | cons v ws =>
      simp only [spellOut, List.mem_append, List.mem_cons] at hc
      rcases hc with hc | rfl | hc
      · exact ht w (h w (by simp)) c hc
      · decide
      · exact ih (fun x hx => h x (by simp [hx])) c hc

theorem noVerb_of_no_open {s : Str} (h : '(' ∉ s) : NoVerb s := by
  rintro v rest ⟨h1, _, _⟩
  exact h (by rw [h1]; simp)

/-- C115: the pattern spelling out strings of plain characters is accepted by every build and matches
these strings and no others; parsed without regard to case it matches the strings equal to one of
them but for the case of letters. -/
theorem C115_spelled (pr : Profile) (mode : ParseMode) (ws : List (List U8)) (hne : ws ≠ [])
    (hp : ∀ w ∈ ws, ∀ b ∈ w, Plain b) :
    ∃ c m, parse pr (spellOut ws) mode = .ok (c, m) ∧
      ∀ u, Lang c u ↔ if mode.caseless = true then ∃ w ∈ ws, CaseEq w u else u ∈ ws := by
  have hch := spellOut_chars ws hp
  have hopen : '(' ∉ spellOut ws := fun h => (hch _ h).2.1 rfl
  have hbody : IsBody (spellOut ws) (spellOut ws) := .inl ⟨noVerb_of_no_open hopen, rfl⟩
  have hascii : IsAscii (altsOf ws).print := by
    rw [altsOf_print]; exact fun c hc => (hch c hc).1
  obtain ⟨c, m, h1, h2⟩ := tree_denotes (s := spellOut ws) (mode := mode)
    (L := (altsOf ws).lang (litClass mode.caseless)) (altsOf ws) (altsOf_wf ws hp)
    (by rw [altsOf_print]; exact hbody) hascii (fun _ => Iff.rfl)
  refine ⟨c, m, ?_, fun u => ?_⟩
  · cases pr with
    | release => exact h1
    | debug =>
      rw [← C78_parse, h1]
      rw [Bool.eq_false_iff]
      intro hpanic
      obtain ⟨body, n, x, hb, hn, hx, _⟩ := (C33_panics_partial _ _ _).1 hpanic
      obtain rfl := isBody_unique hb hbody
      have hmem : x ∈ spellOut ws := List.mem_of_getElem? hn
      rcases hx with hx | ⟨_, rfl, _⟩
      · have := (hch x hmem).1; omega
      · exact hopen hmem
  · rw [h2]
    cases hc : mode.caseless with
    | false => simpa using altsOf_lang ws u hne
    | true => simp only [Alts.closure _ u hascii, altsOf_lang ws _ hne, if_true]

example := C115_spelled .debug { ParseMode.default with caseless := true } [[97, 98], [], [42]] (by simp) (by decide +kernel)

example : spellOut [[97, 98], [], [42]] = "ab||*".toList := by decide +kernel

theorem lang_facts {pr : Profile} {s : Str} {mode m : ParseMode} {c : Component}
    (h : parse pr s mode = .ok (c, m)) :
    words c ≠ [] ∧ (∀ w, Lang c w → ∀ b ∈ w, Plain b) ∧
      (mode.caseless = true → ∀ v w, Lang c v → CaseEq v w → Lang c w) := by
  obtain ⟨a, ⟨a1, a2, a3, rfl⟩, _⟩ := C30_parse_sound _ _ _ _ _ (litClass mode.caseless)
    (fun c hc => litClass_spec _ c (by omega)) h
  refine ⟨fun hw => ?_, fun w hw => ?_, fun hc v w hv hvw => ?_⟩
  · obtain ⟨w, h1⟩ := Alts.inhabited (cl := mode.caseless) a a3
    have := (words_spec _ _).1 ((Alts.lang_root _ a w).2 h1)
    rw [hw] at this; cases this
  · rw [Alts.lang_root] at hw
    exact Alts.plain a w a1 a3 hw
  · rw [Alts.lang_root, hc] at hv ⊢
    obtain ⟨u, h1, h2⟩ := (Alts.closure a v a3).1 hv
    exact (Alts.closure a w a3).2 ⟨u, h1, CaseEq.trans h2 hvw⟩

/-- C115: exactly which sets of strings some pattern matches: the finite non-empty ones in which every
byte is ASCII and none of `(`, `)` and `|`, and, if case does not count, which with a string contain
those equal to it but for the case of letters. -/
theorem C115_languages (pr : Profile) (mode : ParseMode) (L : List U8 → Prop) :
    (∃ s c m, parse pr s mode = .ok (c, m) ∧ ∀ w, Lang c w ↔ L w) ↔
      (∃ ws : List (List U8), ws ≠ [] ∧ ∀ w, L w ↔ w ∈ ws) ∧ (∀ w, L w → ∀ b ∈ w, Plain b) ∧
        (mode.caseless = true → ∀ v w, L v → CaseEq v w → L w) := by
  constructor
  · rintro ⟨s, c, m, h1, h2⟩
    obtain ⟨f1, f2, f3⟩ := lang_facts h1
    refine ⟨⟨words c, f1, fun w => by rw [← h2, words_spec]⟩, fun w hw => f2 w ((h2 w).2 hw),
      fun hc v w hv hvw => (h2 w).1 (f3 hc v w ((h2 v).2 hv) hvw)⟩
  · rintro ⟨⟨ws, h1, h2⟩, h3, h4⟩
    obtain ⟨c, m, h5, h6⟩ := C115_spelled pr mode ws h1 (fun w hw => h3 w ((h2 w).2 hw))
    refine ⟨_, c, m, h5, fun w => ?_⟩
    rw [h6]
    split
    · rename_i hc
      constructor
      · rintro ⟨v, hv, hvw⟩; exact h4 hc v w ((h2 v).2 hv) hvw
      · intro hw; exact ⟨w, (h2 w).1 hw, CaseEq.refl w⟩
    · exact (h2 w).symm

example : ∃ s c m, parse .debug s ParseMode.default = .ok (c, m) ∧
    ∀ w, Lang c w ↔ w = [] ∨ w = [97, 98] :=
  (C115_languages .debug ParseMode.default (fun w => w = [] ∨ w = [97, 98])).2
    ⟨⟨[[], [97, 98]], by simp, by simp⟩, by rintro w (rfl | rfl) <;> decide +kernel, by intro h; cases h⟩

example : ¬ ∃ s c m, parse .release s ParseMode.default = .ok (c, m) ∧ ∀ w, Lang c w ↔ w = [40] := by
  rw [C115_languages]
  rintro ⟨_, h, _⟩
  exact absurd (h [40] rfl 40 (by simp)) (by decide)

/-- C115: groups and control verbs add nothing: the pattern spelling out the strings an accepted
pattern matches has no parenthesis, every build accepts it, and it matches the same strings. -/
theorem C115_no_groups (pr : Profile) (s : Str) (mode m : ParseMode) (c : Component)
    (h : parse pr s mode = .ok (c, m)) :
    (∀ x ∈ spellOut (words c), x ≠ '(' ∧ x ≠ ')') ∧
      ∀ pr', ∃ c' m', parse pr' (spellOut (words c)) mode = .ok (c', m') ∧ ∀ w, Lang c' w ↔ Lang c w := by
  obtain ⟨f1, f2, f3⟩ := lang_facts h
  have hp : ∀ w ∈ words c, ∀ b ∈ w, Plain b := fun w hw => f2 w ((words_spec c w).2 hw)
  refine ⟨fun x hx => (spellOut_chars _ hp x hx).2, fun pr' => ?_⟩
  obtain ⟨c', m', h5, h6⟩ := C115_spelled pr' mode (words c) f1 hp
  refine ⟨c', m', h5, fun w => ?_⟩
  rw [h6]
  split
  · rename_i hc
    constructor
    · rintro ⟨v, hv, hvw⟩; exact f3 hc v w ((words_spec c v).2 hv) hvw
    · intro hw; exact ⟨w, (words_spec c w).1 hw, CaseEq.refl w⟩
  · exact (words_spec c w).symm

example : ∃ x, parse .release "(*UTF8)a(b|cd)".toList ParseMode.default = .ok x ∧
    spellOut (words x.1) = "ab|acd".toList :=
  Outcome.exists_ok (x := parse .release "(*UTF8)a(b|cd)".toList ParseMode.default)
    (q := fun x => spellOut (words x.1) = "ab|acd".toList) (by decide +kernel)

/-- C115: what two patterns match, what the one but not the other matches, and the strings made of one
of each are what a pattern matches too — the first two if there is any such string. -/
theorem C115_closed (pr : Profile) (s t : Str) (mode m n : ParseMode) (c d : Component)
    (h1 : parse pr s mode = .ok (c, m)) (h2 : parse pr t mode = .ok (d, n)) :
    ((∃ w, Lang c w ∧ Lang d w) → ∃ u e k, parse pr u mode = .ok (e, k) ∧
      ∀ w, Lang e w ↔ Lang c w ∧ Lang d w) ∧
    ((∃ w, Lang c w ∧ ¬ Lang d w) → ∃ u e k, parse pr u mode = .ok (e, k) ∧
      ∀ w, Lang e w ↔ Lang c w ∧ ¬ Lang d w) ∧
    (∃ u e k, parse pr u mode = .ok (e, k) ∧ ∀ w, Lang e w ↔ Lang c w ∨ Lang d w) ∧
    (∃ u e k, parse pr u mode = .ok (e, k) ∧
      ∀ w, Lang e w ↔ ∃ w1 w2, w = w1 ++ w2 ∧ Lang c w1 ∧ Lang d w2) := by
  obtain ⟨f1, f2, f3⟩ := lang_facts h1
  obtain ⟨g1, g2, g3⟩ := lang_facts h2
  have symm : ∀ {v w : List U8}, CaseEq v w → CaseEq w v := by
    intro v
    induction v with
    | nil => intro w h; cases w with
      | nil => exact h
      | cons _ _ => exact h.elim
    | cons a v ih => intro w h; cases w with
      | nil => exact h.elim
      | cons b w => exact ⟨h.1.elim (fun e => .inl e.symm) (fun e => .inr (casePair_symm e)), ih h.2⟩
  refine ⟨?_, ?_, ?_, ?_⟩
  · rintro ⟨w, hw1, hw2⟩
    refine (C115_languages pr mode _).2 ⟨⟨(words c).filter (· ∈ words d), ?_, ?_⟩, ?_, ?_⟩
    · exact List.ne_nil_of_mem (List.mem_filter.2 ⟨(words_spec c w).1 hw1, decide_eq_true ((words_spec d w).1 hw2)⟩)
    · intro w; simp [words_spec]
    · exact fun w hw => f2 w hw.1
    · exact fun hc v w hv hvw => ⟨f3 hc v w hv.1 hvw, g3 hc v w hv.2 hvw⟩
  · rintro ⟨w, hw1, hw2⟩
    refine (C115_languages pr mode _).2 ⟨⟨(words c).filter (· ∉ words d), ?_, ?_⟩, ?_, ?_⟩
    · exact List.ne_nil_of_mem (List.mem_filter.2
        ⟨(words_spec c w).1 hw1, decide_eq_true (fun h => hw2 ((words_spec d w).2 h))⟩)
    · intro w; simp [words_spec]
    · exact fun w hw => f2 w hw.1
    · exact fun hc v w hv hvw => ⟨f3 hc v w hv.1 hvw, fun h => hv.2 (g3 hc w v h (symm hvw))⟩
  · refine (C115_languages pr mode _).2 ⟨⟨words c ++ words d, ?_, ?_⟩, ?_, ?_⟩
    · simp [f1]
    · intro w; simp [words_spec]
    · exact fun w hw => hw.elim (f2 w) (g2 w)
    · exact fun hc v w hv hvw => hv.imp (fun h => f3 hc v w h hvw) (fun h => g3 hc v w h hvw)
  · refine (C115_languages pr mode _).2
      ⟨⟨(words c).flatMap (fun v => (words d).map (fun w => v ++ w)), ?_, ?_⟩, ?_, ?_⟩
    · obtain ⟨x, hx⟩ := List.exists_mem_of_ne_nil _ f1
      obtain ⟨y, hy⟩ := List.exists_mem_of_ne_nil _ g1
      exact List.ne_nil_of_mem (List.mem_flatMap.2 ⟨x, hx, List.mem_map.2 ⟨y, hy, rfl⟩⟩)
    · intro w
      simp only [List.mem_flatMap, List.mem_map, words_spec]
      exact ⟨fun ⟨v, u, h1, h2, h3⟩ => ⟨v, h2, u, h3, h1.symm⟩,
        fun ⟨v, h2, u, h3, h1⟩ => ⟨v, u, h1.symm, h2, h3⟩⟩
    · rintro w ⟨w1, w2, rfl, hw1, hw2⟩ b hb
      exact (List.mem_append.1 hb).elim (f2 _ hw1 b) (g2 _ hw2 b)
    · rintro hc v w ⟨v1, v2, rfl, hv1, hv2⟩ hvw
      obtain ⟨w1, w2, rfl, e1, e2⟩ := hvw.split
      exact ⟨w1, w2, rfl, f3 hc _ _ hv1 e1, g3 hc _ _ hv2 e2⟩

example : ∃ x y, parse .release "a(b|c)".toList ParseMode.default = .ok x ∧
    parse .release "ab|d".toList ParseMode.default = .ok y ∧
    (words x.1).filter (· ∈ words y.1) = [[97, 98]] ∧ (words x.1).filter (· ∉ words y.1) = [[97, 99]] := by
  obtain ⟨x, h, hx⟩ := Outcome.exists_ok (x := parse .release "a(b|c)".toList ParseMode.default)
    (q := fun x => words x.1 = [[97, 98], [97, 99]]) (by decide +kernel)
  obtain ⟨y, h', hy⟩ := Outcome.exists_ok (x := parse .release "ab|d".toList ParseMode.default)
    (q := fun x => words x.1 = [[97, 98], [100]]) (by decide +kernel)
  exact ⟨x, y, h, h', by rw [hx, hy]; decide, by rw [hx, hy]; decide⟩

end Rescan
