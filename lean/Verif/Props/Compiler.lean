import Verif.Proofs.Compile
/-! # C49-C58: compiling and scanning

`Sane g` (Proofs/Compile.lean) says that the limits of `g` fit the integer types; `sane_default` shows it
for the settings `compile` and `compile_multi` use. -/
namespace Rescan
open Spec

/-- The triples that are looked at. -/
abbrev given (es : List Str) (fs : List Flags) (ids : List Nat) : List Expr := es.zip (fs.zip ids)

/-- The mode recorded by a database compiled for `mode`. -/
def recorded : Mode → Mode
  | .block => .block
  | .stream _ => .stream none
  | .vectored => .vectored

theorem compileMultiInt_eq (p : Profile) (es : List Str) (fs : List Flags) (ids : List Nat) (mode : Mode)
    (g : Grey) : compileMultiInt p es fs ids mode g
      = (compileNg p es fs ids mode g).bind (fun ng => .ok (build ng)) := rfl

theorem build_ngOk {mode : Mode} {g : Grey} {np : Nat} {h : List LitEntry} {ng : Ng}
    (hok : NgOk ⟨mode.isStreaming, mode.isVectored, g⟩ np h ng) :
    build ng = ⟨⟨.fullRose, recorded mode⟩⟩ := by
  unfold build RoseBuild.buildRose
  rw [hok.rose]
  cases mode <;> rfl

/-- C58, C49: the exact outcome of compiling, in both profiles. Either every expression can be added and
the database is the one determined by the mode, or there is a first one that cannot, and `Refused` says
what is returned. -/
theorem C58_outcome (p : Profile) (es : List Str) (fs : List Flags) (ids : List Nat) (mode : Mode) (g : Grey)
    (hs : Sane g) (hne : es ≠ []) (hn : es.length ≤ g.limitPatternCount) :
    ((∀ (j : Nat) (e : Expr), (given es fs ids)[j]? = some e → Addable p g (given es fs ids) j e) ∧
      compileMultiInt p es fs ids mode g = .ok ⟨⟨.fullRose, recorded mode⟩⟩) ∨
    (∃ (j : Nat) (e : Expr), (given es fs ids)[j]? = some e ∧ ¬ Addable p g (given es fs ids) j e ∧
      (∀ (k : Nat) (e' : Expr), k < j → (given es fs ids)[k]? = some e' → Addable p g (given es fs ids) k e') ∧
      Refused p g (entriesFrom (litsOn g) 0 ((given es fs ids).take j)) j e
        (compileMultiInt p es fs ids mode g)) := by
  rcases compileNg_spec p es fs ids mode g hs hne hn with ⟨h1, ng, h2, h3⟩ | ⟨j, e, h1, h2, h3, h4⟩
  · left
    refine ⟨h1, ?_⟩
    rw [compileMultiInt_eq, h2]
    show Outcome.ok (build ng) = _
    rw [build_ngOk h3]
  · right
    exact ⟨j, e, h1, h2, h3, Refused.map _ h4⟩

example := C58_outcome .release ["ab".toList, "(c|d)".toList] [Flags.CASELESS, Flags.empty] [1, 2] .block Grey.default
  sane_default (by simp) (by decide)

theorem Spec.Refused.not_ok {α : Type} {p : Profile} {g : Grey} {h : List LitEntry} {j : Nat} {e : Expr}
    {r : Res α} (hr : Refused p g h j e r) : r.isOk = false := by
  cases hr <;> rfl

theorem mem_entriesFrom (on : Bool) : ∀ (es : List Expr) (i : Nat) (x : LitEntry),
    x ∈ entriesFrom on i es ↔ on = true ∧ ∃ (j : Nat) (e : Expr) (l : List (U8 × Bool)),
      es[j]? = some e ∧ literalOf e = some l ∧ x = ⟨i + j, l, e.2.2, e.2.1.contains .SINGLEMATCH⟩ := by
  intro es
  induction es with
  | nil => intro i x; simp [entriesFrom]
  | cons a es ih =>
    intro i x
    rw [entriesFrom_cons, List.mem_append, ih]
    constructor
    · rintro (h | ⟨h1, j, e, l, h2, h3, h4⟩)
      · simp only [entriesFrom] at h
        cases on with
        | false => simp at h
        | true =>
          simp only [if_true] at h
          cases hl : literalOf a with
          | none => rw [hl] at h; simp at h
          | some l =>
            rw [hl] at h
            simp only [List.mem_singleton] at h
            exact ⟨rfl, 0, a, l, rfl, hl, h⟩
      · exact ⟨h1, j + 1, e, l, h2, h3, by rw [h4, show i + 1 + j = i + (j + 1) by omega]⟩
    · rintro ⟨h1, j, e, l, h2, h3, h4⟩
      cases j with
      | zero =>
        left
        injection h2 with h2
        subst h2
        simp [entriesFrom, h1, h3, h4]
      | succ j =>
        right
        exact ⟨h1, j, e, l, h2, h3, by rw [h4, show i + 1 + j = i + (j + 1) by omega]⟩

/-- Two literal expressions with the same id of which exactly one is SINGLEMATCH. -/
def Conflict (l : List Expr) (i j : Nat) : Prop :=
  ∃ a b, i < j ∧ l[i]? = some a ∧ l[j]? = some b ∧ literalOf a ≠ none ∧ literalOf b ≠ none ∧
    a.2.2 = b.2.2 ∧ a.2.1.contains .SINGLEMATCH ≠ b.2.1.contains .SINGLEMATCH

theorem agrees_iff (on : Bool) (l : List Expr) (j : Nat) (e : Expr) (hj : l[j]? = some e) :
    Agrees on (entriesFrom on 0 (l.take j)) e ↔ (on = true → ∀ i, ¬ Conflict l i j) := by
  constructor
  · rintro h hon i ⟨a, b, hij, ha, hb, hla, hlb, hid, hne⟩
    rw [hj] at hb; injection hb with hb; subst hb
    obtain ⟨x, hx⟩ := Option.ne_none_iff_exists'.1 hla
    exact hne (h hon hlb ⟨i, x, a.2.2, a.2.1.contains .SINGLEMATCH⟩
      ((mem_entriesFrom _ _ _ _).2 ⟨hon, i, a, x, by rw [List.getElem?_take_of_lt hij]; exact ha, hx, by simp⟩) hid)
  · intro h hon hl x hx hid
    obtain ⟨_, i, a, y, ha, hy, rfl⟩ := (mem_entriesFrom _ _ _ _).1 hx
    have hij : i < j := by
      have := (List.getElem?_eq_some_iff.1 ha).1
      rw [List.length_take] at this; omega
    rw [List.getElem?_take_of_lt hij] at ha
    by_cases hs : a.2.1.contains .SINGLEMATCH = e.2.1.contains .SINGLEMATCH
    · exact hs
    · exact absurd ⟨a, e, hij, ha, hj, by rw [hy]; simp, hl, hid, hs⟩ (h hon i)

/-- All expressions can be added iff each is fine by itself and no two literal ones are in conflict. -/
theorem addable_all_iff (p : Profile) (g : Grey) (l : List Expr) :
    (∀ (j : Nat) (e : Expr), l[j]? = some e → Addable p g l j e) ↔
      (∀ e ∈ l, Valid p g.limitPatternLength e) ∧ (litsOn g = true → ∀ i j, ¬ Conflict l i j) := by
  constructor
  · intro h
    refine ⟨?_, ?_⟩
    · intro e he
      obtain ⟨j, hj⟩ := List.mem_iff_getElem?.1 he
      exact (h j e hj).1
    · intro hon i j hc
      obtain ⟨a, b, _, _, hb, _⟩ := id hc
      exact (agrees_iff _ _ _ _ hb).1 (h j b hb).2 hon i hc
  · rintro ⟨h1, h2⟩ j e hj
    exact ⟨h1 e (List.mem_of_getElem? hj), (agrees_iff _ _ _ _ hj).2 (fun hon i => h2 hon i j)⟩

/-- C58: exactly when compiling succeeds, in both profiles, for any settings and argument lengths. -/
theorem C58_success_iff (p : Profile) (es : List Str) (fs : List Flags) (ids : List Nat) (mode : Mode)
    (g : Grey) (hs : Sane g) :
    (compileMultiInt p es fs ids mode g).isOk = true ↔
      es ≠ [] ∧ es.length ≤ g.limitPatternCount ∧
      (∀ e ∈ given es fs ids, Valid p g.limitPatternLength e) ∧
      (litsOn g = true → ∀ i j, ¬ Conflict (given es fs ids) i j) := by
  by_cases hne : es ≠ []
  · by_cases hn : es.length ≤ g.limitPatternCount
    · rw [← addable_all_iff]
      rcases C58_outcome p es fs ids mode g hs hne hn with ⟨h1, h2⟩ | ⟨j, e, h1, h2, h3, h4⟩
      · rw [h2]
        exact ⟨fun _ => ⟨hne, hn, h1⟩, fun _ => rfl⟩
      · rw [h4.not_ok]
        constructor
        · intro h; cases h
        · rintro ⟨_, _, h⟩; exact absurd (h j e h1) h2
    · have : compileMultiInt p es fs ids mode g = .err ⟨.other, "Number of patterns too large", none⟩ := by
        rw [compileMultiInt_eq]
        unfold compileNg
        rw [if_neg (by simpa using hne), if_pos (by omega)]; rfl
      rw [this]
      exact ⟨fun h => (by cases h), fun h => absurd h.2.1 hn⟩
  · have hnil : es = [] := by simpa using hne
    subst hnil
    exact ⟨fun h => (by cases h), fun h => absurd rfl h.1⟩

example : (compileMultiInt .release ["ab".toList, "(c|d)".toList] [Flags.CASELESS, Flags.empty] [1, 2] .block Grey.default).isOk = true ∧ Sane Grey.default :=
  ⟨by decide +kernel, sane_default⟩

/-- C58 as stated: release builds, `compile_multi`, one flag set and one id per expression, ASCII
patterns. -/
theorem C58_compile_multi (es : List Str) (fs : List Flags) (ids : List Nat) (mode : Mode)
    (hne : es ≠ []) (hn : es.length ≤ 8000000) (hf : fs.length = es.length) (hi : ids.length = es.length)
    (ha : ∀ t ∈ es, IsAscii t ∧ utf8Len t ≤ 16000) :
    (compileMulti .release es fs ids mode).isOk = true ↔
      (∀ f ∈ fs, ¬ QuietSom f) ∧
      (∀ t ∈ es, ∃ body, IsBody t body ∧ Balanced body) ∧
      ∀ i j, ¬ Conflict (given es fs ids) i j := by
  have h := C58_success_iff .release es fs ids mode Grey.default sane_default
  have e1 : Grey.default.limitPatternCount = 8000000 := rfl
  have e2 : Grey.default.limitPatternLength = 16000 := rfl
  have e3 : litsOn Grey.default = true := rfl
  rw [e1, e2, e3] at h
  show (compileMultiInt .release es fs ids mode Grey.default).isOk = true ↔ _
  rw [h]
  have hmem1 : ∀ e ∈ given es fs ids, e.1 ∈ es ∧ e.2.1 ∈ fs := by
    intro e he
    obtain ⟨a, b, c⟩ := e
    have := List.of_mem_zip he
    exact ⟨this.1, (List.of_mem_zip this.2).1⟩
  have hlz : (fs.zip ids).length = es.length := by rw [List.length_zip]; omega
  constructor
  · rintro ⟨_, _, hv, hc⟩
    refine ⟨?_, ?_, hc rfl⟩
    · intro f hfm hq
      obtain ⟨i, hi', rfl⟩ := List.getElem_of_mem hfm
      have hm : (es[i], fs[i], ids[i]) ∈ given es fs ids := by
        rw [List.mem_iff_getElem?]
        exact ⟨i, by simp [List.getElem?_zip_eq_some]⟩
      exact (hv _ hm).2.1 hq
    · intro t ht
      obtain ⟨i, hi', rfl⟩ := List.getElem_of_mem ht
      have hm : (es[i], fs[i], ids[i]) ∈ given es fs ids := by
        rw [List.mem_iff_getElem?]
        exact ⟨i, by simp [List.getElem?_zip_eq_some]⟩
      obtain ⟨body, hb, _, hbal, _⟩ := (hv _ hm).2.2
      exact ⟨body, hb, hbal⟩
  · rintro ⟨hq, hb, hc⟩
    refine ⟨hne, hn, ?_, fun _ => hc⟩
    intro e he
    obtain ⟨h1, h2⟩ := hmem1 e he
    obtain ⟨body, hbody, hbal⟩ := hb _ h1
    refine ⟨(ha _ h1).2, hq _ h2, body, hbody, ?_, hbal, by intro h; cases h⟩
    obtain ⟨v, hv, _⟩ := isBody_len hbody
    intro c hc'
    exact (ha _ h1).1 c (by rw [hv]; exact List.mem_append_right _ hc')

/-- The hypotheses can be met, and both sides of the equivalence occur. -/
example : (compileMulti .release ["ab".toList, "(c|d)".toList] [Flags.CASELESS, Flags.empty] [1, 2] .block).isOk
      = true ∧
    (compileMulti .release ["ab".toList, ")".toList] [Flags.CASELESS, Flags.empty] [1, 2] .block).isOk
      = false ∧
    (∀ t ∈ ["ab".toList, "(c|d)".toList], IsAscii t ∧ utf8Len t ≤ 16000) := by
  refine ⟨by decide +kernel, by decide +kernel, ?_⟩
  unfold IsAscii
  decide +kernel

/-! ## C49 -/

theorem Spec.Refused.index {α : Type} {p : Profile} {g : Grey} {h : List LitEntry} {j : Nat} {e : Expr}
    {r : Res α} (hr : Refused p g h j e r) (x : CompileError) (hx : r = .err x) : x.index = some j := by
  cases hr <;> first | (injection hx with hx; subst hx; rfl) | cases hx

/-- C49: an error either names no expression and is about the number of expressions, or it names the
first expression that cannot be added. -/
theorem C49_first_bad (p : Profile) (es : List Str) (fs : List Flags) (ids : List Nat) (mode : Mode) (g : Grey)
    (hs : Sane g) (x : CompileError) (h : compileMultiInt p es fs ids mode g = .err x) :
    (x.index = none ∧ (es = [] ∨ es.length > g.limitPatternCount)) ∨
    (∃ (j : Nat) (e : Expr), x.index = some j ∧ (given es fs ids)[j]? = some e ∧
      ¬ Addable p g (given es fs ids) j e ∧
      ∀ (k : Nat) (e' : Expr), k < j → (given es fs ids)[k]? = some e' → Addable p g (given es fs ids) k e') := by
  by_cases hne : es ≠ []
  · by_cases hn : es.length ≤ g.limitPatternCount
    · right
      rcases C58_outcome p es fs ids mode g hs hne hn with ⟨h1, h2⟩ | ⟨j, e, h1, h2, h3, h4⟩
      · rw [h2] at h; cases h
      · exact ⟨j, e, h4.index x h, h1, h2, h3⟩
    · left
      rw [compileMultiInt_eq] at h
      unfold compileNg at h
      rw [if_neg (by simpa using hne), if_pos (by omega)] at h
      injection h with h
      subst h
      exact ⟨rfl, .inr (by omega)⟩
  · have hnil : es = [] := by simpa using hne
    subst hnil
    injection h with h
    subst h
    exact .inl ⟨rfl, .inl rfl⟩

example : ∃ x, compileMultiInt .release ["a".toList, ")".toList, "((".toList] [Flags.empty, Flags.empty, Flags.empty]
    [0, 1, 2] .block Grey.default = .err x ∧ x.index = some 1 := by
  cases h : compileMultiInt .release ["a".toList, ")".toList, "((".toList] [Flags.empty, Flags.empty, Flags.empty]
    [0, 1, 2] .block Grey.default with
  | err x =>
    refine ⟨x, rfl, ?_⟩
    have : (match compileMultiInt .release ["a".toList, ")".toList, "((".toList]
      [Flags.empty, Flags.empty, Flags.empty] [0, 1, 2] .block Grey.default with
      | .err x => x.index | _ => none) = some 1 := by decide +kernel
    rw [h] at this; exact this
  | _ => exact absurd (congrArg Outcome.isErr h) (by simp only [Outcome.isErr]; decide +kernel)

/-- C49, the other way: if `j` is the first position that cannot be added, the outcome is an error with
index `j` or a panic; never success. -/
theorem C49_reported (p : Profile) (es : List Str) (fs : List Flags) (ids : List Nat) (mode : Mode) (g : Grey)
    (hs : Sane g) (hn : es.length ≤ g.limitPatternCount) (j : Nat) (e : Expr)
    (hj : (given es fs ids)[j]? = some e) (hbad : ¬ Addable p g (given es fs ids) j e)
    (hfirst : ∀ (k : Nat) (e' : Expr), k < j → (given es fs ids)[k]? = some e' →
      Addable p g (given es fs ids) k e') :
    Refused p g (entriesFrom (litsOn g) 0 ((given es fs ids).take j)) j e
      (compileMultiInt p es fs ids mode g) ∧
    ((∃ x, compileMultiInt p es fs ids mode g = .err x ∧ x.index = some j) ∨
      (compileMultiInt p es fs ids mode g).isPanic = true) := by
  have hne : es ≠ [] := by rintro rfl; simp at hj
  rcases C58_outcome p es fs ids mode g hs hne hn with ⟨h1, _⟩ | ⟨j', e', h1, h2, h3, h4⟩
  · exact absurd (h1 j e hj) hbad
  · have hjj : j' = j := by
      rcases Nat.lt_trichotomy j' j with h | h | h
      · exact absurd (hfirst j' e' h h1) h2
      · exact h
      · exact absurd (h3 j e h hj) hbad
    subst hjj
    rw [hj] at h1
    injection h1 with h1
    subst h1
    refine ⟨h4, ?_⟩
    cases hr : compileMultiInt p es fs ids mode g with
    | ok d => rw [hr] at h4; cases h4
    | err x => exact .inl ⟨x, rfl, h4.index x hr⟩
    | panic m => exact .inr rfl
    | timeout => rw [hr] at h4; cases h4

example : (match compileMulti .release ["a".toList, ")".toList, "((".toList] [Flags.empty, Flags.empty, Flags.empty]
    [0, 1, 2] .block with
    | .err x => x.index
    | _ => none) = some 1 := by decide +kernel

/-! ## C50 -/

/-- C50, full statement: success means that every given expression is valid. -/
def EveryExpressionChecked : Prop :=
  ∀ (p : Profile) (es : List Str) (fs : List Flags) (ids : List Nat) (mode : Mode),
    (compileMulti p es fs ids mode).isOk = true → ∀ t ∈ es, Acceptable p t

/-- C50 is false: with one flag set the second pattern, `)`, is not looked at. -/
theorem C50_false : ¬ EveryExpressionChecked := by
  intro h
  have h1 := h .release ["a".toList, ")".toList] [Flags.empty] [0, 1] .block (by decide +kernel) ")".toList (by simp)
  have h2 := (parse_ok_iff .release ")".toList ParseMode.default).2 h1
  revert h2
  decide +kernel

/-- C50, what holds (missing: the expressions beyond the shortest of the three lists): after success every
expression that has a flag set and an id is valid; in particular all of them are if the lengths agree. -/
theorem C50_checked_partial (p : Profile) (es : List Str) (fs : List Flags) (ids : List Nat) (mode : Mode)
    (g : Grey) (hs : Sane g) (h : (compileMultiInt p es fs ids mode g).isOk = true) (i : Nat) (t : Str)
    (f : Flags) (id : Nat) (h1 : es[i]? = some t) (h2 : fs[i]? = some f) (h3 : ids[i]? = some id) :
    Valid p g.limitPatternLength (t, f, id) := by
  have := ((C58_success_iff p es fs ids mode g hs).1 h).2.2.1
  apply this
  rw [List.mem_iff_getElem?]
  exact ⟨i, by simp [List.getElem?_zip_eq_some, h1, h2, h3]⟩

example : Valid .release Grey.default.limitPatternLength ("(c|d)".toList, Flags.empty, 2) :=
  C50_checked_partial .release ["ab".toList, "(c|d)".toList] [Flags.CASELESS, Flags.empty] [1, 2] .block Grey.default
    sane_default (by decide +kernel) 1 _ _ _ rfl rfl rfl

/-- C50, exactly which expressions are looked at: the outcome is that of the triples alone. -/
theorem C50_truncation_partial (p : Profile) (es : List Str) (fs : List Flags) (ids : List Nat) (mode : Mode)
    (g : Grey) (hne : es ≠ []) (hn : es.length ≤ g.limitPatternCount) :
    compileNg p es fs ids mode g = addAll p 0
      (Ng.new ⟨mode.isStreaming, mode.isVectored, g⟩ es.length mode.somPrecision)
      (given (es.take (min fs.length ids.length)) fs ids) := by
  unfold compileNg
  rw [if_neg (by simpa using hne), if_neg (by omega), izip_eq]
  have hz : ∀ (es : List Str) (l : List (Flags × Nat)), es.zip l = (es.take l.length).zip l := by
    intro es
    induction es with
    | nil => intro l; simp
    | cons e es ih =>
      intro l
      cases l with
      | nil => simp
      | cons a l => simp only [List.zip_cons_cons, List.length_cons, List.take_succ_cons]; rw [← ih]
  unfold given
  rw [show min fs.length ids.length = (fs.zip ids).length by rw [List.length_zip], ← hz]

example : (compileMulti .release ["a".toList, "b".toList] [Flags.empty, Flags.QUIET] [0, 1] .block).isOk = true := by
  decide +kernel

/-! ## C51 -/

theorem string_ne_of_head (a b c : String) (x y : Char) (h1 : a.toList.head? = some x)
    (h2 : c.toList.head? = some y) (hxy : x ≠ y) : a ++ b ≠ c := by
  intro h
  have := congrArg (fun s => s.toList.head?) h
  simp only [String.toList_append] at this
  cases ha : a.toList with
  | nil => rw [ha] at h1; cases h1
  | cons z zs =>
    rw [ha] at h1 this
    simp only [List.cons_append, List.head?_cons] at h1 this
    rw [h2] at this
    injection h1 with h1
    injection this with this
    exact hxy (h1.symm.trans this)

theorem conflictText_head (j : Nat) (e : Expr) (old : LitEntry) (s : String) (y : Char)
    (hy : s.toList.head? = some y) (hne : 'E' ≠ y) : conflictText j e old ≠ s := by
  unfold conflictText
  simp only [String.append_assoc]
  exact string_ne_of_head "Expression (index " _ s 'E' y (by decide) hy hne

/-- C51: the limits on the number of expressions; they apply whatever the expressions are. -/
theorem C51_counts (p : Profile) (es : List Str) (fs : List Flags) (ids : List Nat) (mode : Mode) (g : Grey)
    (hs : Sane g) :
    (compileMultiInt p es fs ids mode g = .err ⟨.other, "Invalid parameter: expressions is empty", none⟩ ↔
      es = []) ∧
    (compileMultiInt p es fs ids mode g = .err ⟨.other, "Number of patterns too large", none⟩ ↔
      es ≠ [] ∧ es.length > g.limitPatternCount) := by
  by_cases hne : es ≠ []
  · by_cases hn : es.length ≤ g.limitPatternCount
    · have hno : ∀ x, compileMultiInt p es fs ids mode g = .err x → x.index ≠ none := by
        intro x hx
        rcases C49_first_bad p es fs ids mode g hs x hx with ⟨_, h | h⟩ | ⟨j, _, h, _⟩
        · exact absurd h hne
        · omega
        · rw [h]; simp
      exact ⟨⟨fun h => absurd rfl (hno _ h), fun h => absurd h hne⟩,
        ⟨fun h => absurd rfl (hno _ h), fun h => by omega⟩⟩
    · have : compileMultiInt p es fs ids mode g = .err ⟨.other, "Number of patterns too large", none⟩ := by
        rw [compileMultiInt_eq]
        unfold compileNg
        rw [if_neg (by simpa using hne), if_pos (by omega)]; rfl
      rw [this]
      refine ⟨⟨fun h => ?_, fun h => absurd h hne⟩, ⟨fun _ => ⟨hne, by omega⟩, fun _ => rfl⟩⟩
      injection h with h
      injection h with h1 h2
      exact absurd h2 (by decide)
  · have hnil : es = [] := by simpa using hne
    subst hnil
    refine ⟨⟨fun _ => rfl, fun _ => rfl⟩, ⟨fun h => ?_, fun h => absurd rfl h.1⟩⟩
    injection h with h
    injection h with h1 h2
    exact absurd h2 (by decide)

example := C51_counts .release ["a".toList, "b".toList] [Flags.empty, Flags.empty] [0, 0] .block
  { Grey.default with limitPatternCount := 1 } (by constructor <;> decide)

/-- C51: the limit on the length of an expression, in bytes. The error is given exactly if the first
expression that cannot be added is too long; a too long expression can never be added. -/
theorem C51_length (p : Profile) (es : List Str) (fs : List Flags) (ids : List Nat) (mode : Mode) (g : Grey)
    (hs : Sane g) (hn : es.length ≤ g.limitPatternCount) (j : Nat) :
    (compileMultiInt p es fs ids mode g = .err ⟨.other, "Pattern length exceeds limit.", some j⟩ ↔
      ∃ e, (given es fs ids)[j]? = some e ∧ utf8Len e.1 > g.limitPatternLength ∧
        ∀ (k : Nat) (e' : Expr), k < j → (given es fs ids)[k]? = some e' →
          Addable p g (given es fs ids) k e') ∧
    (∀ e, (given es fs ids)[j]? = some e → utf8Len e.1 > g.limitPatternLength →
      (compileMultiInt p es fs ids mode g).isOk = false) := by
  constructor
  · constructor
    · intro h
      rcases C49_first_bad p es fs ids mode g hs _ h with ⟨h1, _⟩ | ⟨j', e, h1, h2, h3, h4⟩
      · cases h1
      · injection h1 with h1
        subst h1
        have hr := (C49_reported p es fs ids mode g hs hn j e h2 h3 h4).1
        rw [h] at hr
        refine ⟨e, h2, ?_, h4⟩
        generalize hg : (⟨.other, "Pattern length exceeds limit.", some j⟩ : CompileError) = x at hr
        cases hr with
        | tooLong h => exact h
        | quietSom _ _ => injection hg with _ hg; exact absurd hg (by decide)
        | unparsable k r _ _ _ _ hk =>
          injection hg with hg
          rcases hk with rfl | rfl <;> cases hg
        | conflict old _ _ _ _ _ _ =>
          injection hg with _ hg
          exact absurd hg.symm (conflictText_head _ _ _ _ 'P' (by decide) (by decide))
    · rintro ⟨e, h1, h2, h3⟩
      have hr := (C49_reported p es fs ids mode g hs hn j e h1
        (fun h => by have := h.1.1; omega) h3).1
      generalize compileMultiInt p es fs ids mode g = r at hr
      cases hr with
      | tooLong h => rfl
      | quietSom h _ => omega
      | unparsable k r h _ _ _ hk => omega
      | panics m h => omega
      | conflict old h _ _ _ _ _ => have := h.1; omega
      | conflictDebug m h => have := h.1; omega
  · intro e h1 h2
    cases h : (compileMultiInt p es fs ids mode g).isOk with
    | false => rfl
    | true =>
      have := ((C58_success_iff p es fs ids mode g hs).1 h).2.2.1 e (List.mem_of_getElem? h1)
      have := this.1
      omega

example : compileMulti .release [] [] [] .block
      = .err ⟨.other, "Invalid parameter: expressions is empty", none⟩ ∧
    compileMultiInt .release ["a".toList, "é".toList] [Flags.empty, Flags.empty] [0, 0] .block
      { Grey.default with limitPatternLength := 1 } = .err ⟨.other, "Pattern length exceeds limit.", some 1⟩ ∧
    compileMultiInt .release ["a".toList, "b".toList] [] [] .block
      { Grey.default with limitPatternCount := 1 } = .err ⟨.other, "Number of patterns too large", none⟩ := by
  refine ⟨rfl, by decide +kernel, by decide +kernel⟩

/-! ## C52, C53 -/

/-- C52, full statement: the database records the requested mode. -/
def ModeRecorded : Prop :=
  ∀ (p : Profile) (es : List Str) (fs : List Flags) (ids : List Nat) (mode : Mode) (db : Database),
    compileMulti p es fs ids mode = .ok db → db.rose.mode = mode

/-- C52 is false: the horizon of a stream mode is lost. -/
theorem C52_false : ¬ ModeRecorded := by
  intro h
  have := h .release ["a".toList] [Flags.empty] [0] (.stream (some .small)) ⟨⟨.fullRose, .stream none⟩⟩
    (by decide +kernel)
  cases this

/-- C52, C53, what holds (missing: the horizon): the recorded mode is the requested one without its
horizon, and the engine is the full one. -/
theorem compiled_db (p : Profile) (es : List Str) (fs : List Flags) (ids : List Nat) (mode : Mode)
    (g : Grey) (hs : Sane g) (db : Database) (h : compileMultiInt p es fs ids mode g = .ok db) :
    db = ⟨⟨.fullRose, recorded mode⟩⟩ := by
  have hok := (C58_success_iff p es fs ids mode g hs).1 (by rw [h]; rfl)
  rcases C58_outcome p es fs ids mode g hs hok.1 hok.2.1 with ⟨_, h2⟩ | ⟨j, e, _, _, _, h4⟩
  · rw [h2] at h; injection h with h; exact h.symm
  · have := h4.not_ok
    rw [h] at this; cases this

/-- C52, exact: the mode is recorded up to the horizon, hence exactly unless it is a stream mode with a
horizon. -/
theorem C52_mode_partial (p : Profile) (es : List Str) (fs : List Flags) (ids : List Nat) (mode : Mode)
    (g : Grey) (hs : Sane g) (db : Database) (h : compileMultiInt p es fs ids mode g = .ok db) :
    (mode = .block → db.rose.mode = .block) ∧ (mode = .vectored → db.rose.mode = .vectored) ∧
    (∀ hz, mode = .stream hz → db.rose.mode = .stream none) ∧
    (db.rose.mode = mode ↔ ∀ hz, mode ≠ .stream (some hz)) := by
  rw [compiled_db p es fs ids mode g hs db h]
  cases mode with
  | block => exact ⟨fun _ => rfl, (by intro h; cases h), (by intro hz h; cases h), ⟨fun _ hz h => (by cases h), fun _ => rfl⟩⟩
  | vectored => exact ⟨(by intro h; cases h), fun _ => rfl, (by intro hz h; cases h), ⟨fun _ hz h => (by cases h), fun _ => rfl⟩⟩
  | stream o =>
    refine ⟨(by intro h; cases h), (by intro h; cases h), (fun _ _ => rfl), ?_⟩
    cases o with
    | none => exact ⟨fun _ hz h => (by cases h), fun _ => rfl⟩
    | some a => exact ⟨fun h => (by cases h), fun h => absurd rfl (h a)⟩

example : compileMulti .debug ["a".toList] [Flags.empty] [0] .vectored = .ok ⟨⟨.fullRose, .vectored⟩⟩ := by
  decide +kernel

/-- C53: when the pure-literal engine is picked, for every set of resources and context; the single-outfix
engine is never picked. -/
theorem C53_engine (b : RoseBuild) (r : RoseResources) :
    (pickRuntimeImpl b r = .pureLiteral ↔
      r.hasFloating = true ∧ r.hasOutfixes = false ∧ r.hasSuffixes = false ∧ r.hasLeftfixes = false ∧
      r.hasAnchored = false ∧ r.hasEod = false ∧ r.hasStates = false ∧ r.hasLitDelay = false ∧
      r.checksGroups = false ∧ ¬ (b.cc.streaming = true ∧ r.hasLitCheck = true)) ∧
    pickRuntimeImpl b r ≠ .singleOutfix := by
  obtain ⟨⟨str, vec, gr⟩, som⟩ := b
  obtain ⟨r1, r2, r3, r4, r5, r6, r7, r8, r9, r10, r11, r12, r13⟩ := r
  unfold pickRuntimeImpl isPureFloating isSingleOutfix
  simp only
  constructor
  · cases r12 <;> cases r1 <;> cases r2 <;> cases r3 <;> cases r9 <;> cases r13 <;> cases r5 <;> cases r7 <;>
      cases str <;> cases r8 <;> cases r6 <;> simp
  · cases r12 <;> cases r1 <;> cases r2 <;> cases r3 <;> cases r9 <;> cases r13 <;> cases r5 <;> cases r7 <;>
      cases str <;> cases r8 <;> cases r6 <;> simp

/-- C53: compiled databases use the full engine. -/
theorem C53_compiled (p : Profile) (es : List Str) (fs : List Flags) (ids : List Nat) (mode : Mode)
    (g : Grey) (hs : Sane g) (db : Database) (h : compileMultiInt p es fs ids mode g = .ok db) :
    db.rose.runtimeImpl = .fullRose := by
  rw [compiled_db p es fs ids mode g hs db h]

example : pickRuntimeImpl ⟨⟨true, false, Grey.default⟩, false⟩ { RoseResources.default with hasFloating := true }
      = .pureLiteral ∧
    pickRuntimeImpl ⟨⟨true, false, Grey.default⟩, false⟩
      { RoseResources.default with hasFloating := true, hasLitCheck := true } = .fullRose := ⟨rfl, rfl⟩

/-! ## C54, C55, C56 -/

/-- C54: scanning returns `Ok` and leaves the scratch alone, for every database whatsoever. -/
theorem C54_scan (db : Database) (data : List U8) (scratch : Scratch) :
    (scan db data scratch).2 = .ok () ∧ (scan db data scratch).1 = scratch := by
  obtain ⟨⟨impl, mode⟩⟩ := db
  cases impl <;> exact ⟨rfl, rfl⟩

example : (scan ⟨⟨.pureLiteral, .vectored⟩⟩ [1#8, 2#8] ⟨7⟩).1 = ⟨7⟩ := rfl

/-- C55: `compile` is `compile_multi` of one expression with id 0. -/
theorem C55_compile (p : Profile) (e : Str) (f : Flags) (mode : Mode) :
    compile p e f mode = compileMulti p [e] [f] [0] mode := rfl

/-- C55, what it means: `compile` succeeds iff the expression is valid, and then gives the database of the
mode. -/
theorem C55_compile_iff (p : Profile) (e : Str) (f : Flags) (mode : Mode) :
    ((compile p e f mode).isOk = true ↔ Valid p 16000 (e, f, 0)) ∧
    (Valid p 16000 (e, f, 0) → compile p e f mode = .ok ⟨⟨.fullRose, recorded mode⟩⟩) := by
  have hiff : (compile p e f mode).isOk = true ↔ Valid p 16000 (e, f, 0) := by
    rw [C55_compile]
    have := C58_success_iff p [e] [f] [0] mode Grey.default sane_default
    unfold compileMulti
    rw [this]
    constructor
    · rintro ⟨_, _, h, _⟩; exact h _ (List.mem_singleton.2 rfl)
    · intro h
      refine ⟨by simp, (by show 1 ≤ 8000000; decide), ?_, ?_⟩
      · intro x hx
        have hx := List.mem_singleton.1 hx
        subst hx; exact h
      · rintro _ i j ⟨a, b, hij, _, hb, _⟩
        have := (List.getElem?_eq_some_iff.1 hb).1
        simp at this
        omega
  refine ⟨hiff, fun hv => ?_⟩
  have hok := hiff.2 hv
  cases hc : compile p e f mode with
  | ok db => rw [compiled_db p [e] [f] [0] mode Grey.default sane_default db hc]
  | err x => rw [hc] at hok; cases hok
  | panic m => rw [hc] at hok; cases hok
  | timeout => rw [hc] at hok; cases hok

example : compile .debug "(abc)".toList Flags.CASELESS (.stream (some .large))
    = .ok ⟨⟨.fullRose, .stream none⟩⟩ := by decide +kernel

/-- C56: the error about QUIET with SOM_LEFTMOST is given exactly if the first expression that cannot be
added asks for both and is not too long; such an expression can never be added. -/
theorem C56_quiet_som (p : Profile) (es : List Str) (fs : List Flags) (ids : List Nat) (mode : Mode) (g : Grey)
    (hs : Sane g) (hn : es.length ≤ g.limitPatternCount) (j : Nat) :
    (compileMultiInt p es fs ids mode g = .err
        ⟨.other, "QUIET is not supported in combination with SOM_LEFTMOST.", some j⟩ ↔
      ∃ e, (given es fs ids)[j]? = some e ∧ QuietSom e.2.1 ∧ utf8Len e.1 ≤ g.limitPatternLength ∧
        ∀ (k : Nat) (e' : Expr), k < j → (given es fs ids)[k]? = some e' →
          Addable p g (given es fs ids) k e') ∧
    (∀ e, (given es fs ids)[j]? = some e → QuietSom e.2.1 →
      (compileMultiInt p es fs ids mode g).isOk = false) := by
  constructor
  · constructor
    · intro h
      rcases C49_first_bad p es fs ids mode g hs _ h with ⟨h1, _⟩ | ⟨j', e, h1, h2, h3, h4⟩
      · cases h1
      · injection h1 with h1
        subst h1
        have hr := (C49_reported p es fs ids mode g hs hn j e h2 h3 h4).1
        rw [h] at hr
        generalize hg : (⟨.other, "QUIET is not supported in combination with SOM_LEFTMOST.", some j⟩ :
          CompileError) = x at hr
        cases hr with
        | tooLong h => injection hg with _ hg; exact absurd hg (by decide)
        | quietSom h5 h6 => exact ⟨e, h2, h6, h5, h4⟩
        | unparsable k r _ _ _ _ hk =>
          injection hg with hg
          rcases hk with rfl | rfl <;> cases hg
        | conflict old _ _ _ _ _ _ =>
          injection hg with _ hg
          exact absurd hg.symm (conflictText_head _ _ _ _ 'Q' (by decide) (by decide))
    · rintro ⟨e, h1, h2, h2', h3⟩
      have hr := (C49_reported p es fs ids mode g hs hn j e h1 (fun h => h.1.2.1 h2) h3).1
      generalize compileMultiInt p es fs ids mode g = r at hr
      cases hr with
      | tooLong h => omega
      | quietSom h _ => rfl
      | unparsable k r h h5 _ _ hk => exact absurd h2 h5
      | panics m h h5 => exact absurd h2 h5
      | conflict old h _ _ _ _ _ => exact absurd h2 h.2.1
      | conflictDebug m h => exact absurd h2 h.2.1
  · intro e h1 h2
    cases h : (compileMultiInt p es fs ids mode g).isOk with
    | false => rfl
    | true => exact absurd h2 (((C58_success_iff p es fs ids mode g hs).1 h).2.2.1 e (List.mem_of_getElem? h1)).2.1

example : compile .release "((".toList ⟨0x0500#16⟩ .block = .err
      ⟨.other, "QUIET is not supported in combination with SOM_LEFTMOST.", some 0⟩ ∧
    QuietSom ⟨0x0500#16⟩ := ⟨by decide +kernel, by unfold QuietSom; decide⟩

/-! ## C57 -/

/-- C57, full statement: two expressions with the same id of which exactly one is SINGLEMATCH are an
error. -/
def ConflictsReported (p : Profile) : Prop :=
  ∀ (es : List Str) (fs : List Flags) (ids : List Nat) (mode : Mode) (i j : Nat) (a b : Expr),
    (given es fs ids)[i]? = some a → (given es fs ids)[j]? = some b → a.2.2 = b.2.2 →
    a.2.1.contains .SINGLEMATCH ≠ b.2.1.contains .SINGLEMATCH →
    ∃ x, compileMulti p es fs ids mode = .err x

/-- C57 is false in both profiles: expressions with an alternation are not checked. -/
theorem C57_false (p : Profile) : ¬ ConflictsReported p := by
  intro h
  obtain ⟨x, hx⟩ := h ["a|b".toList, "c".toList] [Flags.SINGLEMATCH, Flags.empty] [5, 5] .block 0 1 _ _ rfl rfl rfl
    (by decide)
  have h2 : (compileMulti p ["a|b".toList, "c".toList] [Flags.SINGLEMATCH, Flags.empty] [5, 5] .block).isOk
      = true := by cases p <;> decide +kernel
  rw [hx] at h2; cases h2

/-- C57 is false in debug builds even for literal expressions: the conflict panics. -/
theorem C57_debug_false : (compileMulti .debug ["a".toList, "b".toList] [Flags.SINGLEMATCH, Flags.empty] [5, 5]
    .block).isPanic = true := by decide +kernel

/-- C57, exactly (missing: expressions that are no literals): if each expression is valid by itself and
literals are looked for, compiling fails iff two literal expressions are in conflict. The failure is
about the first expression in conflict with an earlier one: in release builds an error that names it and
the first earlier expression with its id, in debug builds a panic. -/
theorem C57_conflicts_partial (p : Profile) (es : List Str) (fs : List Flags) (ids : List Nat) (mode : Mode)
    (g : Grey) (hs : Sane g) (hon : litsOn g = true) (hn : es.length ≤ g.limitPatternCount)
    (hv : ∀ e ∈ given es fs ids, Valid p g.limitPatternLength e) (i j : Nat)
    (hc : Conflict (given es fs ids) i j) (hfirst : ∀ i' j', j' < j → ¬ Conflict (given es fs ids) i' j') :
    (p = .debug → (compileMultiInt p es fs ids mode g).isPanic = true) ∧
    (p = .release → ∃ e old, (given es fs ids)[j]? = some e ∧
      (entriesFrom true 0 ((given es fs ids).take j)).find? (fun x => x.id == e.2.2) = some old ∧
      old.single ≠ e.2.1.contains .SINGLEMATCH ∧
      compileMultiInt p es fs ids mode g = .err ⟨.other, conflictText j e old, some j⟩) := by
  obtain ⟨a, e, hij, ha, he, hla, hle, hid, hsm⟩ := id hc
  have hnadd : ¬ Addable p g (given es fs ids) j e := fun h =>
    (agrees_iff _ _ _ _ he).1 h.2 hon i hc
  have hadd : ∀ (k : Nat) (e' : Expr), k < j → (given es fs ids)[k]? = some e' →
      Addable p g (given es fs ids) k e' := fun k e' hk he' =>
    ⟨hv e' (List.mem_of_getElem? he'), (agrees_iff _ _ _ _ he').2 (fun _ i' => hfirst i' k hk)⟩
  have hr := (C49_reported p es fs ids mode g hs hn j e he hnadd hadd).1
  have hve := hv e (List.mem_of_getElem? he)
  have hpn : ¬ ParsePanics p e.1 := by
    intro hp
    have h1 := (C33_panics_partial p e.1 ParseMode.default).2 hp
    have h2 := (parse_ok_iff p e.1 ParseMode.default).2 hve.2.2
    cases hx : parse p e.1 ParseMode.default <;> rw [hx] at h1 h2 <;> cases h1 <;> cases h2
  generalize hres : compileMultiInt p es fs ids mode g = r at hr
  cases hr with
  | tooLong h => have := hve.1; omega
  | quietSom _ h => exact absurd h hve.2.1
  | unparsable k r _ _ h _ _ => exact absurd hve.2.2 h
  | panics m _ _ h => exact absurd h hpn
  | conflict old h1 h2 h3 h4 h5 h6 =>
    rw [hon] at h4
    exact ⟨fun h => (by rw [h] at h6; cases h6), fun _ => ⟨e, old, he, h4, h5, rfl⟩⟩
  | conflictDebug m h1 h2 h3 => exact ⟨fun _ => rfl, fun h => (by rw [h] at h3; cases h3)⟩

example : compileMulti .release ["a".toList, "b".toList, "c".toList]
      [Flags.SINGLEMATCH, Flags.empty, Flags.SINGLEMATCH] [5, 6, 6] .block = .err ⟨.other,
      "Expression (index 2) with match ID 6 specified  SINGLEMATCH whereas previous expression (index 1) with the same match ID did.",
      some 2⟩ ∧
    Conflict (given ["a".toList, "b".toList, "c".toList] [Flags.SINGLEMATCH, Flags.empty, Flags.SINGLEMATCH]
      [5, 6, 6]) 1 2 :=
  ⟨by decide +kernel, _, _, by decide, rfl, rfl, by decide, by decide, rfl, by decide⟩

end Rescan
