import Std.Data.String.ToNat
import Verif.Model.PointerWidth
import Verif.Props.Parser
/-! # C102: other pointer widths -/
namespace Rescan
open Spec

namespace PointerWidth

/-- The text of the error for a group left open, with the number it prints. -/
def missing (n : Nat) : String := "Missing close parenthesis for group started at index " ++ toString n ++ "."

/-- Two offsets: both 0, or what `n - len` wraps to at 64 and at `w` bits. -/
def OffRel (w : Nat) (pr : Profile) (len : Nat) (o o' : Nat) : Prop :=
  (o = 0 ∧ o' = 0) ∨ ∃ n, pr = .release ∧ n < len ∧ o = n + 2 ^ 64 - len ∧ o' = n + 2 ^ w - len

/-- The same stacks but for such offsets. -/
def StackRel (w : Nat) (pr : Profile) (len : Nat) : List ExprState → List ExprState → Prop
  | [], [] => True
  | a :: as, b :: bs => b.seq = a.seq ∧ b.mode = a.mode ∧
      OffRel w pr len a.offset b.offset ∧ StackRel w pr len as bs
  | _, _ => False

/-- The same contexts but for such offsets. -/
structure CtxRel (w : Nat) (pr : Profile) (len : Nat) (c c' : Context) : Prop where
  ptrLen : c.ptrLen = len
  ptrLen' : c'.ptrLen = len
  p : c'.p = c.p
  mode : c'.mode = c.mode
  groupIndex : c'.groupIndex = c.groupIndex
  currentSeq : c'.currentSeq = c.currentSeq
  fits : utf8Len c.p ≤ len
  stack : StackRel w pr len c.sequences c'.sequences

/-- The same outcomes but for related values; errors are not of kind `Parse`. -/
inductive ResRel {α : Type} (R : α → α → Prop) : Res α → Res α → Prop
  | ok {a b : α} : R a b → ResRel R (.ok a) (.ok b)
  | err (e : CompileError) : e.kind ≠ .parse → ResRel R (.err e) (.err e)
  | panic (m : String) : ResRel R (.panic m) (.panic m)
  | timeout : ResRel R .timeout .timeout

theorem usizeSub_rel (w : Nat) (p : Profile) (a b : Nat) (hab : a ≤ b) :
    ResRel (OffRel w p b) (Context.usizeSub p a b) (usizeSub w p a b) := by
  unfold usizeSub Context.usizeSub
  by_cases h : b ≤ a
  · rw [if_pos h, if_pos h]; exact .ok (.inl ⟨by omega, by omega⟩)
  · rw [if_neg h, if_neg h]
    by_cases h2 : p = .debug
    · rw [if_pos h2, if_pos h2]; exact .panic _
    · rw [if_neg h2, if_neg h2]; exact .ok (.inr ⟨a, by cases p <;> simp_all, by omega, rfl, rfl⟩)

theorem ResRel.bind {α β : Type} {R : α → α → Prop} {S : β → β → Prop} {x y : Res α} {f g : α → Res β}
    (h : ResRel R x y) (hf : ∀ a b, R a b → ResRel S (f a) (g b)) : ResRel S (x.bind f) (y.bind g) := by
  cases h with
  | ok h => exact hf _ _ h
  | err e he => exact .err e he
  | panic m => exact .panic m
  | timeout => exact .timeout

theorem u32Incr_rel (pr : Profile) (a : Nat) : ResRel Eq (Context.u32Incr pr a) (Context.u32Incr pr a) := by
  unfold Context.u32Incr
  split
  · exact .ok rfl
  · split
    · exact .panic _
    · exact .ok rfl

theorem pushSequence_rel {w len : Nat} (pr : Profile) {c c' : Context} (h : CtxRel w pr len c c') (ts : Str) (hts : utf8Len ts ≤ len) :
    ResRel (CtxRel w pr len) (c.pushSequence pr ts) (pushSequence w pr c' ts) := by
  unfold Context.pushSequence pushSequence
  rw [h.groupIndex, h.ptrLen, h.ptrLen']
  refine ResRel.bind (u32Incr_rel pr _) fun gi gi' hg => ?_
  subst hg
  refine ResRel.bind (usizeSub_rel w pr _ _ hts) fun o o' ho => .ok ⟨rfl, rfl, h.p, h.mode, rfl, rfl, h.fits, ?_⟩
  exact ⟨h.currentSeq, h.mode, ho, h.stack⟩

theorem popSequence_rel {w len : Nat} {pr : Profile} {c c' : Context} (h : CtxRel w pr len c c') :
    ResRel (CtxRel w pr len) c.popSequence c'.popSequence := by
  obtain ⟨h1, h1', h2, h3, h4, h5, hf, h6⟩ := h
  obtain ⟨l, p, m, s, gi, cs⟩ := c
  obtain ⟨l', p', m', s', gi', cs'⟩ := c'
  simp only at h1 h1' h2 h3 h4 h5 hf h6
  subst h1 h1' h2 h3 h4 h5
  unfold Context.popSequence
  cases s with
  | nil =>
    cases s' with
    | nil => exact .err _ (by simp [CompileError.new])
    | cons => exact h6.elim
  | cons a as =>
    cases s' with
    | nil => exact h6.elim
    | cons b bs =>
      obtain ⟨g1, g2, g4, g5⟩ := h6
      refine .ok ⟨rfl, rfl, rfl, g2, rfl, ?_, hf, g5⟩
      simp only [g1]

theorem main_rel {w len : Nat} (pr : Profile) {c c' : Context} (h : CtxRel w pr len c c') (ts : Str) (hts : utf8Len ts ≤ len) :
    ResRel (CtxRel w pr len) (c.main pr ts) (main w pr c' ts) := by
  have ht {c : Char} {cs : Str} (h : utf8Len (c :: cs) ≤ len) : utf8Len cs ≤ len := by
    have := Context.utf8Len_lt_cons c cs; omega
  unfold Context.main main
  split
  · refine ResRel.bind (pushSequence_rel pr h _ hts) fun a b hab => .ok ⟨hab.ptrLen, hab.ptrLen', rfl, hab.mode, hab.groupIndex,
      hab.currentSeq, ht hts, hab.stack⟩
  · refine ResRel.bind (popSequence_rel h) fun a b hab => .ok ⟨hab.ptrLen, hab.ptrLen', rfl, hab.mode, hab.groupIndex,
      hab.currentSeq, ht hts, hab.stack⟩
  · refine .ok ⟨h.ptrLen, h.ptrLen', rfl, h.mode, h.groupIndex, ?_, ht hts, h.stack⟩
    simp only [h.currentSeq]
  · rename_i cc p _ _ _
    by_cases hc : cc.toNat < 128
    · have hl (s : ComponentSequence) (m : ParseMode) : addLiteral s cc m = .ok (s.addComponent (.cls (litClass m.caseless cc))) := by
        unfold addLiteral
        rw [getLiteralComponentClass_ascii cc _ (by omega)]
        rfl
      simp only [hl, rassert, hc, decide_true, h.currentSeq, h.mode]
      exact .ok ⟨h.ptrLen, h.ptrLen', rfl, rfl, h.groupIndex, rfl, ht hts, h.stack⟩
    · simp only [rassert, hc, decide_false]
      exact .panic _
  · exact .ok h

theorem mainLoop_rel {w len : Nat} (pr : Profile) (fuel : Nat) {c c' : Context} (h : CtxRel w pr len c c') :
    ResRel (CtxRel w pr len) (Context.mainLoop pr fuel c) (mainLoop w pr fuel c') := by
  induction fuel generalizing c c' with
  | zero =>
    unfold Context.mainLoop mainLoop
    rw [h.p]
    by_cases he : c.p.isEmpty
    · rw [if_pos he, if_pos he]; exact .ok h
    · rw [if_neg he, if_neg he]; exact .timeout
  | succ fuel ih =>
    unfold Context.mainLoop mainLoop
    rw [h.p]
    by_cases he : c.p.isEmpty
    · rw [if_pos he, if_pos he]; exact .ok h
    · rw [if_neg he, if_neg he]
      exact ResRel.bind (main_rel pr h _ h.fits) fun a b hab => ih hab

/-- The two answers are the same, or both are the error for an open group. -/
def Same {α : Type} (w : Nat) (pr : Profile) (len : Nat) (i : Option Nat) (x y : Res α) : Prop :=
  (y = x ∧ ∀ r, x ≠ .err ⟨.parse, r, i⟩) ∨ (y = x ∧ x = .err ⟨.parse, missing 0, i⟩) ∨
  ∃ n, pr = .release ∧ n < len ∧ x = .err ⟨.parse, missing (n + 2 ^ 64 - len), i⟩ ∧ y = .err ⟨.parse, missing (n + 2 ^ w - len), i⟩

theorem finish_rel {w len : Nat} {pr : Profile} {c c' : Context} (h : CtxRel w pr len c c') :
    Same w pr len none c.finish c'.finish := by
  obtain ⟨-, -, h2, h3, h4, h5, -, h6⟩ := h
  unfold Context.finish
  cases hs : c.sequences with
  | nil =>
    cases hs' : c'.sequences with
    | nil => rw [h5]; exact .inl ⟨rfl, fun r h => by cases h⟩
    | cons => rw [hs, hs'] at h6; exact h6.elim
  | cons a as =>
    cases hs' : c'.sequences with
    | nil => rw [hs, hs'] at h6; exact h6.elim
    | cons b bs =>
      rw [hs, hs'] at h6
      obtain ⟨-, -, g4, -⟩ := h6
      rcases g4 with ⟨g, g'⟩ | ⟨n, hp, hn, g, g'⟩
      · simp only [g, g']; exact .inr (.inl ⟨rfl, rfl⟩)
      · refine .inr (.inr ⟨n, hp, hn, ?_, ?_⟩)
        · simp only [g]; rfl
        · simp only [g']; rfl

theorem controlVerbs_len {input p : Str} {start : Nat} {mode m : ParseMode}
    (h : readControlVerbs input start mode = .ok (p, m)) : utf8Len p ≤ utf8Len input := by
  have key : ∀ v, HasVerb input v p → utf8Len p ≤ utf8Len input := by
    rintro v ⟨rfl, -, -⟩
    simp only [Context.utf8Len_cons, Context.utf8Len_append, List.append_assoc]
    omega
  rcases C28_control_verb_effects input start mode p m h with ⟨-, rfl, -⟩ | ⟨h, -⟩ | ⟨h | h, -⟩
  · exact Nat.le_refl _
  · exact key _ h
  · exact key _ h
  · exact key _ h

theorem controlVerbs_kind {input : Str} {start : Nat} {mode : ParseMode} {e : CompileError}
    (h : readControlVerbs input start mode = .err e) : e.kind ≠ .parse := by
  unfold readControlVerbs at h
  split at h
  · simp only at h
    split at h
    · cases h
    · split at h
      · cases h
      · split at h
        · injection h with h; subst h; simp [CompileError.new]
        · split at h
          · injection h with h; subst h; simp [CompileError.new]
          · injection h with h; subst h; simp [CompileError.new]
  · cases h

theorem parse_rel (w : Nat) (pr : Profile) (ptr : Str) (m : ParseMode) :
    Same w pr (utf8Len ptr) none (Rescan.parse pr ptr m) (parse w pr ptr m) := by
  unfold Rescan.parse parse
  cases hv : readControlVerbs ptr 0 m with
  | err e =>
    refine .inl ⟨rfl, fun r h => ?_⟩
    have h : Outcome.err e = Outcome.err (α := Component × ParseMode) _ := h
    injection h with h
    exact controlVerbs_kind hv (by rw [h])
  | panic e => exact .inl ⟨rfl, fun r h => by cases h⟩
  | timeout => exact .inl ⟨rfl, fun r h => by cases h⟩
  | ok v =>
    obtain ⟨p, m'⟩ := v
    show Same w pr _ none (Outcome.bind ((Context.new ptr p m').parse pr) _) (Outcome.bind (mainLoop w pr p.length (Context.new ptr p m')) _)
    have h := mainLoop_rel (w := w) pr p.length (c := Context.new ptr p m') (c' := Context.new ptr p m')
      (len := utf8Len ptr) ⟨rfl, rfl, rfl, rfl, rfl, rfl, controlVerbs_len hv, trivial⟩
    unfold Context.parse
    show Same w pr _ none ((Outcome.bind (Context.mainLoop pr p.length (Context.new ptr p m')) _).bind _) _
    generalize Context.mainLoop pr p.length (Context.new ptr p m') = x at h ⊢
    generalize mainLoop w pr p.length (Context.new ptr p m') = y at h ⊢
    cases h with
    | err e he =>
      refine .inl ⟨rfl, fun r h => ?_⟩
      have h : Outcome.err e = Outcome.err (α := Component × ParseMode) _ := h
      injection h with h
      exact he (by rw [h])
    | panic m => exact .inl ⟨rfl, fun r h => by cases h⟩
    | timeout => exact .inl ⟨rfl, fun r h => by cases h⟩
    | @ok c c' h =>
      show Same w pr _ none (Outcome.bind c.finish _) (Outcome.bind c'.finish _)
      rcases finish_rel h with ⟨h1, h2⟩ | ⟨h1, h2⟩ | ⟨n, hp, hn, h1, h2⟩
      · rw [h1]
        cases hf : c.finish with
        | ok q => exact .inl ⟨rfl, fun r h => by cases h⟩
        | err e =>
          refine .inl ⟨rfl, fun r h => ?_⟩
          have h : Outcome.err e = Outcome.err (α := Component × ParseMode) _ := h
          injection h with h
          exact h2 r (by rw [hf, h])
        | panic m => exact .inl ⟨rfl, fun r h => by cases h⟩
        | timeout => exact .inl ⟨rfl, fun r h => by cases h⟩
      · rw [h1, h2]; exact .inr (.inl ⟨rfl, rfl⟩)
      · rw [h1, h2]; exact .inr (.inr ⟨n, hp, hn, rfl, rfl⟩)

/-- The two answers are the same, or both are the error with a wrapped number. -/
def Same2 {α : Type} (w : Nat) (pr : Profile) (len : Nat) (i : Option Nat) (x y : Res α) : Prop :=
  y = x ∨ ∃ n, pr = .release ∧ n < len ∧ x = .err ⟨.parse, missing (n + 2 ^ 64 - len), i⟩ ∧
    y = .err ⟨.parse, missing (n + 2 ^ w - len), i⟩

theorem Same2.bind {α β : Type} {w len : Nat} {pr : Profile} {i : Option Nat} {x y : Res α}
    (h : Same2 w pr len i x y) (f : α → Res β) : Same2 w pr len i (x.bind f) (y.bind f) := by
  rcases h with rfl | ⟨n, hp, hn, rfl, rfl⟩
  · exact .inl rfl
  · exact .inr ⟨n, hp, hn, rfl, rfl⟩

theorem parse_rel2 (w : Nat) (pr : Profile) (ptr : Str) (m : ParseMode) :
    Same2 w pr (utf8Len ptr) none (Rescan.parse pr ptr m) (parse w pr ptr m) := by
  rcases parse_rel w pr ptr m with ⟨h, -⟩ | ⟨h, -⟩ | h
  · exact .inl h
  · exact .inl h
  · exact .inr h

theorem addExpression_rel (w : Nat) (pr : Profile) (ng : Ng) (i : Nat) (e : Str) (f : Flags) (id : Nat) :
    Same2 w pr (utf8Len e) none (Rescan.addExpression pr ng i e f id) (addExpression w pr ng i e f id) := by
  unfold Rescan.addExpression addExpression
  by_cases h : utf8Len e > ng.cc.grey.limitPatternLength
  · rw [if_pos h, if_pos h]; exact .inl rfl
  · rw [if_neg h, if_neg h]
    refine Same2.bind ?_ _
    unfold ParsedExpression.new newParsed
    by_cases h2 : f.contains (Flags.QUIET.or .SOM_LEFTMOST)
    · simp only [if_pos h2]; exact .inl rfl
    · simp only [if_neg h2]
      exact (parse_rel2 w pr e _).bind _

/-- The two answers are the same, or both are the error for an open group of one of the expressions. -/
def SameAt {α : Type} (w : Nat) (pr : Profile) (i : Nat) (es : List Str) (x y : Res α) : Prop :=
  y = x ∨ ∃ j e, es[j]? = some e ∧ ∃ n, pr = .release ∧ n < utf8Len e ∧
    x = .err ⟨.parse, missing (n + 2 ^ 64 - utf8Len e), some (i + j)⟩ ∧
    y = .err ⟨.parse, missing (n + 2 ^ w - utf8Len e), some (i + j)⟩

theorem addAll_rel (w : Nat) (pr : Profile) (l : List (Str × Flags × Nat)) (i : Nat) (ng : Ng) :
    SameAt w pr i (l.map (·.1)) (Rescan.addAll pr i ng l) (addAll w pr i ng l) := by
  induction l generalizing i ng with
  | nil => exact .inl rfl
  | cons t rest ih =>
    obtain ⟨e, f, id⟩ := t
    rw [Rescan.addAll, addAll]
    rcases addExpression_rel w pr ng i e f id with h | ⟨n, hp, hn, h1, h2⟩
    · rw [h]
      cases hx : Rescan.addExpression pr ng i e f id with
      | err e => exact .inl rfl
      | panic m => exact .inl rfl
      | timeout => exact .inl rfl
      | ok ng' =>
        rcases ih (i + 1) ng' with h | ⟨j, e', hj, n, hp, hn, h1, h2⟩
        · exact .inl h
        · refine .inr ⟨j + 1, e', hj, n, hp, hn, ?_, ?_⟩
          · rw [show i + (j + 1) = i + 1 + j by omega]; exact h1
          · rw [show i + (j + 1) = i + 1 + j by omega]; exact h2
    · rw [h1, h2]
      unfold SameAt
      subst hp
      have key : ∀ r : String, (do
          let idx ← ReportManager.toU32 i "called `Result::unwrap()` on an `Err` value: TryFromIntError(())"
          let e ← (⟨.parse, r, none⟩ : CompileError).setExpressionIndex .release idx
          Outcome.err e : Res Ng) = if i < 2 ^ 32 then .err ⟨.parse, r, some i⟩
            else .panic "called `Result::unwrap()` on an `Err` value: TryFromIntError(())" := by
        intro r
        unfold ReportManager.toU32
        by_cases hi : i < 2 ^ 32
        · simp only [if_pos hi]; rfl
        · simp only [if_neg hi]; rfl
      simp only [key]
      by_cases hi : i < 2 ^ 32
      · simp only [if_pos hi]
        exact .inr ⟨0, e, by simp, n, trivial, hn, by simp only [Nat.add_zero], by simp only [Nat.add_zero]⟩
      · simp only [if_neg hi]; exact .inl trivial

theorem izip_getElem? (es : List Str) (fs : List Flags) (ids : List Nat) (j : Nat) (e : Str)
    (h : ((izip es fs ids).map (·.1))[j]? = some e) : es[j]? = some e := by
  induction es generalizing fs ids j with
  | nil => simp [izip] at h
  | cons a as ih =>
    cases fs with
    | nil => simp [izip] at h
    | cons f fs =>
      cases ids with
      | nil => simp [izip] at h
      | cons d ids =>
        cases j with
        | zero => simpa [izip] using h
        | succ j => exact ih fs ids j (by simpa [izip] using h)

end PointerWidth

open PointerWidth (missing)

/-- C102, what the width changes: with `w`-bit `usize` a compilation ends as with 64 bits, except that the number printed
for a group left open, `n` bytes from the end of its expression, wraps at `2^w`.  Debug builds do not differ at all. -/
theorem C102_widths (w : Nat) (p : Profile) (es : List Str) (fs : List Flags) (ids : List Nat) (mode : Mode) (g : Grey) :
    PointerWidth.compileMultiInt w p es fs ids mode g = compileMultiInt p es fs ids mode g ∨
    ∃ i e n, es[i]? = some e ∧ n < utf8Len e ∧ p = .release ∧
      compileMultiInt p es fs ids mode g = .err ⟨.parse, missing (n + 2 ^ 64 - utf8Len e), some i⟩ ∧
      PointerWidth.compileMultiInt w p es fs ids mode g
        = .err ⟨.parse, missing (n + 2 ^ w - utf8Len e), some i⟩ := by
  unfold PointerWidth.compileMultiInt compileMultiInt compileNg
  by_cases h1 : es.isEmpty
  · simp only [if_pos h1]; exact .inl rfl
  · simp only [if_neg h1]
    by_cases h2 : es.length > g.limitPatternCount
    · simp only [if_pos h2]; exact .inl rfl
    · simp only [if_neg h2]
      rcases PointerWidth.addAll_rel w p (izip es fs ids) 0
        (Ng.new ⟨mode.isStreaming, mode.isVectored, g⟩ es.length mode.somPrecision) with h | ⟨j, e, hj, n, hp, hn, h1, h2⟩
      · rw [h]; exact .inl rfl
      · refine .inr ⟨j, e, n, PointerWidth.izip_getElem? es fs ids j e hj, hn, hp, ?_, ?_⟩
        · rw [h1, Nat.zero_add]; rfl
        · rw [h2, Nat.zero_add]; rfl

/-- The two differ: a 32-bit build prints a number near `2^32`. -/
example :
    PointerWidth.compileMultiInt 32 .release ["ab".toList, "a(b".toList] [Flags.empty, Flags.empty] [1, 2] .block Grey.default
      = .err ⟨.parse, "Missing close parenthesis for group started at index 4294967295.", some 1⟩ ∧
    compileMultiInt .release ["ab".toList, "a(b".toList] [Flags.empty, Flags.empty] [1, 2] .block Grey.default
      = .err ⟨.parse, "Missing close parenthesis for group started at index 18446744073709551615.", some 1⟩ := by
  decide +kernel

/-- C102, the results: which sets compile, to which databases, does not depend on the width. -/
theorem C102_same_databases (w : Nat) (p : Profile) (es : List Str) (fs : List Flags) (ids : List Nat) (mode : Mode)
    (g : Grey) (db : Database) :
    PointerWidth.compileMultiInt w p es fs ids mode g = .ok db ↔ compileMultiInt p es fs ids mode g = .ok db := by
  rcases C102_widths w p es fs ids mode g with h | ⟨i, e, n, -, -, -, h1, h2⟩
  · rw [h]
  · rw [h1, h2]; exact ⟨fun h => absurd h (by simp), fun h => absurd h (by simp)⟩

example : (PointerWidth.compileMultiInt 32 .release ["a(b|c)".toList] [Flags.empty] [1] .block Grey.default).isOk = true := by
  decide +kernel

/-- C102, the number: for an expression that fits a `usize`, the message of an innermost open group at byte `k` of the
expression says `2^w - k`, and 0 for `k = 0`. -/
theorem C102_index (w : Nat) (ptr pre post : Str) (mode : ParseMode)
    (hb : IsBody ptr (pre ++ '(' :: post)) (ha : IsAscii (pre ++ '(' :: post))
    (hp : PrefixOk 0 (pre ++ '(' :: post)) (hbal : Balanced post) (hw : w ≤ 64) (hlen : utf8Len ptr < 2 ^ w) :
    PointerWidth.parse w .release ptr mode = .err ⟨.parse,
      "Missing close parenthesis for group started at index "
        ++ toString ((2 ^ w - (utf8Len ptr - utf8Len ('(' :: post))) % 2 ^ w) ++ ".", none⟩ := by
  have hw2 : 2 ^ w ≤ 2 ^ 64 := Nat.pow_le_pow_right (by omega) hw
  have h64 := C32_index_partial ptr pre post mode hb ha hp hbal (by omega)
  have hk : utf8Len ptr - utf8Len ('(' :: post) ≤ utf8Len ptr := by omega
  generalize utf8Len ptr - utf8Len ('(' :: post) = k at h64 hk ⊢
  have inj : ∀ a b : Nat, (⟨.parse, missing a, none⟩ : CompileError) = ⟨.parse, missing b, none⟩ → a = b := by
    intro a b h
    injection h with _ h _
    unfold missing at h
    have h := congrArg String.toList h
    simp only [String.toList_append] at h
    have h := List.append_cancel_left (List.append_cancel_right h)
    exact Nat.repr_injective (String.toList_inj.1 h)
  rcases PointerWidth.parse_rel w .release ptr mode with ⟨-, h⟩ | ⟨h1, h2⟩ | ⟨n, -, hn, h1, h2⟩
  · exact (h _ h64).elim
  · rw [h1, h2]
    have h := inj _ _ (Outcome.err.inj (h2.symm.trans h64))
    have hk0 : k = 0 := by
      rcases Nat.eq_zero_or_pos k with h0 | h0
      · exact h0
      · rw [Nat.mod_eq_of_lt (by omega)] at h; omega
    rw [hk0, Nat.sub_zero, Nat.mod_self]; rfl
  · rw [h2]
    have h := inj _ _ (Outcome.err.inj (h1.symm.trans h64))
    rcases Nat.eq_zero_or_pos k with h0 | h0
    · rw [h0] at h; simp at h; omega
    · rw [Nat.mod_eq_of_lt (by omega)] at h
      rw [Nat.mod_eq_of_lt (by omega), show 2 ^ w - k = n + 2 ^ w - utf8Len ptr by omega]
      rfl

example : (match PointerWidth.parse 32 .release "(*UCP)a(b".toList ParseMode.default with
    | .err e => e.reason
    | _ => "") = "Missing close parenthesis for group started at index 4294967289." := by
  decide +kernel

example : PointerWidth.parse 32 .release "(*UCP)a(b".toList ParseMode.default
    = .err ⟨.parse, "Missing close parenthesis for group started at index 4294967289.", none⟩ := by
  have hp : ∀ n, (List.take n "a(b".toList).count ')' ≤ 0 + (List.take n "a(b".toList).count '(' := fun n => by
    have : (List.take n "a(b".toList).count ')' = 0 :=
      List.count_eq_zero.2 fun h => absurd (List.mem_of_mem_take h) (by decide)
    omega
  have hq : ∀ n, (List.take n "b".toList).count ')' ≤ 0 + (List.take n "b".toList).count '(' := fun n => by
    have : (List.take n "b".toList).count ')' = 0 :=
      List.count_eq_zero.2 fun h => absurd (List.mem_of_mem_take h) (by decide)
    omega
  rw [C102_index 32 "(*UCP)a(b".toList "a".toList "b".toList ParseMode.default
    (.inr ⟨"UCP".toList, ⟨by decide, by decide, by decide⟩, .inl (by decide)⟩) (by unfold IsAscii; decide) hp
    ⟨hq, by decide⟩ (by decide) (by decide)]
  exact congrArg (fun r => Outcome.err (⟨.parse, r, none⟩ : CompileError)) (by decide +kernel)

end Rescan
