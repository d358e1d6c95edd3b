import Verif.Proofs.Parser
import Verif.Proofs.Grammar
/-! # Errors and panics of the parser -/
namespace Rescan
open Spec

namespace Context

/-- The error for a `)` without a `(`. -/
def unmatched : CompileError := CompileError.new .locatedParse "Unmatched parentheses"

theorem loop_cons (pr : Profile) (c : Char) (cs : Str) (ctx : Context) :
    loop pr (c :: cs) ctx = (ctx.main pr (c :: cs)).bind (loop pr cs) := rfl

/-- Release build, ASCII: what the loop does, by the depth of the stack. -/
theorem loop_ok : ∀ (s : Str) (ctx : Context) (t : Str), IsAscii s →
    PrefixOk ctx.sequences.length s → ctx.groupIndex < 2 ^ 32 →
    ∃ ctx', loop .release (s ++ t) ctx = loop .release t ctx' ∧
      ctx'.sequences.length + s.count ')' = ctx.sequences.length + s.count '(' ∧
      ctx'.groupIndex < 2 ^ 32 ∧ ctx'.ptrLen = ctx.ptrLen := by
  intro s
  induction s with
  | nil => intro ctx t _ _ hg; exact ⟨ctx, rfl, by simp, hg, rfl⟩
  | cons c cs ih =>
    intro ctx t ha hp hg
    obtain ⟨ha1, ha2⟩ := isAscii_cons.1 ha
    rcases char_kinds c with h | h | h | ⟨h, _⟩ | h
    · subst h
      rw [prefixOk_open] at hp
      obtain ⟨ctx', h1, h2, h3, h4⟩ := ih (ctx.opened (cs ++ t)
        (offsetOf (utf8Len ('(' :: (cs ++ t))) ctx.ptrLen)) t ha2 hp (Nat.mod_lt _ (by decide))
      refine ⟨ctx', ?_, ?_, h3, h4⟩
      · rw [List.cons_append, loop_cons, main_open_release ctx _ hg]
        exact h1
      · simp only [opened, List.length_cons] at h2
        simp [List.count_cons]; omega
    · subst h
      rw [prefixOk_close] at hp
      cases hs : ctx.sequences with
      | nil => rw [hs] at hp; simp at hp
      | cons v r =>
        rw [hs] at hp
        have hm := main_close_cons .release ctx (cs ++ t) v r hs
        obtain ⟨ctx', h1, h2, h3, h4⟩ := ih { ctx with
            p := cs ++ t, sequences := r
            currentSeq := v.seq.addComponent (.sequence ctx.currentSeq.finalize)
            mode := v.mode } t ha2 (by simpa using hp.2) hg
        refine ⟨ctx', ?_, ?_, h3, h4⟩
        · rw [List.cons_append, loop_cons, hm]
          exact h1
        · simp only at h2
          simp [List.count_cons]; omega
    · subst h
      rw [prefixOk_other _ _ _ (by decide) (by decide)] at hp
      obtain ⟨ctx', h1, h2, h3, h4⟩ := ih
        { ctx with currentSeq := ctx.currentSeq.addAlternation, p := cs ++ t } t ha2 hp hg
      refine ⟨ctx', ?_, ?_, h3, h4⟩
      · rw [List.cons_append, loop_cons, main_bar]; exact h1
      · simp only at h2
        simp [List.count_cons]; omega
    · have hn : c ≠ '(' ∧ c ≠ ')' := by unfold special at h; exact ⟨fun e => h (.inl e), fun e => h (.inr (.inl e))⟩
      rw [prefixOk_other _ _ _ hn.1 hn.2] at hp
      obtain ⟨ctx', h1, h2, h3, h4⟩ := ih
        { ctx with currentSeq := ctx.currentSeq.addComponent (.cls (litClass ctx.mode.caseless c)),
                   p := cs ++ t } t ha2 hp hg
      refine ⟨ctx', ?_, ?_, h3, h4⟩
      · rw [List.cons_append, loop_cons, main_lit .release ctx c _ h ha1]; exact h1
      · simp only at h2
        simp [List.count_cons, hn]; omega
    · exact absurd ha1 h

theorem loop_err : ∀ (s : Str) (ctx : Context), IsAscii s →
    ¬ PrefixOk ctx.sequences.length s → ctx.groupIndex < 2 ^ 32 →
    loop .release s ctx = .err unmatched := by
  intro s
  induction s with
  | nil => intro ctx _ hp; exact absurd (prefixOk_nil _) hp
  | cons c cs ih =>
    intro ctx ha hp hg
    obtain ⟨ha1, ha2⟩ := isAscii_cons.1 ha
    rcases char_kinds c with h | h | h | ⟨h, _⟩ | h
    · subst h
      rw [prefixOk_open] at hp
      rw [loop_cons, main_open_release ctx _ hg]
      exact ih _ ha2 hp (Nat.mod_lt _ (by decide))
    · subst h
      rw [prefixOk_close] at hp
      cases hs : ctx.sequences with
      | nil => rw [loop_cons, main_close_nil .release ctx cs hs]; rfl
      | cons v r =>
        rw [hs] at hp
        rw [loop_cons, main_close_cons .release ctx cs v r hs]
        exact ih _ ha2 (by simpa using hp) hg
    · subst h
      rw [prefixOk_other _ _ _ (by decide) (by decide)] at hp
      rw [loop_cons, main_bar]
      exact ih _ ha2 hp hg
    · have hn : c ≠ '(' ∧ c ≠ ')' := by unfold special at h; exact ⟨fun e => h (.inl e), fun e => h (.inr (.inl e))⟩
      rw [prefixOk_other _ _ _ hn.1 hn.2] at hp
      rw [loop_cons, main_lit .release ctx c _ h ha1]
      exact ih _ ha2 hp hg
    · exact absurd ha1 h

/-- Release build, ASCII, balanced. -/
theorem parse_balanced (ptr body : Str) (mode : ParseMode) (ha : IsAscii body) (hb : Balanced body) :
    ∃ a : Alts, a.Wf ∧ a.print = body ∧ (Context.new ptr body mode).parse .release
      = .ok (.mk (a.build (litClass mode.caseless) 1).1 none (some 0) none) := by
  obtain ⟨a, hw, rfl⟩ := exists_tree body hb
  exact ⟨a, hw, rfl, parse_print a ptr mode hw ha⟩

/-- Release build, ASCII, too many `)`. -/
theorem parse_unmatched (ptr body : Str) (mode : ParseMode) (ha : IsAscii body)
    (hb : ¬ PrefixOk 0 body) :
    (Context.new ptr body mode).parse .release = .err unmatched := by
  rw [parse_eq]
  have := loop_err body (Context.new ptr body mode) ha hb (by simp [Context.new])
  have e : (Context.new ptr body mode).p = body := rfl
  rw [e, this]; rfl

/-- The error for an open group, by the recorded offset. -/
def missing (off : Nat) : CompileError := CompileError.new .parse
  ("Missing close parenthesis for group started at index " ++ toString off ++ ".")

/-- Release build, ASCII, too few `)`. -/
theorem parse_missing (ptr pre post : Str) (mode : ParseMode) (ha : IsAscii (pre ++ '(' :: post))
    (hp : PrefixOk 0 (pre ++ '(' :: post)) (hb : Balanced post) :
    (Context.new ptr (pre ++ '(' :: post) mode).parse .release
      = .err (missing (offsetOf (utf8Len ('(' :: post)) (utf8Len ptr))) := by
  rw [parse_eq]
  have e : (Context.new ptr (pre ++ '(' :: post) mode).p = pre ++ '(' :: post := rfl
  rw [e]
  have ha' := isAscii_append.1 ha
  obtain ⟨ctx, h1, h2, h3, h4⟩ := loop_ok pre (Context.new ptr (pre ++ '(' :: post) mode) ('(' :: post)
    ha'.1 (prefixOk_left hp) (by simp [Context.new])
  rw [h1, loop_cons, main_open_release ctx _ h3]
  obtain ⟨a, hw, rfl⟩ := exists_tree post hb
  have h5 : ∀ x, loop .release (a.print ++ []) (ctx.opened a.print x) = _ := fun x =>
    loop_alts a (ctx.opened a.print x) ((ctx.groupIndex + 1)) [] hw (isAscii_cons.1 ha'.2).2
    (by simp [opened]) rfl
  simp only [List.append_nil] at h5
  simp only [Outcome.bind, h5]
  have e2 : ctx.ptrLen = utf8Len ptr := h4
  rw [e2]; rfl

/-! ## Panics -/

theorem utf8Len_cons (c : Char) (cs : Str) : utf8Len (c :: cs) = c.utf8Size + utf8Len cs := by
  simp [utf8Len]

theorem utf8Len_append (s t : Str) : utf8Len (s ++ t) = utf8Len s + utf8Len t := by
  simp [utf8Len]

theorem utf8Len_lt_cons (c : Char) (cs : Str) : utf8Len cs < utf8Len (c :: cs) := by
  have := Char.utf8Size_pos c
  rw [utf8Len_cons]; omega

/-- The character at the head of `s` makes the parser panic. -/
def BadHead (pr : Profile) (ptrLen : Nat) (s : Str) : Prop :=
  ∃ c cs, s = c :: cs ∧ (¬ c.toNat < 128 ∨ (pr = .debug ∧ c = '(' ∧ utf8Len s < ptrLen))

/-- In debug builds an iteration panics or does what release builds do. -/
theorem main_debug (ctx : Context) (c : Char) (cs : Str) :
    (ctx.main .debug (c :: cs)).isPanic = true ∨
      ctx.main .debug (c :: cs) = ctx.main .release (c :: cs) := by
  rcases char_kinds c with h | h | h | ⟨h, h'⟩ | h
  · subst h
    by_cases h1 : utf8Len ('(' :: cs) < ctx.ptrLen
    · exact .inl (main_open_debug_panic ctx cs h1)
    · by_cases h2 : ctx.groupIndex + 1 < 2 ^ 32
      · exact .inr (main_open_debug ctx cs h2 (by omega))
      · left
        show ((ctx.pushSequence .debug ('(' :: cs)).bind _).isPanic = true
        unfold pushSequence u32Incr
        rw [if_neg h2]; rfl
  · subst h; exact .inr rfl
  · subst h; exact .inr rfl
  · right; rw [main_lit .debug ctx c cs h h', main_lit .release ctx c cs h h']
  · exact .inl (main_nonascii .debug ctx c cs h)

theorem loop_debug : ∀ (s : Str) (ctx : Context),
    (loop .debug s ctx).isPanic = true ∨ loop .debug s ctx = loop .release s ctx := by
  intro s
  induction s with
  | nil => intro ctx; exact .inr rfl
  | cons c cs ih =>
    intro ctx
    rw [loop_cons, loop_cons]
    rcases main_debug ctx c cs with h | h
    · left
      cases hm : ctx.main .debug (c :: cs) <;> rw [hm] at h <;> simp [Outcome.isPanic] at h ⊢ <;> rfl
    · rw [h]
      cases hm : ctx.main .release (c :: cs) with
      | ok x => exact ih x
      | err e => exact .inr rfl
      | panic m => exact .inl rfl
      | timeout => exact .inr rfl

theorem finish_not_panic (ctx : Context) : (finish ctx).isPanic = false := by
  unfold finish; split <;> rfl

theorem bind_finish_panic (r : Res Context) : (r.bind finish).isPanic = r.isPanic := by
  cases r with
  | ok a => exact finish_not_panic a
  | _ => rfl

theorem parse_debug (ctx : Context) :
    (ctx.parse .debug).isPanic = true ∨ ctx.parse .debug = ctx.parse .release := by
  rw [parse_eq, parse_eq]
  rcases loop_debug ctx.p ctx with h | h
  · left; rw [bind_finish_panic, h]
  · right; rw [h]

theorem main_ne_timeout (pr : Profile) (ctx : Context) (c : Char) (cs : Str) :
    ctx.main pr (c :: cs) ≠ .timeout := by
  have hr : ctx.main .release (c :: cs) ≠ .timeout := by
    rcases char_kinds c with h | h | h | ⟨h, h'⟩ | h
    · subst h
      show (ctx.pushSequence .release ('(' :: cs)).bind _ ≠ _
      unfold pushSequence u32Incr usizeSub
      repeat' split
      all_goals simp [Outcome.bind]
      all_goals first | (intro h; cases h) | trivial
    · subst h
      cases hs : ctx.sequences with
      | nil => rw [main_close_nil .release ctx cs hs]; intro h; cases h
      | cons v r => rw [main_close_cons .release ctx cs v r hs]; intro h; cases h
    · subst h; rw [main_bar]; intro h; cases h
    · rw [main_lit .release ctx c cs h h']; intro h; cases h
    · intro h2; have := main_nonascii .release ctx c cs h; rw [h2] at this; cases this
  cases pr with
  | release => exact hr
  | debug =>
    rcases main_debug ctx c cs with h | h
    · intro h2; rw [h2] at h; cases h
    · rw [h]; exact hr

theorem loop_ne_timeout (pr : Profile) : ∀ (s : Str) (ctx : Context), loop pr s ctx ≠ .timeout := by
  intro s
  induction s with
  | nil => intro ctx h; cases h
  | cons c cs ih =>
    intro ctx
    rw [loop_cons]
    cases hm : ctx.main pr (c :: cs) with
    | ok x => exact ih x
    | err e => intro h; cases h
    | panic m => intro h; cases h
    | timeout => exact absurd hm (main_ne_timeout pr ctx c cs)

theorem parse_ne_timeout (pr : Profile) (ctx : Context) : ctx.parse pr ≠ .timeout := by
  rw [parse_eq]
  cases h : loop pr ctx.p ctx with
  | ok x =>
    show finish x ≠ _
    unfold finish; split <;> (intro h; cases h)
  | err e => intro h; cases h
  | panic m => intro h; cases h
  | timeout => exact absurd h (loop_ne_timeout pr _ _)

/-- Panics of the loop: the first bad character is reached before an unmatched `)`. -/
theorem loop_panic (pr : Profile) : ∀ (s : Str) (ctx : Context), ctx.groupIndex < 2 ^ 32 →
    utf8Len s ≤ ctx.ptrLen → (ctx.groupIndex = 1 ∨ utf8Len s < ctx.ptrLen) →
    ((loop pr s ctx).isPanic = true ↔ ∃ n, BadHead pr ctx.ptrLen (s.drop n) ∧
      PrefixOk ctx.sequences.length (s.take n)) := by
  intro s
  induction s with
  | nil =>
    intro ctx _ _ _
    simp [loop, Outcome.isPanic, BadHead]
  | cons c cs ih =>
    intro ctx hg hl hg1
    have hlt : utf8Len cs < ctx.ptrLen := by have := utf8Len_lt_cons c cs; omega
    -- shifting the position by one
    have shift : ∀ (d d' : Nat), (∀ t, PrefixOk d (c :: t) ↔ PrefixOk d' t) →
        ¬ BadHead pr ctx.ptrLen (c :: cs) →
        ((∃ n, BadHead pr ctx.ptrLen ((c :: cs).drop n) ∧ PrefixOk d ((c :: cs).take n)) ↔
          ∃ n, BadHead pr ctx.ptrLen (cs.drop n) ∧ PrefixOk d' (cs.take n)) := by
      intro d d' hd hb
      constructor
      · rintro ⟨n, h1, h2⟩
        cases n with
        | zero => exact absurd h1 hb
        | succ n => exact ⟨n, h1, (hd _).1 (by simpa using h2)⟩
      · rintro ⟨n, h1, h2⟩
        exact ⟨n + 1, h1, by rw [List.take_succ_cons]; exact (hd _).2 h2⟩
    have good : BadHead pr ctx.ptrLen (c :: cs) → (loop pr (c :: cs) ctx).isPanic = true := by
      rintro ⟨c', cs', heq, hbad⟩
      injection heq with h1 h2
      subst h1 h2
      rw [loop_cons]
      have : (ctx.main pr (c :: cs)).isPanic = true := by
        rcases hbad with h | ⟨rfl, rfl, h⟩
        · exact main_nonascii pr ctx c cs h
        · exact main_open_debug_panic ctx cs h
      cases hm : ctx.main pr (c :: cs) <;> rw [hm] at this <;> simp [Outcome.isPanic] at this ⊢ <;> rfl
    by_cases hb : BadHead pr ctx.ptrLen (c :: cs)
    · constructor
      · intro _; exact ⟨0, hb, by simpa using prefixOk_nil _⟩
      · intro _; exact good hb
    · rcases char_kinds c with h | h | h | ⟨h, h'⟩ | h
      · subst h
        rw [shift _ (ctx.sequences.length + 1) (fun t => prefixOk_open _ t) hb, loop_cons]
        have hm : ctx.main pr ('(' :: cs) =
            .ok (ctx.opened cs (offsetOf (utf8Len ('(' :: cs)) ctx.ptrLen)) := by
          cases pr with
          | release => exact main_open_release ctx cs hg
          | debug =>
            have hge : ctx.ptrLen ≤ utf8Len ('(' :: cs) := by
              apply Nat.le_of_not_lt; intro hlt'
              exact hb ⟨'(', cs, rfl, .inr ⟨rfl, rfl, hlt'⟩⟩
            have : ctx.groupIndex = 1 := hg1.resolve_right (by omega)
            rw [main_open_debug ctx cs (by rw [this]; decide) hge]
            exact main_open_release ctx cs hg
        rw [hm]
        exact ih _ (Nat.mod_lt _ (by decide)) (Nat.le_of_lt hlt) (.inr hlt)
      · subst h
        rw [loop_cons]
        cases hs : ctx.sequences with
        | nil =>
          rw [main_close_nil pr ctx cs hs]
          constructor
          · intro h; cases h
          · rintro ⟨n, h1, h2⟩
            cases n with
            | zero => exact absurd h1 hb
            | succ n =>
              rw [List.take_succ_cons] at h2
              have := (prefixOk_close _ _).1 h2
              simp at this
        | cons v r =>
          have := shift (v :: r).length r.length (fun t => by rw [prefixOk_close]; simp) hb
          rw [this, main_close_cons pr ctx cs v r hs]
          exact ih _ hg (Nat.le_of_lt hlt) (.inr hlt)
      · subst h
        rw [shift _ ctx.sequences.length (fun t => prefixOk_other _ _ _ (by decide) (by decide)) hb,
          loop_cons, main_bar]
        exact ih _ hg (Nat.le_of_lt hlt) (.inr hlt)
      · have hn : c ≠ '(' ∧ c ≠ ')' := by
          unfold special at h; exact ⟨fun e => h (.inl e), fun e => h (.inr (.inl e))⟩
        rw [shift _ ctx.sequences.length (fun t => prefixOk_other _ _ _ hn.1 hn.2) hb,
          loop_cons, main_lit pr ctx c cs h h']
        exact ih _ hg (Nat.le_of_lt hlt) (.inr hlt)
      · exact absurd ⟨c, cs, rfl, .inl h⟩ hb

theorem parse_panic (pr : Profile) (ptr body : Str) (mode : ParseMode)
    (h : utf8Len body ≤ utf8Len ptr) :
    ((Context.new ptr body mode).parse pr).isPanic = true ↔
      ∃ n, BadHead pr (utf8Len ptr) (body.drop n) ∧ PrefixOk 0 (body.take n) := by
  rw [parse_eq, bind_finish_panic]
  exact loop_panic pr body (Context.new ptr body mode) (by simp [Context.new]) h (.inl rfl)

end Context

/-! ## Control verbs -/

theorem takeWhile_verb (v rest : Str) (h : ')' ∉ v) :
    (v ++ ')' :: rest).takeWhile (fun c => c != ')') = v := by
  induction v with
  | nil => simp
  | cons c v ih =>
    simp only [List.mem_cons, not_or] at h
    have : (c != ')') = true := by simp [Ne.symm h.1]
    simp only [List.cons_append]
    rw [List.takeWhile_cons, if_pos this, ih h.2]

theorem dropWhile_eq_drop {α : Type} (p : α → Bool) (l : List α) :
    l.dropWhile p = l.drop (l.takeWhile p).length := by
  induction l with
  | nil => rfl
  | cons a l ih =>
    by_cases h : p a = true
    · simp [h, ih]
    · simp [h]

theorem controlVerb_some {input rest v : Str} : controlVerb input = some (rest, v) ↔
    HasVerb input v rest := by
  constructor
  · intro h
    unfold controlVerb at h
    split at h
    · rename_i r
      unfold isNotClose at h
      simp only at h
      by_cases he : (r.takeWhile (fun c => c != ')')).isEmpty = true
      · rw [if_pos he] at h; cases h
      · rw [if_neg he] at h
        simp only at h
        split at h
        · rename_i r'' heq
          injection h with h
          injection h with h1 h2
          subst h1 h2
          have hsplit : r = r.takeWhile (fun c => c != ')') ++ ')' :: r'' := by
            rw [← heq]
            have := List.takeWhile_append_dropWhile (p := fun c => c != ')') (l := r)
            have hd : r.dropWhile (fun c => c != ')') =
                r.drop (r.takeWhile (fun c => c != ')')).length := dropWhile_eq_drop _ r
            rw [← hd]; exact this.symm
          refine ⟨by simp only [List.cons_append, List.nil_append, List.append_assoc]; rw [← hsplit],
            by simpa using he, ?_⟩
          intro hm
          have hall : ∀ x ∈ r.takeWhile (fun c => c != ')'), (x != ')') = true := by
            intro x hx; exact (List.all_eq_true.1 List.all_takeWhile) x hx
          have := hall _ hm
          simp at this
        · cases h
    · cases h
  · rintro ⟨rfl, h1, h2⟩
    have ht := takeWhile_verb v rest h2
    simp only [List.cons_append, List.nil_append, List.append_assoc]
    unfold controlVerb isNotClose
    simp only [ht]
    rw [if_neg (by simpa using h1)]
    simp

theorem controlVerb_none {input : Str} : controlVerb input = none ↔ NoVerb input := by
  constructor
  · intro h v rest hv
    rw [controlVerb_some.2 hv] at h; cases h
  · intro h
    cases hc : controlVerb input with
    | none => rfl
    | some x => exact absurd (controlVerb_some.1 hc) (h _ _)

end Rescan
