import Verif.Spec.Reference
import Verif.Proofs.Compile
/-! # The compiler against the reference program -/
namespace Rescan
open Spec

namespace Reference

theorem verb_some {text v body : Str} : Spec.Reference.verb text = some (v, body) ↔ HasVerb text v body := by
  constructor
  · intro h
    unfold Spec.Reference.verb at h
    split at h
    · rename_i rest
      split at h
      · cases h
      · rename_i c body' hd
        dsimp only at h
        split at h
        · cases h
        · rename_i hne
          injection h with h; injection h with h1 h2
          subst h1 h2
          have hc : c = ')' := by
            have h3 := List.head?_dropWhile_not (fun c => c != ')') rest
            rw [hd] at h3
            simpa using h3
          subst hc
          refine ⟨?_, hne, ?_⟩
          · have := List.takeWhile_append_dropWhile (p := fun c => c != ')') (l := rest)
            rw [hd] at this
            simp [this]
          · exact not_mem_takeWhile rest
    · cases h
  · rintro ⟨rfl, hne, hv⟩
    have hd : (v ++ [')'] ++ body).dropWhile (fun c => c != ')') = ')' :: body := by
      rw [List.append_assoc, List.dropWhile_append_of_pos (by intro a ha; simp; rintro rfl; exact hv ha)]
      rfl
    have ht : (v ++ [')'] ++ body).takeWhile (fun c => c != ')') = v := by
      rw [List.append_assoc, List.takeWhile_append_of_pos (by intro a ha; simp; rintro rfl; exact hv ha)]
      simp
    show Spec.Reference.verb ('(' :: '*' :: (v ++ [')'] ++ body)) = _
    unfold Spec.Reference.verb
    simp only [hd, ht]
    rw [if_neg hne]

theorem verb_none {text : Str} : Spec.Reference.verb text = none ↔ NoVerb text := by
  constructor
  · intro h v rest hv
    rw [verb_some.2 hv] at h; cases h
  · intro h
    cases hx : Spec.Reference.verb text with
    | none => rfl
    | some x => exact absurd (verb_some.1 (show Spec.Reference.verb text = some (x.1, x.2) from hx)) (h _ _)

theorem unsupported_iff (v : Str) : Spec.Reference.unsupported v = true ↔ RefusedVerb v := by
  unfold Spec.Reference.unsupported RefusedVerb
  rw [Bool.or_assoc, Bool.or_eq_true, limit_iff, List.contains_iff_mem]

theorem obeyed_iff (v : Str) : v ∈ Spec.Reference.obeyed ↔ AcceptedVerb v := by
  simp [Spec.Reference.obeyed, AcceptedVerb]

/-- Forgetting the value. -/
def void {ε α : Type} (r : Outcome ε α) : Outcome ε Unit := r.bind fun _ => .ok ()

theorem main_nonascii_eq (pr : Profile) (ctx : Context) (c : Char) (cs : Str) (ha : ¬ c.toNat < 128) :
    ctx.main pr (c :: cs) = .panic "assertion failed: c.is_ascii()" := by
  unfold Context.main
  split
  · rename_i heq; injection heq with h1 h2; subst h1; exact absurd (by decide) ha
  · rename_i heq; injection heq with h1 h2; subst h1; exact absurd (by decide) ha
  · rename_i heq; injection heq with h1 h2; subst h1; exact absurd (by decide) ha
  · rename_i c' p' _ _ _ heq
    injection heq with h1 h2
    subst h1 h2
    simp [ha, rassert]; rfl
  · simp_all

theorem utf8Len_ascii (c : Char) (cs : Str) (h : c.toNat < 128) : utf8Len (c :: cs) = utf8Len cs + 1 := by
  have : c.utf8Size = 1 := by
    unfold Char.utf8Size
    have h1 : c.val ≤ 127 := by
      rw [UInt32.le_iff_toNat_le]
      have : c.toNat = c.val.toNat := rfl
      show c.val.toNat ≤ 127
      omega
    simp [h1]
  rw [Context.utf8Len_cons, this]; omega

/-- The loop and the final check, with only the positions of the open groups kept. -/
theorem loop_walk (pr : Profile) : ∀ (s : Str) (ctx : Context) (k : Nat) (opens : List Nat),
    ctx.ptrLen = k + utf8Len s → ctx.ptrLen < 2 ^ 31 → ctx.groupIndex ≤ k + 1 →
    ctx.sequences.map (·.offset) = opens.map (fun k => (2 ^ 64 - k) % 2 ^ 64) →
    void ((Context.loop pr s ctx).bind Context.finish) = Spec.Reference.walk pr k opens s := by
  intro s
  induction s with
  | nil =>
    intro ctx k opens hk hp hg hs
    unfold Context.loop
    show void (Context.finish ctx) = _
    unfold Context.finish
    cases opens with
    | nil =>
      have : ctx.sequences = [] := by simpa using hs
      rw [this]; rfl
    | cons o opens =>
      cases hq : ctx.sequences with
      | nil => rw [hq] at hs; cases hs
      | cons v r =>
        rw [hq] at hs
        simp only [List.map_cons] at hs
        injection hs with h1 h2
        show Outcome.err (CompileError.new .parse _) = _
        rw [h1]
        rfl
  | cons c cs ih =>
    intro ctx k opens hk hp hg hs
    unfold Context.loop Spec.Reference.walk
    rcases Context.char_kinds c with rfl | rfl | rfl | ⟨h1, h2⟩ | h1
    · have hl := utf8Len_ascii '(' cs (by decide)
      rw [if_pos rfl]
      by_cases hd : pr = .debug ∧ k ≠ 0
      · rw [if_pos hd]
        have : ctx.main pr ('(' :: cs) = .panic "attempt to subtract with overflow" := by
          obtain ⟨rfl, hk0⟩ := hd
          show (ctx.pushSequence .debug ('(' :: cs)).bind _ = _
          unfold Context.pushSequence Context.u32Incr Context.usizeSub
          rw [if_pos (by omega), if_neg (by omega)]
          rfl
        rw [this]; rfl
      · rw [if_neg hd]
        have hm : ctx.main pr ('(' :: cs) = .ok (ctx.opened cs ((2 ^ 64 - k) % 2 ^ 64)) := by
          have hr := Context.main_open_release ctx cs (by omega)
          have ho : Context.offsetOf (utf8Len ('(' :: cs)) ctx.ptrLen = (2 ^ 64 - k) % 2 ^ 64 := by
            unfold Context.offsetOf
            by_cases hk0 : k = 0
            · rw [if_pos (by omega), hk0]; simp; try omega
            · rw [if_neg (by omega), Nat.mod_eq_of_lt (by omega)]; omega
          rw [ho] at hr
          cases pr with
          | release => exact hr
          | debug =>
            have hk0 : k = 0 := Classical.byContradiction fun h => hd ⟨rfl, h⟩
            rw [Context.main_open_debug ctx cs (by omega) (by omega)]; exact hr
        rw [hm]
        have hmod : (ctx.groupIndex + 1) % 2 ^ 32 = ctx.groupIndex + 1 := Nat.mod_eq_of_lt (by omega)
        refine ih (ctx.opened cs _) (k + 1) (k :: opens) ?_ hp ?_ ?_
        · show ctx.ptrLen = _; omega
        · show (ctx.groupIndex + 1) % 2 ^ 32 ≤ _; omega
        · show _ :: _ = _ :: _; rw [← hs]
    · have hl := utf8Len_ascii ')' cs (by decide)
      rw [if_neg (by decide), if_pos rfl]
      cases opens with
      | nil =>
        have : ctx.sequences = [] := by simpa using hs
        rw [Context.main_close_nil pr ctx cs this]; rfl
      | cons o opens =>
        cases hq : ctx.sequences with
        | nil => rw [hq] at hs; cases hs
        | cons v r =>
          rw [hq] at hs
          simp only [List.map_cons] at hs
          injection hs with h1 h2
          rw [Context.main_close_cons pr ctx cs v r hq]
          exact ih _ (k + 1) opens (by show ctx.ptrLen = _; omega) hp (by show ctx.groupIndex ≤ _; omega) h2
    · have hl := utf8Len_ascii '|' cs (by decide)
      rw [if_neg (by decide), if_neg (by decide), if_pos (by decide), Context.main_bar]
      exact ih _ (k + 1) opens (by show ctx.ptrLen = _; omega) hp (by show ctx.groupIndex ≤ _; omega) hs
    · have hl := utf8Len_ascii c cs h2
      have h1' : c ≠ '(' ∧ c ≠ ')' := by unfold special at h1; simp at h1; exact ⟨h1.1, h1.2.1⟩
      rw [if_neg h1'.1, if_neg h1'.2, if_pos h2, Context.main_lit pr ctx c cs h1 h2]
      exact ih _ (k + 1) opens (by show ctx.ptrLen = _; omega) hp (by show ctx.groupIndex ≤ _; omega) hs
    · have e1 : c ≠ '(' := by rintro rfl; exact h1 (by decide)
      have e2 : c ≠ ')' := by rintro rfl; exact h1 (by decide)
      rw [if_neg e1, if_neg e2, if_neg h1, main_nonascii_eq pr ctx c cs h1]
      rfl

/-- Parsing, with the tree forgotten. -/
theorem parse_read (pr : Profile) (text : Str) (mode : ParseMode) (h : utf8Len text < 2 ^ 31) :
    void (parse pr text mode) = Spec.Reference.read pr text := by
  have key : ∀ (body : Str) (m : ParseMode) (k : Nat), readControlVerbs text 0 mode = .ok (body, m) →
      utf8Len text = k + utf8Len body → void (parse pr text mode) = Spec.Reference.walk pr k [] body := by
    intro body m k hb hk
    have : void (parse pr text mode) = void ((Context.new text body m).parse pr) := by
      unfold parse
      rw [hb]
      show void (((Context.new text body m).parse pr).bind _) = _
      cases (Context.new text body m).parse pr <;> rfl
    rw [this, Context.parse_eq]
    exact loop_walk pr body (Context.new text body m) k [] hk h (by show 1 ≤ _; omega) rfl
  have stop : ∀ e, readControlVerbs text 0 mode = .err e → void (parse pr text mode) = .err e := by
    intro e he
    unfold parse
    rw [he]; rfl
  unfold Spec.Reference.read
  cases hv : Spec.Reference.verb text with
  | none => exact key text mode 0 ((C27_control_verbs text 0 mode).1 (verb_none.1 hv)) (by omega)
  | some x =>
    obtain ⟨v, body⟩ := x
    have hh := verb_some.1 hv
    obtain ⟨c1, c2, c3⟩ := (C27_control_verbs text 0 mode).2 v body hh
    dsimp only
    by_cases ho : v ∈ Spec.Reference.obeyed
    · rw [if_pos ho]
      have ha := (obeyed_iff v).1 ho
      obtain ⟨m, hm⟩ := c1 ha
      refine key body m _ hm ?_
      obtain ⟨rfl, _, _⟩ := hh
      rw [Context.utf8Len_append, Nat.add_right_cancel_iff]
      rcases ha with rfl | rfl | rfl <;> decide +kernel
    · rw [if_neg ho]
      have ha : ¬ AcceptedVerb v := fun h => ho ((obeyed_iff v).2 h)
      have h2 : " at index " ++ toString (0 + 2) = " at index 2" := by decide +kernel
      by_cases hu : Spec.Reference.unsupported v = true
      · rw [if_pos hu]
        have := c2 ((unsupported_iff v).1 hu)
        rw [String.append_assoc, h2] at this
        exact stop _ this
      · rw [if_neg hu]
        have := c3 ha fun h => hu ((unsupported_iff v).2 h)
        rw [String.append_assoc, h2] at this
        exact stop _ this

/-! ## Expressions -/

theorem isLiteral_iff {text body : Str} {f : Flags} {id : Nat} (h : IsBody text body) :
    Spec.Reference.isLiteral text = true ↔ literalOf (text, f, id) ≠ none := by
  have hb : Spec.Reference.afterVerb text = body := by
    unfold Spec.Reference.afterVerb
    rcases h with ⟨h1, h2⟩ | ⟨v, h1, _⟩
    · rw [verb_none.2 h1]; exact h2.symm
    · rw [verb_some.2 h1]
  have hbo := (bodyOf_some _ _).2 h
  unfold Spec.Reference.isLiteral literalOf
  rw [hb]
  simp only [hbo]
  rw [Bool.and_eq_true, Bool.not_eq_true', List.any_eq_true]
  constructor
  · rintro ⟨h1, c, hc, h2⟩
    rw [if_neg]
    · simp
    · rintro (h3 | h3)
      · rw [← List.contains_iff_mem, h1] at h3; cases h3
      · rcases h3 c hc with rfl | rfl <;> simp at h2
  · intro h1
    split at h1
    · exact absurd rfl h1
    · rename_i hn
      refine ⟨?_, ?_⟩
      · cases hx : body.contains '|' with
        | false => rfl
        | true => exact absurd (.inl (List.contains_iff_mem.1 hx)) hn
      · apply Classical.byContradiction
        intro hno
        apply hn
        right
        intro c hc
        apply Classical.byContradiction
        intro hcc
        refine hno ⟨c, hc, ?_⟩
        simp only [Bool.and_eq_true, bne_iff_ne]
        exact ⟨fun e => hcc (.inl e), fun e => hcc (.inr e)⟩

/-- What is noted agrees with the literal expressions seen, as far as looking up an id goes. -/
def Notes (seen : List Spec.Reference.Noted) (h : List LitEntry) : Prop :=
  ∀ id, seen.find? (fun x => x.id == id) = (h.find? (fun x => x.id == id)).map fun x => ⟨x.id, x.single, x.index⟩

/-- An expression whose text cannot be read. -/
theorem addExpression_unread (p : Profile) (ng : Ng) (i : Nat) (e : Expr)
    (hlen : utf8Len e.1 ≤ ng.cc.grey.limitPatternLength) (hq : ¬ QuietSom e.2.1) :
    (∀ x, parse p e.1 (ParseMode.new (e.2.1.and Flags.QUIET.not)) = .err x →
      addExpression p ng i e.1 e.2.1 e.2.2 = .err x) ∧
    (∀ m, parse p e.1 (ParseMode.new (e.2.1.and Flags.QUIET.not)) = .panic m →
      addExpression p ng i e.1 e.2.1 e.2.2 = .panic m) := by
  have hq' : ¬ e.2.1.contains (Flags.QUIET.or .SOM_LEFTMOST) = true :=
    fun h => hq ((contains_or_iff _ _ _).1 h)
  constructor
  · intro x hx
    unfold addExpression
    rw [if_neg (by omega)]
    show (ParsedExpression.new p i e.1 e.2.1 e.2.2).bind _ = _
    unfold ParsedExpression.new
    simp only
    rw [if_neg hq', hx]; rfl
  · intro x hx
    unfold addExpression
    rw [if_neg (by omega)]
    show (ParsedExpression.new p i e.1 e.2.1 e.2.2).bind _ = _
    unfold ParsedExpression.new
    simp only
    rw [if_neg hq', hx]; rfl

theorem find_append {α : Type} (q : α → Bool) (l l' : List α) :
    (l ++ l').find? q = (l.find? q).or (l'.find? q) := List.find?_append

/-- Adding expressions one by one. -/
theorem addAll_walk (p : Profile) {cc : CompileContext} {np : Nat} (hs : Sane cc.grey) :
    ∀ (es : List Expr) (i : Nat) (h : List LitEntry) (ng : Ng) (seen : List Spec.Reference.Noted),
    i + es.length ≤ 2 ^ 32 → h.length ≤ i → NgOk cc np h ng → Notes seen h →
    (Spec.Reference.addAll p cc.grey seen i es = .ok () ∧
      ∃ ng' h', addAll p i ng es = .ok ng' ∧ NgOk cc np h' ng') ∨
    ((addAll p i ng es).isOk = false ∧ void (addAll p i ng es) = Spec.Reference.addAll p cc.grey seen i es) := by
  intro es
  induction es with
  | nil => intro i h ng seen _ _ hok _; exact .inl ⟨rfl, ng, h, rfl, hok⟩
  | cons e es ih =>
    intro i h ng seen hi hh hok hn
    simp only [List.length_cons] at hi
    have hcc := hok.context
    obtain ⟨s1, s2, s3, s4⟩ := addAll_stop p i ng e es (by omega)
    show (Spec.Reference.addAll p cc.grey seen i ((e.1, e.2.1, e.2.2) :: es) = _ ∧ _) ∨
      (_ ∧ _ = Spec.Reference.addAll p cc.grey seen i ((e.1, e.2.1, e.2.2) :: es))
    unfold Spec.Reference.addAll Spec.Reference.add
    dsimp only
    by_cases hlen : utf8Len e.1 > cc.grey.limitPatternLength
    · rw [if_pos hlen]
      right
      have : addExpression p ng i e.1 e.2.1 e.2.2 = .err ⟨.other, "Pattern length exceeds limit.", none⟩ := by
        unfold addExpression
        rw [hcc, if_pos hlen]; rfl
      rw [s1 _ this (.inl rfl)]
      exact ⟨rfl, rfl⟩
    · rw [if_neg hlen]
      by_cases hq : QuietSom e.2.1
      · rw [if_pos (by rw [hq.1, hq.2]; rfl)]
        right
        rcases addExpression_invalid p ng i e (fun h => h.2.1 hq) with
          ⟨h1, h2⟩ | ⟨h1, _, h2⟩ | ⟨_, h2, _⟩ | ⟨_, h2, _⟩
        · rw [hcc] at h1; exact absurd h1 hlen
        · rw [s1 _ h2 (.inl rfl)]
          exact ⟨rfl, rfl⟩
        · exact absurd hq h2
        · exact absurd hq h2
      · rw [if_neg (by rw [Bool.and_eq_true]; exact hq)]
        have hpr := parse_read p e.1 (ParseMode.new (e.2.1.and Flags.QUIET.not))
          (by have := hs.length; omega)
        rw [← hpr]
        obtain ⟨u1, u2⟩ := addExpression_unread p ng i e (by rw [hcc]; omega) hq
        cases hp : parse p e.1 (ParseMode.new (e.2.1.and Flags.QUIET.not)) with
        | timeout => exact absurd hp (parse_not_timeout _ _ _)
        | err x =>
          right
          have := u1 x hp
          rw [s1 _ this (.inl (parse_err_index hp).1)]
          exact ⟨rfl, rfl⟩
        | panic m =>
          right
          rw [s3 _ (u2 m hp)]
          exact ⟨rfl, rfl⟩
        | ok x =>
          have hacc : Acceptable p e.1 := (parse_ok_iff p e.1 _).1 (by rw [hp]; rfl)
          obtain ⟨body, hbody, _⟩ := id hacc
          have hlit := isLiteral_iff (f := e.2.1) (id := e.2.2) hbody
          have hval : Valid p cc.grey.limitPatternLength e := ⟨by omega, hq, hacc⟩
          show ((match (if (cc.grey.allowLiteral && cc.grey.shortcutLiterals && Spec.Reference.isLiteral e.1) = true
              then _ else _ : Res (List Spec.Reference.Noted)) with
            | .ok seen => _ | .err e => _ | .panic m => _ | .timeout => _) = _ ∧ _) ∨ (_ ∧ _ =
            (match (if (cc.grey.allowLiteral && cc.grey.shortcutLiterals && Spec.Reference.isLiteral e.1) = true
              then _ else _ : Res (List Spec.Reference.Noted)) with
            | .ok seen => _ | .err e => _ | .panic m => _ | .timeout => _))
          have hent : entriesFrom (litsOn cc.grey) i [e] =
              match (if litsOn cc.grey then literalOf e else none) with
              | none => []
              | some l => [⟨i, l, e.2.2, e.2.1.contains .SINGLEMATCH⟩] := by
            simp only [entriesFrom]
            cases (if litsOn cc.grey = true then literalOf e else none) <;> rfl
          -- the next step, once this expression is added
          have next : ∀ (ng' : Ng) (seen' : List Spec.Reference.Noted),
              addExpression p ng i e.1 e.2.1 e.2.2 = .ok ng' →
              NgOk cc np (h ++ entriesFrom (litsOn cc.grey) i [e]) ng' →
              Notes seen' (h ++ entriesFrom (litsOn cc.grey) i [e]) →
              (Spec.Reference.addAll p cc.grey seen' (i + 1) es = .ok () ∧
                ∃ ng' h', addAll p i ng (e :: es) = .ok ng' ∧ NgOk cc np h' ng') ∨
              ((addAll p i ng (e :: es)).isOk = false ∧
                void (addAll p i ng (e :: es)) = Spec.Reference.addAll p cc.grey seen' (i + 1) es) := by
            intro ng' seen' h1 h2 h3
            rw [s4 ng' h1]
            refine ih (i + 1) _ ng' seen' (by omega) ?_ h2 h3
            have := entriesFrom_length (litsOn cc.grey) [e] i
            simp only [List.length_append, List.length_singleton] at *
            omega
          have hex := addExpression_valid p hs hok (by omega) i (by omega) e hval
          by_cases hl : (cc.grey.allowLiteral && cc.grey.shortcutLiterals && Spec.Reference.isLiteral e.1) = true
          · rw [if_pos hl]
            rw [Bool.and_eq_true] at hl
            have hon : litsOn cc.grey = true := hl.1
            have hne : literalOf e ≠ none := hlit.1 hl.2
            rw [hn e.2.2]
            rcases hex with ⟨_, _, _, old, h2, h3, h4⟩ | ⟨h1, ng', h2, h3⟩
            · rw [h2]
              dsimp only [Option.map_some]
              rw [if_neg h3]
              right
              cases p with
              | release =>
                rw [s1 _ h4 (.inr rfl), if_neg (by decide)]
                exact ⟨rfl, rfl⟩
              | debug =>
                rw [if_pos rfl]
                have : addAll .debug i ng (e :: es) = .panic "assertion failed: self.index.is_none()" := by
                  show addAll .debug i ng ((e.1, e.2.1, e.2.2) :: es) = _
                  rw [addAll, h4]
                  show (ReportManager.toU32 i _).bind _ = _
                  rw [ReportManager.toU32_ok _ _ (by omega)]
                  rfl
                rw [this]
                exact ⟨rfl, rfl⟩
            · obtain ⟨l, hl'⟩ := Option.ne_none_iff_exists'.1 hne
              rw [hon, hl'] at hent
              simp only [if_true] at hent
              cases ho : h.find? (fun x => x.id == e.2.2) with
              | none =>
                refine next ng' _ h2 h3 ?_
                rw [hon, hent]
                intro id
                rw [find_append, find_append, hn id]
                cases hf : h.find? (fun x => x.id == id) with
                | some x => rfl
                | none =>
                  simp only [Option.map_none, Option.none_or, List.find?_cons, List.find?_nil]
                  cases e.2.2 == id <;> rfl
              | some old =>
                have hag : old.single = e.2.1.contains .SINGLEMATCH :=
                  h1 hon hne old (List.mem_of_find?_eq_some ho) (by simpa using List.find?_some ho)
                dsimp only [Option.map_some]
                rw [if_pos hag]
                refine next ng' _ h2 h3 ?_
                rw [hon, hent]
                intro id
                rw [find_append, hn id]
                cases hf : h.find? (fun x => x.id == id) with
                | some x => rfl
                | none =>
                  have : (e.2.2 == id) = false := by
                    cases hc : e.2.2 == id with
                    | false => rfl
                    | true =>
                      have : e.2.2 = id := by simpa using hc
                      rw [← this, ho] at hf; cases hf
                  simp [this]
          · rw [if_neg hl]
            have hnone : entriesFrom (litsOn cc.grey) i [e] = [] := by
              rw [hent]
              by_cases hon : litsOn cc.grey = true
              · have : literalOf e = none := by
                  apply Classical.byContradiction
                  intro hne
                  apply hl
                  rw [Bool.and_eq_true]
                  exact ⟨hon, hlit.2 hne⟩
                rw [this]; simp
              · simp [hon]
            rcases hex with ⟨_, hon, hne, _⟩ | ⟨h1, ng', h2, h3⟩
            · exact absurd (by rw [Bool.and_eq_true]; exact ⟨hon, hlit.2 hne⟩) hl
            · refine next ng' _ h2 h3 ?_
              rw [hnone, List.append_nil]; exact hn

end Reference
end Rescan
