import Verif.Model.Mended
import Verif.Spec.Mended
import Verif.Proofs.Reference
import Verif.Props.Repaired
import Verif.Props.Completed
import Verif.Props.Patterns
import Verif.Props.Compiled
/-! # The mended compiler -/
namespace Rescan
open Spec

namespace Mended

/-- A result of the reference program as an outcome. -/
def ofExcept {α : Type} : Except CompileError α → Res α
  | .ok a => .ok a
  | .error e => .err e

/-! ## Reading -/

theorem walk_cons (k : Nat) (opens : List Nat) (c : Char) (rest : Str) : Spec.Mended.walk k opens (c :: rest) =
    if c = '(' then Spec.Mended.walk (k + 1) (k :: opens) rest
    else if c = ')' then
      match opens with
      | [] => .error ⟨.locatedParse, "Unmatched parentheses", none⟩
      | _ :: opens => Spec.Mended.walk (k + 1) opens rest
    else if c.toNat < 128 then Spec.Mended.walk (k + 1) opens rest
    else .error ⟨.locatedParse, "Unsupported character", none⟩ := by
  cases opens <;> rfl

theorem empty_cons (done now : Bool) (outer : List (Bool × Bool)) (c : Char) (rest : Str) :
    Spec.Mended.empty done now outer (c :: rest) =
    if c = '(' then Spec.Mended.empty false true ((done, now) :: outer) rest
    else if c = ')' then
      match outer with
      | [] => false
      | (done', now') :: outer => Spec.Mended.empty done' (now' && (done || now)) outer rest
    else if c = '|' then Spec.Mended.empty (done || now) true outer rest
    else Spec.Mended.empty done false outer rest := by
  cases outer <;> rfl

theorem loop_walk : ∀ (s : Str) (ctx : Context) (k : Nat) (opens : List Nat),
    ctx.ptrLen = k + utf8Len s → ctx.ptrLen < 2 ^ 31 → ctx.groupIndex ≤ k + 1 → (∀ o ∈ opens, o < 2 ^ 64) →
    ctx.sequences.map (·.offset) = opens.map (fun k => (2 ^ 64 - k) % 2 ^ 64) →
    Reference.void ((repairedOutcome (Context.loop .release s ctx)).bind Context.finish)
      = ofExcept (Spec.Mended.walk k opens s) := by
  intro s
  induction s with
  | nil =>
    intro ctx k opens hk hp hg ho hs
    unfold Context.loop
    show Reference.void (Context.finish ctx.negated) = _
    unfold Context.finish
    cases opens with
    | nil =>
      have : ctx.sequences = [] := by simpa using hs
      have : ctx.negated.sequences = [] := by simp [Context.negated, this]
      rw [this]; rfl
    | cons o opens =>
      cases hq : ctx.sequences with
      | nil => rw [hq] at hs; cases hs
      | cons v r =>
        rw [hq] at hs
        simp only [List.map_cons] at hs
        injection hs with h1 h2
        have : ctx.negated.sequences = { v with offset := (2 ^ 64 - v.offset) % 2 ^ 64 } ::
            r.map (fun s => { s with offset := (2 ^ 64 - s.offset) % 2 ^ 64 }) := by simp [Context.negated, hq]
        rw [this]
        have ho := ho o List.mem_cons_self
        have e : (2 ^ 64 - (2 ^ 64 - o) % 2 ^ 64) % 2 ^ 64 = o := by omega
        show Outcome.err (CompileError.new .parse _) = _
        rw [h1, e]
        rfl
  | cons c cs ih =>
    intro ctx k opens hk hp hg ho hs
    unfold Context.loop
    rcases Context.char_kinds c with rfl | rfl | rfl | ⟨h1, h2⟩ | h1
    · have hl := Reference.utf8Len_ascii '(' cs (by decide)
      rw [walk_cons, if_pos rfl]
      have hm : ctx.main .release ('(' :: cs) = .ok (ctx.opened cs ((2 ^ 64 - k) % 2 ^ 64)) := by
        have hr := Context.main_open_release ctx cs (by omega)
        have ho : Context.offsetOf (utf8Len ('(' :: cs)) ctx.ptrLen = (2 ^ 64 - k) % 2 ^ 64 := by
          unfold Context.offsetOf
          by_cases hk0 : k = 0
          · rw [if_pos (by omega), hk0]; simp; try omega
          · rw [if_neg (by omega), Nat.mod_eq_of_lt (by omega)]; omega
        rw [ho] at hr
        exact hr
      rw [hm]
      have hmod : (ctx.groupIndex + 1) % 2 ^ 32 = ctx.groupIndex + 1 := Nat.mod_eq_of_lt (by omega)
      refine ih (ctx.opened cs _) (k + 1) (k :: opens) ?_ hp ?_ ?_ ?_
      · show ctx.ptrLen = _; omega
      · show (ctx.groupIndex + 1) % 2 ^ 32 ≤ _; omega
      · intro o h
        rcases List.mem_cons.1 h with rfl | h
        · omega
        · exact ho o h
      · show _ :: _ = _ :: _; rw [← hs]
    · have hl := Reference.utf8Len_ascii ')' cs (by decide)
      rw [walk_cons, if_neg (by decide), if_pos rfl]
      cases opens with
      | nil =>
        have : ctx.sequences = [] := by simpa using hs
        rw [Context.main_close_nil .release ctx cs this]; rfl
      | cons o opens =>
        cases hq : ctx.sequences with
        | nil => rw [hq] at hs; cases hs
        | cons v r =>
          rw [hq] at hs
          simp only [List.map_cons] at hs
          injection hs with h1 h2
          rw [Context.main_close_cons .release ctx cs v r hq]
          exact ih _ (k + 1) opens (by show ctx.ptrLen = _; omega) hp (by show ctx.groupIndex ≤ _; omega)
            (fun o h => ho o (List.mem_cons_of_mem _ h)) h2
    · have hl := Reference.utf8Len_ascii '|' cs (by decide)
      rw [walk_cons, if_neg (by decide), if_neg (by decide), if_pos (by decide), Context.main_bar]
      exact ih _ (k + 1) opens (by show ctx.ptrLen = _; omega) hp (by show ctx.groupIndex ≤ _; omega) ho hs
    · have hl := Reference.utf8Len_ascii c cs h2
      have h1' : c ≠ '(' ∧ c ≠ ')' := by unfold special at h1; simp at h1; exact ⟨h1.1, h1.2.1⟩
      rw [walk_cons, if_neg h1'.1, if_neg h1'.2, if_pos h2, Context.main_lit .release ctx c cs h1 h2]
      exact ih _ (k + 1) opens (by show ctx.ptrLen = _; omega) hp (by show ctx.groupIndex ≤ _; omega) ho hs
    · have e1 : c ≠ '(' := by rintro rfl; exact h1 (by decide)
      have e2 : c ≠ ')' := by rintro rfl; exact h1 (by decide)
      rw [walk_cons, if_neg e1, if_neg e2, if_neg h1, Reference.main_nonascii_eq .release ctx c cs h1]
      rfl

/-- Parsing, with the tree forgotten. -/
theorem parse_read (pr : Profile) (text : Str) (mode : ParseMode) (h : utf8Len text < 2 ^ 31) :
    Reference.void (Repaired.parse pr text mode) = ofExcept (Spec.Mended.read text) := by
  have key : ∀ (body : Str) (k : Nat), IsBody text body → utf8Len text = k + utf8Len body →
      Reference.void (Repaired.parse pr text mode) = ofExcept (Spec.Mended.walk k [] body) := by
    intro body k hb hk
    obtain ⟨m, _, h1⟩ := repaired_parse hb mode (by omega)
    rw [h1 pr, ← loop_walk body (Context.new text body m) k [] hk h (by show 1 ≤ _; omega) (by simp) rfl]
    cases repairedOutcome (Context.loop .release body (Context.new text body m)) with
    | err e => rfl
    | panic e => rfl
    | timeout => rfl
    | ok d =>
      show Reference.void (d.finish.bind _) = Reference.void d.finish
      cases d.finish <;> rfl
  have stop : ∀ e, readControlVerbs text 0 mode = .err e →
      Reference.void (Repaired.parse pr text mode) = .err e := by
    intro e he
    unfold Repaired.parse
    rw [he]; rfl
  unfold Spec.Mended.read
  cases hv : Spec.Reference.verb text with
  | none => exact key text 0 (.inl ⟨Reference.verb_none.1 hv, rfl⟩) (by omega)
  | some x =>
    obtain ⟨v, body⟩ := x
    have hh := Reference.verb_some.1 hv
    obtain ⟨c1, c2, c3⟩ := (C27_control_verbs text 0 mode).2 v body hh
    dsimp only
    by_cases ho : v ∈ Spec.Reference.obeyed
    · rw [if_pos ho]
      have ha := (Reference.obeyed_iff v).1 ho
      refine key body _ (.inr ⟨v, hh, ha⟩) ?_
      obtain ⟨rfl, _, _⟩ := hh
      rw [Context.utf8Len_append, Nat.add_right_cancel_iff]
      rcases ha with rfl | rfl | rfl <;> decide +kernel
    · rw [if_neg ho]
      have ha : ¬ AcceptedVerb v := fun h => ho ((Reference.obeyed_iff v).2 h)
      have h2 : " at index " ++ toString (0 + 2) = " at index 2" := by decide +kernel
      by_cases hu : Spec.Reference.unsupported v = true
      · rw [if_pos hu]
        have := c2 ((Reference.unsupported_iff v).1 hu)
        rw [String.append_assoc, h2] at this
        exact stop _ this
      · rw [if_neg hu]
        have := c3 ha fun h => hu ((Reference.unsupported_iff v).2 h)
        rw [String.append_assoc, h2] at this
        exact stop _ this

theorem walk_index : ∀ (s : Str) (k : Nat) (opens : List Nat) (e : CompileError),
    Spec.Mended.walk k opens s = .error e → e.index = none := by
  intro s
  induction s with
  | nil =>
    intro k opens e h
    cases opens with
    | nil => cases h
    | cons o os => injection h with h; rw [← h]
  | cons c cs ih =>
    intro k opens e h
    rw [walk_cons] at h
    split at h
    · exact ih _ _ _ h
    · split at h
      · split at h
        · injection h with h; rw [← h]
        · exact ih _ _ _ h
      · split at h
        · exact ih _ _ _ h
        · injection h with h; rw [← h]

theorem read_index {text : Str} {e : CompileError} (h : Spec.Mended.read text = .error e) : e.index = none := by
  unfold Spec.Mended.read at h
  split at h
  · exact walk_index _ _ _ _ h
  · split at h
    · exact walk_index _ _ _ _ h
    · split at h <;> (injection h with h; rw [← h])

/-! ## Emptiness -/

open Classical in
mutual
theorem empty_item (cls : Char → ComponentClass) : ∀ (i : Item) (done now : Bool) (outer : List (Bool × Bool))
    (rest : Str), i.Wf → Spec.Mended.empty done now outer (i.print ++ rest)
      = Spec.Mended.empty done (now && decide (i.lang cls [])) outer rest
  | .lit c, done, now, outer, rest, hw => by
    have hn : ¬ special c := hw
    have h1 : c ≠ '(' ∧ c ≠ ')' ∧ c ≠ '|' := by
      unfold special at hn; simp at hn; exact hn
    have : ¬ Lang (.cls (cls c)) [] := by
      cases hc : cls c with
      | ascii a => simp only [Lang]; rintro ⟨b, h, _⟩; cases h
    simp only [Item.print, Item.lang, List.cons_append, List.nil_append, empty_cons,
      if_neg h1.1, if_neg h1.2.1, if_neg h1.2.2, this, decide_false, Bool.and_false]
  | .group a, done, now, outer, rest, hw => by
    obtain ⟨d, n, h1, h2⟩ := empty_alts cls a false ((done, now) :: outer) (')' :: rest) hw
    simp only [Item.print, List.cons_append, List.append_assoc, List.nil_append]
    rw [empty_cons, if_pos rfl, h1, empty_cons, if_neg (by decide), if_pos rfl]
    have e : decide ((Item.group a).lang cls []) = decide (a.lang cls []) := by
      rw [decide_eq_decide]; simp only [Item.lang]
    simp only [e, h2, Bool.false_or]
theorem empty_seq (cls : Char → ComponentClass) : ∀ (s : Seq) (done now : Bool) (outer : List (Bool × Bool))
    (rest : Str), s.Wf → Spec.Mended.empty done now outer (s.print ++ rest)
      = Spec.Mended.empty done (now && decide (s.lang cls [])) outer rest
  | .nil, done, now, outer, rest, _ => by simp [Seq.print, Seq.lang]
  | .cons i s, done, now, outer, rest, hw => by
    simp only [Seq.print, List.append_assoc]
    rw [empty_item cls i _ _ _ _ hw.1, empty_seq cls s _ _ _ _ hw.2]
    have : (Seq.cons i s).lang cls [] ↔ i.lang cls [] ∧ s.lang cls [] := by
      simp only [Seq.lang]
      constructor
      · rintro ⟨w1, w2, h, h1, h2⟩
        have := List.append_eq_nil_iff.1 h.symm
        rw [this.1] at h1; rw [this.2] at h2
        exact ⟨h1, h2⟩
      · rintro ⟨h1, h2⟩; exact ⟨[], [], rfl, h1, h2⟩
    congr 1
    by_cases h1 : i.lang cls [] <;> by_cases h2 : s.lang cls [] <;> simp [this, h1, h2]
theorem empty_alts (cls : Char → ComponentClass) : ∀ (a : Alts) (done : Bool) (outer : List (Bool × Bool))
    (rest : Str), a.Wf → ∃ d n, Spec.Mended.empty done true outer (a.print ++ rest)
      = Spec.Mended.empty d n outer rest ∧ (d || n) = (done || decide (a.lang cls []))
  | .one s, done, outer, rest, hw => by
    refine ⟨done, decide (s.lang cls []), ?_, ?_⟩
    · simp only [Alts.print]
      rw [empty_seq cls s _ _ _ _ hw, Bool.true_and]
    · congr 1
  | .more s a, done, outer, rest, hw => by
    obtain ⟨d, n, h1, h2⟩ := empty_alts cls a (done || decide (s.lang cls [])) outer rest hw.2
    refine ⟨d, n, ?_, ?_⟩
    · simp only [Alts.print, List.append_assoc, List.cons_append]
      rw [empty_seq cls s _ _ _ _ hw.1, empty_cons, if_neg (by decide), if_neg (by decide), if_pos rfl,
        Bool.true_and, h1]
    · rw [h2]
      simp only [Alts.lang]
      by_cases h1 : s.lang cls [] <;> by_cases h2 : a.lang cls [] <;> simp [h1, h2]
end

/-- The text can match the empty string iff the tree can. -/
theorem empty_iff {text : Str} {mode m : ParseMode} {c : Component} (h : parse .release text mode = .ok (c, m)) :
    Spec.Mended.empty false true [] (Spec.Reference.afterVerb text) = true ↔ Lang c [] := by
  obtain ⟨a, ⟨a1, a2, a3, rfl⟩, _⟩ := C30_parse_sound _ _ _ _ _ (litClass mode.caseless)
    (fun c hc => litClass_spec _ c (by omega)) h
  have hb : Spec.Reference.afterVerb text = a.print := by
    unfold Spec.Reference.afterVerb
    rcases a2 with ⟨h1, h2⟩ | ⟨v, h1, _⟩
    · rw [Reference.verb_none.2 h1]; exact h2.symm
    · rw [Reference.verb_some.2 h1]
  obtain ⟨d, n, h1, h2⟩ := empty_alts (litClass mode.caseless) a false [] [] a1
  rw [List.append_nil] at h1
  rw [hb, h1, Spec.Mended.empty, h2, Alts.lang_root]
  simp

/-! ## The shortest match -/

/-- `o` is the least length of a string in `L`. -/
def Least (L : List U8 → Prop) : Option Nat → Prop
  | none => ∀ w, ¬ L w
  | some n => (∃ w, L w ∧ w.length = n) ∧ ∀ w, L w → n ≤ w.length

mutual
theorem shortest_least : ∀ c : Component, Least (Lang c) (shortest c)
  | .alternation (.mk cs) => by rw [shortest]; simp only [Lang]; exact shortestAny_least cs
  | .cls (.ascii c) => by
    rw [shortest]
    split
    · rename_i h
      rw [CharReach.none_iff] at h
      intro w hw
      simp only [Lang] at hw
      obtain ⟨b, _, hb⟩ := hw
      rw [h b] at hb; cases hb
    · rename_i h
      rw [CharReach.none_iff] at h
      obtain ⟨b, hb⟩ := Classical.not_forall.1 h
      refine ⟨⟨[b], by simp only [Lang]; exact ⟨b, rfl, by simpa using hb⟩, rfl⟩, ?_⟩
      intro w hw
      simp only [Lang] at hw
      obtain ⟨b, rfl, _⟩ := hw
      simp
  | .sequence s => by rw [shortest]; simp only [Lang]; exact shortestSeq_least s
theorem shortestSeq_least : ∀ s : ComponentSequence, Least (LangSeq s) (shortestSeq s)
  | .mk cs a i n => by rw [shortestSeq]; simp only [LangSeq]; exact shortestAll_least cs
theorem shortestAll_least : ∀ cs : List Component, Least (LangAll cs) (shortestAll cs)
  | [] => by
    rw [shortestAll]
    simp only [LangAll]
    exact ⟨⟨[], rfl, rfl⟩, fun w h => Nat.zero_le _⟩
  | c :: cs => by
    have h1 := shortest_least c
    have h2 := shortestAll_least cs
    rw [shortestAll]
    simp only [LangAll]
    cases e1 : shortest c with
    | none =>
      rw [e1] at h1
      rintro w ⟨w1, w2, _, hw, _⟩
      exact h1 w1 hw
    | some a =>
      cases e2 : shortestAll cs with
      | none =>
        rw [e2] at h2
        rintro w ⟨w1, w2, _, _, hw⟩
        exact h2 w2 hw
      | some b =>
        rw [e1] at h1
        rw [e2] at h2
        obtain ⟨⟨w1, a1, a2⟩, a3⟩ := h1
        obtain ⟨⟨w2, b1, b2⟩, b3⟩ := h2
        refine ⟨⟨w1 ++ w2, ⟨w1, w2, rfl, a1, b1⟩, by simp [a2, b2]⟩, ?_⟩
        rintro w ⟨w1, w2, rfl, h1, h2⟩
        have := a3 w1 h1
        have := b3 w2 h2
        simp; omega
theorem shortestAny_least : ∀ ss : List ComponentSequence, Least (LangAny ss) (shortestAny ss)
  | [] => by
    rw [shortestAny]
    simp only [LangAny]
    exact fun w h => h
  | s :: ss => by
    have h1 := shortestSeq_least s
    have h2 := shortestAny_least ss
    rw [shortestAny]
    simp only [LangAny]
    cases e1 : shortestSeq s with
    | none =>
      rw [e1] at h1
      cases e2 : shortestAny ss with
      | none =>
        rw [e2] at h2
        rintro w (hw | hw)
        · exact h1 w hw
        · exact h2 w hw
      | some b =>
        rw [e2] at h2
        obtain ⟨⟨w2, b1, b2⟩, b3⟩ := h2
        refine ⟨⟨w2, .inr b1, b2⟩, ?_⟩
        rintro w (hw | hw)
        · exact absurd hw (h1 w)
        · exact b3 w hw
    | some a =>
      rw [e1] at h1
      obtain ⟨⟨w1, a1, a2⟩, a3⟩ := h1
      cases e2 : shortestAny ss with
      | none =>
        rw [e2] at h2
        refine ⟨⟨w1, .inl a1, a2⟩, ?_⟩
        rintro w (hw | hw)
        · exact a3 w hw
        · exact absurd hw (h2 w)
      | some b =>
        rw [e2] at h2
        obtain ⟨⟨w2, b1, b2⟩, b3⟩ := h2
        constructor
        · by_cases h : a ≤ b
          · exact ⟨w1, .inl a1, by omega⟩
          · exact ⟨w2, .inr b1, by omega⟩
        · rintro w (hw | hw)
          · have := a3 w hw; omega
          · have := b3 w hw; omega
end

/-! ## The state -/

/-- The settings are within the ranges of the integer types used, patterns are short enough for the number of
edges of their graphs to be a `u32`, and there may be as many reports as patterns. -/
structure Sane (g : Grey) : Prop where
  base : Rescan.Sane g
  graph : g.limitPatternLength < 2 ^ 16 - 4
  reports : g.limitPatternCount ≤ g.limitReportCount

theorem sane_default : Sane Grey.default := ⟨Rescan.sane_default, by decide, by decide⟩

/-- The expression matches the string. -/
def Matches (e : Expr) (w : List U8) : Prop :=
  ∃ c m, parse .release e.1 (ParseMode.new e.2.1) = .ok (c, m) ∧ Lang c w

/-- The expression is compiled as a literal. -/
def isLit (g : Grey) (e : Expr) : Bool := litsOn g && (literalOf e).isSome

/-- The registrations of expressions from position `i` on. -/
def regs : Nat → List Expr → List (Nat × ExternalReportInfo)
  | _, [] => []
  | i, e :: es => (e.2.2, ⟨e.2.1.contains .SINGLEMATCH, i⟩) :: regs (i + 1) es

theorem regs_append : ∀ (l l' : List Expr) (i : Nat), regs i (l ++ l') = regs i l ++ regs (i + l.length) l'
  | [], l', i => by simp [regs]
  | e :: l, l', i => by
    simp only [List.cons_append, regs, regs_append l l', List.length_cons]
    rw [show i + 1 + l.length = i + (l.length + 1) by omega]

theorem mem_regs {l : List Expr} : ∀ {i : Nat} {x : Nat × ExternalReportInfo}, x ∈ regs i l →
    ∃ e ∈ l, x.1 = e.2.2 ∧ x.2.highlander = e.2.1.contains .SINGLEMATCH := by
  induction l with
  | nil => intro i x h; cases h
  | cons e l ih =>
    intro i x h
    rcases List.mem_cons.1 h with rfl | h
    · exact ⟨e, by simp, rfl, rfl⟩
    · obtain ⟨e', h1, h2⟩ := ih h
      exact ⟨e', by simp [h1], h2⟩

theorem regs_mem {l : List Expr} : ∀ (i : Nat) {e : Expr}, e ∈ l →
    ∃ j, (e.2.2, (⟨e.2.1.contains .SINGLEMATCH, j⟩ : ExternalReportInfo)) ∈ regs i l := by
  induction l with
  | nil => intro i x h; cases h
  | cons e l ih =>
    intro i x h
    rcases List.mem_cons.1 h with rfl | h
    · exact ⟨i, by simp [regs]⟩
    · obtain ⟨j, hj⟩ := ih (i + 1) h
      exact ⟨j, by simp [regs, hj]⟩

/-- The report with internal id `r` is that of expression `e`. -/
def RepOf (reports : List Report) (e : Expr) (r : Nat) : Prop :=
  ∃ rep, reports[r]? = some rep ∧ rep.report = e.2.2 ∧ rep.quiet = e.2.1.contains .QUIET ∧
    rep.ekey.isSome = e.2.1.contains .SINGLEMATCH ∧ rep.distance.isSome = e.2.1.contains .SOM_LEFTMOST

/-- `n` is the least length of a match of an expression of `l`. -/
def WidthOf (l : List Expr) (n : Nat) : Prop :=
  (∀ e ∈ l, ∀ w, Matches e w → n ≤ w.length) ∧
    ((l = [] ∧ n = 2 ^ 31 - 1) ∨ ∃ e ∈ l, ∃ w, Matches e w ∧ w.length = n)

/-- The calls `calls` of the small-write builder are those for the literals of `l`. -/
structure CallsOf (g : Grey) (l : List Expr) (reports : List Report) (calls : List (Ue2Literal × Nat)) : Prop where
  sound : ∀ x ∈ calls, ∃ e ∈ l, ∃ es, isLit g e = true ∧ literalOf e = some es ∧ x.1 = litOf es ∧ RepOf reports e x.2
  complete : ∀ e ∈ l, ∀ es, isLit g e = true → literalOf e = some es → ∃ r, (litOf es, r) ∈ calls ∧ RepOf reports e r

/-- The graphs are those of the expressions, in order. -/
def GraphsOf : List Expr → List NgHolder → Prop
  | [], [] => True
  | e :: es, g :: gs => (∀ w, Spec.Accepts g w ↔ ∃ u v, w = u ++ v ∧ Matches e v) ∧ GraphsOf es gs
  | _, _ => False

theorem graphsOf_append : ∀ {es es' : List Expr} {gs gs' : List NgHolder}, GraphsOf es gs → GraphsOf es' gs' →
    GraphsOf (es ++ es') (gs ++ gs')
  | [], es', [], gs', _, h => h
  | [], _, _ :: _, _, h, _ => h.elim
  | _ :: _, _, [], _, h, _ => h.elim
  | _ :: es, es', _ :: gs, gs', h, h' => ⟨h.1, graphsOf_append h.2 h'⟩

/-- The state after the expressions `l` were added. -/
structure Ok (cc : CompileContext) (np : Nat) (l : List Expr) (ng : Ng) : Prop where
  context : ng.cc = cc
  rose : ng.rose = ⟨cc, l.any (fun e => e.2.1.contains .SOM_LEFTMOST)⟩
  reg : ReportManager.RegInv ng.rm (regs 0 l)
  keys : ∃ seen, ReportManager.KeyInv ng.rm seen ∧ seen.length ≤ l.length ∧
    ∀ id, id ∈ seen ↔ ∃ e ∈ l, e.2.1.contains .SINGLEMATCH = true ∧ e.2.2 = id
  count : ng.reports.length ≤ l.length
  width : WidthOf l ng.minWidth.val
  smwr : ∃ calls, addLiterals (ε := CompileError) calls (SmallWriteBuild.new np cc.grey) = .ok ng.smwr ∧
    CallsOf cc.grey l ng.reports calls
  graphs : GraphsOf (l.filter (fun e => !isLit cc.grey e)) ng.graphs

theorem ok_new (cc : CompileContext) (np : Nat) : Ok cc np [] (Ng.new cc np) where
  context := rfl
  rose := rfl
  reg := ReportManager.regInv_new _
  keys := ⟨[], ReportManager.keyInv_new _, by simp, by simp⟩
  count := by simp [Ng.new]
  width := ⟨by simp, .inl ⟨rfl, rfl⟩⟩
  smwr := ⟨[], rfl, by simp, by simp⟩
  graphs := trivial

/-! ## Noting an expression -/

theorem internalId_ok (limit : Nat) (reports : List Report) (r : Report) (h1 : reports.length < limit)
    (h2 : reports.length < 2 ^ 32) :
    ∃ reports' id, internalId limit reports r = .ok (reports', id) ∧ reports <+: reports' ∧
      reports'.length ≤ reports.length + 1 ∧ reports'[id]? = some r := by
  unfold internalId
  cases hi : reports.idxOf? r with
  | some i =>
    refine ⟨_, _, rfl, List.prefix_refl _, by omega, ?_⟩
    rw [List.idxOf?, List.findIdx?_eq_some_iff_getElem] at hi
    obtain ⟨h, h3, _⟩ := hi
    rw [List.getElem?_eq_getElem h]
    simpa using h3
  | none =>
    dsimp only
    rw [if_neg (by omega), ReportManager.toU32_ok _ _ h2]
    exact ⟨_, _, rfl, List.prefix_append _ _, by simp, by simp⟩

theorem repOf_mono {reports reports' : List Report} {e : Expr} {r : Nat} (h : reports <+: reports')
    (hr : RepOf reports e r) : RepOf reports' e r := by
  obtain ⟨rep, h1, h2⟩ := hr
  exact ⟨rep, prefix_getElem? h h1, h2⟩

/-- What noting an expression does. -/
theorem note_step (p : Profile) {cc : CompileContext} {np : Nat} {l : List Expr} {ng : Ng} (hok : Ok cc np l ng)
    (hl : l.length < 2 ^ 32) (hr : l.length < cc.grey.limitReportCount) (e : Expr) (expr : ExpressionInfo)
    (width : Option Nat) (h1 : expr.index = l.length) (h2 : expr.report = e.2.2)
    (h3 : expr.highlander = e.2.1.contains .SINGLEMATCH) (h4 : expr.quiet = e.2.1.contains .QUIET)
    (h5 : expr.som = if e.2.1.contains .SOM_LEFTMOST then .left else .none)
    (h6 : ¬ (e.2.1.contains .SINGLEMATCH = true ∧ e.2.1.contains .SOM_LEFTMOST = true))
    (n : Nat) (hw : width = some n) (hn : n ≤ 2 ^ 31 - 2) :
    (∃ old, firstFor (regs 0 l) e.2.2 = some old ∧ old.highlander ≠ e.2.1.contains .SINGLEMATCH ∧
      note p ng expr width = .err ⟨.other,
        Repaired.conflictMessage e.2.2 ⟨e.2.1.contains .SINGLEMATCH, l.length⟩ old, some l.length⟩) ∨
    ((∀ old, firstFor (regs 0 l) e.2.2 = some old → old.highlander = e.2.1.contains .SINGLEMATCH) ∧
      ∃ ng' id, note p ng expr width = .ok (ng', id) ∧ ng'.cc = cc ∧
        ng'.rose = ⟨cc, (l ++ [e]).any (fun e => e.2.1.contains .SOM_LEFTMOST)⟩ ∧
        ReportManager.RegInv ng'.rm (regs 0 (l ++ [e])) ∧
        (∃ seen, ReportManager.KeyInv ng'.rm seen ∧ seen.length ≤ (l ++ [e]).length ∧
          ∀ id, id ∈ seen ↔ ∃ e' ∈ l ++ [e], e'.2.1.contains .SINGLEMATCH = true ∧ e'.2.2 = id) ∧
        ng.reports <+: ng'.reports ∧ ng'.reports.length ≤ (l ++ [e]).length ∧ RepOf ng'.reports e id ∧
        ng'.minWidth.val = min ng.minWidth.val n ∧ ng'.smwr = ng.smwr ∧ ng'.graphs = ng.graphs) := by
  obtain ⟨hcc, hrose, hreg, ⟨seen, hkey, hseen, hkeys⟩, hcount, _, _, _⟩ := hok
  have hstart : note p ng expr width =
      match Repaired.registerExtReport ng.rm e.2.2 ⟨e.2.1.contains .SINGLEMATCH, l.length⟩ with
      | (_, .error x) => .err x
      | (rm, .ok ()) =>
        ((show Res (ReportManager × Option Nat) from
            if e.2.1.contains .SINGLEMATCH then (rm.getExhaustibleKey e.2.2).bind (fun x => .ok (x.1, some x.2))
            else .ok (rm, none))).bind fun x =>
          (internalId cc.grey.limitReportCount ng.reports ⟨0, e.2.2, 0, x.2, e.2.1.contains .QUIET,
            if e.2.1.contains .SOM_LEFTMOST then some n else none⟩).bind fun y =>
            .ok (({ ng with
              minWidth := Depth.min ng.minWidth ⟨n⟩
              rm := x.1
              reports := y.1
              rose := { ng.rose with hasSom := ng.rose.hasSom || e.2.1.contains .SOM_LEFTMOST } } : Ng), y.2) := by
    unfold note
    rw [h1, ReportManager.toU32_ok _ _ hl]
    show (match Repaired.registerExtReport ng.rm expr.report ⟨expr.highlander, l.length⟩ with
      | (_, .error x) => _ | (rm, .ok ()) => _) = _
    rw [h2, h3]
    split
    · rfl
    · show ((show Res (ReportManager × Option Nat) from if _ then _ else _) : Res (ReportManager × Option Nat)).bind _ = _
      congr 1
      funext x
      have ha : (decide (expr.som = .none) || !e.2.1.contains .SINGLEMATCH) = true := by
        rw [h5]
        cases hs : e.2.1.contains .SOM_LEFTMOST with
        | false => rfl
        | true =>
          cases hh : e.2.1.contains .SINGLEMATCH with
          | false => rfl
          | true => exact absurd ⟨hh, hs⟩ h6
      have hd : Depth.tryFrom n = some ⟨n⟩ := by
        unfold Depth.tryFrom Depth.maxValue Depth.infinityVal
        rw [if_pos (by omega)]
      have e1 : (if expr.som = .none then none else width) = if e.2.1.contains .SOM_LEFTMOST then some n else none := by
        rw [h5, hw]; cases e.2.1.contains .SOM_LEFTMOST <;> rfl
      have e2 : (decide (expr.som ≠ .none)) = e.2.1.contains .SOM_LEFTMOST := by
        rw [h5]; cases e.2.1.contains .SOM_LEFTMOST <;> rfl
      rw [ha, rdebugAssert_true]
      show (internalId _ _ _).bind _ = _
      rw [h4, e1, hcc]
      congr 1
      funext y
      rw [hw]
      simp only [hd, e2]
      rfl
  by_cases hconf : ∀ old, firstFor (regs 0 l) e.2.2 = some old → old.highlander = e.2.1.contains .SINGLEMATCH
  · right
    refine ⟨hconf, ?_⟩
    obtain ⟨hr1, hr2⟩ := ReportManager.register_ok ng.rm (regs 0 l) hreg e.2.2
      ⟨e.2.1.contains .SINGLEMATCH, l.length⟩ hconf
    obtain ⟨_, _, _, f4⟩ := ReportManager.register_frame ng.rm e.2.2 ⟨e.2.1.contains .SINGLEMATCH, l.length⟩
    obtain ⟨s1, s2, _⟩ := ReportManager.C98_conflict_message_same ng.rm e.2.2
      ⟨e.2.1.contains .SINGLEMATCH, l.length⟩
    rw [hstart]
    rw [← s1] at hr2 f4
    replace hr1 := s2.2 hr1
    generalize Repaired.registerExtReport ng.rm e.2.2 ⟨e.2.1.contains .SINGLEMATCH, l.length⟩ = reg at hr1 hr2 f4
    obtain ⟨rm1, res⟩ := reg
    simp only at hr1 hr2 f4
    subst hr1
    simp only
    have hkey1 : ReportManager.KeyInv rm1 seen := by
      unfold ReportManager.KeyInv at hkey ⊢; rw [f4]; exact hkey
    obtain ⟨rm2, ek, hk, hek, ⟨seen2, hkey2, hseen2, hkeys2⟩, g4, g5⟩ : ∃ rm2 ek,
        (if e.2.1.contains .SINGLEMATCH then
          (rm1.getExhaustibleKey (ε := CompileError) e.2.2).bind (fun x => .ok (x.1, some x.2))
          else .ok (rm1, none)) = .ok (rm2, ek) ∧ ek.isSome = e.2.1.contains .SINGLEMATCH ∧
        (∃ seen2, ReportManager.KeyInv rm2 seen2 ∧ seen2.length ≤ l.length + 1 ∧
          ∀ k, k ∈ seen2 ↔ k ∈ seen ∨ (e.2.1.contains .SINGLEMATCH = true ∧ e.2.2 = k)) ∧
        rm2.externalIdMap = rm1.externalIdMap ∧ rm2.globalExhaust = rm1.globalExhaust := by
      cases e.2.1.contains .SINGLEMATCH with
      | false =>
        exact ⟨rm1, none, rfl, rfl, ⟨seen, hkey1, by omega, by simp⟩, rfl, rfl⟩
      | true =>
        obtain ⟨rm2, k, h1, h2, h3⟩ := ReportManager.getExhaustibleKey_spec (ε := CompileError) rm1 seen
          hkey1 (2 ^ 32) (Nat.le_refl _) (by omega) e.2.2
        obtain ⟨_, _, _, e4, e5⟩ := ReportManager.getExhaustibleKey_frame rm1 rm2 e.2.2 k h1
        refine ⟨rm2, some k, ?_, rfl, ⟨_, h3, ?_, ?_⟩, e4, e5⟩
        · rw [if_pos rfl, h1]; rfl
        · unfold assign
          split
          · simp; omega
          · split <;> simp <;> omega
        · intro k'
          unfold assign
          split
          · rename_i hm
            constructor
            · exact .inl
            · rintro (h | ⟨_, rfl⟩)
              · exact h
              · exact hm
          · rw [if_neg (by omega)]
            simp [eq_comm]
    rw [hk]
    simp only [Outcome.bind]
    obtain ⟨reports', id, i1, i2, i3, i4⟩ := internalId_ok cc.grey.limitReportCount ng.reports
      ⟨0, e.2.2, 0, ek, e.2.1.contains .QUIET, if e.2.1.contains .SOM_LEFTMOST then some n else none⟩
      (by omega) (by omega)
    rw [i1]
    refine ⟨_, _, rfl, hcc, ?_, ?_, ⟨seen2, hkey2, by simpa using hseen2, ?_⟩, i2, ?_, ?_, ?_, rfl, rfl⟩
    · show (⟨ng.rose.cc, _⟩ : RoseBuild) = _
      rw [hrose]
      simp
    · show ReportManager.RegInv rm2 _
      rw [regs_append, Nat.zero_add]
      constructor
      · intro k; rw [g4]; exact hr2.first k
      · exact hr2.agree
      · rw [g5]; exact hr2.exhaust
    · intro k
      rw [hkeys2, hkeys]
      simp only [List.mem_append, List.mem_singleton]
      constructor
      · rintro (⟨x, hx, h1, h2⟩ | ⟨h1, h2⟩)
        · exact ⟨x, .inl hx, h1, h2⟩
        · exact ⟨_, .inr rfl, h1, h2⟩
      · rintro ⟨x, hx | rfl, h1, h2⟩
        · exact .inl ⟨x, hx, h1, h2⟩
        · exact .inr ⟨h1, h2⟩
    · show reports'.length ≤ _
      simp; omega
    · refine ⟨_, i4, rfl, rfl, hek, ?_⟩
      cases e.2.1.contains .SOM_LEFTMOST <;> rfl
    · show (Depth.min ng.minWidth ⟨n⟩).val = _
      rw [depth_min]
  · left
    obtain ⟨old, hold⟩ := Classical.not_forall.1 hconf
    obtain ⟨ho1, ho2⟩ := Classical.not_imp.1 hold
    refine ⟨old, ho1, ho2, ?_⟩
    rw [hstart]
    unfold Repaired.registerExtReport
    rw [hreg.first, ho1]
    simp only
    rw [if_pos ho2]
    rfl

/-! ## One expression -/

theorem leaves_le {text body : Str} {mode m : ParseMode} {c : Component}
    (h : parse .release text mode = .ok (c, m)) (hb : IsBody text body) : (leaves c).length ≤ body.length := by
  obtain ⟨a, hw, hb', ha, hc⟩ := parse_tree h
  have := isBody_unique hb hb'
  subst this
  have hleaves : leaves c = (litChars a.print).map (fun c => asciiOf (litClass mode.caseless c)) := by
    rw [hc, Alts.root, leaves, leavesSeq]
    exact Alts.leaves_eq _ a 1 hw
  rw [hleaves, List.length_map]
  exact List.length_filter_le _ _

/-- Which literal is found in the tree of an expression. -/
theorem literal_found (p : Profile) (g : Grey) (e : Expr) {c : Component} {m : ParseMode}
    (h : parse .release e.1 (ParseMode.new e.2.1) = .ok (c, m)) :
    (isLit g e = true ∧ ∃ es, literalOf e = some es ∧ es ≠ [] ∧ literal p g c = .ok (some (litOf es))) ∨
    (isLit g e = false ∧ literal p g c = .ok none) := by
  obtain ⟨a, _, hb, _, _⟩ := parse_tree h
  generalize a.print = body at hb
  have hbo := (bodyOf_some _ _).2 hb
  have hcl : (ParseMode.new e.2.1).caseless = e.2.1.contains .CASELESS := rfl
  have hwalk := C37_literal .release p e.1 body _ c m h hb
  rw [hcl] at hwalk
  by_cases hon : litsOn g = true
  · have hon' : g.allowLiteral = true ∧ g.shortcutLiterals = true := by simpa [litsOn] using hon
    unfold literal
    rw [hon'.1, hon'.2, if_neg (by simp), hwalk]
    by_cases hbar : '|' ∈ body
    · right
      rw [if_pos hbar]
      refine ⟨?_, rfl⟩
      have : literalOf e = none := by unfold literalOf; rw [hbo]; simp [hbar]
      simp [isLit, this]
    · rw [if_neg hbar]
      simp only
      have hmix := litElems_not_mixed (e.2.1.contains .CASELESS) body _ rfl
      rw [hmix, Bool.or_false]
      by_cases hpar : ∀ c ∈ body, c = '(' ∨ c = ')'
      · right
        have h0 : litElems (e.2.1.contains .CASELESS) body = [] := by
          unfold litElems
          rw [List.map_eq_nil_iff, List.filter_eq_nil_iff]
          intro c hc
          rcases hpar c hc with rfl | rfl <;> simp
        rw [h0]
        refine ⟨?_, rfl⟩
        have : literalOf e = none := by unfold literalOf; rw [hbo]; simp only; rw [if_pos (.inr hpar)]
        simp [isLit, this]
      · left
        have hl : literalOf e = some (litElems (e.2.1.contains .CASELESS) body) := by
          unfold literalOf; rw [hbo]; simp only; rw [if_neg (by rintro (h | h); exact hbar h; exact hpar h)]
        have hne : litElems (e.2.1.contains .CASELESS) body ≠ [] := by
          unfold litElems
          intro h
          apply hpar
          intro c hc
          have := List.filter_eq_nil_iff.1 (List.map_eq_nil_iff.1 h) c hc
          by_cases h1 : c = '('
          · exact .inl h1
          · by_cases h2 : c = ')'
            · exact .inr h2
            · simp [h1, h2] at this
        refine ⟨by simp [isLit, hon, hl], _, hl, hne, ?_⟩
        rw [if_neg]
        · rfl
        · simpa [Ue2Literal.isEmpty] using hne
  · right
    refine ⟨by simp [isLit, hon], ?_⟩
    unfold literal
    rw [if_pos]
    · cases h1 : g.allowLiteral <;> cases h2 : g.shortcutLiterals <;> simp [litsOn, h1, h2] at hon ⊢

theorem widthOf_append {l : List Expr} {e : Expr} {n k : Nat} (h : WidthOf l n) (hk : k ≤ 2 ^ 31 - 2)
    (h1 : ∃ w, Matches e w ∧ w.length = k) (h2 : ∀ w, Matches e w → k ≤ w.length) :
    WidthOf (l ++ [e]) (min n k) := by
  constructor
  · intro e' he' w hw
    rcases List.mem_append.1 he' with he' | he'
    · have := h.1 e' he' w hw; omega
    · rw [List.mem_singleton] at he'
      subst he'
      have := h2 w hw; omega
  · right
    obtain ⟨w, hw, hl⟩ := h1
    rcases h.2 with ⟨_, h3⟩ | ⟨e', he', w', hw', hl'⟩
    · exact ⟨e, by simp, w, hw, by omega⟩
    · by_cases hle : n ≤ k
      · exact ⟨e', by simp [he'], w', hw', by omega⟩
      · exact ⟨e, by simp, w, hw, by omega⟩

/-- What is noted by the reference program agrees with what is registered. -/
def Notes (seen : List Spec.Reference.Noted) (l : List Expr) : Prop :=
  ∀ id, seen.find? (fun x => x.id == id)
    = (firstFor (regs 0 l) id).map fun i => ⟨id, i.highlander, i.firstPatternIndex⟩

/-- An expression the mended compiler takes. -/
structure Fine (g : Grey) (e : Expr) : Prop where
  length : utf8Len e.1 ≤ g.limitPatternLength
  quiet : ¬ (e.2.1.contains .QUIET = true ∧ e.2.1.contains .SOM_LEFTMOST = true)
  single : ¬ (e.2.1.contains .SINGLEMATCH = true ∧ e.2.1.contains .SOM_LEFTMOST = true)
  text : Acceptable .release e.1
  nonempty : e.2.1.contains .ALLOWEMPTY = true ∨ ¬ Matches e []

theorem void_ok {α : Type} {r : Res α} (h : Reference.void r = .ok ()) : ∃ a, r = .ok a := by
  cases r with
  | ok a => exact ⟨a, rfl⟩
  | err e => cases h
  | panic e => cases h
  | timeout => cases h

theorem void_err {α : Type} {r : Res α} {e : CompileError} (h : Reference.void r = .err e) : r = .err e := by
  cases r with
  | ok a => cases h
  | err e' => injection h with h; rw [h]
  | panic e => cases h
  | timeout => cases h

/-- What is kept of an expression. -/
def infoOf (i : Nat) (f : Flags) (id : Nat) (m : ParseMode) : ExpressionInfo :=
  ⟨i, id, f.contains .ALLOWEMPTY, f.contains .SINGLEMATCH, m.utf8, f.contains .PREFILTER,
    if f.contains .SOM_LEFTMOST then .left else .none, f.contains .QUIET⟩

/-- What becomes of an expression that parses. -/
def rest (p : Profile) (ng : Ng) (expr : ExpressionInfo) (c : Component) : Option Ue2Literal → Res Ng
  | some lit => (note p ng expr (some lit.len)).bind fun x =>
      (x.1.smwr.addLiteral lit x.2).bind fun sw => .ok { x.1 with smwr := sw }
  | none => (Completed.buildGraph p ⟨expr, c⟩).bind fun b =>
      if b.graph.isVacuous && !expr.allowVacuous then
        .err (CompileError.new .other "Pattern matches empty buffer; use ALLOWEMPTY to enable support.")
      else (note p ng expr (shortest c)).bind fun x => .ok { x.1 with graphs := x.1.graphs ++ [b.graph] }

theorem addExpression_parsed (p : Profile) (ng : Ng) (i : Nat) (t : Str) (f : Flags) (id : Nat)
    (h1 : ¬ utf8Len t > ng.cc.grey.limitPatternLength)
    (h2 : ¬ (f.contains .QUIET && f.contains .SOM_LEFTMOST) = true)
    (h3 : ¬ (f.contains .SINGLEMATCH && f.contains .SOM_LEFTMOST) = true) {c : Component} {m : ParseMode}
    (hp : Repaired.parse p t (ParseMode.new f) = .ok (c, m)) {o : Option Ue2Literal}
    (ho : literal p ng.cc.grey c = .ok o) :
    addExpression p ng i t f id = rest p ng (infoOf i f id m) c o := by
  unfold addExpression parsed
  rw [if_neg h1, if_neg h2, if_neg h3, hp]
  show (literal p ng.cc.grey c).bind _ = _
  rw [ho]
  cases o <;> rfl

/-- Adding an expression, against the reference program. -/
theorem add_step (p : Profile) {cc : CompileContext} {np : Nat} {l : List Expr} {ng : Ng} (hs : Sane cc.grey)
    (hok : Ok cc np l ng) (hl : l.length < cc.grey.limitPatternCount) (seen : List Spec.Reference.Noted)
    (hn : Notes seen l) (e : Expr) :
    match Spec.Mended.add cc.grey seen l.length e.1 e.2.1 e.2.2 with
    | .ok seen' => (∃ ng', addExpression p ng l.length e.1 e.2.1 e.2.2 = .ok ng' ∧ Ok cc np (l ++ [e]) ng') ∧
        Notes seen' (l ++ [e]) ∧ Fine cc.grey e ∧
        ∀ old, firstFor (regs 0 l) e.2.2 = some old → old.highlander = e.2.1.contains .SINGLEMATCH
    | .error x => ¬ (Fine cc.grey e ∧
          ∀ a ∈ l, a.2.2 = e.2.2 → a.2.1.contains .SINGLEMATCH = e.2.1.contains .SINGLEMATCH) ∧
        ∃ y, addExpression p ng l.length e.1 e.2.1 e.2.2 = .err y ∧
          { y with index := some (y.index.getD l.length) } = x := by
  have hcc := hok.context
  have hdis : ∀ old, firstFor (regs 0 l) e.2.2 = some old → old.highlander ≠ e.2.1.contains .SINGLEMATCH →
      ¬ (Fine cc.grey e ∧
          ∀ a ∈ l, a.2.2 = e.2.2 → a.2.1.contains .SINGLEMATCH = e.2.1.contains .SINGLEMATCH) := by
    rintro old h1 h2 ⟨_, h3⟩
    obtain ⟨a, h4, h5, h6⟩ := mem_regs (ReportManager.firstFor_mem h1)
    exact h2 (h6.trans (h3 a h4 h5.symm))
  unfold Spec.Mended.add
  dsimp only
  by_cases hlen : utf8Len e.1 > cc.grey.limitPatternLength
  · rw [if_pos hlen]
    refine ⟨fun h => absurd h.1.length (by omega), CompileError.new .other "Pattern length exceeds limit.", ?_, rfl⟩
    unfold addExpression
    rw [hcc, if_pos hlen]
  rw [if_neg hlen]
  by_cases hq : (e.2.1.contains .QUIET && e.2.1.contains .SOM_LEFTMOST) = true
  · rw [if_pos hq]
    refine ⟨fun h => h.1.quiet (by simpa using hq), CompileError.new .other
      "QUIET is not supported in combination with SOM_LEFTMOST.", ?_, rfl⟩
    unfold addExpression parsed
    rw [hcc, if_neg hlen, if_pos hq]
    rfl
  rw [if_neg hq]
  by_cases hso : (e.2.1.contains .SINGLEMATCH && e.2.1.contains .SOM_LEFTMOST) = true
  · rw [if_pos hso]
    refine ⟨fun h => h.1.single (by simpa using hso), CompileError.new .other
      "SINGLEMATCH is not supported in combination with SOM_LEFTMOST.", ?_, rfl⟩
    unfold addExpression parsed
    rw [hcc, if_neg hlen, if_neg hq, if_pos hso]
    rfl
  rw [if_neg hso]
  have hgl := hs.graph
  have hread := parse_read p e.1 (ParseMode.new e.2.1) (by omega)
  cases hr : Spec.Mended.read e.1 with
  | error x =>
    rw [hr] at hread
    dsimp only
    refine ⟨?_, x, ?_, ?_⟩
    · intro h
      have h1 := (parse_ok_iff .release e.1 (ParseMode.new e.2.1)).2 h.1.text
      cases hx : parse .release e.1 (ParseMode.new e.2.1) with
      | ok t =>
        have h2 := void_err hread
        rw [(C98_parse_same p e.1 _ (by omega) t).2 hx] at h2
        cases h2
      | err e => rw [hx] at h1; cases h1
      | panic e => rw [hx] at h1; cases h1
      | timeout => rw [hx] at h1; cases h1
    · unfold addExpression parsed
      rw [hcc, if_neg hlen, if_neg hq, if_neg hso, void_err hread]
      rfl
    · rw [read_index hr]; rfl
  | ok u =>
    rw [hr] at hread
    obtain ⟨⟨c, m⟩, hpr⟩ := void_ok hread
    have hp : parse .release e.1 (ParseMode.new e.2.1) = .ok (c, m) :=
      (C98_parse_same p e.1 _ (by omega) _).1 hpr
    have hacc : Acceptable .release e.1 := (parse_ok_iff .release e.1 (ParseMode.new e.2.1)).1 (by rw [hp]; rfl)
    obtain ⟨body, hb, _⟩ := id hacc
    have hbl : body.length ≤ cc.grey.limitPatternLength := by
      obtain ⟨v, hv, _⟩ := isBody_len hb
      have h1 := length_le_utf8Len e.1
      have h2 := congrArg List.length hv
      simp at h2
      omega
    have hmt : ∀ w, Matches e w ↔ Lang c w := by
      intro w
      constructor
      · rintro ⟨c', m', h1, h2⟩
        rw [hp] at h1
        injection h1 with h1
        injection h1 with h1 _
        rw [h1]; exact h2
      · exact fun h => ⟨c, m, hp, h⟩
    have hempty := empty_iff hp
    have hs1 : ¬ (e.2.1.contains .SINGLEMATCH = true ∧ e.2.1.contains .SOM_LEFTMOST = true) := by
      simpa using hso
    have hq1 : ¬ (e.2.1.contains .QUIET = true ∧ e.2.1.contains .SOM_LEFTMOST = true) := by
      simpa using hq
    have hcount := hs.reports
    have hcount2 := hs.base.count
    have hadd : ∀ o, literal p cc.grey c = .ok o → _ := fun o ho =>
      addExpression_parsed p ng l.length e.1 e.2.1 e.2.2 (by rw [hcc]; exact hlen) hq hso hpr (o := o)
        (by rw [hcc]; exact ho)
    generalize hx : infoOf l.length e.2.1 e.2.2 m = expr at hadd
    have noted : ∀ n, n ≤ 2 ^ 31 - 2 → _ := fun n hn => note_step p hok (by omega) (by omega) e expr (some n)
      (by rw [← hx]; rfl) (by rw [← hx]; rfl) (by rw [← hx]; rfl) (by rw [← hx]; rfl) (by rw [← hx]; rfl) hs1 n rfl hn
    -- what the reference program notes
    have hnotes : (∀ old, firstFor (regs 0 l) e.2.2 = some old → old.highlander = e.2.1.contains .SINGLEMATCH) →
        ∃ seen', Spec.Mended.enter seen l.length e.2.2 (e.2.1.contains .SINGLEMATCH) = .ok seen' ∧ Notes seen' (l ++ [e]) := by
      intro hag
      unfold Spec.Mended.enter
      rw [hn e.2.2]
      cases hf : firstFor (regs 0 l) e.2.2 with
      | none =>
        refine ⟨_, rfl, ?_⟩
        intro id
        rw [regs_append, Nat.zero_add]
        show _ = (firstFor (regs 0 l ++ [(e.2.2, ⟨_, _⟩)]) id).map _
        rw [ReportManager.firstFor_append, List.find?_append, hn id, Option.map_or]
        congr 1
        by_cases hid : e.2.2 = id
        · subst hid; simp
        · simp [hid]
      | some old =>
        refine ⟨seen, by dsimp only [Option.map]; rw [if_pos (hag old hf)], ?_⟩
        intro id
        rw [regs_append, Nat.zero_add]
        show _ = (firstFor (regs 0 l ++ [(e.2.2, ⟨_, _⟩)]) id).map _
        rw [ReportManager.firstFor_append, hn id]
        by_cases hid : e.2.2 = id
        · subst hid; rw [hf]; rfl
        · simp [hid]
    have hclash : ∀ old, firstFor (regs 0 l) e.2.2 = some old → old.highlander ≠ e.2.1.contains .SINGLEMATCH →
        Spec.Mended.enter seen l.length e.2.2 (e.2.1.contains .SINGLEMATCH) =
          .error ⟨.other, Repaired.conflictMessage e.2.2 ⟨e.2.1.contains .SINGLEMATCH, l.length⟩ old,
            some l.length⟩ := by
      intro old h1 h2
      unfold Spec.Mended.enter
      rw [hn e.2.2, h1]
      dsimp only [Option.map]
      rw [if_neg h2]
      rfl
    dsimp only
    rcases literal_found p cc.grey e hp with ⟨hil, es, hes, hesne, hlit⟩ | ⟨hil, hlit⟩
    · -- a literal
      rw [hadd _ hlit]
      have hll := literal_lang hes hp
      have hnl : ¬ Lang c [] := by
        rw [hll]
        intro h
        have := matchesElems_length _ _ h
        exact hesne (List.length_eq_zero_iff.1 this.symm)
      have hle : Spec.Mended.empty false true [] (Spec.Reference.afterVerb e.1) = false := by
        cases hx : Spec.Mended.empty false true [] (Spec.Reference.afterVerb e.1) with
        | false => rfl
        | true => exact absurd (hempty.1 hx) hnl
      rw [hle, if_neg (by simp)]
      have hlen' : (litOf es).len = es.length := by simp [litOf, Ue2Literal.len]
      have hesl : es.length ≤ 2 ^ 31 - 2 := by
        have h82 := (C82_language .release e.1 body _ m c hb hp).2 (es.map Prod.fst)
          ((hll _).2 (matchesElems_self es))
        have : (body.filter (fun c => !decide (special c))).length ≤ body.length := List.length_filter_le _ _
        have h1 := h82.1
        rw [List.length_map] at h1
        omega
      unfold rest
      dsimp only
      rw [hlen']
      rcases noted es.length hesl with ⟨old, h1, h2, h3⟩ | ⟨hag, ng1, id, h1, h2, h3, h4, h5, h6, h7, h8, h9, h10, h11⟩
      · rw [hclash old h1 h2, h3]
        exact ⟨hdis old h1 h2, _, rfl, rfl⟩
      · obtain ⟨seen', hseen, hno⟩ := hnotes hag
        rw [hseen, h1]
        refine ⟨?_, hno, ⟨by omega, hq1, hs1, hacc, .inr (fun h => hnl ((hmt _).1 h))⟩, hag⟩
        obtain ⟨calls, hcalls, hco⟩ := hok.smwr
        obtain ⟨sw', hsw'⟩ := addLiterals_ok (ε := CompileError) np cc.grey hs.base.buffer
          (calls ++ [(litOf es, id)])
        have hsw1 : ng1.smwr.addLiteral (ε := CompileError) (litOf es) id = .ok sw' := by
          rw [h10]
          have h := hsw'
          rw [addLiterals_append, hcalls] at h
          replace h : (ng.smwr.addLiteral (litOf es) id).bind _ = _ := h
          cases hx : ng.smwr.addLiteral (ε := CompileError) (litOf es) id with
          | ok sw => rw [hx] at h; exact h
          | err e => rw [hx] at h; cases h
          | panic e => rw [hx] at h; cases h
          | timeout => rw [hx] at h; cases h
        refine ⟨{ ng1 with smwr := sw' }, ?_, ?_⟩
        · show (ng1.smwr.addLiteral (ε := CompileError) (litOf es) id).bind _ = _
          rw [hsw1]; rfl
        · refine ⟨h2, h3, h4, h5, h7, ?_, ⟨_, hsw', ?_, ?_⟩, ?_⟩
          · show WidthOf _ ng1.minWidth.val
            rw [h9]
            refine widthOf_append hok.width hesl ⟨es.map Prod.fst, (hmt _).2 ((hll _).2 (matchesElems_self es)),
              by simp⟩ ?_
            intro w hw
            have := matchesElems_length es w ((hll w).1 ((hmt w).1 hw))
            omega
          · intro x hx
            rcases List.mem_append.1 hx with hx | hx
            · obtain ⟨e', a1, es', a2, a3, a4, a5⟩ := hco.sound x hx
              exact ⟨e', by simp [a1], es', a2, a3, a4, repOf_mono h6 a5⟩
            · rw [List.mem_singleton] at hx
              subst hx
              exact ⟨e, by simp, es, hil, hes, rfl, h8⟩
          · intro e' he' es' a1 a2
            rcases List.mem_append.1 he' with he' | he'
            · obtain ⟨r, b1, b2⟩ := hco.complete e' he' es' a1 a2
              exact ⟨r, by simp [b1], repOf_mono h6 b2⟩
            · rw [List.mem_singleton] at he'
              subst he'
              rw [hes] at a2
              injection a2 with a2
              subst a2
              exact ⟨id, by simp, h8⟩
          · show GraphsOf _ ng1.graphs
            rw [h11, List.filter_append]
            have : [e].filter (fun e => !isLit cc.grey e) = [] := by simp [hil]
            rw [this, List.append_nil]
            exact hok.graphs
    · -- no literal
      rw [hadd _ hlit]
      have hlv := leaves_le hp hb
      obtain ⟨b, hbu, hbe, hbl'⟩ := C106_language (ε := CompileError) p ⟨expr, c⟩ (by show (leaves c).length < _; omega)
      have hvac := C106_vacuous (ε := CompileError) p ⟨expr, c⟩ (by show (leaves c).length < _; omega) b hbu
      unfold rest
      dsimp only
      rw [hbu]
      have hvac' : b.graph.isVacuous = Spec.Mended.empty false true [] (Spec.Reference.afterVerb e.1) := by
        rw [Bool.eq_iff_iff, hvac, hempty]
      have hbind2 : ∀ k : NfaBuilder → Res Ng, (Outcome.ok b : Res NfaBuilder).bind k = k b := fun _ => rfl
      simp only [hbind2]
      rw [hvac']
      have hal : expr.allowVacuous = e.2.1.contains .ALLOWEMPTY := by rw [← hx]; rfl
      by_cases hv : (Spec.Mended.empty false true [] (Spec.Reference.afterVerb e.1) && !e.2.1.contains .ALLOWEMPTY) = true
      · rw [if_pos hv]
        have hv' : Spec.Mended.empty false true [] (Spec.Reference.afterVerb e.1) = true ∧
            e.2.1.contains .ALLOWEMPTY = false := by simpa using hv
        refine ⟨fun h => h.1.nonempty.elim (fun h1 => by rw [hv'.2] at h1; cases h1)
          (fun h1 => h1 ((hmt _).2 (hempty.1 hv'.1))), CompileError.new .other
          "Pattern matches empty buffer; use ALLOWEMPTY to enable support.", ?_, rfl⟩
        show (if (_ && !expr.allowVacuous) = true then _ else _ : Res Ng) = _
        rw [hal, if_pos hv]
      · rw [if_neg hv]
        have hthen : ∀ x y : Res Ng, (if (Spec.Mended.empty false true [] (Spec.Reference.afterVerb e.1)
            && !expr.allowVacuous) = true then x else y) = y := by
          intro x y; rw [hal, if_neg hv]
        simp only [hthen]
        have hne : e.2.1.contains .ALLOWEMPTY = true ∨ ¬ Matches e [] := by
          rw [hmt, ← hempty]
          cases h1 : Spec.Mended.empty false true [] (Spec.Reference.afterVerb e.1) with
          | false => exact .inr (by simp)
          | true =>
            left
            rw [h1] at hv
            simpa using hv
        obtain ⟨⟨w0, hw0⟩, h82⟩ := C82_language .release e.1 body _ m c hb hp
        have hsh := shortest_least c
        cases hsc : shortest c with
        | none => rw [hsc] at hsh; exact absurd hw0 (hsh w0)
        | some n =>
          rw [hsc] at hsh
          have hnl : n ≤ 2 ^ 31 - 2 := by
            have h1 := hsh.2 w0 hw0
            have h2 := (h82 w0 hw0).1
            have : (body.filter (fun c => !decide (special c))).length ≤ body.length := List.length_filter_le _ _
            omega
          rcases noted n hnl with ⟨old, h1, h2, h3⟩ | ⟨hag, ng1, id, h1, h2, h3, h4, h5, h6, h7, h8, h9, h10, h11⟩
          · rw [hclash old h1 h2, h3]
            exact ⟨hdis old h1 h2, _, rfl, rfl⟩
          · obtain ⟨seen', hseen, hno⟩ := hnotes hag
            rw [hseen, h1]
            refine ⟨⟨{ ng1 with graphs := ng1.graphs ++ [b.graph] }, rfl, ?_⟩, hno, ⟨by omega, hq1, hs1, hacc, hne⟩, hag⟩
            obtain ⟨calls, hcalls, hco⟩ := hok.smwr
            refine ⟨h2, h3, h4, h5, h7, ?_, ⟨calls, ?_, ?_, ?_⟩, ?_⟩
            · show WidthOf _ ng1.minWidth.val
              rw [h9]
              obtain ⟨⟨w, hw, hwl⟩, hmin⟩ := hsh
              exact widthOf_append hok.width hnl ⟨w, (hmt w).2 hw, hwl⟩ (fun w hw => hmin w ((hmt w).1 hw))
            · show _ = Outcome.ok ng1.smwr
              rw [h10]; exact hcalls
            · intro x hx
              obtain ⟨e', a1, es', a2, a3, a4, a5⟩ := hco.sound x hx
              exact ⟨e', by simp [a1], es', a2, a3, a4, repOf_mono h6 a5⟩
            · intro e' he' es' a1 a2
              rcases List.mem_append.1 he' with he' | he'
              · obtain ⟨r, b1, b2⟩ := hco.complete e' he' es' a1 a2
                exact ⟨r, b1, repOf_mono h6 b2⟩
              · rw [List.mem_singleton] at he'
                subst he'
                rw [hil] at a1; cases a1
            · show GraphsOf _ (ng1.graphs ++ [b.graph])
              rw [h11, List.filter_append]
              have : [e].filter (fun e => !isLit cc.grey e) = [e] := by simp [hil]
              rw [this]
              refine graphsOf_append hok.graphs ⟨?_, trivial⟩
              intro w
              rw [hbl' w]
              simp only [hmt]

/-- Adding expressions, against the reference program. -/
theorem addAll_step (p : Profile) {cc : CompileContext} {np : Nat} (hs : Sane cc.grey) :
    ∀ (es l : List Expr) (ng : Ng) (seen : List Spec.Reference.Noted), Ok cc np l ng →
    l.length + es.length ≤ cc.grey.limitPatternCount → Notes seen l →
    match Spec.Mended.addAll cc.grey seen l.length es with
    | .ok () => (∃ ng', addAll p l.length ng es = .ok ng' ∧ Ok cc np (l ++ es) ng') ∧
        (∀ e ∈ es, Fine cc.grey e) ∧
        ∀ (i : Nat) e, es[i]? = some e → ∀ a ∈ l ++ es.take i, a.2.2 = e.2.2 →
          a.2.1.contains .SINGLEMATCH = e.2.1.contains .SINGLEMATCH
    | .error x => addAll p l.length ng es = .err x ∧ ¬ ((∀ e ∈ es, Fine cc.grey e) ∧
        ∀ (i : Nat) e, es[i]? = some e → ∀ a ∈ l ++ es.take i, a.2.2 = e.2.2 →
          a.2.1.contains .SINGLEMATCH = e.2.1.contains .SINGLEMATCH) := by
  intro es
  induction es with
  | nil =>
    intro l ng seen hok _ _
    show _ ∧ _
    refine ⟨⟨ng, rfl, by simpa using hok⟩, by simp, by simp⟩
  | cons e es ih =>
    intro l ng seen hok hl hn
    have hc := hs.base.count
    simp only [List.length_cons] at hl
    have hstep := add_step p hs hok (by omega) seen hn e
    obtain ⟨t, f, id⟩ := e
    rw [Spec.Mended.addAll, addAll]
    cases hadd : Spec.Mended.add cc.grey seen l.length t f id with
    | error x =>
      rw [hadd] at hstep
      obtain ⟨h0, y, h1, h2⟩ := hstep
      rw [h1]
      refine ⟨?_, fun h => h0 ⟨h.1 _ (by simp), fun a ha => h.2 0 _ rfl a (by simpa using ha)⟩⟩
      show (ReportManager.toU32 l.length _).bind _ = _
      rw [ReportManager.toU32_ok _ _ (by omega)]
      show Outcome.err _ = _
      rw [h2]
    | ok seen' =>
      rw [hadd] at hstep
      obtain ⟨⟨ng', h1, h2⟩, h3, h4, h5⟩ := hstep
      rw [h1]
      have := ih (l ++ [(t, f, id)]) ng' seen' h2 (by simp; omega) h3
      simp only [List.length_append, List.length_singleton, List.append_assoc, List.singleton_append] at this
      dsimp only
      cases hrest : Spec.Mended.addAll cc.grey seen' (l.length + 1) es with
      | error x =>
        rw [hrest] at this
        refine ⟨this.1, fun h => this.2 ⟨fun e he => h.1 e (by simp [he]), ?_⟩⟩
        intro i e he a ha
        exact h.2 (i + 1) e (by simpa using he) a (by simpa using ha)
      | ok u =>
        rw [hrest] at this
        obtain ⟨a1, a2, a3⟩ := this
        refine ⟨a1, ?_, ?_⟩
        · intro e he
          rcases List.mem_cons.1 he with rfl | he
          · exact h4
          · exact a2 e he
        · intro i e he a ha hid
          cases i with
          | zero =>
            simp at he
            subst he
            simp at ha
            obtain ⟨j, hj⟩ := regs_mem 0 ha
            cases hf : firstFor (regs 0 l) id with
            | none => exact absurd hid (ReportManager.firstFor_none hf _ hj)
            | some old =>
              have e1 := h5 old hf
              have e2 := hok.reg.agree _ hj old (by show firstFor _ a.2.2 = _; rw [hid]; exact hf)
              exact e2.symm.trans e1
          | succ i =>
            simp at he
            exact a3 i e he a (by simpa using ha) hid

end Mended
end Rescan
