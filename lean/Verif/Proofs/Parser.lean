import Verif.Model.Parser
import Verif.Spec.Grammar
import Verif.Proofs.CharReach
/-! # The parse loop, character by character -/
namespace Rescan
open Spec

/-- The class the code builds for a literal character. -/
def litClass (caseless : Bool) (c : Char) : ComponentClass :=
  .ascii ((AsciiComponentClass.new { ParseMode.default with caseless := caseless }).add
    (BitVec.ofNat 8 c.toNat))

theorem getLiteralComponentClass_ascii (c : Char) (nocase : Bool) (h : c.toNat < 256) :
    getLiteralComponentClass c nocase = .ok (litClass nocase c) := by
  have : ¬ c.toNat > 0xff := by omega
  simp [getLiteralComponentClass, getComponentClass, ComponentClass.add, litClass, this]

theorem litClass_spec (caseless : Bool) (c : Char) (h : c.toNat < 256) :
    IsLitClass caseless c (litClass caseless c) := by
  unfold litClass IsLitClass
  simp only [AsciiComponentClass.add, AsciiComponentClass.new]
  refine ⟨rfl, fun b => ?_⟩
  have hor : ∀ (x : CharReach), (CharReach.default.orAssign x).test b = x.test b := by
    intro x
    have := CharReach.or_test x CharReach.default b
    rw [CharReach.default_test, Bool.or_false] at this
    exact this
  have hb : b = BitVec.ofNat 8 c.toNat ↔ b.toNat = c.toNat := by
    rw [← BitVec.toNat_inj, BitVec.toNat_ofNat, Nat.mod_eq_of_lt h]
  rw [hor]
  cases caseless with
  | false => simp [CharReach.fromChar_test, hb]
  | true =>
    simp only [if_true]
    rw [CharReach.makeCaseless_test]
    simp [CharReach.fromChar_test, hb]

theorem isLitClass_unique {caseless : Bool} {c : Char} {x y : ComponentClass}
    (hx : IsLitClass caseless c x) (hy : IsLitClass caseless c y) : x = y := by
  obtain ⟨a⟩ := x
  obtain ⟨b⟩ := y
  obtain ⟨hm, ht⟩ := hx
  obtain ⟨hm', ht'⟩ := hy
  have : a.cr = b.cr := CharReach.ext_test fun n => by rw [Bool.eq_iff_iff, ht, ht']
  cases a; cases b; simp_all

namespace Context

/-- The parse loop by recursion on the remaining input. -/
def loop (pr : Profile) : Str → Context → Res Context
  | [], ctx => .ok ctx
  | c :: cs, ctx => (ctx.main pr (c :: cs)).bind (loop pr cs)

theorem main_bar (pr : Profile) (ctx : Context) (cs : Str) :
    ctx.main pr ('|' :: cs) = .ok { ctx with currentSeq := ctx.currentSeq.addAlternation, p := cs } :=
  rfl

theorem main_close_nil (pr : Profile) (ctx : Context) (cs : Str) (h : ctx.sequences = []) :
    ctx.main pr (')' :: cs) = .err (CompileError.new .locatedParse "Unmatched parentheses") := by
  show (ctx.popSequence).bind _ = _
  rw [popSequence, h]; rfl

theorem main_close_cons (pr : Profile) (ctx : Context) (cs : Str) (v : ExprState)
    (rest : List ExprState) (h : ctx.sequences = v :: rest) :
    ctx.main pr (')' :: cs) = .ok { ctx with
      p := cs
      sequences := rest
      currentSeq := v.seq.addComponent (.sequence ctx.currentSeq.finalize)
      mode := v.mode } := by
  show (ctx.popSequence).bind _ = _
  rw [popSequence, h]; rfl

/-- The context after a successful `(`. -/
def opened (ctx : Context) (cs : Str) (off : Nat) : Context :=
  { ctx with
    p := cs
    groupIndex := (ctx.groupIndex + 1) % 2 ^ 32
    currentSeq := .mk [] none (some ctx.groupIndex) none
    sequences := ⟨ctx.currentSeq, off, ctx.mode⟩ :: ctx.sequences }

theorem u32Incr_release (a : Nat) (h : a < 2 ^ 32) : u32Incr .release a = .ok ((a + 1) % 2 ^ 32) := by
  unfold u32Incr
  by_cases h1 : a + 1 < 2 ^ 32
  · rw [if_pos h1, Nat.mod_eq_of_lt h1]
  · rw [if_neg h1, if_neg (by decide)]
    have : a + 1 = 2 ^ 32 := by omega
    rw [this]

/-- The offset recorded for a group (release builds). -/
def offsetOf (tsLen ptrLen : Nat) : Nat := if ptrLen ≤ tsLen then tsLen - ptrLen else tsLen + 2 ^ 64 - ptrLen

theorem main_open_release (ctx : Context) (cs : Str) (h : ctx.groupIndex < 2 ^ 32) :
    ctx.main .release ('(' :: cs) = .ok (ctx.opened cs (offsetOf (utf8Len ('(' :: cs)) ctx.ptrLen)) := by
  show (ctx.pushSequence .release ('(' :: cs)).bind _ = _
  unfold pushSequence
  rw [u32Incr_release _ h]
  simp only [Outcome.ok_bind, usizeSub, offsetOf]
  split
  · rfl
  · rfl

theorem main_open_debug_panic (ctx : Context) (cs : Str) (h : utf8Len ('(' :: cs) < ctx.ptrLen) :
    (ctx.main .debug ('(' :: cs)).isPanic = true := by
  show ((ctx.pushSequence .debug ('(' :: cs)).bind _).isPanic = true
  unfold pushSequence u32Incr
  split
  · simp only [Outcome.ok_bind, usizeSub]
    rw [if_neg (by omega)]; rfl
  · rfl

theorem main_open_debug (ctx : Context) (cs : Str) (hg : ctx.groupIndex + 1 < 2 ^ 32)
    (h : ctx.ptrLen ≤ utf8Len ('(' :: cs)) :
    ctx.main .debug ('(' :: cs) = ctx.main .release ('(' :: cs) := by
  show (ctx.pushSequence .debug ('(' :: cs)).bind _ = (ctx.pushSequence .release ('(' :: cs)).bind _
  unfold pushSequence u32Incr usizeSub
  rw [if_pos hg, if_pos hg, if_pos h, if_pos h]

theorem main_lit (pr : Profile) (ctx : Context) (c : Char) (cs : Str) (h : ¬ special c)
    (ha : c.toNat < 128) :
    ctx.main pr (c :: cs) = .ok { ctx with
      currentSeq := ctx.currentSeq.addComponent (.cls (litClass ctx.mode.caseless c)), p := cs } := by
  unfold special at h
  unfold main
  split
  · simp_all
  · simp_all
  · simp_all
  · rename_i c' p' _ _ _ heq
    injection heq with h1 h2
    subst h1 h2
    simp only [ha, decide_true, rassert, if_true, Outcome.ok_bind, addLiteral]
    rw [getLiteralComponentClass_ascii c _ (by omega)]
    rfl
  · simp_all

theorem main_nonascii (pr : Profile) (ctx : Context) (c : Char) (cs : Str)
    (ha : ¬ c.toNat < 128) : (ctx.main pr (c :: cs)).isPanic = true := by
  unfold main
  split
  · rename_i heq; injection heq with h1 h2; subst h1; exact absurd (by decide) ha
  · rename_i heq; injection heq with h1 h2; subst h1; exact absurd (by decide) ha
  · rename_i heq; injection heq with h1 h2; subst h1; exact absurd (by decide) ha
  · rename_i c' p' _ _ _ heq
    injection heq with h1 h2
    subst h1 h2
    simp [ha, rassert]; rfl
  · simp_all

/-- Every character is one of the five kinds. -/
theorem char_kinds (c : Char) : c = '(' ∨ c = ')' ∨ c = '|' ∨ (¬ special c ∧ c.toNat < 128) ∨
    ¬ c.toNat < 128 := by
  unfold special
  by_cases h1 : c = '('; · exact Or.inl h1
  by_cases h2 : c = ')'; · exact Or.inr (Or.inl h2)
  by_cases h3 : c = '|'; · exact Or.inr (Or.inr (Or.inl h3))
  by_cases h4 : c.toNat < 128
  · exact Or.inr (Or.inr (Or.inr (Or.inl ⟨by simp [h1, h2, h3], h4⟩)))
  · exact Or.inr (Or.inr (Or.inr (Or.inr h4)))

/-- A successful iteration consumes exactly one character. -/
theorem main_p (pr : Profile) (ctx ctx' : Context) (c : Char) (cs : Str)
    (h : ctx.main pr (c :: cs) = .ok ctx') : ctx'.p = cs := by
  rcases char_kinds c with h1 | h1 | h1 | ⟨h1, h2⟩ | h1
  · subst h1
    have h' : (ctx.pushSequence pr ('(' :: cs)).bind
        (fun c => (Outcome.ok { c with p := cs } : Res Context)) = .ok ctx' := h
    cases hp : ctx.pushSequence pr ('(' :: cs) <;> rw [hp] at h' <;> simp [Outcome.bind] at h'
    rw [← h']
  · subst h1
    cases hs : ctx.sequences with
    | nil => rw [main_close_nil pr ctx cs hs] at h; cases h
    | cons v r => rw [main_close_cons pr ctx cs v r hs] at h; injection h with h; rw [← h]
  · subst h1; rw [main_bar] at h; injection h with h; rw [← h]
  · rw [main_lit pr ctx c cs h1 h2] at h; injection h with h; rw [← h]
  · have := main_nonascii pr ctx c cs h1; rw [h] at this; cases this

theorem mainLoop_eq (pr : Profile) : ∀ (s : Str) (ctx : Context) (n : Nat), ctx.p = s →
    s.length ≤ n → mainLoop pr n ctx = loop pr s ctx := by
  intro s
  induction s with
  | nil => intro ctx n h _; unfold mainLoop loop; simp [h]
  | cons c cs ih =>
    intro ctx n h hn
    cases n with
    | zero => simp at hn
    | succ n =>
      unfold mainLoop loop
      simp only [h, List.isEmpty_cons, Bool.false_eq_true, if_false]
      show (ctx.main pr (c :: cs)).bind _ = _
      cases hm : ctx.main pr (c :: cs) with
      | ok ctx' => exact ih ctx' n (main_p pr ctx ctx' c cs hm) (by simpa using hn)
      | err e => rfl
      | panic m => rfl
      | timeout => rfl

/-- `Context::parse` as the loop followed by the final checks. -/
theorem parse_eq (pr : Profile) (ctx : Context) :
    ctx.parse pr = (loop pr ctx.p ctx).bind finish := by
  unfold Context.parse
  rw [mainLoop_eq pr ctx.p ctx _ rfl (Nat.le_refl _)]; rfl

/-! ## Parsing the text of a grammar tree -/

/-- The context with other contents of the current sequence and group counter. -/
def upd (ctx : Context) (seq : ComponentSequence) (k : Nat) (rest : Str) : Context :=
  { ctx with currentSeq := seq, groupIndex := k % 2 ^ 32, p := rest }

/-- `children` appended to the children of `seq`. -/
def appendAll (seq : ComponentSequence) (cs : List Component) : ComponentSequence :=
  .mk (seq.children ++ cs) seq.alternation seq.captureIndex seq.captureName

/-- What the current sequence becomes while an alternation is read. -/
def pendAlts (cls : Char → ComponentClass) (k : Nat) (seq : ComponentSequence) :
    Alts → ComponentSequence × Nat
  | .one s => (appendAll seq (s.build cls k).1, (s.build cls k).2)
  | .more s a =>
    pendAlts cls (s.build cls k).2 (appendAll seq (s.build cls k).1).addAlternation a

/-- The finished branches of a sequence. -/
def doneBranches (seq : ComponentSequence) : List ComponentSequence :=
  match seq.alternation with
  | none => []
  | some a => a.children

theorem pendAlts_some (cls : Char → ComponentClass) : ∀ (a : Alts) (k : Nat) (d : List ComponentSequence)
    (ci : Option Nat) (cn : Option String),
    (pendAlts cls k (.mk [] (some (.mk d)) ci cn) a).1.finalize
      = .mk [.alternation (.mk (d ++ (a.branches cls k).1))] none ci cn ∧
    (pendAlts cls k (.mk [] (some (.mk d)) ci cn) a).2 = (a.branches cls k).2 := by
  intro a
  cases a with
  | one s => intro k d ci cn; exact ⟨rfl, rfl⟩
  | more s a =>
    intro k d ci cn
    have ih := pendAlts_some cls a (s.build cls k).2 (d ++ [.mk (s.build cls k).1 none none none]) ci cn
    refine ⟨?_, ih.2⟩
    have h := ih.1
    rw [List.append_assoc] at h
    exact h
termination_by a => sizeOf a

theorem pendAlts_none (cls : Char → ComponentClass) (a : Alts) (k : Nat)
    (ci : Option Nat) (cn : Option String) :
    (pendAlts cls k (.mk [] none ci cn) a).1.finalize = .mk (a.build cls k).1 none ci cn ∧
    (pendAlts cls k (.mk [] none ci cn) a).2 = (a.build cls k).2 := by
  cases a with
  | one s => exact ⟨rfl, rfl⟩
  | more s a =>
    have ih := pendAlts_some cls a (s.build cls k).2 [.mk (s.build cls k).1 none none none] ci cn
    exact ⟨ih.1, ih.2⟩

theorem isAscii_append {s t : Str} : IsAscii (s ++ t) ↔ IsAscii s ∧ IsAscii t := by
  simp only [IsAscii, List.mem_append]
  exact ⟨fun h => ⟨fun c hc => h c (.inl hc), fun c hc => h c (.inr hc)⟩,
    fun h c hc => hc.elim (h.1 c) (h.2 c)⟩

theorem isAscii_cons {c : Char} {t : Str} : IsAscii (c :: t) ↔ c.toNat < 128 ∧ IsAscii t := by
  simp [IsAscii]

theorem addComponent_appendAll (seq : ComponentSequence) (c : Component) (cs : List Component) :
    appendAll (seq.addComponent c) cs = appendAll seq (c :: cs) := by
  simp [appendAll, ComponentSequence.addComponent, ComponentSequence.children,
    ComponentSequence.alternation, ComponentSequence.captureIndex, ComponentSequence.captureName]

theorem appendAll_nil (seq : ComponentSequence) : appendAll seq [] = seq := by
  obtain ⟨ch, al, ci, cn⟩ := seq
  simp [appendAll, ComponentSequence.children,
    ComponentSequence.alternation, ComponentSequence.captureIndex, ComponentSequence.captureName]

theorem upd_same (ctx : Context) (k : Nat) (rest : Str) (h1 : ctx.p = rest)
    (h2 : ctx.groupIndex = k % 2 ^ 32) : ctx.upd ctx.currentSeq k rest = ctx := by
  unfold upd; rw [← h1, ← h2]

mutual
theorem loop_item : ∀ (i : Item) (ctx : Context) (k : Nat) (rest : Str), i.Wf → IsAscii i.print →
    ctx.p = i.print ++ rest → ctx.groupIndex = k % 2 ^ 32 →
    loop .release (i.print ++ rest) ctx = loop .release rest (ctx.upd
      (ctx.currentSeq.addComponent (i.build (litClass ctx.mode.caseless) k).1)
      (i.build (litClass ctx.mode.caseless) k).2 rest)
  | .lit c, ctx, k, rest, hw, ha, hp, hk => by
    have ha' : c.toNat < 128 := ha c (by simp [Item.print])
    show (ctx.main .release (c :: rest)).bind _ = _
    rw [main_lit .release ctx c rest hw ha']
    show loop .release rest _ = _
    unfold upd
    simp only [Item.build]
    rw [← hk]
  | .group a, ctx, k, rest, hw, ha, hp, hk => by
    have ha' : IsAscii a.print := by
      intro c hc; exact ha c (by simp [Item.print, hc])
    have hprint : (Item.group a).print ++ rest = '(' :: (a.print ++ (')' :: rest)) := by
      simp [Item.print]
    rw [hprint]
    show (ctx.main .release ('(' :: (a.print ++ (')' :: rest)))).bind _ = _
    rw [main_open_release ctx _ (by rw [hk]; exact Nat.mod_lt _ (by decide))]
    show loop .release (a.print ++ (')' :: rest)) _ = _
    rw [loop_alts a _ (k + 1) (')' :: rest) hw ha' rfl (by simp only [opened]; rw [hk]; simp [Nat.add_mod])]
    show (Context.main .release _ (')' :: rest)).bind _ = _
    rw [main_close_cons .release _ rest _ _ rfl]
    show loop .release rest _ = _
    have h := pendAlts_none (litClass ctx.mode.caseless) a (k + 1) (some ctx.groupIndex) none
    simp only [Item.build]
    have e1 : (ctx.opened (a.print ++ ')' :: rest)
        (offsetOf (utf8Len ('(' :: (a.print ++ ')' :: rest))) ctx.ptrLen)).currentSeq
        = .mk [] none (some ctx.groupIndex) none := rfl
    have e2 : (ctx.opened (a.print ++ ')' :: rest)
        (offsetOf (utf8Len ('(' :: (a.print ++ ')' :: rest))) ctx.ptrLen)).mode = ctx.mode := rfl
    rw [e1, e2, ← h.2, ← hk]
    have h1 := h.1
    unfold upd
    simp only [h1]
    rfl
theorem loop_seq : ∀ (s : Seq) (ctx : Context) (k : Nat) (rest : Str), s.Wf → IsAscii s.print →
    ctx.p = s.print ++ rest → ctx.groupIndex = k % 2 ^ 32 →
    loop .release (s.print ++ rest) ctx = loop .release rest (ctx.upd
      (appendAll ctx.currentSeq (s.build (litClass ctx.mode.caseless) k).1)
      (s.build (litClass ctx.mode.caseless) k).2 rest)
  | .nil, ctx, k, rest, hw, ha, hp, hk => by
    simp only [Seq.print, List.nil_append, Seq.build]
    rw [appendAll_nil, upd_same ctx k rest (by simpa [Seq.print] using hp) hk]
  | .cons i s, ctx, k, rest, hw, ha, hp, hk => by
    have ha' := isAscii_append.1 ha
    have hp' : (Seq.cons i s).print ++ rest = i.print ++ (s.print ++ rest) := by
      simp [Seq.print]
    rw [hp'] at hp ⊢
    rw [loop_item i ctx k _ hw.1 ha'.1 hp hk]
    rw [loop_seq s _ (i.build (litClass ctx.mode.caseless) k).2 rest hw.2 ha'.2 rfl rfl]
    simp only [Seq.build]
    have e1 : ∀ x, (ctx.upd (ctx.currentSeq.addComponent
      (i.build (litClass ctx.mode.caseless) k).1) x (s.print ++ rest)).currentSeq =
      ctx.currentSeq.addComponent (i.build (litClass ctx.mode.caseless) k).1 := fun _ => rfl
    have e2 : ∀ x y, (ctx.upd x y (s.print ++ rest)).mode = ctx.mode := fun _ _ => rfl
    rw [e1, e2, addComponent_appendAll]
    rfl
theorem loop_alts : ∀ (a : Alts) (ctx : Context) (k : Nat) (rest : Str), a.Wf → IsAscii a.print →
    ctx.p = a.print ++ rest → ctx.groupIndex = k % 2 ^ 32 →
    loop .release (a.print ++ rest) ctx = loop .release rest (ctx.upd
      (pendAlts (litClass ctx.mode.caseless) k ctx.currentSeq a).1
      (pendAlts (litClass ctx.mode.caseless) k ctx.currentSeq a).2 rest)
  | .one s, ctx, k, rest, hw, ha, hp, hk => loop_seq s ctx k rest hw ha hp hk
  | .more s a, ctx, k, rest, hw, ha, hp, hk => by
    have ha' := isAscii_append.1 ha
    have hp' : (Alts.more s a).print ++ rest = s.print ++ ('|' :: (a.print ++ rest)) := by
      simp [Alts.print]
    rw [hp'] at hp ⊢
    rw [loop_seq s ctx k _ hw.1 ha'.1 hp hk]
    show (Context.main .release _ ('|' :: (a.print ++ rest))).bind _ = _
    rw [main_bar]
    show loop .release (a.print ++ rest) _ = _
    rw [loop_alts a _ (s.build (litClass ctx.mode.caseless) k).2 rest hw.2 (isAscii_cons.1 ha'.2).2 rfl rfl]
    rfl
end

/-- Parsing the text of a grammar tree gives its components (release builds). -/
theorem parse_print (a : Alts) (ptr : Str) (mode : ParseMode) (hw : a.Wf) (ha : IsAscii a.print) :
    (Context.new ptr a.print mode).parse .release
      = .ok (.mk (a.build (litClass mode.caseless) 1).1 none (some 0) none) := by
  rw [parse_eq]
  have h := loop_alts a (Context.new ptr a.print mode) 1 [] hw ha (by simp [Context.new]) rfl
  rw [List.append_nil] at h
  have e : (Context.new ptr a.print mode).p = a.print := rfl
  rw [e, h, loop]
  simp only [Outcome.bind, finish, upd, Context.new]
  rw [(pendAlts_none _ a 1 (some 0) none).1]

end Context
end Rescan
