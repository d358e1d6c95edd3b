import Verif.Proofs.Tree
import Verif.Props.Literal
/-! # Helper lemmas about literal extraction -/
namespace Rescan
open Spec

/-- A literal extended by elements. -/
def Ue2Literal.app (l : Ue2Literal) (es : List (U8 × Bool)) : Ue2Literal :=
  ⟨l.s ++ es.map Prod.fst, l.nocase ++ es.map Prod.snd⟩

theorem Ue2Literal.app_nil (l : Ue2Literal) : l.app [] = l := by
  cases l; simp [app]

theorem Ue2Literal.app_append (l : Ue2Literal) (es fs : List (U8 × Bool)) :
    l.app (es ++ fs) = (l.app es).app fs := by simp [app]

/-- The class is exactly one byte, `b`. -/
def OneByte (cr : CharReach) (b : U8) : Prop := ∀ x, cr.test x = true ↔ x = b

/-- The class is exactly the two cases of the letter with upper case `u`. -/
def TwoCases (cr : CharReach) (u : U8) : Prop :=
  isUpper u ∧ ∀ x, cr.test x = true ↔ (x = u ∨ casePair x u)

theorem OneByte.count {cr : CharReach} {b : U8} (h : OneByte cr b) :
    cr.count = 1 ∧ cr.findFirst = some b := by
  have hcr : cr = CharReach.fromChar b := CharReach.ext_test (fun n => by
    rw [Bool.eq_iff_iff, h n, (CharReach.C11_constructors b n []).1])
  subst hcr
  clear h
  revert b; decide +kernel

theorem TwoCases.count {cr : CharReach} {u : U8} (h : TwoCases cr u) :
    cr.count = 2 ∧ cr.findFirst = some u := by
  have hcr : cr = CharReach.fromBytes [u, u + 32#8] := CharReach.ext_test (fun n => by
    rw [Bool.eq_iff_iff, h.2 n, (CharReach.C11_constructors 0#8 n _).2]
    have hu := h.1
    unfold isUpper at hu
    have : casePair n u ↔ n = u + 32#8 := by
      rw [← BitVec.toNat_inj, BitVec.toNat_add]
      unfold casePair isUpper
      have : (32#8 : U8).toNat = 32 := rfl
      omega
    rw [this]; simp)
  have hu := h.1
  subst hcr
  clear h
  revert u; decide +kernel

theorem oneByte_of_count {cr : CharReach} (h : cr.count = 1) : ∃ b, OneByte cr b := by
  have h1 : (members cr.test).length = 1 := by
    rw [← h]; exact (BitField256.count_members cr.bits).symm
  obtain ⟨b, hb⟩ := List.length_eq_one_iff.1 h1
  refine ⟨b, fun x => ?_⟩
  rw [← BitField256.mem_members, hb]; simp

theorem casePair_upper {u l x : U8} (hu : isUpper u) (hl : l.toNat = u.toNat + 32) :
    x = l ↔ casePair x u := by
  rw [← BitVec.toNat_inj]
  unfold casePair
  unfold isUpper at *
  omega

/-- What the visitor does with a class. -/
theorem preLiteralClass_cases (lit : Ue2Literal) (c : AsciiComponentClass) :
    (∃ b, OneByte c.cr b ∧ preLiteralClass lit c = .ok (lit.app [(b, false)])) ∨
    (∃ u, TwoCases c.cr u ∧ preLiteralClass lit c = .ok (lit.app [(u, true)])) ∨
    ((¬ ∃ b, OneByte c.cr b) ∧ (¬ ∃ u, TwoCases c.cr u) ∧ preLiteralClass lit c = .err .mk) := by
  by_cases h1 : ∃ b, OneByte c.cr b
  · obtain ⟨b, hb⟩ := h1
    obtain ⟨hc, hf⟩ := hb.count
    refine .inl ⟨b, hb, ?_⟩
    unfold preLiteralClass
    simp only [hc, if_pos, hf]
    rfl
  · have hc1 : c.cr.count ≠ 1 := fun h => h1 (oneByte_of_count h)
    obtain ⟨r, hr, hiff⟩ := CharReach.C13_is_caseless_char (ε := NotLiteral) c.cr
    by_cases h2 : ∃ u, TwoCases c.cr u
    · obtain ⟨u, hu⟩ := h2
      obtain ⟨hc, hf⟩ := hu.count
      refine .inr (.inl ⟨u, hu, ?_⟩)
      have hr' : r = true := hiff.2 (by
        have hl : (u + 32#8).toNat = u.toNat + 32 := by
          rw [BitVec.toNat_add]
          have h1 := hu.1
          unfold isUpper at h1
          have : (32#8 : U8).toNat = 32 := rfl
          omega
        refine ⟨u, u + 32#8, hu.1, hl, fun x => ?_⟩
        rw [hu.2, casePair_upper hu.1 hl])
      subst hr'
      unfold preLiteralClass
      simp only [hc, if_pos, hr, hf]
      have hup : mytoupper u = u := by
        apply mytoupper_other
        have h1 := hu.1
        unfold isUpper at h1; unfold isLower; omega
      show Outcome.ok (lit.push u true) = _
      simp [Ue2Literal.push, Ue2Literal.app, hup]
    · refine .inr (.inr ⟨h1, h2, ?_⟩)
      have hr' : r = false := by
        cases r with
        | false => rfl
        | true =>
          obtain ⟨u, l, hu, hl, h3⟩ := hiff.1 rfl
          exact absurd ⟨u, hu, fun x => by rw [h3, casePair_upper hu hl]⟩ h2
      subst hr'
      unfold preLiteralClass
      by_cases hc2 : c.cr.count = 2
      · simp only [hc2, if_pos, hr]; rfl
      · simp only [if_neg hc1, if_neg hc2]; rfl

theorem upperOf_eq (b : U8) : upperOf b = mytoupper b := by revert b; decide +kernel

/-- What the visitor does with the class of a literal character. -/
theorem preLiteralClass_lit (lit : Ue2Literal) (caseless : Bool) (c : Char) (hc : c.toNat < 256)
    (a : AsciiComponentClass) (h : IsLitClass caseless c (.ascii a)) :
    preLiteralClass lit a = .ok (lit.app [litElem caseless c]) := by
  have hb : (BitVec.ofNat 8 c.toNat).toNat = c.toNat := by
    rw [BitVec.toNat_ofNat, Nat.mod_eq_of_lt hc]
  generalize hbd : BitVec.ofNat 8 c.toNat = b at *
  have hm : ∀ x, a.cr.test x = true ↔ x = b ∨ (caseless = true ∧ casePair x b) := by
    intro x
    rw [h.2 x, hbd, ← hb, BitVec.toNat_inj]
  unfold litElem
  rw [hbd]
  by_cases hl : caseless = true ∧ isLetter b
  · rw [if_pos hl]
    have h2 : TwoCases a.cr (upperOf b) := by
      obtain ⟨hl1, hl2⟩ := hl
      rcases hl2 with hl2 | hl2
      · have hnl : ¬ isLower b := by unfold isUpper at hl2; unfold isLower; omega
        rw [upperOf, if_neg hnl]
        exact ⟨hl2, fun x => by rw [hm x]; simp [hl1]⟩
      · rw [upperOf, if_pos hl2]
        have hs : (b - 32#8).toNat + 32 = b.toNat := by
          have := mytoupper_lower b hl2
          rw [← upperOf_eq, upperOf, if_pos hl2] at this
          exact this
        have hu : isUpper (b - 32#8) := by unfold isLower at hl2; unfold isUpper; omega
        refine ⟨hu, fun x => ?_⟩
        rw [hm x, hl1, casePair_upper hu (by omega)]
        have : casePair x b ↔ x = b - 32#8 := by
          rw [← BitVec.toNat_inj]
          unfold casePair
          unfold isUpper isLower at *
          omega
        rw [this, ← casePair_upper hu (l := b) (by omega)]
        constructor
        · rintro (h | ⟨_, h⟩)
          · exact .inr h
          · exact .inl h
        · rintro (h | h)
          · exact .inr ⟨rfl, h⟩
          · exact .inl h
    rcases preLiteralClass_cases lit a with ⟨b', h3, _⟩ | ⟨u, h3, h4⟩ | ⟨_, h4, _⟩
    · have := h3.count.1; rw [h2.count.1] at this; cases this
    · have := h3.count.2; rw [h2.count.2] at this
      injection this with this; rw [← this] at h4; exact h4
    · exact absurd ⟨_, h2⟩ h4
  · rw [if_neg hl]
    have h2 : OneByte a.cr b := by
      intro x
      rw [hm x]
      constructor
      · rintro (h | ⟨h3, h4⟩)
        · exact h
        · refine absurd ⟨h3, ?_⟩ hl
          unfold casePair at h4
          unfold isLetter isUpper isLower at *
          omega
      · exact .inl
    rcases preLiteralClass_cases lit a with ⟨b', h3, h4⟩ | ⟨u, h3, h4⟩ | ⟨h4, _, _⟩
    · have := h3.count.2; rw [h2.count.2] at this
      injection this with this; rw [← this] at h4; exact h4
    · have := h3.count.1; rw [h2.count.1] at this; cases this
    · exact absurd ⟨_, h2⟩ h4

/-! ## Walking trees of the grammar -/

/-- The result of the literal visitor on a text. -/
def litResult (caseless : Bool) (lit : Ue2Literal) (s : Str) : Outcome NotLiteral Ue2Literal :=
  if '|' ∈ s then .err .mk else .ok (lit.app (litElems caseless s))

theorem litElems_append (cl : Bool) (s t : Str) : litElems cl (s ++ t) = litElems cl s ++ litElems cl t := by
  simp [litElems]

theorem litElems_paren (cl : Bool) (s : Str) : litElems cl ('(' :: s ++ [')']) = litElems cl s := by
  simp [litElems]

theorem litResult_append (cl : Bool) (lit : Ue2Literal) (s t : Str) :
    litResult cl lit (s ++ t) = (litResult cl lit s).bind (fun l => litResult cl l t) := by
  unfold litResult
  by_cases h1 : '|' ∈ s
  · simp [h1, Outcome.bind]
  · by_cases h2 : '|' ∈ t
    · simp [h1, h2, Outcome.bind]
    · simp [h1, h2, Outcome.bind, litElems_append, Ue2Literal.app_append]

theorem bind_ok_right {ε α : Type} (x : Outcome ε α) : x.bind (fun a => .ok a) = x := by
  cases x <;> rfl

theorem isAscii_app {s t : Str} (h : IsAscii (s ++ t)) : IsAscii s ∧ IsAscii t :=
  ⟨fun c hc => h c (by simp [hc]), fun c hc => h c (by simp [hc])⟩

mutual
theorem Item.walkLit (cls : Char → ComponentClass) (cl : Bool)
    (hcls : ∀ c, c.toNat < 128 → IsLitClass cl c (cls c)) : ∀ (i : Item) (k : Nat) (lit : Ue2Literal),
    i.Wf → IsAscii i.print →
    callAll constructLiteralVisitor lit (events (i.build cls k).1) = litResult cl lit i.print
  | .lit c, k, lit, hw, ha => by
    have hc : c.toNat < 128 := ha c (by simp [Item.print])
    have h1 := hcls c hc
    have hs : ¬ special c := hw
    cases hcc : cls c with
    | ascii a =>
      rw [hcc] at h1
      simp only [Item.build, hcc, events, callAll_cons]
      show (preLiteralClass lit a).bind _ = _
      rw [preLiteralClass_lit lit cl c (by omega) a h1]
      have e1 : c ≠ '(' := fun e => hs (.inl e)
      have e2 : c ≠ ')' := fun e => hs (.inr (.inl e))
      have e3 : '|' ≠ c := fun e => hs (.inr (.inr e.symm))
      have e4 : (List.filter (fun c => c != '(' && c != ')') [c]) = [c] := by simp [e1, e2]
      simp only [Item.print, litResult, List.mem_singleton, e3, if_neg, not_false_eq_true, litElems, e4,
        List.map_cons, List.map_nil]
      rfl
  | .group a, k, lit, hw, ha => by
    have ha' : IsAscii a.print := fun c hc => ha c (by simp [Item.print, hc])
    simp only [Item.build, events, eventsSeq, callAll_cons, callAll_append, Item.print]
    show (callAll constructLiteralVisitor lit _).bind _ = _
    rw [Alts.walkLit cls cl hcls a (k + 1) lit hw ha']
    refine Eq.trans (bind_ok_right _) ?_
    unfold litResult
    rw [litElems_paren]
    simp
theorem Seq.walkLit (cls : Char → ComponentClass) (cl : Bool)
    (hcls : ∀ c, c.toNat < 128 → IsLitClass cl c (cls c)) : ∀ (s : Seq) (k : Nat) (lit : Ue2Literal),
    s.Wf → IsAscii s.print →
    callAll constructLiteralVisitor lit (eventsAll (s.build cls k).1) = litResult cl lit s.print
  | .nil, k, lit, _, _ => by
    simp [Seq.build, eventsAll, callAll, Seq.print, litResult, litElems, Ue2Literal.app_nil]
  | .cons i s, k, lit, hw, ha => by
    obtain ⟨ha1, ha2⟩ := isAscii_app ha
    simp only [Seq.build, eventsAll, callAll_append, Seq.print, litResult_append]
    rw [Item.walkLit cls cl hcls i k lit hw.1 ha1]
    congr 1; funext l
    exact Seq.walkLit cls cl hcls s _ l hw.2 ha2
theorem Alts.walkLit (cls : Char → ComponentClass) (cl : Bool)
    (hcls : ∀ c, c.toNat < 128 → IsLitClass cl c (cls c)) : ∀ (a : Alts) (k : Nat) (lit : Ue2Literal),
    a.Wf → IsAscii a.print →
    callAll constructLiteralVisitor lit (eventsAll (a.build cls k).1) = litResult cl lit a.print
  | .one s, k, lit, hw, ha => Seq.walkLit cls cl hcls s k lit hw ha
  | .more s a, k, lit, hw, ha => by
    have h : '|' ∈ (Alts.more s a).print := by simp [Alts.print]
    rw [litResult, if_pos h]
    simp only [Alts.build, eventsAll, events, eventsAlt, callAll_append, callAll_cons]
    rfl
end

/-- The literal of an accepted pattern. -/
theorem parse_walkLit {pr p : Profile} {ptr : Str} {mode : ParseMode} {c : Component} {m : ParseMode}
    {body : Str} (h : parse pr ptr mode = .ok (c, m)) (hb : IsBody ptr body) :
    walkComponent p constructLiteralVisitor Ue2Literal.default c
      = litResult mode.caseless Ue2Literal.default body := by
  rw [walkComponent_events p _ quiet_constructLiteral c _ (.inr (parse_finalized h))]
  obtain ⟨a, hw, hb', ha, rfl⟩ := parse_tree h
  have := isBody_unique hb hb'
  subst this
  simp only [Alts.root, events, eventsSeq, callAll_cons, callAll_append]
  show (callAll constructLiteralVisitor Ue2Literal.default _).bind _ = _
  rw [Alts.walkLit (litClass mode.caseless) mode.caseless
    (fun c h => litClass_spec _ c (by omega)) a 1 _ hw ha]
  exact bind_ok_right _

/-! ## The literal matches what the tree matches -/

theorem matchesElems_append (es fs : List (U8 × Bool)) (w : List U8) :
    MatchesElems (es ++ fs) w ↔ ∃ w1 w2, w = w1 ++ w2 ∧ MatchesElems es w1 ∧ MatchesElems fs w2 := by
  induction es generalizing w with
  | nil =>
    simp only [List.nil_append, MatchesElems]
    constructor
    · intro h; exact ⟨[], w, rfl, rfl, h⟩
    · rintro ⟨w1, w2, rfl, rfl, h⟩; exact h
  | cons e es ih =>
    obtain ⟨c, nc⟩ := e
    simp only [List.cons_append, MatchesElems]
    constructor
    · rintro ⟨b, w', rfl, hb, h⟩
      obtain ⟨w1, w2, rfl, h1, h2⟩ := (ih w').1 h
      exact ⟨b :: w1, w2, rfl, ⟨b, w1, rfl, hb, h1⟩, h2⟩
    · rintro ⟨w1, w2, rfl, ⟨b, w', rfl, hb, h1⟩, h2⟩
      exact ⟨b, w' ++ w2, rfl, hb, (ih _).2 ⟨w', w2, rfl, h1, h2⟩⟩

theorem bind_eq_ok {ε α β : Type} {x : Outcome ε α} {f : α → Outcome ε β} {b : β}
    (h : x.bind f = .ok b) : ∃ a, x = .ok a ∧ f a = .ok b := by
  cases x with
  | ok a => exact ⟨a, rfl, h⟩
  | _ => cases h

mutual
theorem litLang : ∀ (c : Component) (lit lit' : Ue2Literal),
    callAll constructLiteralVisitor lit (events c) = .ok lit' →
    ∃ es, lit' = lit.app es ∧ ∀ w, MatchesElems es w ↔ Lang c w
  | .alternation (.mk cs), lit, lit', h => by
    rw [events, eventsAlt, callAll_cons] at h
    cases h
  | .cls (.ascii a), lit, lit', h => by
    rw [events, callAll_cons] at h
    obtain ⟨l, h1, h2⟩ := bind_eq_ok h
    replace h2 : Outcome.ok l = Outcome.ok lit' := h2
    injection h2 with h2
    subst h2
    replace h1 : preLiteralClass lit a = .ok l := h1
    rcases preLiteralClass_cases lit a with ⟨b, h3, h4⟩ | ⟨u, h3, h4⟩ | ⟨_, _, h4⟩
    · rw [h4] at h1; injection h1 with h1
      refine ⟨_, h1.symm, fun w => ?_⟩
      simp only [MatchesElems, Lang]
      constructor
      · rintro ⟨x, w', rfl, h5 | ⟨h5, _⟩, rfl⟩
        · exact ⟨x, rfl, (h3 x).2 h5⟩
        · cases h5
      · rintro ⟨x, rfl, h5⟩
        exact ⟨x, [], rfl, .inl ((h3 x).1 h5), rfl⟩
    · rw [h4] at h1; injection h1 with h1
      refine ⟨_, h1.symm, fun w => ?_⟩
      simp only [MatchesElems, Lang]
      constructor
      · rintro ⟨x, w', rfl, h5 | ⟨_, h5⟩, rfl⟩
        · exact ⟨x, rfl, (h3.2 x).2 (.inl h5)⟩
        · exact ⟨x, rfl, (h3.2 x).2 (.inr h5)⟩
      · rintro ⟨x, rfl, h5⟩
        exact ⟨x, [], rfl, ((h3.2 x).1 h5).imp id (fun h => ⟨trivial, h⟩), rfl⟩
    · rw [h4] at h1; cases h1
  | .sequence (.mk cs a ci cn), lit, lit', h => by
    rw [events, eventsSeq, callAll_cons, show (Outcome.bind (call constructLiteralVisitor lit _) _)
      = callAll constructLiteralVisitor lit _ from rfl, callAll_append] at h
    have e : (fun s => callAll constructLiteralVisitor s [Event.postSeq (.mk cs a ci cn)])
        = fun s => Outcome.ok s := rfl
    rw [e, bind_ok_right] at h
    obtain ⟨es, h1, h2⟩ := litLangAll cs lit lit' h
    exact ⟨es, h1, fun w => by rw [h2 w, Lang, LangSeq]⟩
theorem litLangAll : ∀ (cs : List Component) (lit lit' : Ue2Literal),
    callAll constructLiteralVisitor lit (eventsAll cs) = .ok lit' →
    ∃ es, lit' = lit.app es ∧ ∀ w, MatchesElems es w ↔ LangAll cs w
  | [], lit, lit', h => by
    rw [eventsAll] at h
    injection h with h
    subst h
    exact ⟨[], (Ue2Literal.app_nil _).symm, fun w => by rw [LangAll]; rfl⟩
  | c :: cs, lit, lit', h => by
    rw [eventsAll, callAll_append] at h
    obtain ⟨l, h1, h2⟩ := bind_eq_ok h
    obtain ⟨es, rfl, h3⟩ := litLang c lit l h1
    obtain ⟨fs, rfl, h4⟩ := litLangAll cs _ lit' h2
    refine ⟨es ++ fs, (Ue2Literal.app_append _ _ _).symm, fun w => ?_⟩
    rw [matchesElems_append, LangAll]
    simp only [h3, h4]
end

end Rescan
