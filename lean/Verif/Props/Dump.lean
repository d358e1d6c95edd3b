import Verif.Spec.Dump
import Verif.Proofs.Tree
import Verif.Props.Tree
import Verif.Props.DumpClass
/-! # C62: dumping parse trees -/
namespace Rescan
open Spec Dump

/-! ## The visitor prints the dump of the specification -/

theorem filler_eq (out : Str) (d : Nat) : filler ⟨out, d⟩ = indent d := by
  unfold filler indent; rw [Nat.mul_comm]

theorem outdent_succ (p : Profile) (out : Str) (d : Nat) : outdent p ⟨out, d + 1⟩ = .ok ⟨out, d⟩ := by
  simp [outdent, rdebugAssert, Context.usizeSub, Outcome.bind, Bind.bind, Pure.pure]

theorem indent_succ (d : Nat) : indent (d + 1) = indent d ++ "  ".toList := by
  show List.replicate (2 * (d + 1)) ' ' = List.replicate (2 * d) ' ' ++ List.replicate 2 ' '
  rw [List.replicate_append_replicate]; rfl

variable {p : Profile} {fuel : Nat} {text : CharReach → Str}

/-- The class is described without panicking, as `text` says. -/
def DescribedAs (p : Profile) (fuel : Nat) (text : CharReach → Str) (cr : CharReach) : Prop :=
  describeClass p fuel cr 256 .text = .ok (text cr)

theorem preSeq_eq (out : Str) (d : Nat) (cs : List Component) (a : Option ComponentAlternation)
    (i : Option Nat) (n : Option String) :
    preSeq ⟨out, d⟩ (.mk cs a i n) = .ok ⟨out ++ (indent d ++ seqHeader i n ++ ['\n'] ++
      (if cs.isEmpty then indent (d + 1) ++ " <empty>\n".toList else [])), d + 1⟩ := by
  unfold preSeq seqHeader
  simp only [filler_eq, ComponentSequence.captureIndex, ComponentSequence.captureName,
    ComponentSequence.children]
  have hn : ∀ s : String, (" (capture name '" ++ s ++ "')\n").toList
      = (" (capture name '" ++ s ++ "')").toList ++ ['\n'] := by
    intro s; simp [String.toList_append]
  cases i <;> cases n <;> by_cases h : cs.isEmpty = true <;> simp [h, hn]

mutual
theorem dumpEvents : ∀ (c : Component) (out : Str) (d : Nat), ClassesSat (DescribedAs p fuel text) c →
    callAll (dumpVisitor p fuel) ⟨out, d⟩ (events c) = .ok ⟨out ++ dump text d c, d⟩
  | .cls (.ascii a), out, d, h => by
    have h' : describeClass p fuel a.cr 256 .text = .ok (text a.cr) := h
    have hpre : call (dumpVisitor p fuel) ⟨out, d⟩ (.preClass a)
        = .ok ⟨out ++ dump text d (.cls (.ascii a)), d + 1⟩ := by
      show preClass p fuel ⟨out, d⟩ a = _
      unfold preClass
      rw [h']
      simp [filler_eq, dump, indent_succ, Outcome.bind, Bind.bind, Pure.pure]
    rw [events, callAll_cons, hpre]
    show callAll _ _ _ = _
    rw [callAll_single]
    exact outdent_succ p _ d
  | .alternation a, out, d, h => by rw [events, dump]; exact dumpEventsAlt a out d h
  | .sequence q, out, d, h => by rw [events, dump]; exact dumpEventsSeq q out d h
theorem dumpEventsAlt : ∀ (a : ComponentAlternation) (out : Str) (d : Nat),
    ClassesSatAlt (DescribedAs p fuel text) a →
    callAll (dumpVisitor p fuel) ⟨out, d⟩ (eventsAlt a) = .ok ⟨out ++ dumpAlt text d a, d⟩
  | .mk cs, out, d, h => by
    have hpre : call (dumpVisitor p fuel) ⟨out, d⟩ (.preAlt (.mk cs))
        = .ok ⟨out ++ (indent d ++ "ALTERNATION\n".toList), d + 1⟩ := by
      show preAlt ⟨out, d⟩ (.mk cs) = _
      simp [preAlt, filler_eq]
    rw [eventsAlt, callAll_cons, hpre]
    show callAll _ _ _ = _
    rw [callAll_append, dumpEventsSeqs cs _ _ h]
    show callAll _ _ _ = _
    rw [callAll_single]
    show outdent p _ = _
    rw [outdent_succ, dumpAlt]
    simp only [List.append_assoc]
theorem dumpEventsSeq : ∀ (q : ComponentSequence) (out : Str) (d : Nat),
    ClassesSatSeq (DescribedAs p fuel text) q →
    callAll (dumpVisitor p fuel) ⟨out, d⟩ (eventsSeq q) = .ok ⟨out ++ dumpSeq text d q, d⟩
  | .mk cs a i n, out, d, h => by
    rw [eventsSeq, callAll_cons]
    show (preSeq ⟨out, d⟩ _).bind _ = _
    rw [preSeq_eq]
    show callAll _ _ _ = _
    rw [callAll_append, dumpEventsComps cs _ _ h]
    show callAll _ _ _ = _
    rw [callAll_single]
    show outdent p _ = _
    rw [outdent_succ, dumpSeq]
    cases cs with
    | nil => simp [dumpComps]
    | cons c cs => simp
theorem dumpEventsSeqs : ∀ (ss : List ComponentSequence) (out : Str) (d : Nat),
    ClassesSatSeqs (DescribedAs p fuel text) ss →
    callAll (dumpVisitor p fuel) ⟨out, d⟩ (eventsSeqs ss) = .ok ⟨out ++ dumpSeqs text d ss, d⟩
  | [], out, d, h => by rw [eventsSeqs, dumpSeqs, List.append_nil]; rfl
  | s :: ss, out, d, h => by
    rw [eventsSeqs, callAll_append, dumpEventsSeq s out d h.1]
    show callAll _ _ _ = _
    rw [dumpEventsSeqs ss _ d h.2, dumpSeqs, List.append_assoc]
theorem dumpEventsComps : ∀ (cs : List Component) (out : Str) (d : Nat),
    ClassesSatComps (DescribedAs p fuel text) cs →
    callAll (dumpVisitor p fuel) ⟨out, d⟩ (eventsAll cs) = .ok ⟨out ++ dumpComps text d cs, d⟩
  | [], out, d, h => by rw [eventsAll, dumpComps, List.append_nil]; rfl
  | c :: cs, out, d, h => by
    rw [eventsAll, callAll_append, dumpEvents c out d h.1]
    show callAll _ _ _ = _
    rw [dumpEventsComps cs _ d h.2, dumpComps, List.append_assoc]
end

/-- C62, any tree: if no class description fails, the dump is that of the specification. -/
theorem C62_dump_any (p : Profile) (fuel : Nat) (text : CharReach → Str) (c : Component)
    (hf : p = .release ∨ Finalized c) (h : ClassesSat (DescribedAs p fuel text) c) :
    dumpTree p fuel c = .ok (dump text 0 c) := by
  unfold dumpTree
  rw [walkComponent_events p _ (quiet_dump p _) c _ hf, dumpEvents c [] 0 h]
  rfl

example (p : Profile) (fuel : Nat) (text : CharReach → Str) :
    ClassesSat (DescribedAs p fuel text) (.sequence (.mk [.alternation (.mk [.mk [] none none none])] none (some 0) none)) ∧
    Finalized (.sequence (.mk [.alternation (.mk [.mk [] none none none])] none (some 0) none)) :=
  ⟨⟨⟨trivial, trivial⟩, trivial⟩, rfl, ⟨⟨rfl, trivial⟩, trivial⟩, trivial⟩

/-! ## More iterations do not change a description -/

theorem rangeLoop_mono (p : Profile) (out : CcOutput) (c2 : U8) : ∀ (f f' : Nat) (c1 : U8) (s : Str),
    f ≤ f' → rangeLoop p out c2 f c1 = .ok s → rangeLoop p out c2 f' c1 = .ok s
  | 0, _, _, _, _, h => by cases h
  | f + 1, 0, _, _, hle, _ => by omega
  | f + 1, f' + 1, c1, s, hle, h => by
    unfold rangeLoop at h ⊢
    obtain ⟨c1', hc, h⟩ := bind_eq_ok h
    show (addChk p c1 1#8).bind _ = _
    rw [hc]
    simp only [Outcome.bind]
    by_cases hgt : c1' > c2
    · rw [if_pos hgt] at h ⊢; exact h
    · rw [if_neg hgt] at h ⊢
      obtain ⟨r, hr, h⟩ := bind_eq_ok h
      show (rangeLoop p out c2 f' c1').bind _ = _
      rw [rangeLoop_mono p out c2 f f' c1' r (by omega) hr]
      exact h

theorem describeRange_mono {p : Profile} {f f' : Nat} {c1 c2 : U8} {out : CcOutput} {s : Str}
    (hle : f ≤ f') (h : describeRange p f c1 c2 out = .ok s) : describeRange p f' c1 c2 out = .ok s := by
  unfold describeRange at h ⊢
  by_cases he : c1 = c2
  · rw [if_pos he] at h ⊢; exact h
  · rw [if_neg he] at h ⊢
    obtain ⟨d, hd, h⟩ := bind_eq_ok h
    show (subChk p c2 c1).bind _ = _
    rw [hd]
    simp only [Outcome.bind]
    by_cases h4 : d < 4#8
    · rw [if_pos h4] at h ⊢; exact rangeLoop_mono p out c2 f f' c1 s hle h
    · rw [if_neg h4] at h ⊢; exact h

theorem mnemonicLoop_mono (maxLen : Nat) (out : CcOutput) : ∀ (f f' : Nat) (cr : CharReach) (i : Nat) (acc : Str)
    (r : Str ⊕ (Str × CharReach × Nat)), f ≤ f' → mnemonicLoop maxLen out f cr i acc = .ok r →
    mnemonicLoop maxLen out f' cr i acc = .ok r
  | 0, _, _, _, _, _, _, h => by cases h
  | f + 1, 0, _, _, _, _, hle, _ => by omega
  | f + 1, f' + 1, cr, i, acc, r, hle, h => by
    unfold mnemonicLoop at h ⊢
    cases he : extractMnemonic cr out with
    | none => rw [he] at h; exact h
    | some x =>
      obtain ⟨txt, rem⟩ := x
      rw [he] at h
      simp only at h ⊢
      by_cases hm : i + 1 = maxLen
      · rw [if_pos hm] at h ⊢; exact h
      · rw [if_neg hm] at h ⊢
        exact mnemonicLoop_mono maxLen out f f' _ _ _ r (by omega) h

theorem rangesLoop_mono {p : Profile} {f f' maxLen : Nat} {out : CcOutput} (hle : f ≤ f') :
    ∀ (cs : List U8) (cStart cLast : U8) (i : Nat) (acc : Str) (r : Str × Nat),
    rangesLoop p f maxLen out cStart cLast i acc cs = .ok r →
    rangesLoop p f' maxLen out cStart cLast i acc cs = .ok r
  | [], cStart, cLast, i, acc, r, h => by
    unfold rangesLoop at h ⊢
    by_cases hl : cLast = 0xff#8
    · rw [if_pos hl] at h ⊢
      obtain ⟨d, hd, h⟩ := bind_eq_ok h
      show (describeRange p f' cStart cLast out).bind _ = _
      rw [describeRange_mono hle hd]; exact h
    · rw [if_neg hl] at h ⊢; exact h
  | c :: cs, cStart, cLast, i, acc, r, h => by
    unfold rangesLoop at h ⊢
    by_cases hl : c ≠ cLast + 1#8
    · rw [if_pos hl] at h ⊢
      obtain ⟨d, hd, h⟩ := bind_eq_ok h
      show (describeRange p f' cStart cLast out).bind _ = _
      rw [describeRange_mono hle hd]
      simp only [Outcome.bind]
      by_cases hm : i + 1 = maxLen
      · rw [if_pos hm] at h ⊢; exact h
      · rw [if_neg hm] at h ⊢
        exact rangesLoop_mono hle cs _ _ _ _ r h
    · rw [if_neg hl] at h ⊢
      exact rangesLoop_mono hle cs _ _ _ _ r h

theorem describeClassInt_mono {p : Profile} {f f' maxLen : Nat} {out : CcOutput} {cr : CharReach} {r : Str × Nat}
    (hle : f ≤ f') (h : describeClassInt p f cr maxLen out = .ok r) :
    describeClassInt p f' cr maxLen out = .ok r := by
  unfold describeClassInt at h ⊢
  cases hc : contiguousRange cr with
  | some x =>
    obtain ⟨a, b⟩ := x
    rw [hc] at h
    obtain ⟨d, hd, h⟩ := bind_eq_ok h
    show (describeRange p f' a b out).bind _ = _
    rw [describeRange_mono hle hd]; exact h
  | none =>
    rw [hc] at h
    obtain ⟨m, hm, h⟩ := bind_eq_ok h
    show (mnemonicLoop maxLen out f' cr 0 []).bind _ = _
    rw [mnemonicLoop_mono maxLen out f f' _ _ _ m hle hm]
    simp only [Outcome.bind]
    match m, h with
    | .inl s, h => exact h
    | .inr (acc, cr', i), h =>
      simp only at h ⊢
      by_cases hn : cr'.none = true
      · rw [if_pos hn] at h ⊢; exact h
      · rw [if_neg hn] at h ⊢
        cases hs : cr'.memberSeq with
        | nil => rw [hs] at h; exact h
        | cons x xs => rw [hs] at h; exact rangesLoop_mono hle xs _ _ _ _ r h

/-- A description obtained within some number of iterations is the same for any larger number. -/
theorem describeClass_mono {p : Profile} {f f' maxLen : Nat} {out : CcOutput} {cr : CharReach} {s : Str}
    (hle : f ≤ f') (h : describeClass p f cr maxLen out = .ok s) :
    describeClass p f' cr maxLen out = .ok s := by
  unfold describeClass at h ⊢
  by_cases h1 : cr.all = true
  · rw [if_pos h1] at h ⊢; exact h
  rw [if_neg h1] at h ⊢
  by_cases h2 : cr.none = true
  · rw [if_pos h2] at h ⊢; exact h
  rw [if_neg h2] at h ⊢
  by_cases h3 : cr.count = 1
  · rw [if_pos h3] at h ⊢; exact h
  rw [if_neg h3] at h ⊢
  by_cases h4 : cr.not.count = 1
  · rw [if_pos h4] at h ⊢; exact h
  rw [if_neg h4] at h ⊢
  obtain ⟨a, ha, h⟩ := bind_eq_ok h
  show (describeClassInt p f' cr maxLen out).bind _ = _
  rw [describeClassInt_mono hle ha]
  simp only [Outcome.bind]
  obtain ⟨b, hb, h⟩ := bind_eq_ok h
  show (describeClassInt p f' cr.not maxLen out).bind _ = _
  rw [describeClassInt_mono hle hb]
  exact h

/-! ## Trees of the parser -/

theorem members_head {s : U8 → Bool} {x : U8} (h : IsLeast s x) : ∃ l, members s = x :: l := by
  have hm := BitField256.mem_members s
  have hp := members_pairwise s
  have hx := (hm x).2 h.1
  cases hl : members s with
  | nil => rw [hl] at hx; cases hx
  | cons y ys =>
    have hy := h.2 y ((hm y).1 (by rw [hl]; simp))
    rw [hl] at hp hx
    rcases List.mem_cons.1 hx with rfl | hx
    · exact ⟨ys, rfl⟩
    · have := (List.pairwise_cons.1 hp).1 x hx
      rw [BitVec.lt_def] at this
      rw [BitVec.le_def] at hy
      omega

/-- The two cases of a letter are described by the upper case letter. -/
theorem describeClass_pair (p : Profile) (fuel : Nat) (hf : 4 ≤ fuel) (cr : CharReach) (u l : U8)
    (hu : isUpper u) (hl : l.toNat = u.toNat + 32) (hcr : ∀ b, cr.test b = true ↔ b = u ∨ b = l) :
    describeClass p fuel cr 256 .text = .ok (describeChar u .text) := by
  have hnat : ∀ b : U8, cr.test b = true ↔ b.toNat = u.toNat ∨ b.toNat = l.toNat := by
    intro b; rw [hcr, BitVec.toNat_inj, BitVec.toNat_inj]
  have hf' : ∀ b : U8, cr.test b = false ↔ b.toNat ≠ u.toNat ∧ b.toNat ≠ l.toNat := by
    intro b
    rw [← Bool.not_eq_true, hnat]; omega
  have hne : u ≠ l := by rw [Ne, ← BitVec.toNat_inj]; omega
  obtain ⟨hu1, hu2⟩ := hu
  have hcomp : Compound cr.test := by
    refine ⟨⟨u, l, hne, (hcr u).2 (.inl rfl), (hcr l).2 (.inr rfl)⟩,
      ⟨0#8, 1#8, by decide, (hf' _).2 ?_, (hf' _).2 ?_⟩⟩ <;> simp <;> omega
  have hs1 : ¬ EndsShort cr.test := by
    rintro ⟨a, h1, h2, h3⟩
    have := (hnat _).1 (h3.2.1 0xff#8 h3.1 (by decide))
    simp at this; omega
  have hs2 : ¬ EndsShort (fun c => !cr.test c) := by
    rintro ⟨a, h1, h2, h3⟩
    have := h3.2.2.1 (BitVec.ofNat 8 (a.toNat - 1)) (by
      rw [BitField256.ofNat_toNat8 _ (by omega)]; omega)
    simp only [Bool.not_eq_false', hnat, BitField256.ofNat_toNat8 _ (show a.toNat - 1 < 256 by omega)] at this
    omega
  obtain ⟨t, n, t', n', hb, hb', he⟩ := C71_class_text p fuel hf cr .text hcomp hs1 hs2
  have run : ∀ x : U8, cr.test x = true → IsRun cr.test x x := by
    intro x hx
    have hx' := (hnat x).1 hx
    refine ⟨BitVec.le_refl _, fun c h1 h2 => ?_, fun c h1 => (hf' c).2 ?_, fun c h1 => (hf' c).2 ?_⟩
    · rw [BitVec.le_def] at h1 h2
      have : c = x := by rw [← BitVec.toNat_inj]; omega
      rw [this]; exact hx
    · omega
    · omega
  have hruns : AreRuns cr.test [(u, u), (l, l)] := by
    refine ⟨fun a b => ?_, ?_⟩
    · simp only [List.mem_cons, Prod.mk.injEq, List.not_mem_nil, or_false]
      constructor
      · rintro (⟨rfl, rfl⟩ | ⟨rfl, rfl⟩)
        · exact run _ ((hcr _).2 (.inl rfl))
        · exact run _ ((hcr _).2 (.inr rfl))
      · rintro ⟨h1, h2, h3, h4⟩
        have hab : a = b := by
          rw [BitVec.le_def] at h1
          by_cases h5 : a.toNat = b.toNat
          · exact BitVec.toNat_inj.1 h5
          · have e := succ_toNat a (by have := b.isLt; omega)
            have h6 := (hnat _).1 (h2 (a + 1#8) (by rw [BitVec.le_def]; omega) (by rw [BitVec.le_def]; omega))
            have h7 := (hnat _).1 (h2 a (BitVec.le_refl _) (by rw [BitVec.le_def]; omega))
            omega
        subst hab
        rcases (hcr a).1 (h2 a (BitVec.le_refl _) (BitVec.le_refl _)) with h5 | h5
        · exact .inl ⟨h5, h5⟩
        · exact .inr ⟨h5, h5⟩
    · simp [BitVec.lt_def]; omega
  -- the text of the class
  have ht : t = describeChar u .text ∧ n = 1 := by
    have hno : ¬ ∃ r, AreRuns cr.test [r] := by
      rintro ⟨r, hr⟩
      have := areRuns_unique hruns hr
      cases this
    have hcov : ∀ q : U8 → Bool, ∀ x : U8, x.toNat < 60 → q x = true → covers q cr.test = false := by
      intro q x hx hq
      exact covers_false x hq ((hf' x).2 (by omega))
    have hw := hcov isWordByte 0x30#8 (by decide) (by decide)
    have hd := hcov isDigitByte 0x30#8 (by decide) (by decide)
    have hsp := hcov isSpaceByte 0x20#8 (by decide) (by decide)
    have hrest : restOf cr.test = cr.test := by
      funext c; unfold restOf; rw [hw, hd, hsp]; simp
    apply C71_text_unique cr.test .text t _ n 1 hb
    refine .inr ⟨hno, [(u, u), (l, l)], by rw [hrest]; exact hruns, ?_, ?_⟩
    · have hm : mnemonics cr.test = [] := by unfold mnemonics; rw [hw, hd, hsp]; rfl
      have hwr : writtenRuns [(u, u), (l, l)] = [(u, u)] := by
        unfold writtenRuns
        have : l ≠ 0xff#8 := by rw [Ne, ← BitVec.toNat_inj]; simp; omega
        simp [this]
      rw [hm, hwr]
      simp only [List.flatMap_nil, List.nil_append, List.flatMap_cons, List.append_nil]
      rw [runText_eq .text u u (BitVec.le_refl _)]
      unfold rangeText
      rw [Nat.sub_self, if_pos (by decide), runFrom_zero]
      simp
    · have hm : mnemonics cr.test = [] := by unfold mnemonics; rw [hw, hd, hsp]; rfl
      have hwr : writtenRuns [(u, u), (l, l)] = [(u, u)] := by
        unfold writtenRuns
        have : l ≠ 0xff#8 := by rw [Ne, ← BitVec.toNat_inj]; simp; omega
        simp [this]
      rw [hm, hwr]; rfl
  -- the text of the complement has at least two characters
  have ht' : 2 ≤ utf8Len t' := by
    rcases hb' with ⟨r, hr, _⟩ | ⟨_, rs, _, rfl, _⟩
    · exfalso
      have e1 : IsRun (fun c => !cr.test c) 0#8 (u - 1#8) := by
        have e : (u - 1#8).toNat = u.toNat - 1 := sub_toNat 1#8 u (by rw [BitVec.le_def]; simp; omega)
        refine ⟨by rw [BitVec.le_def]; simp, fun c _ h2 => ?_, fun c h1 => ?_, fun c h1 => ?_⟩
        · rw [BitVec.le_def, e] at h2
          simp only [Bool.not_eq_true', hf']
          omega
        · simp at h1
        · simp only [Bool.not_eq_false', hnat]; omega
      have e2 : IsRun (fun c => !cr.test c) (l + 1#8) 0xff#8 := by
        have e := succ_toNat l (by omega)
        refine ⟨by rw [BitVec.le_def, e]; simp; omega, fun c h1 _ => ?_, fun c h1 => ?_, fun c h1 => ?_⟩
        · rw [BitVec.le_def, e] at h1
          simp only [Bool.not_eq_true', hf']
          omega
        · simp only [Bool.not_eq_false', hnat]; omega
        · have := c.isLt; simp at h1; omega
      have m1 := (hr.1 _ _).2 e1
      have m2 := (hr.1 _ _).2 e2
      rw [List.mem_singleton] at m1 m2
      rw [← m1] at m2
      injection m2 with m2 _
      have e := succ_toNat l (by omega)
      rw [← BitVec.toNat_inj, e] at m2
      simp at m2
    · have hd : covers isDigitByte (fun c => !cr.test c) = true := by
        rw [covers_iff]
        intro c hc
        simp only [isDigitByte, decide_eq_true_eq] at hc
        simp only [Bool.not_eq_true', hf']
        omega
      have hw : covers isWordByte (fun c => !cr.test c) = false := by
        apply covers_false u
        · simp only [isWordByte, Bool.or_eq_true, decide_eq_true_eq]
          exact .inl (.inl (.inl ⟨hu1, hu2⟩))
        · simp only [Bool.not_eq_false']; exact (hcr u).2 (.inl rfl)
      have hm : ∃ ms, mnemonics (fun c => !cr.test c) = 'd' :: ms := by
        unfold mnemonics; rw [hd, hw]; exact ⟨_, rfl⟩
      obtain ⟨ms, hm⟩ := hm
      rw [hm]
      have : utf8Len ('\\' :: 'd' :: (ms.flatMap (fun m => backslash .text ++ [m]) ++
          (writtenRuns rs).flatMap (runText .text))) ≥ 2 := by
        simp only [utf8Len, List.map_cons, List.sum_cons]
        have h1 : Char.utf8Size '\\' = 1 := rfl
        have h2 : Char.utf8Size 'd' = 1 := rfl
        omega
      exact this
  obtain ⟨rfl, rfl⟩ := ht
  have hlen : utf8Len (describeChar u .text) = 1 := by
    have : ∀ c : U8, isUpper c → utf8Len (describeChar c .text) = 1 := by decide +kernel
    exact this u ⟨hu1, hu2⟩
  rw [he, if_pos (by omega), if_neg (by decide)]

/-- Every class the parser builds is described by its smallest byte. -/
theorem describeClass_lit (p : Profile) (fuel : Nat) (hf : 4 ≤ fuel) (caseless : Bool) (c : Char)
    (hc : c.toNat < 128) (a : AsciiComponentClass) (h : IsLitClass caseless c (.ascii a)) :
    DescribedAs p fuel firstByteText a.cr := by
  obtain ⟨_, ht⟩ := h
  have hcn : (BitVec.ofNat 8 c.toNat).toNat = c.toNat := BitField256.ofNat_toNat8 _ (by omega)
  unfold DescribedAs
  -- a letter and its other case
  have pair : ∀ u l : U8, isUpper u → l.toNat = u.toNat + 32 → (∀ b, a.cr.test b = true ↔ b = u ∨ b = l) →
      describeClass p fuel a.cr 256 .text = .ok (firstByteText a.cr) := by
    intro u l hu hl hb
    rw [describeClass_pair p fuel hf a.cr u l hu hl hb]
    obtain ⟨r, hr⟩ := members_head (s := a.cr.test) (x := u) ⟨(hb u).2 (.inl rfl), fun y hy => by
      rw [BitVec.le_def]
      rcases (hb y).1 hy with rfl | rfl <;> omega⟩
    unfold firstByteText; rw [hr]
  by_cases hletter : caseless = true ∧ isLetter (BitVec.ofNat 8 c.toNat)
  · obtain ⟨rfl, hl | hl⟩ := hletter
    · have hl' := hl
      obtain ⟨h1, h2⟩ := hl'
      rw [hcn] at h1 h2
      have e : (BitVec.ofNat 8 (c.toNat + 32)).toNat = c.toNat + 32 := BitField256.ofNat_toNat8 _ (by omega)
      refine pair (BitVec.ofNat 8 c.toNat) (BitVec.ofNat 8 (c.toNat + 32)) hl (by rw [e, hcn]) (fun b => ?_)
      rw [ht, ← BitVec.toNat_inj, ← BitVec.toNat_inj, e, hcn]
      unfold casePair isUpper
      rw [hcn]
      simp only [true_and]
      omega
    · obtain ⟨h1, h2⟩ := hl
      rw [hcn] at h1 h2
      have e : (BitVec.ofNat 8 (c.toNat - 32)).toNat = c.toNat - 32 := BitField256.ofNat_toNat8 _ (by omega)
      refine pair (BitVec.ofNat 8 (c.toNat - 32)) (BitVec.ofNat 8 c.toNat) ⟨by omega, by omega⟩
        (by rw [e, hcn]; omega) (fun b => ?_)
      rw [ht, ← BitVec.toNat_inj, ← BitVec.toNat_inj, e, hcn]
      unfold casePair isUpper
      rw [hcn]
      simp only [true_and]
      omega
  · have hone : ∀ b, a.cr.test b = true ↔ b = BitVec.ofNat 8 c.toNat := by
      intro b
      rw [ht, ← BitVec.toNat_inj, hcn]
      constructor
      · rintro (h | ⟨h1, h2⟩)
        · exact h
        · exfalso
          apply hletter
          refine ⟨h1, ?_⟩
          unfold casePair isUpper at h2
          unfold isLetter isUpper isLower
          omega
      · exact fun h => .inl h
    have : a.cr = CharReach.fromChar (BitVec.ofNat 8 c.toNat) := by
      apply CharReach.ext_test; intro b
      rw [CharReach.fromChar_test, Bool.eq_iff_iff, hone]; simp
    obtain ⟨r, hr⟩ := members_head (s := a.cr.test) (x := BitVec.ofNat 8 c.toNat) ⟨(hone _).2 rfl, fun y hy => by
      rw [(hone y).1 hy]; exact BitVec.le_refl _⟩
    unfold firstByteText
    rw [hr, this, describeClass_singleton]

mutual
theorem classesSat_item {P : CharReach → Prop} {cls : Char → ComponentClass}
    (h : ∀ c : Char, c.toNat < 128 → ∀ a, cls c = .ascii a → P a.cr) : ∀ (i : Item) (k : Nat), IsAscii i.print →
    ClassesSat P (i.build cls k).1
  | .lit c, k, ha => by
    rw [Item.build]
    cases hc : cls c with
    | ascii a => exact h c (ha c (by simp [Item.print])) a hc
  | .group a, k, ha => by
    rw [Item.build]
    show ClassesSatComps P _
    exact classesSat_alts h a (k + 1) (fun c hc => ha c (by simp [Item.print, hc]))
theorem classesSat_seq {P : CharReach → Prop} {cls : Char → ComponentClass}
    (h : ∀ c : Char, c.toNat < 128 → ∀ a, cls c = .ascii a → P a.cr) : ∀ (s : Seq) (k : Nat), IsAscii s.print →
    ClassesSatComps P (s.build cls k).1
  | .nil, _, _ => trivial
  | .cons i s, k, ha => by
    rw [Seq.build]
    exact ⟨classesSat_item h i k (fun c hc => ha c (by simp [Seq.print, hc])),
      classesSat_seq h s _ (fun c hc => ha c (by simp [Seq.print, hc]))⟩
theorem classesSat_alts {P : CharReach → Prop} {cls : Char → ComponentClass}
    (h : ∀ c : Char, c.toNat < 128 → ∀ a, cls c = .ascii a → P a.cr) : ∀ (a : Alts) (k : Nat), IsAscii a.print →
    ClassesSatComps P (a.build cls k).1
  | .one s, k, ha => by rw [Alts.build]; exact classesSat_seq h s k (fun c hc => ha c (by simp [Alts.print, hc]))
  | .more s a, k, ha => by
    rw [Alts.build]
    exact ⟨⟨classesSat_seq h s k (fun c hc => ha c (by simp [Alts.print, hc])),
      classesSat_branches h a _ (fun c hc => ha c (by simp [Alts.print, hc]))⟩, trivial⟩
theorem classesSat_branches {P : CharReach → Prop} {cls : Char → ComponentClass}
    (h : ∀ c : Char, c.toNat < 128 → ∀ a, cls c = .ascii a → P a.cr) : ∀ (a : Alts) (k : Nat), IsAscii a.print →
    ClassesSatSeqs P (a.branches cls k).1
  | .one s, k, ha => by
    rw [Alts.branches]
    exact ⟨classesSat_seq h s k (fun c hc => ha c (by simp [Alts.print, hc])), trivial⟩
  | .more s a, k, ha => by
    rw [Alts.branches]
    exact ⟨classesSat_seq h s k (fun c hc => ha c (by simp [Alts.print, hc])),
      classesSat_branches h a _ (fun c hc => ha c (by simp [Alts.print, hc]))⟩
end

/-- C62: dumping the tree of an accepted pattern succeeds in both profiles.  It prints one header line
per node in pre-order, indented by twice its depth, with the smallest byte below each class. -/
theorem C62_tree_dump (pr p : Profile) (fuel : Nat) (hf : 4 ≤ fuel) (ptr : Str) (mode : ParseMode)
    (c : Component) (m : ParseMode) (h : parse pr ptr mode = .ok (c, m)) :
    dumpTree p fuel c = .ok (dump firstByteText 0 c) := by
  apply C62_dump_any p fuel firstByteText c (.inr (parse_finalized h))
  obtain ⟨a, ⟨_, _, ha, rfl⟩, _⟩ := C30_parse_sound pr ptr mode c m (litClass mode.caseless)
    (fun c hc => litClass_spec mode.caseless c (by omega)) h
  show ClassesSatComps _ _
  apply classesSat_alts _ a 1 ha
  intro c hc b hb
  have := litClass_spec mode.caseless c (by omega)
  rw [hb] at this
  exact describeClass_lit p fuel hf mode.caseless c hc b this

example : (match parse .debug "(a|b)c".toList ParseMode.default with
    | .ok (c, _) => dump firstByteText 0 c
    | _ => []) = ("SEQUENCE (capture index 0)\n" ++
      "  SEQUENCE (capture index 1)\n" ++
      "    ALTERNATION\n" ++
      "      SEQUENCE (not captured)\n" ++
      "        ASCII CLASS\n" ++
      "          a\n" ++
      "      SEQUENCE (not captured)\n" ++
      "        ASCII CLASS\n" ++
      "          b\n" ++
      "  ASCII CLASS\n" ++
      "    c\n").toList := by decide +kernel

/-! ## C72: dumps and case -/

/-- C72, full statement, about a function that dumps trees: patterns whose trees differ in more than the parse
modes their classes remember, which a dump does not show, have different dumps. -/
def DumpsIdentifyOf (p : Profile) (dumpTree : Nat → Component → Res Str) : Prop :=
  ∀ (ptr ptr' : Str) (mode mode' : ParseMode) (c c' : Component) (m m' : ParseMode) (fuel : Nat) (s : Str),
    parse p ptr mode = .ok (c, m) → parse p ptr' mode' = .ok (c', m') →
    dumpTree fuel c = .ok s → dumpTree fuel c' = .ok s → withoutModes c = withoutModes c'

/-- C72, full statement. -/
def DumpsIdentify (p : Profile) : Prop := DumpsIdentifyOf p (dumpTree p)

/-- The parse mode with CASELESS. -/
def caselessMode : ParseMode := { ParseMode.default with caseless := true }

/-- C72 is false: a caseless `a` is dumped like a case sensitive `A`. -/
theorem C72_false (p : Profile) : ¬ DumpsIdentify p := by
  intro h
  have h1 : parse p "a".toList caselessMode = .ok (.sequence (.mk [.cls (litClass true 'a')] none (some 0) none),
      caselessMode) := by cases p <;> rfl
  have h2 : parse p "A".toList ParseMode.default = .ok (.sequence (.mk [.cls (litClass false 'A')] none (some 0) none),
      ParseMode.default) := by cases p <;> rfl
  have d1 := C62_tree_dump p p 4 (by decide) _ _ _ _ h1
  have d2 := C62_tree_dump p p 4 (by decide) _ _ _ _ h2
  have e : dump firstByteText 0 (.sequence (.mk [.cls (litClass true 'a')] none (some 0) none))
      = dump firstByteText 0 (.sequence (.mk [.cls (litClass false 'A')] none (some 0) none)) := by
    decide +kernel
  rw [e] at d1
  have := h _ _ _ _ _ _ _ _ 4 _ h1 h2 d1 d2
  have hc : ∀ (k : Bool) (c : Char), withoutModes (.sequence (.mk [.cls (litClass k c)] none (some 0) none)) =
      .sequence (.mk [withoutModes (.cls (litClass k c))] none (some 0) none) := by
    intro k c
    simp only [withoutModes, withoutModesSeq, withoutModesComps]
  rw [hc, hc] at this
  injection this with this
  injection this with this
  injection this with this
  cases e1 : litClass true 'a' with
  | ascii x =>
    cases e2 : litClass false 'A' with
    | ascii y =>
      rw [e1, e2, withoutModes, withoutModes] at this
      injection this with this
      injection this with this
      injection this with _ this
      have k1 := litClass_spec true 'a' (by decide)
      have k2 := litClass_spec false 'A' (by decide)
      rw [e1] at k1
      rw [e2] at k2
      rw [IsLitClass, this] at k1
      have a1 := (k1.2 0x61#8).2 (.inl rfl)
      have a2 := (k2.2 0x61#8).1 a1
      revert a2
      decide

/-- The modes the classes remember do differ between trees with the same dump: the digit of a caseless pattern and
that of a case sensitive one. -/
example : (let bytes : ComponentClass → CharReach := fun | .ascii a => a.cr
    bytes (litClass true '1') = bytes (litClass false '1')) ∧ litClass true '1' ≠ litClass false '1' := by
  decide +kernel

end Rescan
