import Verif.Spec.Writes
import Verif.Proofs.Tree
/-! # Printers make the same calls on every writer -/
namespace Rescan
open Spec

theorem play_append {ε σ : Type} (w : Sink ε σ) (s : σ) (l1 l2 : List Write) :
    play w s (l1 ++ l2) = (play w s l1).bind (fun s => play w s l2) := by
  induction l1 generalizing s with
  | nil => rfl
  | cons x l1 ih =>
    simp only [List.cons_append, play]
    cases perform w s x with
    | ok s' => exact ih s'
    | _ => rfl

theorem play_string {ε : Type} (t : Str) (l : List Write) :
    play (stringSink (ε := ε)) t l = .ok (t ++ text l) := by
  induction l generalizing t with
  | nil => simp [play, text]
  | cons x l ih =>
    cases x with
    | str s => exact (ih (t ++ s)).trans (by simp [text])
    | chr c => exact (ih (t ++ [c])).trans (by simp [text])

/-- A printer that also gives a value. -/
abbrev Printer (α : Type) := ∀ ε σ : Type, Sink ε σ → σ → Outcome ε (σ × α)
/-- A printer that gives no value. -/
abbrev Printer0 := ∀ ε σ : Type, Sink ε σ → σ → Outcome ε σ

/-- The printer makes the same calls on every writer, and then ends in the same way. -/
def Rep {α : Type} (f : Printer α) : Prop :=
  ∃ (ws : List Write) (fin : Outcome Empty α), ∀ (ε σ : Type) (w : Sink ε σ) (s : σ),
    f ε σ w s = (play w s ws).bind (fun s => (noErr fin).bind (fun a => .ok (s, a)))

/-- The printer makes the same calls on every writer, and then ends in the same way. -/
def Rep0 (f : Printer0) : Prop :=
  ∃ (ws : List Write) (fin : Outcome Empty Unit), ∀ (ε σ : Type) (w : Sink ε σ) (s : σ),
    f ε σ w s = (play w s ws).bind (fun s => (noErr fin).bind (fun _ => .ok s))

theorem obind_assoc {ε α β γ : Type} (x : Outcome ε α) (f : α → Outcome ε β) (g : β → Outcome ε γ) :
    (x.bind f).bind g = x.bind (fun a => (f a).bind g) := by cases x <;> rfl

theorem rep_bind {α β : Type} {f : Printer α} {g : α → Printer β} (hf : Rep f) (hg : ∀ a, Rep (g a)) :
    Rep (fun ε σ w s => (f ε σ w s).bind (fun x => g x.2 ε σ w x.1)) := by
  obtain ⟨ws, fin, h⟩ := hf
  cases fin with
  | ok a =>
    obtain ⟨ws', fin', h'⟩ := hg a
    refine ⟨ws ++ ws', fin', fun ε σ w s => ?_⟩
    simp only [h, play_append, obind_assoc]
    congr 1; funext s
    exact h' ε σ w s
  | err e => nomatch e
  | panic m =>
    refine ⟨ws, .panic m, fun ε σ w s => ?_⟩
    simp only [h, obind_assoc]; rfl
  | timeout =>
    refine ⟨ws, .timeout, fun ε σ w s => ?_⟩
    simp only [h, obind_assoc]; rfl

theorem rep_bind0 {α : Type} {f : Printer α} {g : α → Printer0} (hf : Rep f) (hg : ∀ a, Rep0 (g a)) :
    Rep0 (fun ε σ w s => (f ε σ w s).bind (fun x => g x.2 ε σ w x.1)) := by
  obtain ⟨ws, fin, h⟩ := hf
  cases fin with
  | ok a =>
    obtain ⟨ws', fin', h'⟩ := hg a
    refine ⟨ws ++ ws', fin', fun ε σ w s => ?_⟩
    simp only [h, play_append, obind_assoc]
    congr 1; funext s
    exact h' ε σ w s
  | err e => nomatch e
  | panic m =>
    refine ⟨ws, .panic m, fun ε σ w s => ?_⟩
    simp only [h, obind_assoc]; rfl
  | timeout =>
    refine ⟨ws, .timeout, fun ε σ w s => ?_⟩
    simp only [h, obind_assoc]; rfl

theorem rep0_bind {β : Type} {f : Printer0} {g : Printer β} (hf : Rep0 f) (hg : Rep g) :
    Rep (fun ε σ w s => (f ε σ w s).bind (fun x => g ε σ w x)) := by
  obtain ⟨ws, fin, h⟩ := hf
  cases fin with
  | ok a =>
    obtain ⟨ws', fin', h'⟩ := hg
    refine ⟨ws ++ ws', fin', fun ε σ w s => ?_⟩
    simp only [h, play_append, obind_assoc]
    congr 1; funext s
    exact h' ε σ w s
  | err e => nomatch e
  | panic m =>
    refine ⟨ws, .panic m, fun ε σ w s => ?_⟩
    simp only [h, obind_assoc]; rfl
  | timeout =>
    refine ⟨ws, .timeout, fun ε σ w s => ?_⟩
    simp only [h, obind_assoc]; rfl

theorem rep0_bind0 {f : Printer0} {g : Printer0} (hf : Rep0 f) (hg : Rep0 g) :
    Rep0 (fun ε σ w s => (f ε σ w s).bind (fun x => g ε σ w x)) := by
  obtain ⟨ws, fin, h⟩ := hf
  cases fin with
  | ok a =>
    obtain ⟨ws', fin', h'⟩ := hg
    refine ⟨ws ++ ws', fin', fun ε σ w s => ?_⟩
    simp only [h, play_append, obind_assoc]
    congr 1; funext s
    exact h' ε σ w s
  | err e => nomatch e
  | panic m =>
    refine ⟨ws, .panic m, fun ε σ w s => ?_⟩
    simp only [h, obind_assoc]; rfl
  | timeout =>
    refine ⟨ws, .timeout, fun ε σ w s => ?_⟩
    simp only [h, obind_assoc]; rfl

theorem rep_ret {α : Type} (a : α) : Rep (fun _ _ _ s => .ok (s, a)) := ⟨[], .ok a, fun _ _ _ _ => rfl⟩
theorem rep0_ret : Rep0 (fun _ _ _ s => .ok s) := ⟨[], .ok (), fun _ _ _ _ => rfl⟩
theorem rep_timeout {α : Type} : Rep (α := α) (fun _ _ _ _ => .timeout) := ⟨[], .timeout, fun _ _ _ _ => rfl⟩
theorem rep0_timeout : Rep0 (fun _ _ _ _ => .timeout) := ⟨[], .timeout, fun _ _ _ _ => rfl⟩

theorem rep0_str (t : Str) : Rep0 (fun _ _ w s => w.writeStr s t) := by
  refine ⟨[.str t], .ok (), fun ε σ w s => ?_⟩
  simp only [play, perform]; cases w.writeStr s t <;> rfl
theorem rep0_chr (c : Char) : Rep0 (fun _ _ w s => w.writeChar s c) := by
  refine ⟨[.chr c], .ok (), fun ε σ w s => ?_⟩
  simp only [play, perform]; cases w.writeChar s c <;> rfl

/-- A step that does not touch the writer. -/
theorem rep_step {α β : Type} {x : ∀ ε : Type, Outcome ε β} {g : β → Printer α}
    (hx : ∀ ε, x ε = noErr (x Empty)) (hg : ∀ b, Rep (g b)) :
    Rep (fun ε σ w s => (x ε).bind (fun b => g b ε σ w s)) := by
  cases h : x Empty with
  | ok b =>
    have : (fun ε σ w s => (x ε).bind (fun b => g b ε σ w s)) = g b := by
      funext ε σ w s; rw [hx, h]; rfl
    rw [this]; exact hg b
  | err e => nomatch e
  | panic m => exact ⟨[], .panic m, fun ε σ w s => by show (x ε).bind _ = _; rw [hx, h]; rfl⟩
  | timeout => exact ⟨[], .timeout, fun ε σ w s => by show (x ε).bind _ = _; rw [hx, h]; rfl⟩

/-- A step that does not touch the writer. -/
theorem rep0_step {β : Type} {x : ∀ ε : Type, Outcome ε β} {g : β → Printer0}
    (hx : ∀ ε, x ε = noErr (x Empty)) (hg : ∀ b, Rep0 (g b)) :
    Rep0 (fun ε σ w s => (x ε).bind (fun b => g b ε σ w s)) := by
  cases h : x Empty with
  | ok b =>
    have : (fun ε σ w s => (x ε).bind (fun b => g b ε σ w s)) = g b := by
      funext ε σ w s; rw [hx, h]; rfl
    rw [this]; exact hg b
  | err e => nomatch e
  | panic m => exact ⟨[], .panic m, fun ε σ w s => by show (x ε).bind _ = _; rw [hx, h]; rfl⟩
  | timeout => exact ⟨[], .timeout, fun ε σ w s => by show (x ε).bind _ = _; rw [hx, h]; rfl⟩

theorem rep_ite {α : Type} {c : Prop} [Decidable c] {f g : Printer α} (hf : Rep f) (hg : Rep g) :
    Rep (fun ε σ w s => if c then f ε σ w s else g ε σ w s) := by
  by_cases h : c
  · simp only [if_pos h]; exact hf
  · simp only [if_neg h]; exact hg

theorem rep0_ite {c : Prop} [Decidable c] {f g : Printer0} (hf : Rep0 f) (hg : Rep0 g) :
    Rep0 (fun ε σ w s => if c then f ε σ w s else g ε σ w s) := by
  by_cases h : c
  · simp only [if_pos h]; exact hf
  · simp only [if_neg h]; exact hg

theorem addChk_noErr {w : Nat} (p : Profile) (a b : BitVec w) (ε : Type) :
    addChk (ε := ε) p a b = noErr (addChk p a b) := by unfold addChk; split <;> rfl
theorem subChk_noErr {w : Nat} (p : Profile) (a b : BitVec w) (ε : Type) :
    subChk (ε := ε) p a b = noErr (subChk p a b) := by unfold subChk; split <;> rfl
theorem usizeSub_noErr (p : Profile) (a b : Nat) (ε : Type) :
    Context.usizeSub (ε := ε) p a b = noErr (Context.usizeSub p a b) := by
  unfold Context.usizeSub
  by_cases h : b ≤ a
  · simp only [if_pos h]; rfl
  · simp only [if_neg h]; split <;> rfl
theorem rdebugAssert_noErr (p : Profile) (b : Bool) (m : String) (ε : Type) :
    rdebugAssert (ε := ε) p b m = noErr (rdebugAssert p b m) := by unfold rdebugAssert; split <;> rfl
theorem expect_noErr {α : Type} (o : Option α) (m : String) (ε : Type) :
    Outcome.expect (ε := ε) o m = noErr (Outcome.expect o m) := by cases o <;> rfl

namespace Dump

theorem rep_describeChar (c : U8) (out : CcOutput) : Rep0 (fun _ _ w s => describeCharTo w s c out) := by
  unfold describeCharTo
  refine rep0_ite (rep0_ite (rep0_bind0 (rep0_str _) (rep0_chr _)) (rep0_ite
    (rep0_bind0 (rep0_chr _) (rep0_chr _)) (rep0_chr _))) (rep0_ite
    (rep0_bind0 (rep0_str _) (rep0_chr _)) (rep0_ite (rep0_bind0 (rep0_str _) (rep0_chr _)) (rep0_ite
    (rep0_bind0 (rep0_str _) (rep0_chr _)) (rep0_str _))))

theorem rep_rangeLoop (p : Profile) (out : CcOutput) (c2 : U8) : ∀ (fuel : Nat) (c1 : U8),
    Rep0 (fun _ _ w s => rangeLoopTo p w out c2 fuel s c1)
  | 0, _ => rep0_timeout
  | fuel + 1, c1 => by
    unfold rangeLoopTo
    exact rep0_bind0 (rep_describeChar c1 out) (rep0_step (addChk_noErr p c1 1#8) (fun c1' =>
      rep0_ite rep0_ret (rep_rangeLoop p out c2 fuel c1')))

theorem rep_describeRange (p : Profile) (fuel : Nat) (c1 c2 : U8) (out : CcOutput) :
    Rep0 (fun _ _ w s => describeRangeTo p fuel w s c1 c2 out) := by
  unfold describeRangeTo
  exact rep0_ite (rep_describeChar c1 out) (rep0_step (subChk_noErr p c2 c1) (fun d =>
    rep0_ite (rep_rangeLoop p out c2 fuel c1) (rep0_bind0 (rep_describeChar c1 out)
      (rep0_bind0 (rep0_chr _) (rep_describeChar c2 out)))))

theorem rep_extractMnemonic (cr : CharReach) (out : CcOutput) :
    Rep (fun _ _ w s => extractMnemonicTo w s cr out) := by
  unfold extractMnemonicTo
  exact rep_ite (rep0_bind (rep0_str _) (rep0_bind (rep0_chr _) (rep_ret _)))
    (rep_ite (rep0_bind (rep0_str _) (rep0_bind (rep0_chr _) (rep_ret _)))
    (rep_ite (rep0_bind (rep0_str _) (rep0_bind (rep0_chr _) (rep_ret _))) (rep_ret _)))

theorem rep_mnemonicLoop (maxLen : Nat) (out : CcOutput) : ∀ (fuel : Nat) (cr : CharReach) (i : Nat),
    Rep (fun _ _ w s => mnemonicLoopTo w maxLen out fuel s cr i)
  | 0, _, _ => rep_timeout
  | fuel + 1, cr, i => by
    unfold mnemonicLoopTo
    refine rep_bind (g := fun r _ _ w f => match r with
      | none => .ok (f, some (cr, i))
      | some remaining =>
        if i + 1 = maxLen then (w.writeStr f "...]".toList).bind (fun f => .ok (f, none))
        else mnemonicLoopTo w maxLen out fuel f remaining (i + 1))
      (rep_extractMnemonic cr out) (fun r => ?_)
    cases r with
    | none => exact rep_ret _
    | some remaining =>
      exact rep_ite (rep0_bind (rep0_str _) (rep_ret _)) (rep_mnemonicLoop maxLen out fuel remaining (i + 1))

theorem rep_rangesLoop (p : Profile) (fuel maxLen : Nat) (out : CcOutput) : ∀ (l : List U8)
    (cStart cLast : U8) (i : Nat),
    Rep (fun _ _ w s => rangesLoopTo p fuel w maxLen out s cStart cLast i l)
  | [], cStart, cLast, i => by
    unfold rangesLoopTo
    exact rep_ite (rep0_bind (rep_describeRange p fuel cStart cLast out) (rep_ret _)) (rep_ret _)
  | c :: cs, cStart, cLast, i => by
    unfold rangesLoopTo
    exact rep_ite (rep0_bind (rep_describeRange p fuel cStart cLast out)
      (rep_ite (rep0_bind (rep0_str _) (rep_ret _)) (rep_rangesLoop p fuel maxLen out cs c c (i + 1))))
      (rep_rangesLoop p fuel maxLen out cs cStart c i)

theorem rep_describeClassInt (p : Profile) (fuel : Nat) (incr : CharReach) (maxLen : Nat) (out : CcOutput) :
    Rep (fun _ _ w s => describeClassIntTo p fuel w s incr maxLen out) := by
  unfold describeClassIntTo
  cases contiguousRange incr with
  | some r => exact rep0_bind (rep_describeRange p fuel r.1 r.2 out) (rep_ret _)
  | none =>
    refine rep_bind (g := fun r _ _ w f => match r with
      | none => .ok (f, maxLen)
      | some (cr, i) =>
        if cr.none then .ok (f, i)
        else
          match cr.memberSeq with
          | [] => .ok (f, i)
          | cStart :: rest => rangesLoopTo p fuel w maxLen out f cStart cStart i rest)
      (rep_mnemonicLoop maxLen out fuel incr 0) (fun r => ?_)
    cases r with
    | none => exact rep_ret _
    | some x =>
      refine rep_ite (rep_ret _) ?_
      cases x.1.memberSeq with
      | nil => exact rep_ret _
      | cons cStart rest => exact rep_rangesLoop p fuel maxLen out rest cStart cStart x.2

theorem string_noErr {α : Type} {f : Printer α} (hf : Rep f) (t : Str) (ε : Type) :
    f ε Str stringSink t = noErr (f Empty Str stringSink t) := by
  obtain ⟨ws, fin, h⟩ := hf
  rw [h, h, play_string, play_string]
  cases fin with
  | err e => nomatch e
  | _ => rfl

theorem rep_describeClass (p : Profile) (fuel : Nat) (incr : CharReach) (maxLen : Nat) (out : CcOutput) :
    Rep0 (fun _ _ w s => describeClassTo p fuel w s incr maxLen out) := by
  unfold describeClassTo
  refine rep0_ite (rep0_str _) (rep0_ite (rep0_str _) (rep0_ite
    (rep0_step (expect_noErr _ _) (fun c => rep_describeChar c out)) (rep0_ite
    (rep0_bind0 (rep0_str _) (rep0_step (expect_noErr _ _) (fun c =>
      rep0_bind0 (rep_describeChar c out) (rep0_chr _)))) ?_)))
  refine rep0_step (x := fun ε => describeClassIntTo (ε := ε) p fuel stringSink [] incr maxLen out)
    (string_noErr (rep_describeClassInt p fuel incr maxLen out) []) (fun o => ?_)
  refine rep0_step (x := fun ε => describeClassIntTo (ε := ε) p fuel stringSink [] incr.not maxLen out)
    (string_noErr (rep_describeClassInt p fuel incr.not maxLen out) []) (fun neg => ?_)
  exact rep0_ite (rep0_ite (rep0_bind0 (rep0_chr _) (rep0_bind0 (rep0_str _) (rep0_chr _))) (rep0_str _))
    (rep0_str _)

theorem rep_outdent (p : Profile) (l : Nat) : Rep (fun ε σ _ s => outdentTo (ε := ε) (σ := σ) p (s, l)) := by
  exact rep_step (rdebugAssert_noErr p (decide (l > 0)) "assertion failed: self.level > 0") (fun _ =>
    rep_step (usizeSub_noErr p l 1) (fun l' => rep_ret l'))

theorem rep_preClass (p : Profile) (fuel l : Nat) (c : AsciiComponentClass) :
    Rep (fun _ _ w s => preClassTo p fuel w (s, l) c) := by
  exact rep0_bind (rep0_str (fillerAt l ++ "ASCII CLASS\n".toList ++ fillerAt l ++ "  ".toList))
    (rep0_bind (rep_describeClass p fuel c.cr 256 .text) (rep0_bind (rep0_chr '\n') (rep_ret (l + 1))))

theorem rep_preAlt (l : Nat) (c : ComponentAlternation) : Rep (fun _ _ w s => preAltTo w (s, l) c) := by
  exact rep0_bind (rep0_str (fillerAt l ++ "ALTERNATION\n".toList)) (rep_ret (l + 1))

theorem rep_preSeq (l : Nat) (c : ComponentSequence) : Rep (fun _ _ w s => preSeqTo w (s, l) c) := by
  have tail : Rep (fun _ _ w f => if c.children.isEmpty then
      (w.writeStr f (fillerAt (l + 1) ++ " <empty>\n".toList)).bind (fun f => .ok (f, l + 1))
      else .ok (f, l + 1)) := rep_ite (rep0_bind (rep0_str _) (rep_ret _)) (rep_ret _)
  have head := rep0_str (fillerAt l ++ "SEQUENCE".toList)
  unfold preSeqTo
  cases c.captureIndex with
  | none =>
    have index := rep0_bind0 head (rep0_str " (not captured)".toList)
    cases c.captureName with
    | none =>
      exact cast (congrArg Rep (by funext _ _ w s; simp only [obind_assoc]; rfl))
        (rep0_bind (rep0_bind0 index (rep0_chr '\n')) tail)
    | some name =>
      exact cast (congrArg Rep (by funext _ _ w s; simp only [obind_assoc]; rfl))
        (rep0_bind (rep0_bind0 index (rep0_str (" (capture name '" ++ name ++ "')\n").toList)) tail)
  | some index =>
    have index := rep0_bind0 head (rep0_str (" (capture index " ++ toString index ++ ")").toList)
    cases c.captureName with
    | none =>
      exact cast (congrArg Rep (by funext _ _ w s; simp only [obind_assoc]; rfl))
        (rep0_bind (rep0_bind0 index (rep0_chr '\n')) tail)
    | some name =>
      exact cast (congrArg Rep (by funext _ _ w s; simp only [obind_assoc]; rfl))
        (rep0_bind (rep0_bind0 index (rep0_str (" (capture name '" ++ name ++ "')\n").toList)) tail)

theorem rep_call (p : Profile) (fuel l : Nat) (e : Event) :
    Rep (fun _ _ w s => call (dumpVisitorTo p fuel w) (s, l) e) := by
  cases e with
  | preClass c => exact rep_preClass p fuel l c
  | preAlt c => exact rep_preAlt l c
  | preSeq c => exact rep_preSeq l c
  | duringClass c => exact rep_ret _
  | duringAlt c => exact rep_ret _
  | duringSeq c => exact rep_ret _
  | postClass c => exact rep_outdent p l
  | postAlt c => exact rep_outdent p l
  | postSeq c => exact rep_outdent p l

theorem rep_callAll (p : Profile) (fuel : Nat) : ∀ (es : List Event) (l : Nat),
    Rep (fun _ _ w s => callAll (dumpVisitorTo p fuel w) (s, l) es)
  | [], l => rep_ret l
  | e :: es, l => by
    simp only [callAll_cons]
    exact rep_bind (rep_call p fuel l e) (fun l' => rep_callAll p fuel es l')

theorem rep_dumpTree (p : Profile) (fuel : Nat) (root : Component) (h : CheckOk p (Finalized root)) :
    Rep0 (fun _ _ w s => dumpTreeTo p fuel w s root) := by
  unfold dumpTreeTo
  simp only [walkComponent_steps p _ root _ h]
  exact rep_bind0 (rep_callAll p fuel (steps root) 0) (fun _ => rep0_ret)

/-! ## On a `String` the printers print the description -/

theorem describeChar_string {ε : Type} (t : Str) (c : U8) (out : CcOutput) :
    describeCharTo (ε := ε) stringSink t c out = .ok (t ++ describeChar c out) := by
  unfold describeCharTo describeChar
  split
  · split
    · show Outcome.ok _ = _; simp
    · split
      · show Outcome.ok _ = _; simp
      · rfl
  · split
    · show Outcome.ok _ = _; simp
    · split
      · show Outcome.ok _ = _; simp
      · split
        · show Outcome.ok _ = _; simp
        · rfl

theorem rangeLoop_string (p : Profile) (out : CcOutput) (c2 : U8) : ∀ (fuel : Nat) (t : Str) (c1 : U8),
    rangeLoopTo p stringSink out c2 fuel t c1 = (rangeLoop p out c2 fuel c1).bind (fun d => .ok (t ++ d))
  | 0, _, _ => rfl
  | fuel + 1, t, c1 => by
    unfold rangeLoopTo rangeLoop
    rw [describeChar_string]
    show (addChk p c1 1#8).bind _ = ((addChk p c1 1#8).bind _).bind _
    rw [obind_assoc]
    congr 1; funext c1'
    split
    · rfl
    · rw [rangeLoop_string p out c2 fuel]
      show _ = ((rangeLoop p out c2 fuel c1').bind _).bind _
      rw [obind_assoc]
      congr 1; funext d
      show Outcome.ok _ = Outcome.ok _
      simp

theorem describeRange_string (p : Profile) (fuel : Nat) (t : Str) (c1 c2 : U8) (out : CcOutput) :
    describeRangeTo p fuel stringSink t c1 c2 out =
      (describeRange p fuel c1 c2 out).bind (fun d => .ok (t ++ d)) := by
  unfold describeRangeTo describeRange
  split
  · exact describeChar_string t c1 out
  · show (subChk p c2 c1).bind _ = ((subChk p c2 c1).bind _).bind _
    rw [obind_assoc]
    congr 1; funext d
    split
    · exact rangeLoop_string p out c2 fuel t c1
    · rw [describeChar_string]
      show describeCharTo stringSink _ c2 out = _
      rw [describeChar_string]
      show Outcome.ok _ = Outcome.ok _
      simp

theorem extractMnemonic_string {ε : Type} (t : Str) (cr : CharReach) (out : CcOutput) :
    extractMnemonicTo (ε := ε) stringSink t cr out = (match extractMnemonic cr out with
      | none => .ok (t, none)
      | some (txt, remaining) => .ok (t ++ txt, some remaining)) := by
  unfold extractMnemonicTo extractMnemonic
  split
  · show Outcome.ok _ = Outcome.ok _; simp
  · split
    · show Outcome.ok _ = Outcome.ok _; simp
    · split
      · show Outcome.ok _ = Outcome.ok _; simp
      · rfl

theorem mnemonicLoop_string (maxLen : Nat) (out : CcOutput) : ∀ (fuel : Nat) (t : Str) (cr : CharReach)
    (i : Nat) (acc : Str), mnemonicLoopTo stringSink maxLen out fuel (t ++ acc) cr i =
      (mnemonicLoop maxLen out fuel cr i acc).bind (fun r => match r with
        | .inl s => .ok (t ++ s, none)
        | .inr (acc, cr, i) => .ok (t ++ acc, some (cr, i)))
  | 0, _, _, _, _ => rfl
  | fuel + 1, t, cr, i, acc => by
    unfold mnemonicLoopTo mnemonicLoop
    rw [extractMnemonic_string]
    cases extractMnemonic cr out with
    | none => rfl
    | some r =>
      obtain ⟨txt, remaining⟩ := r
      dsimp only
      by_cases h : i + 1 = maxLen
      · rw [if_pos h]
        show (if i + 1 = maxLen then _ else _) = _
        rw [if_pos h]
        show Outcome.ok _ = Outcome.ok _
        simp
      · rw [if_neg h]
        show (if i + 1 = maxLen then _ else _) = _
        rw [if_neg h, List.append_assoc]
        exact mnemonicLoop_string maxLen out fuel t remaining (i + 1) (acc ++ txt)

theorem rangesLoop_string (p : Profile) (fuel maxLen : Nat) (out : CcOutput) : ∀ (l : List U8) (t : Str)
    (cStart cLast : U8) (i : Nat) (acc : Str),
    rangesLoopTo p fuel stringSink maxLen out (t ++ acc) cStart cLast i l =
      (rangesLoop p fuel maxLen out cStart cLast i acc l).bind (fun r => .ok (t ++ r.1, r.2))
  | [], t, cStart, cLast, i, acc => by
    unfold rangesLoopTo rangesLoop
    split
    · rw [describeRange_string]
      show (Outcome.bind _ _).bind _ = (Outcome.bind _ _).bind _
      rw [obind_assoc, obind_assoc]
      congr 1; funext d
      show Outcome.ok _ = Outcome.ok _
      simp
    · rfl
  | c :: cs, t, cStart, cLast, i, acc => by
    unfold rangesLoopTo rangesLoop
    split
    · rw [describeRange_string]
      show (Outcome.bind _ _).bind _ = (Outcome.bind _ _).bind _
      rw [obind_assoc, obind_assoc]
      congr 1; funext d
      show (if i + 1 = maxLen then _ else _) = _
      by_cases h : i + 1 = maxLen
      · rw [if_pos h, if_pos h]
        show Outcome.ok _ = Outcome.ok _
        simp
      · rw [if_neg h, if_neg h, List.append_assoc]
        exact rangesLoop_string p fuel maxLen out cs t c c (i + 1) (acc ++ d)
    · exact rangesLoop_string p fuel maxLen out cs t cStart c i acc

theorem describeClassInt_string (p : Profile) (fuel : Nat) (t : Str) (incr : CharReach) (maxLen : Nat)
    (out : CcOutput) : describeClassIntTo p fuel stringSink t incr maxLen out =
      (describeClassInt p fuel incr maxLen out).bind (fun r => .ok (t ++ r.1, r.2)) := by
  unfold describeClassIntTo describeClassInt
  cases contiguousRange incr with
  | some r =>
    dsimp only
    rw [describeRange_string]
    show (Outcome.bind _ _).bind _ = (Outcome.bind _ _).bind _
    rw [obind_assoc, obind_assoc]
    rfl
  | none =>
    dsimp only
    have h := mnemonicLoop_string maxLen out fuel t incr 0 []
    rw [List.append_nil] at h
    rw [h]
    show (Outcome.bind _ _).bind _ = (Outcome.bind _ _).bind _
    rw [obind_assoc, obind_assoc]
    congr 1; funext r
    cases r with
    | inl s => rfl
    | inr x =>
      obtain ⟨acc, cr, i⟩ := x
      show (if cr.none = true then _ else _) = Outcome.bind (if cr.none = true then _ else _) _
      cases hn : cr.none with
      | true => rfl
      | false =>
        simp only [Bool.false_eq_true, if_false]
        cases cr.memberSeq with
        | nil => rfl
        | cons cStart rest => exact rangesLoop_string p fuel maxLen out rest t cStart cStart i acc

theorem describeClass_string (p : Profile) (fuel : Nat) (t : Str) (incr : CharReach) (maxLen : Nat)
    (out : CcOutput) : describeClassTo p fuel stringSink t incr maxLen out =
      (describeClass p fuel incr maxLen out).bind (fun d => .ok (t ++ d)) := by
  unfold describeClassTo describeClass
  split
  · rfl
  split
  · rfl
  split
  · cases incr.findFirst with
    | none => rfl
    | some c => exact describeChar_string t c out
  split
  · cases incr.not.findFirst with
    | none => rfl
    | some c =>
      show (describeCharTo stringSink _ c out).bind _ = _
      rw [describeChar_string]
      show Outcome.ok _ = Outcome.ok _
      simp
  · rw [describeClassInt_string, describeClassInt_string]
    show (Outcome.bind _ _).bind _ = (Outcome.bind _ _).bind _
    rw [obind_assoc, obind_assoc]
    congr 1; funext r
    show (Outcome.bind _ _).bind _ = (Outcome.bind _ _).bind _
    rw [obind_assoc, obind_assoc]
    congr 1; funext n
    show (if utf8Len r.1 ≤ utf8Len n.1 then _ else _) = Outcome.bind (if utf8Len r.1 ≤ utf8Len n.1 then _ else _) _
    split
    · show (if r.2 > 1 then _ else _) = Outcome.bind (if r.2 > 1 then _ else _) _
      split
      · show Outcome.ok _ = Outcome.ok _
        simp
      · rfl
    · rfl

/-- The state of the dump visitor, as the pair used for general writers. -/
def pair (s : DumpState) : Str × Nat := (s.out, s.level)

theorem call_string (p : Profile) (fuel : Nat) (s : DumpState) (e : Event) :
    call (dumpVisitorTo p fuel stringSink) (pair s) e =
      (call (dumpVisitor p fuel) s e).bind (fun s => .ok (pair s)) := by
  have hout : outdentTo p (pair s) = (outdent p s).bind (fun s => .ok (pair s)) := by
    unfold outdentTo outdent
    show Outcome.bind (rdebugAssert p (decide (s.level > 0)) _) _ =
      (Outcome.bind (rdebugAssert p (decide (s.level > 0)) _) _).bind _
    rw [obind_assoc]
    congr 1; funext _
    show Outcome.bind _ _ = (Outcome.bind _ _).bind _
    rw [obind_assoc]; rfl
  cases e with
  | preClass c =>
    show preClassTo p fuel stringSink (pair s) c = (preClass p fuel s c).bind _
    unfold preClassTo preClass
    show (describeClassTo p fuel stringSink _ c.cr 256 .text).bind _ = (Outcome.bind _ _).bind _
    rw [describeClass_string, obind_assoc, obind_assoc]
    congr 1; funext d
    show Outcome.ok _ = Outcome.ok _
    simp [pair, fillerAt, filler]
  | preAlt c =>
    show Outcome.ok _ = Outcome.ok _
    simp [pair, fillerAt, filler]
  | preSeq c =>
    show preSeqTo stringSink (pair s) c = (preSeq s c).bind _
    unfold preSeqTo preSeq
    cases c.captureIndex <;> cases c.captureName <;>
    · cases he : c.children.isEmpty
      · show Outcome.ok _ = Outcome.ok _
        simp [pair, fillerAt, filler]
      · show Outcome.ok _ = Outcome.ok _
        simp [pair, fillerAt, filler]
  | duringClass c => rfl
  | duringAlt c => rfl
  | duringSeq c => rfl
  | postClass c => exact hout
  | postAlt c => exact hout
  | postSeq c => exact hout

theorem callAll_string (p : Profile) (fuel : Nat) : ∀ (es : List Event) (s : DumpState),
    callAll (dumpVisitorTo p fuel stringSink) (pair s) es =
      (callAll (dumpVisitor p fuel) s es).bind (fun s => .ok (pair s))
  | [], _ => rfl
  | e :: es, s => by
    rw [callAll_cons, callAll_cons, call_string]
    show (Outcome.bind _ _).bind _ = (Outcome.bind _ _).bind _
    rw [obind_assoc, obind_assoc]
    congr 1; funext s'
    exact callAll_string p fuel es s'

theorem dumpTree_string (p : Profile) (fuel : Nat) (root : Component) (h : CheckOk p (Finalized root)) :
    dumpTreeTo p fuel stringSink [] root = dumpTree p fuel root := by
  unfold dumpTreeTo dumpTree
  rw [walkComponent_steps p _ root _ h, walkComponent_steps p _ root _ h]
  show (callAll (dumpVisitorTo p fuel stringSink) (pair ⟨[], 0⟩) (steps root)).bind _ = _
  rw [callAll_string, obind_assoc]; rfl

end Dump
end Rescan
