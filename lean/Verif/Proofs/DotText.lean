import Verif.Model.DumpCharClass
import Verif.Spec.DotText
import Verif.Spec.ReadByte
/-! # DOT descriptions against text descriptions -/
namespace Rescan
open Dump Spec

namespace DotText

theorem quote_append (a b : Str) : dotQuote (a ++ b) = dotQuote a ++ dotQuote b := by
  induction a with
  | nil => rfl
  | cons c s ih => simp only [List.cons_append, dotQuote, ih, List.append_assoc]

theorem quote_utf8_le (s : Str) : s.length ≤ (dotQuote s).length := by
  induction s with
  | nil => simp [dotQuote]
  | cons c s ih =>
    simp only [dotQuote]
    split <;> simp <;> omega

theorem unquote_quote (s : Str) : unquote (dotQuote s) = s := by
  induction s with
  | nil => rfl
  | cons c s ih =>
    simp only [dotQuote]
    split
    · simp [unquote, ih]
    · rename_i h
      simp only [List.cons_append, List.nil_append]
      rw [unquote, ih]
      intro c' s' hc
      exact absurd (Or.inl hc) h

theorem beforeQuote_quote (s r : Str) : beforeQuote (dotQuote s ++ '"' :: r) = some (dotQuote s) := by
  induction s with
  | nil => simp [dotQuote, beforeQuote]
  | cons c s ih =>
    simp only [dotQuote]
    split
    · simp [beforeQuote, ih]
    · rename_i h
      have h1 : c ≠ '\\' := fun e => h (Or.inl e)
      have h2 : c ≠ '"' := fun e => h (Or.inr (Or.inl e))
      simp only [List.cons_append, List.nil_append]
      rw [beforeQuote, ih]
      · rfl
      · exact h2
      · intro e; exact absurd e h1
      · intro c' s' e; exact absurd e h1

theorem char (c : U8) : describeChar c .dot = dotQuote (describeChar c .text) := by
  revert c
  decide +kernel

theorem rangeLoop_quote (p : Profile) (c2 : U8) : ∀ (fuel : Nat) (c1 : U8),
    rangeLoop p .dot c2 fuel c1 = (rangeLoop p .text c2 fuel c1).bind (fun s => .ok (dotQuote s)) := by
  intro fuel
  induction fuel with
  | zero => intro c1; rfl
  | succ n ih =>
    intro c1
    show Outcome.bind (addChk p c1 1#8) _ = Outcome.bind (Outcome.bind (addChk p c1 1#8) _) _
    cases addChk (ε := CompileError) p c1 1#8 with
    | err e => rfl
    | panic m => rfl
    | timeout => rfl
    | ok c1' =>
      show (if c1' > c2 then _ else _) = Outcome.bind (if c1' > c2 then _ else _) _
      by_cases h : c1' > c2
      · rw [if_pos h, if_pos h, char]; rfl
      · rw [if_neg h, if_neg h]
        show Outcome.bind (rangeLoop p .dot c2 n c1') _ = Outcome.bind (Outcome.bind (rangeLoop p .text c2 n c1') _) _
        rw [ih]
        cases rangeLoop p .text c2 n c1' with
        | ok s => show Outcome.ok _ = Outcome.ok _; rw [char, quote_append]
        | err e => rfl
        | panic m => rfl
        | timeout => rfl

theorem range (p : Profile) (fuel : Nat) (c1 c2 : U8) :
    describeRange p fuel c1 c2 .dot = (describeRange p fuel c1 c2 .text).bind (fun s => .ok (dotQuote s)) := by
  unfold describeRange
  by_cases h : c1 = c2
  · rw [if_pos h, if_pos h, char]; rfl
  · rw [if_neg h, if_neg h]
    show Outcome.bind (subChk p c2 c1) _ = Outcome.bind (Outcome.bind (subChk p c2 c1) _) _
    cases subChk (ε := CompileError) p c2 c1 with
    | err e => rfl
    | panic m => rfl
    | timeout => rfl
    | ok d =>
      show (if d < 4#8 then _ else _) = Outcome.bind (if d < 4#8 then _ else _) _
      by_cases h : d < 4#8
      · rw [if_pos h, if_pos h, rangeLoop_quote]
      · rw [if_neg h, if_neg h]
        show Outcome.ok _ = Outcome.ok _
        rw [char, char, quote_append, quote_append]
        rfl

theorem mnemonic (cr : CharReach) :
    extractMnemonic cr .dot = (extractMnemonic cr .text).map (fun r => (dotQuote r.1, r.2)) := by
  unfold extractMnemonic
  split
  · rfl
  · split
    · rfl
    · split <;> rfl

/-- The quoted form of what the mnemonic loop returns. -/
def quoteLoop : Str ⊕ (Str × CharReach × Nat) → Str ⊕ (Str × CharReach × Nat)
  | .inl s => .inl (dotQuote s)
  | .inr (s, r) => .inr (dotQuote s, r)

theorem mnemonicLoop_quote (maxLen : Nat) : ∀ (fuel : Nat) (cr : CharReach) (i : Nat) (acc : Str),
    mnemonicLoop maxLen .dot fuel cr i (dotQuote acc) =
      (mnemonicLoop maxLen .text fuel cr i acc).bind (fun r => .ok (quoteLoop r)) := by
  intro fuel
  induction fuel with
  | zero => intro cr i acc; rfl
  | succ n ih =>
    intro cr i acc
    unfold mnemonicLoop
    rw [mnemonic]
    cases extractMnemonic cr .text with
    | none => rfl
    | some r =>
      obtain ⟨t, r⟩ := r
      simp only [Option.map]
      split
      · show Outcome.ok _ = Outcome.ok _
        simp only [quoteLoop, quote_append]
        rfl
      · rw [← quote_append, ih]

theorem rangesLoop_quote (p : Profile) (fuel maxLen : Nat) : ∀ (cs : List U8) (s l : U8) (i : Nat) (acc : Str),
    rangesLoop p fuel maxLen .dot s l i (dotQuote acc) cs =
      (rangesLoop p fuel maxLen .text s l i acc cs).bind (fun r => .ok (dotQuote r.1, r.2)) := by
  intro cs
  induction cs with
  | nil =>
    intro s l i acc
    unfold rangesLoop
    by_cases h : l = 0xff#8
    · rw [if_pos h, if_pos h, range]
      cases describeRange p fuel s l .text with
      | ok d => show Outcome.ok _ = Outcome.ok _; simp only [quote_append]
      | err e => rfl
      | panic m => rfl
      | timeout => rfl
    · rw [if_neg h, if_neg h]; rfl
  | cons c cs ih =>
    intro s l i acc
    unfold rangesLoop
    by_cases h : c ≠ l + 1#8
    · rw [if_pos h, if_pos h, range]
      cases describeRange p fuel s l .text with
      | err e => rfl
      | panic m => rfl
      | timeout => rfl
      | ok d =>
        show (if i + 1 = maxLen then _ else _) = Outcome.bind (if i + 1 = maxLen then _ else _) _
        by_cases h2 : i + 1 = maxLen
        · rw [if_pos h2, if_pos h2]
          show Outcome.ok _ = Outcome.ok _
          simp only [quote_append]
          rfl
        · rw [if_neg h2, if_neg h2, ← ih, quote_append]
    · rw [if_neg h, if_neg h, ih]

theorem classInt (p : Profile) (fuel : Nat) (cr : CharReach) (maxLen : Nat) :
    describeClassInt p fuel cr maxLen .dot =
      (describeClassInt p fuel cr maxLen .text).bind (fun r => .ok (dotQuote r.1, r.2)) := by
  unfold describeClassInt
  cases contiguousRange cr with
  | some r =>
    obtain ⟨a, b⟩ := r
    show Outcome.bind (describeRange p fuel a b .dot) _ = Outcome.bind (Outcome.bind (describeRange p fuel a b .text) _) _
    rw [range]
    cases describeRange p fuel a b .text <;> rfl
  | none =>
    show Outcome.bind (mnemonicLoop maxLen .dot fuel cr 0 (dotQuote [])) _ =
      Outcome.bind (Outcome.bind (mnemonicLoop maxLen .text fuel cr 0 []) _) _
    rw [mnemonicLoop_quote]
    cases mnemonicLoop maxLen .text fuel cr 0 [] with
    | err e => rfl
    | panic m => rfl
    | timeout => rfl
    | ok r =>
      cases r with
      | inl s => rfl
      | inr r =>
        obtain ⟨acc, cr, i⟩ := r
        show (if cr.none then _ else _) = Outcome.bind (if cr.none then _ else _) _
        by_cases h : cr.none = true
        · rw [if_pos h, if_pos h]; rfl
        · rw [if_neg h, if_neg h]
          cases cr.memberSeq with
          | nil => rfl
          | cons c cs => exact rangesLoop_quote p fuel maxLen cs c c i acc

end DotText
end Rescan
