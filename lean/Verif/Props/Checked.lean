import Verif.Proofs.Checked
/-! # C84: no hidden overflow, out-of-range index or endless loop -/
namespace Rescan
open Checked

/-- C84: case conversion never overflows. -/
theorem C84_case {ε : Type} (p : Profile) (c : U8) :
    Checked.mytolower (ε := ε) p c = .ok (Rescan.mytolower c) ∧
    Checked.mytoupper (ε := ε) p c = .ok (Rescan.mytoupper c) ∧
    Checked.ourisalpha (ε := ε) p c = .ok (Rescan.ourisalpha c) :=
  ⟨mytolower_eq p c, mytoupper_eq p c, ourisalpha_eq p c⟩

/-- C84: the operations on byte sets never overflow, shift too far or index out of range. -/
theorem C84_bitfield {ε : Type} (p : Profile) (b : BitField256) (n : U8) :
    Checked.test (ε := ε) p b n = .ok (b.test n) ∧
    Checked.set (ε := ε) p b n = .ok (b.set n).bits.toList ∧
    Checked.count (ε := ε) p b = .ok (BitVec.ofNat 32 b.count) ∧ b.count < 2 ^ 32 ∧
    Checked.findFirst (ε := ε) p b = .ok b.findFirst ∧
    Checked.findLast (ε := ε) p b = .ok b.findLast ∧
    Checked.findNext (ε := ε) p b n = .ok (b.findNext n) := by
  refine ⟨test_eq p b n, set_eq p b n, count_eq p b, ?_, findFirst_eq p b, findLast_eq p b, findNext_eq p b n⟩
  have h0 := countOnes_le b.bits[0]
  have h1 := countOnes_le b.bits[1]
  have h2 := countOnes_le b.bits[2]
  have h3 := countOnes_le b.bits[3]
  unfold BitField256.count
  omega

/-- C84: the loops over the members of a class test their condition at most 257 times, and give the
results of the list functions (`fill_bitvector` with the panics of its shifts, C16). -/
theorem C84_charreach (p : Profile) (fuel : Nat) (hf : 257 ≤ fuel) (cr : CharReach) (bits : List U8) :
    Checked.isAlphabetic (ε := CompileError) p fuel cr = .ok cr.isAlphabetic ∧
    Checked.isBit5Insensitive (ε := CompileError) p fuel cr = .ok cr.isBit5Insensitive ∧
    Checked.display (ε := CompileError) p fuel cr = .ok cr.display ∧
    Checked.fillBitvector p fuel cr bits = cr.fillBitvector p bits ∧
    Checked.makeAndCmpMask (ε := CompileError) p fuel cr = .ok cr.makeAndCmpMask := by
  have hc := chain_members cr
  have hl : cr.memberSeq.length < fuel := Nat.lt_of_le_of_lt (memberSeq_length cr) hf
  refine ⟨?_, ?_, ?_, ?_, ?_⟩
  · unfold Checked.isAlphabetic CharReach.isAlphabetic
    split
    · rfl
    · rw [findFirst_eq]
      exact alphaLoop_eq p cr.bits _ _ fuel hc hl
  · unfold Checked.isBit5Insensitive CharReach.isBit5Insensitive
    rw [findFirst_eq]
    exact bit5Loop_eq p cr.bits _ _ fuel hc hl
  · unfold Checked.display CharReach.display
    rw [findFirst_eq]
    exact displayLoop_eq p cr.bits _ _ fuel [] hc hl
  · unfold Checked.fillBitvector CharReach.fillBitvector
    split
    · rfl
    · next hb =>
      rw [findFirst_eq]
      show fillLoop p cr.bits fuel _ _ = _
      rw [fillLoop_eq p cr.bits _ _ fuel _ hc hl (by simp; omega)]
      congr 2
      apply List.ext_getElem
      · simp; omega
      · intro i h1 h2
        rw [List.getElem_replicate, List.getElem_map]
  · unfold Checked.makeAndCmpMask CharReach.makeAndCmpMask
    rw [findFirst_eq]
    show Outcome.bind (maskLoop p cr.bits fuel _ _ _) _ = _
    rw [maskLoop_eq p cr.bits _ _ fuel _ _ hc hl]
    rfl

example := C84_charreach .debug 257 (Nat.le_refl _) (CharReach.fromBytes [0x41#8, 0x62#8, 0xff#8]) (List.replicate 32 0#8)

/-- C84: in describing a class, `last + 1` never overflows and the loops over the members end. -/
theorem C84_describe {ε σ : Type} (p : Profile) (fuel fuel' : Nat) (hf : 257 ≤ fuel) (w : Sink ε σ) (f : σ)
    (cr : CharReach) (maxLen : Nat) (out : CcOutput) :
    Checked.contiguousRange (ε := ε) p fuel cr = .ok (Dump.contiguousRange cr) ∧
    Checked.describeClassInt p fuel fuel' w f cr maxLen out =
      Dump.describeClassIntTo p fuel' w f cr maxLen out :=
  ⟨contiguousRange_eq p fuel hf cr, describeClassInt_eq p fuel fuel' hf w f cr maxLen out⟩

example := C84_describe (ε := Unit) .debug 257 4 (Nat.le_refl _) stringSink [] (CharReach.fromBytes [0x41#8, 0x62#8, 0xff#8]) 256 .text

/-- The iterator after `k` calls of `next`, ignoring the items. -/
def advance (it : LitIter) : Nat → LitIter
  | 0 => it
  | k + 1 => (Checked.next (advance it k)).2

/-- C84: the iterator over a literal yields its elements in order, each once, and after the last one
nothing more, however often it is asked. -/
theorem C84_iterator (l : Ue2Literal) (k : Nat) :
    (Checked.next (advance (Checked.iter l) k)).1 = l.iter[k]? := by
  have h : ∀ k, advance (Checked.iter l) k = ⟨l, min k l.iter.length⟩ := by
    intro k
    induction k with
    | zero => simp [advance, Checked.iter]
    | succ k ih =>
      rw [advance, ih, next_iter]
      show LitIter.mk l _ = LitIter.mk l _
      congr 1
      split <;> omega
  rw [h, next_iter]
  by_cases hk : k < l.iter.length
  · rw [Nat.min_eq_left (by omega)]
  · rw [Nat.min_eq_right (by omega), List.getElem?_eq_none (Nat.le_refl _), List.getElem?_eq_none (by omega)]

/-- C84: the loops over literals end, and give the results of the list functions. -/
theorem C84_literal {ε : Type} (p : Profile) (fuel : Nat) (l : Ue2Literal) (hf : l.len < fuel) (c : U8) (nc : Bool) :
    Checked.mixedSensitivity (ε := ε) p fuel l = .ok (Rescan.mixedSensitivity l.iter) ∧
    Checked.push (ε := ε) p l c nc = .ok (l.push c nc) := by
  constructor
  · have hlen : l.iter.length ≤ l.len := by
      simp only [Ue2Literal.iter, List.length_zipWith, Ue2Literal.len]; omega
    unfold Checked.mixedSensitivity Rescan.mixedSensitivity
    rw [Checked.iter, (mixedLoop_eq p l fuel 0 false false (by omega)).resolve_right (by omega)]
    rfl
  · unfold Checked.push Ue2Literal.push
    cases nc with
    | false => rfl
    | true => simp only [if_true]; rw [mytoupper_eq]; rfl

example := C84_literal (ε := Unit) .debug 3 ⟨[0x61#8, 0x42#8], [false, true]⟩ (by decide) 0x63#8 true

/-- A trie reached by adding literals to the empty one. -/
inductive Reached : LitTrie → Prop
  | empty : Reached LitTrie.default
  | add {t t' : LitTrie} {l : Ue2Literal} {r : Nat} {b : Bool} : Reached t →
      Rescan.addToTrie (ε := CompileError) l r t = .ok (t', b) → Reached t'

/-- C84: in adding a literal to a trie reached from the empty one, no node index is out of range, and the
loop over the literal ends. -/
theorem C84_trie {ε : Type} (fuel : Nat) (l : Ue2Literal) (hf : l.len < fuel) (r : Nat) (t : LitTrie)
    (ht : Reached t) : Checked.addToTrie (ε := ε) fuel l r t = Rescan.addToTrie l r t := by
  have h : InRange t := by
    induction ht with
    | empty => exact inRange_default
    | add _ h ih => exact addToTrie_inRange ih h
  exact addToTrie_eq fuel l r t h hf

/-! Concrete cases: a trie reached by adding a literal, searches at the top end, an exhausted iterator. -/
example : Reached LitTrie.default ∧ ∃ t, Reached t ∧ t.inner.nodes.length = 3 :=
  ⟨.empty, _, .add (l := ⟨[0x61#8, 0x62#8], [false, false]⟩) (r := 0) .empty rfl, rfl⟩
example : Checked.findNext (ε := Unit) .debug BitField256.default.setAll 0xfe#8 = .ok (some 0xff#8) ∧
    Checked.findNext (ε := Unit) .debug BitField256.default.setAll 0xff#8 = .ok none := by decide +kernel
example : (List.range 4).map (fun k => (Checked.next (advance
    (Checked.iter ⟨[0x61#8, 0x42#8], [false, true]⟩) k)).1) =
    [some ⟨0x61#8, false⟩, some ⟨0x42#8, true⟩, none, none] := by decide
example : Checked.display (ε := Unit) .debug 257 (CharReach.fromBytes [0x61#8, 0xff#8]) =
    .ok ['a', Char.ofNat 255] := by decide +kernel

end Rescan
