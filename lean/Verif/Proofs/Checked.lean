import Verif.Model.Checked
import Verif.Proofs.CharReach
import Verif.Proofs.Writes
/-! # The checked functions compute what the simple ones compute -/
namespace Rescan
open Spec

theorem addChk_ok {ε : Type} {w : Nat} (p : Profile) (a b : BitVec w) (h : a.toNat + b.toNat < 2 ^ w) :
    addChk (ε := ε) p a b = .ok (a + b) := by
  unfold addChk; rw [if_neg (by omega)]
theorem subChk_ok {ε : Type} {w : Nat} (p : Profile) (a b : BitVec w) (h : b.toNat ≤ a.toNat) :
    subChk (ε := ε) p a b = .ok (a - b) := by
  unfold subChk; rw [if_neg (by omega)]
theorem mulChk_ok {ε : Type} {w : Nat} (p : Profile) (a b : BitVec w) (h : a.toNat * b.toNat < 2 ^ w) :
    mulChk (ε := ε) p a b = .ok (a * b) := by
  unfold mulChk; rw [if_neg (by omega)]
theorem shlChk_ok {ε : Type} {w : Nat} (p : Profile) (a : BitVec w) (k : Nat) (h : k < w) :
    shlChk (ε := ε) p a k = .ok (a <<< k) := by
  unfold shlChk; rw [if_neg (by omega), Nat.mod_eq_of_lt h]

namespace Checked

variable {ε : Type}

theorem mytolower_eq (p : Profile) (c : U8) : mytolower (ε := ε) p c = .ok (Rescan.mytolower c) := by
  unfold mytolower Rescan.mytolower
  cases h : myisupper c
  · rfl
  · simp only [if_true]
    apply addChk_ok
    simp only [myisupper, Bool.and_eq_true, decide_eq_true_eq, BitVec.le_def] at h
    have := h.2
    simp at this ⊢; omega

theorem mytoupper_eq (p : Profile) (c : U8) : mytoupper (ε := ε) p c = .ok (Rescan.mytoupper c) := by
  unfold mytoupper Rescan.mytoupper
  cases h : myislower c
  · rfl
  · simp only [if_true]
    apply subChk_ok
    simp only [myislower, Bool.and_eq_true, decide_eq_true_eq, BitVec.le_def] at h
    have := h.1
    simp at this ⊢; omega

theorem ourisalpha_eq (p : Profile) (c : U8) : ourisalpha (ε := ε) p c = .ok (Rescan.ourisalpha c) := by
  unfold ourisalpha
  rw [mytolower_eq, mytoupper_eq]; rfl

/-! ## Byte sets -/

theorem wordList_eq (b : BitField256) : wordList b = [b.bits[0], b.bits[1], b.bits[2], b.bits[3]] := by
  unfold wordList
  apply List.ext_getElem
  · simp
  · intro i h1 h2
    simp at h1
    rcases (by omega : i = 0 ∨ i = 1 ∨ i = 2 ∨ i = 3) with rfl | rfl | rfl | rfl <;> simp

theorem index_word (b : BitField256) (i : Nat) (h : i < 4) :
    index (ε := ε) (wordList b) i = .ok b.bits[i] := by
  unfold index
  have : (wordList b)[i]? = some b.bits[i] := by simp [wordList, h]
  rw [this]

theorem maskBit_eq (p : Profile) (n : U8) : maskBit (ε := ε) p n = .ok (BitField256.maskBit n) := by
  unfold maskBit BitField256.maskBit
  apply shlChk_ok
  simp only [BitVec.toNat_umod]; simp; omega

theorem test_eq (p : Profile) (b : BitField256) (n : U8) : test (ε := ε) p b n = .ok (b.test n) := by
  unfold test
  rw [index_word b _ (BitField256.getWord_lt n), maskBit_eq]; rfl

theorem set_eq (p : Profile) (b : BitField256) (n : U8) : set (ε := ε) p b n = .ok (wordList (b.set n)) := by
  unfold set
  rw [index_word b _ (BitField256.getWord_lt n), maskBit_eq]
  show Outcome.ok _ = Outcome.ok _
  unfold wordList BitField256.set
  congr 1

theorem countOnes_le (w : U64) : countOnes w ≤ 64 := by
  unfold countOnes
  exact Nat.le_trans List.countP_le_length (by simp)

theorem count_eq (p : Profile) (b : BitField256) : count (ε := ε) p b = .ok (BitVec.ofNat 32 b.count) := by
  have h0 := countOnes_le b.bits[0]
  have h1 := countOnes_le b.bits[1]
  have h2 := countOnes_le b.bits[2]
  have h3 := countOnes_le b.bits[3]
  unfold count
  have e (x y : Nat) (hx : x ≤ 256) (hy : y ≤ 256) : addChk (ε := ε) p (BitVec.ofNat 32 x) (BitVec.ofNat 32 y) =
      .ok (BitVec.ofNat 32 (x + y)) := by
    rw [addChk_ok]
    · rw [BitVec.ofNat_add]
    · simp only [BitVec.toNat_ofNat]; omega
  rw [show (0#32 : BitVec 32) = BitVec.ofNat 32 0 from rfl, e 0 _ (by omega) (by omega)]
  show Outcome.bind (addChk p (BitVec.ofNat 32 _) _) _ = _
  rw [e _ _ (by omega) (by omega)]
  show Outcome.bind (addChk p (BitVec.ofNat 32 _) _) _ = _
  rw [e _ _ (by omega) (by omega)]
  show addChk p (BitVec.ofNat 32 _) _ = _
  rw [e _ _ (by omega) (by omega)]
  unfold BitField256.count
  rw [show 0 + countOnes b.bits[0] = countOnes b.bits[0] by omega]

theorem u8_toNat_ofNat {n : Nat} (h : n < 256) : (BitVec.ofNat 8 n).toNat = n := by
  simp only [BitVec.toNat_ofNat]; omega

theorem firstLoop_eq (p : Profile) : ∀ (l : List U64) (i : Nat), i + l.length ≤ 4 →
    firstLoop (ε := ε) p i l = .ok (BitField256.firstIn ((l.zipIdx i).map (fun x => (x.2, x.1))))
  | [], _, _ => rfl
  | w :: l, i, h => by
    simp only [List.length_cons] at h
    unfold firstLoop
    simp only [List.zipIdx_cons, List.map_cons, BitField256.firstIn]
    by_cases hw : w = 0#64
    · rw [if_neg (by simp [hw]), if_neg (by simp [hw])]
      exact firstLoop_eq p l (i + 1) (by omega)
    · rw [if_pos hw, if_pos hw]
      have ht := (BitField256.trailingZeros_spec hw).1
      rw [mulChk_ok]
      · show Outcome.bind (addChk _ _ _) _ = _
        rw [addChk_ok]
        · rfl
        · simp only [BitVec.toNat_mul, BitVec.toNat_ofNat]; omega
      · simp only [BitVec.toNat_ofNat]; omega

theorem words_zip (b : BitField256) : b.words = (wordList b).zipIdx.map (fun x => (x.2, x.1)) := by
  rw [wordList_eq]; rfl

theorem findFirst_eq (p : Profile) (b : BitField256) : findFirst (ε := ε) p b = .ok b.findFirst := by
  unfold findFirst
  rw [firstLoop_eq p _ 0 (by simp [wordList])]
  unfold BitField256.findFirst
  rw [words_zip]

theorem lastLoop_eq (p : Profile) : ∀ (l : List (Nat × U64)), (∀ x ∈ l, x.1 < 4) →
    lastLoop (ε := ε) p l = .ok (BitField256.lastIn l)
  | [], _ => rfl
  | (i, w) :: l, h => by
    have hi : i < 4 := h (i, w) (List.mem_cons_self ..)
    unfold lastLoop BitField256.lastIn
    by_cases hw : w = 0#64
    · rw [if_neg (by simp [hw]), if_neg (by simp [hw])]
      exact lastLoop_eq p l (fun x hx => h x (List.mem_cons_of_mem _ hx))
    · rw [if_pos hw, if_pos hw]
      have ht := (BitField256.leadingZeros_spec hw).1
      rw [mulChk_ok]
      · show Outcome.bind (subChk _ _ _) _ = _
        rw [subChk_ok _ _ _ (by decide)]
        show Outcome.bind (addChk _ _ _) _ = _
        rw [addChk_ok]
        · show Outcome.bind (subChk _ _ _) _ = _
          rw [subChk_ok]
          · rfl
          · simp only [BitVec.toNat_add, BitVec.toNat_sub, BitVec.toNat_mul, BitVec.toNat_ofNat]; omega
        · simp only [BitVec.toNat_sub, BitVec.toNat_mul, BitVec.toNat_ofNat]; omega
      · simp only [BitVec.toNat_ofNat]; omega

theorem findLast_eq (p : Profile) (b : BitField256) : findLast (ε := ε) p b = .ok b.findLast := by
  unfold findLast BitField256.findLast
  rw [lastLoop_eq, words_zip]
  intro x hx
  rw [← words_zip] at hx
  simp only [BitField256.words, List.mem_reverse, List.mem_cons, List.not_mem_nil, or_false] at hx
  rcases hx with rfl | rfl | rfl | rfl <;> simp

theorem nextLoop_eq (p : Profile) (d : U8) : ∀ (l : List U64) (i : Nat), d.toNat + i + l.length ≤ 4 →
    nextLoop (ε := ε) p d i l =
      .ok (BitField256.firstIn ((l.zipIdx (d.toNat + i)).map (fun x => (x.2, x.1))))
  | [], _, _ => rfl
  | w :: l, i, h => by
    simp only [List.length_cons] at h
    unfold nextLoop
    simp only [List.zipIdx_cons, List.map_cons, BitField256.firstIn]
    by_cases hw : w = 0#64
    · rw [if_neg (by simp [hw]), if_neg (by simp [hw])]
      exact nextLoop_eq p d l (i + 1) (by omega)
    · rw [if_pos hw, if_pos hw]
      have ht := (BitField256.trailingZeros_spec hw).1
      have e : d + BitVec.ofNat 8 i = BitVec.ofNat 8 (d.toNat + i) := by
        apply BitVec.eq_of_toNat_eq
        simp only [BitVec.toNat_add, BitVec.toNat_ofNat]; omega
      rw [addChk_ok]
      · show Outcome.bind (mulChk _ _ _) _ = _
        rw [e, mulChk_ok]
        · show Outcome.bind (addChk _ _ _) _ = _
          rw [addChk_ok]
          · rfl
          · simp only [BitVec.toNat_mul, BitVec.toNat_ofNat]; omega
        · simp only [BitVec.toNat_ofNat]; omega
      · simp only [BitVec.toNat_ofNat]; omega

theorem findNext_eq (p : Profile) (b : BitField256) (last : U8) :
    findNext (ε := ε) p b last = .ok (b.findNext last) := by
  have hw := BitField256.getWord_lt last
  have tail : (Outcome.bind (ε := ε) (addChk p (BitField256.getWord last) 1#8) (fun lastI =>
      if lastI.toNat ≤ (wordList b).length then nextLoop p lastI 0 ((wordList b).drop lastI.toNat)
      else .panic "range start index out of range")) =
      .ok (BitField256.firstIn (b.words.drop ((BitField256.getWord last).toNat + 1))) := by
    rw [addChk_ok]
    · show (if _ then _ else _) = _
      have e : (BitField256.getWord last + 1#8).toNat = (BitField256.getWord last).toNat + 1 := by
        simp only [BitVec.toNat_add, BitVec.toNat_ofNat]; omega
      have hl : (wordList b).length = 4 := by simp [wordList]
      have hd : ∀ d, d ≤ 4 → (((wordList b).drop d).zipIdx d).map (fun x => (x.2, x.1)) = b.words.drop d := by
        intro d hd
        rw [wordList_eq]
        rcases (by omega : d = 0 ∨ d = 1 ∨ d = 2 ∨ d = 3 ∨ d = 4) with rfl | rfl | rfl | rfl | rfl <;> rfl
      rw [if_pos (by rw [e, hl]; omega), nextLoop_eq, e, Nat.add_zero, hd _ (by omega)]
      · rw [e, List.length_drop, hl]; omega
    · simp only [BitVec.toNat_ofNat]; omega
  unfold findNext BitField256.findNext
  show Outcome.bind (index (wordList b) (BitField256.getWord last).toNat) _ = _
  rw [index_word b _ hw]
  dsimp only
  by_cases h1 : last % 64#8 ≠ 64#8 - 1#8
  · have h1' : last.toNat % 64 ≠ 63 := by
      intro e; apply h1; apply BitVec.eq_of_toNat_eq
      simp only [BitVec.toNat_umod, BitVec.toNat_sub, BitVec.toNat_ofNat]; omega
    rw [if_pos h1]
    show (if last % 64#8 ≠ 64#8 - 1#8 then _ else _) = _
    rw [if_pos h1]
    have hk : (last % 64#8).toNat = last.toNat % 64 := by
      simp only [BitVec.toNat_umod, BitVec.toNat_ofNat]
    rw [addChk_ok _ _ _ (by rw [hk]; simp only [BitVec.toNat_ofNat]; omega)]
    show Outcome.bind (shlChk p BitField256.allOnes (last % 64#8 + 1#8).toNat) _ = _
    rw [shlChk_ok _ _ _ (by rw [BitVec.toNat_add, hk]; simp only [BitVec.toNat_ofNat]; omega)]
    show (if (b.bits[(BitField256.getWord last).toNat] &&&
        BitField256.allOnes <<< (last % 64#8 + 1#8).toNat) ≠ 0#64 then _ else _) = _
    by_cases h2 : (b.bits[(BitField256.getWord last).toNat] &&&
        BitField256.allOnes <<< (last % 64#8 + 1#8).toNat) ≠ 0#64
    · rw [if_pos h2, if_pos h2]
      have ht := (BitField256.trailingZeros_spec h2).1
      rw [mulChk_ok _ _ _ (by simp only [BitVec.toNat_ofNat]; omega)]
      show Outcome.bind (addChk _ _ _) _ = _
      rw [addChk_ok]
      · rfl
      · simp only [BitVec.toNat_mul, BitVec.toNat_ofNat]; omega
    · rw [if_neg h2, if_neg h2]
      exact tail
  · rw [if_neg h1]
    show (if last % 64#8 ≠ 64#8 - 1#8 then _ else _) = _
    rw [if_neg h1]
    exact tail

/-! ## The values taken by `next` in a loop over the members -/

/-- `l` is the sequence of members visited from `next` on. -/
inductive Chain (b : BitField256) : Option U8 → List U8 → Prop
  | nil : Chain b none []
  | cons {x : U8} {l : List U8} : Chain b (b.findNext x) l → Chain b (some x) (x :: l)

theorem chain_loop (cr : CharReach) : ∀ (fuel : Nat) (r : Option U8),
    (CharReach.memberLoop cr fuel r).length < fuel → Chain cr.bits r (CharReach.memberLoop cr fuel r)
  | 0, _, h => absurd h (Nat.not_lt_zero _)
  | _ + 1, none, _ => .nil
  | fuel + 1, some x, h => by
    simp only [CharReach.memberLoop, List.length_cons] at h ⊢
    exact .cons (chain_loop cr fuel (cr.findNext x) (by omega))

theorem members_length (s : U8 → Bool) : (members s).length ≤ 256 :=
  Nat.le_trans (List.length_filter_le _ _) (by simp [allBytes])

theorem chain_members (cr : CharReach) : Chain cr.bits cr.bits.findFirst cr.memberSeq := by
  have h := chain_loop cr 257 cr.findFirst (by
    rw [CharReach.memberLoop_members cr 257 (by decide)]
    have := members_length cr.test
    omega)
  rw [CharReach.memberLoop_members cr 257 (by decide)] at h
  rw [CharReach.memberSeq_eq]
  exact h

theorem memberSeq_length (cr : CharReach) : cr.memberSeq.length ≤ 256 := by
  rw [CharReach.memberSeq_eq]; exact members_length _

theorem alphaLoop_eq (p : Profile) (b : BitField256) : ∀ (l : List U8) (r : Option U8) (fuel : Nat),
    Chain b r l → l.length < fuel → alphaLoop (ε := ε) p b fuel r = .ok (l.all Rescan.ourisalpha)
  | [], _, fuel + 1, .nil, _ => rfl
  | x :: l, _, fuel + 1, .cons h, hf => by
    unfold alphaLoop
    rw [ourisalpha_eq, List.all_cons]
    show (if _ then _ else _) = _
    cases Rescan.ourisalpha x with
    | false => rfl
    | true =>
      rw [findNext_eq]
      exact alphaLoop_eq p b l _ fuel h (by simpa using hf)

theorem bit5Loop_eq (p : Profile) (b : BitField256) : ∀ (l : List U8) (r : Option U8) (fuel : Nat),
    Chain b r l → l.length < fuel →
    bit5Loop (ε := ε) p b fuel r = .ok (l.all (fun pos => b.test (pos ^^^ 0x20#8)))
  | [], _, fuel + 1, .nil, _ => rfl
  | x :: l, _, fuel + 1, .cons h, hf => by
    unfold bit5Loop
    rw [test_eq, List.all_cons]
    show (if _ then _ else _) = _
    cases b.test (x ^^^ 0x20#8) with
    | false => rfl
    | true =>
      rw [findNext_eq]
      exact bit5Loop_eq p b l _ fuel h (by simpa using hf)

theorem displayLoop_eq (p : Profile) (b : BitField256) : ∀ (l : List U8) (r : Option U8) (fuel : Nat) (s : Str),
    Chain b r l → l.length < fuel →
    displayLoop (ε := ε) p b fuel s r = .ok (s ++ l.map (fun pos => Char.ofNat pos.toNat))
  | [], _, fuel + 1, s, .nil, _ => by simp [displayLoop]
  | x :: l, _, fuel + 1, s, .cons h, hf => by
    unfold displayLoop
    rw [findNext_eq]
    show displayLoop p b fuel _ _ = _
    rw [displayLoop_eq p b l _ fuel _ h (by simpa using hf)]
    simp

theorem fillLoop_eq (p : Profile) (b : BitField256) : ∀ (l : List U8) (r : Option U8) (fuel : Nat) (bits : List U8),
    Chain b r l → l.length < fuel → 32 ≤ bits.length →
    fillLoop p b fuel bits r = l.foldlM (CharReach.fillStep p) bits
  | [], _, fuel + 1, _, .nil, _, _ => rfl
  | x :: l, _, fuel + 1, bits, .cons h, hf, hb => by
    unfold fillLoop
    rw [List.foldlM_cons]
    show Outcome.bind (shlChk p 1#8 (x &&& 8#8).toNat) _ = Outcome.bind (CharReach.fillStep p bits x) _
    unfold CharReach.fillStep CharReach.shlOneChk shlChk
    by_cases hp : p = .debug ∧ 8 ≤ (x &&& 8#8).toNat
    · rw [if_pos hp]; rfl
    · rw [if_neg hp]
      have hi : (x / 8#8).toNat < bits.length := by
        have := x.isLt
        simp only [BitVec.toNat_udiv, BitVec.toNat_ofNat, Nat.reducePow, Nat.reduceMod]; omega
      show Outcome.bind (index bits (x / 8#8).toNat) _ = _
      have e : index (ε := CompileError) bits (x / 8#8).toNat = .ok bits[(x / 8#8).toNat] := by
        unfold index; rw [List.getElem?_eq_getElem hi]
      rw [e]
      show Outcome.bind (findNext p b x) _ = _
      rw [findNext_eq]
      show fillLoop p b fuel _ _ = List.foldlM _ _ l
      rw [fillLoop_eq p b l _ fuel _ h (by simpa using hf) (by simpa using hb)]
      congr 1
      rw [List.modify_eq_set, List.getElem?_eq_getElem hi]
      rfl

theorem maskLoop_eq (p : Profile) (b : BitField256) : ∀ (l : List U8) (r : Option U8) (fuel : Nat) (lo hi : U8),
    Chain b r l → l.length < fuel →
    maskLoop (ε := ε) p b fuel lo hi r =
      .ok (l.foldl (fun (s : U8 × U8) pos => (s.1 &&& pos, s.2 ||| pos)) (lo, hi))
  | [], _, fuel + 1, _, _, .nil, _ => rfl
  | x :: l, _, fuel + 1, lo, hi, .cons h, hf => by
    unfold maskLoop
    rw [findNext_eq, List.foldl_cons]
    exact maskLoop_eq p b l _ fuel _ _ h (by simpa using hf)

/-! ## Printing classes -/

theorem le_ff (c : U8) : c.toNat ≤ 255 := by have := c.isLt; omega

theorem next_lt {b : BitField256} {x c : U8} (h : b.findNext x = some c) : x.toNat + 1 < 2 ^ 8 := by
  have h1 := BitField256.findNext_spec b x
  rw [h] at h1
  have := c.isLt
  have := h1.1
  omega

theorem contiguousLoop_eq (p : Profile) (b : BitField256) : ∀ (l : List U8) (x : U8) (fuel : Nat),
    Chain b (b.findNext x) l → l.length < fuel →
    contiguousLoop (ε := ε) p b fuel x = .ok (Dump.contiguousFrom x l)
  | [], x, fuel + 1, h, _ => by
    unfold contiguousLoop
    rw [findNext_eq]
    generalize b.findNext x = r at h
    cases h; rfl
  | c :: l, x, fuel + 1, h, hf => by
    unfold contiguousLoop Dump.contiguousFrom
    rw [findNext_eq]
    have hx : b.findNext x = some c := by generalize b.findNext x = r at h; cases h; rfl
    have hc : Chain b (b.findNext c) l := by rw [hx] at h; cases h; assumption
    rw [hx]
    show Outcome.bind (addChk p x 1#8) _ = _
    rw [addChk_ok _ _ _ (next_lt hx)]
    show (if c ≠ x + 1#8 then _ else _) = _
    split
    · rfl
    · exact contiguousLoop_eq p b l c fuel hc (by simpa using hf)

theorem contiguousRange_eq (p : Profile) (fuel : Nat) (hf : 257 ≤ fuel) (cr : CharReach) :
    contiguousRange (ε := ε) p fuel cr = .ok (Dump.contiguousRange cr) := by
  unfold contiguousRange Dump.contiguousRange
  rw [findFirst_eq]
  have h := chain_members cr
  have hl := memberSeq_length cr
  cases hm : cr.memberSeq with
  | nil =>
    rw [hm] at h
    generalize cr.bits.findFirst = r at h
    cases h; rfl
  | cons x l =>
    rw [hm] at h hl
    have hx : cr.bits.findFirst = some x := by generalize cr.bits.findFirst = r at h; cases h; rfl
    rw [hx] at h ⊢
    cases h with
    | cons h =>
      show Outcome.bind (contiguousLoop p cr.bits fuel x) _ = _
      rw [contiguousLoop_eq p cr.bits l x fuel h (by simp at hl; omega)]
      show _ = Outcome.ok (Option.map (fun last => (x, last)) (Dump.contiguousFrom x l))
      cases Dump.contiguousFrom x l <;> rfl

theorem rangesLoop_eq {σ : Type} (p : Profile) (fuel' : Nat) (w : Sink ε σ) (b : BitField256) (maxLen : Nat)
    (out : CcOutput) : ∀ (l : List U8) (fuel : Nat) (f : σ) (cStart cLast : U8) (i : Nat),
    Chain b (b.findNext cLast) l → l.length < fuel →
    rangesLoop p fuel' w b maxLen out fuel f cStart cLast i =
      Dump.rangesLoopTo p fuel' w maxLen out f cStart cLast i l
  | [], fuel + 1, f, cStart, cLast, i, h, _ => by
    unfold rangesLoop Dump.rangesLoopTo
    rw [findNext_eq]
    have hx : b.findNext cLast = none := by generalize b.findNext cLast = r at h; cases h; rfl
    rw [hx]; rfl
  | c :: l, fuel + 1, f, cStart, cLast, i, h, hf => by
    unfold rangesLoop Dump.rangesLoopTo
    rw [findNext_eq]
    have hx : b.findNext cLast = some c := by generalize b.findNext cLast = r at h; cases h; rfl
    have hc : Chain b (b.findNext c) l := by rw [hx] at h; cases h; assumption
    have hf' : l.length < fuel := by simpa using hf
    rw [hx]
    show Outcome.bind (addChk p cLast 1#8) _ = _
    rw [addChk_ok _ _ _ (next_lt hx)]
    show (if c ≠ cLast + 1#8 then _ else _) = _
    split
    · show Outcome.bind _ _ = Outcome.bind _ _
      congr 1; funext f
      split
      · rfl
      · exact rangesLoop_eq p fuel' w b maxLen out l fuel f c c (i + 1) hc hf'
    · exact rangesLoop_eq p fuel' w b maxLen out l fuel f cStart c i hc hf'

theorem describeClassInt_eq {σ : Type} (p : Profile) (fuel fuel' : Nat) (hf : 257 ≤ fuel) (w : Sink ε σ) (f : σ)
    (incr : CharReach) (maxLen : Nat) (out : CcOutput) :
    describeClassInt p fuel fuel' w f incr maxLen out = Dump.describeClassIntTo p fuel' w f incr maxLen out := by
  unfold describeClassInt Dump.describeClassIntTo
  rw [contiguousRange_eq p fuel hf]
  cases Dump.contiguousRange incr with
  | some r => rfl
  | none =>
    show Outcome.bind (Dump.mnemonicLoopTo w maxLen out fuel' f incr 0) _ = Outcome.bind _ _
    congr 1; funext x
    obtain ⟨f, r⟩ := x
    cases r with
    | none => rfl
    | some y =>
      obtain ⟨cr, i⟩ := y
      show (if cr.none = true then _ else _) = (if cr.none = true then _ else _)
      split
      · rfl
      · rw [findFirst_eq]
        have h := chain_members cr
        have hl := memberSeq_length cr
        cases hm : cr.memberSeq with
        | nil =>
          rw [hm] at h
          generalize cr.bits.findFirst = r at h
          cases h; rfl
        | cons x l =>
          rw [hm] at h hl
          have hx : cr.bits.findFirst = some x := by generalize cr.bits.findFirst = r at h; cases h; rfl
          rw [hx] at h ⊢
          cases h with
          | cons h => exact rangesLoop_eq p fuel' w cr.bits maxLen out l fuel f x x i h (by simp at hl; omega)

/-! ## Literals -/

theorem next_iter (l : Ue2Literal) (k : Nat) :
    next ⟨l, k⟩ = (l.iter[k]?, ⟨l, if k < l.iter.length then k + 1 else k⟩) := by
  unfold next Ue2Literal.iter
  simp only [List.getElem?_zipWith, List.length_zipWith]
  cases h1 : l.s[k]? with
  | none =>
    rw [List.getElem?_eq_none_iff] at h1
    rw [if_neg (by omega)]
  | some c =>
    obtain ⟨h1, _⟩ := List.getElem?_eq_some_iff.1 h1
    cases h2 : l.nocase[k]? with
    | none =>
      rw [List.getElem?_eq_none_iff] at h2
      rw [if_neg (by omega)]
    | some n =>
      obtain ⟨h2, _⟩ := List.getElem?_eq_some_iff.1 h2
      rw [if_pos (by omega)]

theorem mixedLoop_eq (p : Profile) (l : Ue2Literal) : ∀ (fuel k : Nat) (cs nc : Bool),
    l.iter.length < fuel + k →
    mixedLoop (ε := ε) p fuel ⟨l, k⟩ cs nc = .ok ((l.iter.drop k).foldl
      (fun (s : Bool × Bool) e => if !Rescan.ourisalpha e.c then s
        else if e.nocase then (s.1, true) else (true, s.2)) (cs, nc)) ∨ fuel = 0
  | 0, _, _, _, _ => .inr rfl
  | fuel + 1, k, cs, nc, h => by
    refine .inl ?_
    unfold mixedLoop
    rw [next_iter]
    by_cases hk : k < l.iter.length
    · rw [List.getElem?_eq_getElem hk, if_pos hk]
      rw [List.drop_eq_getElem_cons hk, List.foldl_cons]
      dsimp only
      rw [ourisalpha_eq]
      have hfuel : fuel ≠ 0 := by omega
      have ih := fun cs nc => (mixedLoop_eq p l fuel (k + 1) cs nc (by omega)).resolve_right hfuel
      show (if _ then _ else _) = _
      split
      · next h1 => rw [ih]
      · split
        · rw [ih]
        · rw [ih]
    · rw [List.getElem?_eq_none (by omega), if_neg hk, List.drop_eq_nil_of_le (by omega)]
      rfl

/-! ## Tries -/

/-- All edges of the trie, and its root, are in range. -/
def InRange (t : LitTrie) : Prop := t.root < t.inner.nodes.length ∧
  ∀ e ∈ t.inner.edges, e.1 < t.inner.nodes.length ∧ e.2 < t.inner.nodes.length

theorem inRange_default : InRange LitTrie.default := ⟨by decide, by simp [LitTrie.default]⟩

theorem findIn_eq (t : LitTrie) (c : U8) : ∀ l : List Nat, (∀ v ∈ l, v < t.inner.nodes.length) →
    findIn (ε := ε) t c l = .ok (l.find? (fun v => match t.inner.nodes[v]? with
      | some w => w.c == c
      | none => false))
  | [], _ => rfl
  | v :: l, h => by
    have hv : v < t.inner.nodes.length := h v (List.mem_cons_self ..)
    unfold findIn index
    rw [List.find?_cons, List.getElem?_eq_getElem hv]
    show (if t.inner.nodes[v].c = c then _ else _) = _
    by_cases hc : t.inner.nodes[v].c = c
    · rw [if_pos hc]; simp [hc]; rfl
    · rw [if_neg hc, findIn_eq t c l (fun v hv => h v (List.mem_cons_of_mem _ hv))]
      have hb : (t.inner.nodes[v].c == c) = false := beq_eq_false_iff_ne.2 hc
      dsimp only
      rw [hb]

theorem outgoing_lt {t : LitTrie} (h : InRange t) (u : Nat) : ∀ v ∈ t.inner.outgoing u, v < t.inner.nodes.length := by
  intro v hv
  simp only [Graph.outgoing, List.mem_map, List.mem_filter] at hv
  obtain ⟨e, ⟨he, _⟩, rfl⟩ := hv
  exact (h.2 e he).2

theorem descend_eq {t : LitTrie} (h : InRange t) (u : Nat) (c : U8) :
    LitTrie.descend (ε := ε) (t, u) c = (findIn t c (t.inner.outgoing u)).bind (fun r => match r with
      | some v => .ok (t, v)
      | none => (t.inner.addNode ⟨c, []⟩).bind (fun x =>
          (x.1.addEdge u x.2).bind (fun g => .ok ({ t with inner := g }, x.2)))) := by
  rw [findIn_eq t c _ (outgoing_lt h u)]
  unfold LitTrie.descend LitTrie.findChild
  rfl

theorem descend_inRange {t t' : LitTrie} {u u' : Nat} {c : U8} (h : InRange t) 
    (hd : LitTrie.descend (ε := ε) (t, u) c = .ok (t', u')) : InRange t' ∧ u' < t'.inner.nodes.length := by
  unfold LitTrie.descend at hd
  dsimp only at hd
  cases hc : t.findChild u c with
  | some v =>
    rw [hc] at hd
    injection hd with hd; injection hd with h1 h2
    subst h1 h2
    exact ⟨h, outgoing_lt h u v (List.mem_of_find?_eq_some hc)⟩
  | none =>
    rw [hc] at hd
    change Outcome.bind _ _ = _ at hd
    unfold Graph.addNode at hd
    split at hd
    · cases hd
    · change Outcome.bind (Graph.addEdge _ u t.inner.nodes.length) _ = _ at hd
      unfold Graph.addEdge at hd
      split at hd
      · cases hd
      · split at hd
        · next h1 =>
          injection hd with hd; injection hd with h2 h3
          subst h2 h3
          simp only [List.length_append, List.length_cons, List.length_nil] at h1
          refine ⟨⟨?_, ?_⟩, ?_⟩
          · have := h.1
            simp only [List.length_append, List.length_cons, List.length_nil]; omega
          · intro e he
            simp only [List.length_append, List.length_cons, List.length_nil]
            rcases List.mem_cons.1 he with rfl | he
            · exact h1
            · have := h.2 e he; omega
          · simp
        · cases hd

theorem trieLoop_eq (l : Ue2Literal) : ∀ (fuel k : Nat) (t : LitTrie) (u : Nat), InRange t →
    l.iter.length < fuel + k → fuel ≠ 0 →
    trieLoop (ε := ε) fuel ⟨l, k⟩ t u = ((l.iter.drop k).map (fun e => e.c)).foldlM LitTrie.descend (t, u)
  | 0, _, _, _, _, _, h => absurd rfl h
  | fuel + 1, k, t, u, ht, h, _ => by
    unfold trieLoop
    rw [next_iter]
    by_cases hk : k < l.iter.length
    · rw [List.getElem?_eq_getElem hk, if_pos hk, List.drop_eq_getElem_cons hk, List.map_cons, List.foldlM_cons]
      dsimp only
      have hfuel : fuel ≠ 0 := by omega
      have ih : ∀ t' u', LitTrie.descend (ε := ε) (t, u) l.iter[k].c = .ok (t', u') →
          trieLoop (ε := ε) fuel ⟨l, k + 1⟩ t' u' =
            ((l.iter.drop (k + 1)).map (fun e => e.c)).foldlM LitTrie.descend (t', u') :=
        fun t' u' hd => trieLoop_eq l fuel (k + 1) t' u' (descend_inRange ht hd).1 (by omega) hfuel
      have hd := descend_eq (ε := ε) ht u l.iter[k].c
      show Outcome.bind _ _ = Outcome.bind _ _
      cases hr : findIn (ε := ε) t l.iter[k].c (t.inner.outgoing u) with
      | ok r =>
        rw [hr] at hd
        cases r with
        | some v =>
          rw [hd]
          exact ih t v hd
        | none =>
          change _ = Outcome.bind _ _ at hd
          show Outcome.bind (t.inner.addNode _) _ = _
          cases hn : t.inner.addNode (ε := ε) ⟨l.iter[k].c, []⟩ with
          | ok x =>
            rw [hn] at hd
            change _ = Outcome.bind (x.1.addEdge u x.2) _ at hd
            show Outcome.bind (x.1.addEdge u x.2) _ = _
            cases hg : x.1.addEdge (ε := ε) u x.2 with
            | ok g =>
              rw [hg] at hd
              rw [hd]
              exact ih _ _ hd
            | err e => rw [hg] at hd; rw [hd]; rfl
            | panic m => rw [hg] at hd; rw [hd]; rfl
            | timeout => rw [hg] at hd; rw [hd]; rfl
          | err e => rw [hn] at hd; rw [hd]; rfl
          | panic m => rw [hn] at hd; rw [hd]; rfl
          | timeout => rw [hn] at hd; rw [hd]; rfl
      | err e => rw [hr] at hd; rw [hd]; rfl
      | panic m => rw [hr] at hd; rw [hd]; rfl
      | timeout => rw [hr] at hd; rw [hd]; rfl
    · rw [List.getElem?_eq_none (by omega), if_neg hk, List.drop_eq_nil_of_le (by omega)]
      rfl

theorem foldlM_inRange : ∀ (w : List U8) (t t' : LitTrie) (u u' : Nat), InRange t → u < t.inner.nodes.length →
    w.foldlM (LitTrie.descend (ε := ε)) (t, u) = .ok (t', u') → InRange t' ∧ u' < t'.inner.nodes.length
  | [], t, t', u, u', h, hu, he => by
    injection he with he; injection he with h1 h2
    subst h1 h2; exact ⟨h, hu⟩
  | c :: w, t, t', u, u', h, hu, he => by
    rw [List.foldlM_cons] at he
    cases hd : LitTrie.descend (ε := ε) (t, u) c with
    | ok x =>
      rw [hd] at he
      obtain ⟨h1, h2⟩ := descend_inRange h hd
      exact foldlM_inRange w x.1 t' x.2 u' h1 h2 he
    | err e => rw [hd] at he; cases he
    | panic m => rw [hd] at he; cases he
    | timeout => rw [hd] at he; cases he

theorem modify_at {α : Type} (f : α → α) : ∀ (l : List α) (u : Nat) (h : u < l.length),
    l.modify u f = l.set u (f l[u])
  | _ :: _, 0, _ => rfl
  | x :: l, u + 1, h => by
    simp only [List.length_cons] at h
    rw [List.modify_succ_cons, List.set_cons_succ, modify_at f l u (by omega)]
    rfl

theorem addToTrie_eq (fuel : Nat) (l : Ue2Literal) (r : Nat) (t : LitTrie) (h : InRange t)
    (hf : l.len < fuel) : addToTrie (ε := ε) fuel l r t = Rescan.addToTrie l r t := by
  have hlen : l.iter.length ≤ l.len := by
    simp only [Ue2Literal.iter, List.length_zipWith, Ue2Literal.len]; omega
  unfold addToTrie Rescan.addToTrie
  rw [iter, trieLoop_eq l fuel 0 t t.root h (by omega) (by omega), List.drop_zero]
  cases hw : (l.iter.map (fun e => e.c)).foldlM (LitTrie.descend (ε := ε)) (t, t.root) with
  | ok x =>
    obtain ⟨t', u⟩ := x
    obtain ⟨_, hu⟩ := foldlM_inRange _ _ _ _ _ h h.1 hw
    show Outcome.bind (index t'.inner.nodes u) _ = (if u < t'.inner.nodes.length then _ else _)
    rw [if_pos hu]
    unfold index
    rw [List.getElem?_eq_getElem hu]
    show Outcome.ok _ = Outcome.ok _
    rw [modify_at _ _ _ hu]
  | err e => rfl
  | panic m => rfl
  | timeout => rfl

theorem addToTrie_inRange {l : Ue2Literal} {r : Nat} {t t' : LitTrie} {b : Bool} (h : InRange t)
    (he : Rescan.addToTrie (ε := ε) l r t = .ok (t', b)) : InRange t' := by
  unfold Rescan.addToTrie at he
  cases hw : (l.iter.map (fun e => e.c)).foldlM (LitTrie.descend (ε := ε)) (t, t.root) with
  | ok x =>
    rw [hw] at he
    obtain ⟨t1, u⟩ := x
    obtain ⟨h1, hu⟩ := foldlM_inRange _ _ _ _ _ h h.1 hw
    change (if u < t1.inner.nodes.length then _ else _) = _ at he
    rw [if_pos hu] at he
    injection he with he; injection he with h2 _
    subst h2
    refine ⟨?_, fun e he => ?_⟩
    · simpa using h1.1
    · simpa using h1.2 e he
  | err e => rw [hw] at he; cases he
  | panic m => rw [hw] at he; cases he
  | timeout => rw [hw] at he; cases he

end Checked
end Rescan
