import Verif.Model.DumpCharClass
import Verif.Proofs.CharReachExport
/-! # Lemmas about class descriptions -/
namespace Rescan.Dump

/-! ## A decoder for described bytes (shows that descriptions are a prefix code) -/

/-- Value of a hexadecimal digit, a space counting as zero. -/
def hexVal (x : Char) : Nat :=
  if x.toNat < 48 then 0 else if x.toNat < 58 then x.toNat - 48 else x.toNat - 87

/-- Decodes what follows an escape. -/
def decEsc : Str → Option (U8 × Str)
  | [] => none
  | y :: s =>
    if y = 'x' then
      match s with
      | a :: b :: s => some (BitVec.ofNat 8 (16 * hexVal a + hexVal b), s)
      | _ => none
    else if y = 't' then some (0x09#8, s)
    else if y = 'n' then some (0x0a#8, s)
    else if y = 'r' then some (0x0d#8, s)
    else some (BitVec.ofNat 8 y.toNat, s)

/-- Decodes one described byte. -/
def dec (out : CcOutput) : Str → Option (U8 × Str)
  | [] => none
  | x :: s =>
    if x = '\\' then
      match out with
      | .text => decEsc s
      | .dot =>
        match s with
        | [] => none
        | y :: s => if y = '\\' then decEsc s else some (BitVec.ofNat 8 y.toNat, s)
    else some (BitVec.ofNat 8 x.toNat, s)

theorem decEsc_append (s r t : Str) (c : U8) (h : decEsc s = some (c, t)) :
    decEsc (s ++ r) = some (c, t ++ r) := by
  unfold decEsc at h ⊢
  cases s with
  | nil => simp at h
  | cons y s =>
    simp only [List.cons_append] at h ⊢
    by_cases h1 : y = 'x'
    · rw [if_pos h1] at h ⊢
      match s, h with
      | a :: b :: s, h => simp at h ⊢; exact ⟨h.1, by rw [h.2]⟩
    · rw [if_neg h1] at h ⊢
      by_cases h2 : y = 't'
      · rw [if_pos h2] at h ⊢; simp at h ⊢; exact ⟨h.1, by rw [h.2]⟩
      · rw [if_neg h2] at h ⊢
        by_cases h3 : y = 'n'
        · rw [if_pos h3] at h ⊢; simp at h ⊢; exact ⟨h.1, by rw [h.2]⟩
        · rw [if_neg h3] at h ⊢
          by_cases h4 : y = 'r'
          · rw [if_pos h4] at h ⊢; simp at h ⊢; exact ⟨h.1, by rw [h.2]⟩
          · rw [if_neg h4] at h ⊢; simp at h ⊢; exact ⟨h.1, by rw [h.2]⟩

theorem dec_append (out : CcOutput) (s r t : Str) (c : U8) (h : dec out s = some (c, t)) :
    dec out (s ++ r) = some (c, t ++ r) := by
  unfold dec at h ⊢
  cases s with
  | nil => simp at h
  | cons x s =>
    simp only [List.cons_append] at h ⊢
    by_cases h1 : x = '\\'
    · rw [if_pos h1] at h ⊢
      cases out with
      | text => exact decEsc_append s r t c h
      | dot =>
        cases s with
        | nil => simp at h
        | cons y s =>
          simp only [List.cons_append] at h ⊢
          by_cases h2 : y = '\\'
          · rw [if_pos h2] at h ⊢; exact decEsc_append s r t c h
          · rw [if_neg h2] at h ⊢; simp at h ⊢; exact ⟨h.1, by rw [h.2]⟩
    · rw [if_neg h1] at h ⊢; simp at h ⊢; exact ⟨h.1, by rw [h.2]⟩

theorem dec_describeChar (out : CcOutput) (c : U8) : dec out (describeChar c out) = some (c, []) := by
  revert c; cases out <;> decide +kernel

theorem dec_describeChar_append (out : CcOutput) (c : U8) (r : Str) :
    dec out (describeChar c out ++ r) = some (c, r) := by
  rw [dec_append out _ r [] c (dec_describeChar out c)]; rfl

theorem describe_cancel (out : CcOutput) (c d : U8) (r t : Str)
    (h : describeChar c out ++ r = describeChar d out ++ t) : c = d ∧ r = t := by
  have h1 := dec_describeChar_append out c r
  rw [h, dec_describeChar_append] at h1
  simp at h1; exact ⟨h1.1.symm, h1.2.symm⟩

/-! ## Ranges -/

/-- The bytes `c1, c1+1, .., c1+k`. -/
def runFrom (c1 : U8) (k : Nat) : List U8 := (List.range (k + 1)).map (fun i => BitVec.ofNat 8 (c1.toNat + i))

theorem runFrom_zero (c : U8) : runFrom c 0 = [c] := by simp [runFrom]

theorem runFrom_succ (c c' : U8) (k : Nat) (h : c'.toNat = c.toNat + 1) :
    runFrom c (k + 1) = c :: runFrom c' k := by
  unfold runFrom
  rw [List.range_succ_eq_map, List.map_cons, List.map_map]
  simp only [Nat.add_zero, BitVec.ofNat_toNat, BitVec.setWidth_eq, List.cons.injEq, true_and]
  apply List.map_congr_left
  intro i _
  simp only [Function.comp, h]
  congr 1; omega

theorem succ_toNat (c : U8) (h : c.toNat < 255) : (c + 1#8).toNat = c.toNat + 1 := by
  rw [BitVec.toNat_add]; simp only [BitVec.toNat_ofNat, Nat.reducePow, Nat.reduceMod]; omega

theorem addChk_succ {ε : Type} (p : Profile) (c : U8) (h : c.toNat < 255) : addChk (ε := ε) p c 1#8 = .ok (c + 1#8) := by
  unfold addChk; rw [if_neg]; rintro ⟨-, h2⟩; simp at h2; omega

theorem rangeLoop_ok (p : Profile) (out : CcOutput) (c2 : U8) (h2 : c2.toNat < 255) :
    ∀ (k fuel : Nat) (c1 : U8), c1.toNat + k = c2.toNat → k < fuel →
    rangeLoop p out c2 fuel c1 = .ok ((runFrom c1 k).flatMap (fun c => describeChar c out)) := by
  intro k
  induction k with
  | zero =>
    intro fuel c1 h hf
    obtain ⟨f, rfl⟩ : ∃ f, fuel = f + 1 := ⟨fuel - 1, by omega⟩
    unfold rangeLoop
    rw [addChk_succ p c1 (by omega), Outcome.ok_bind]
    have hgt : c1 + 1#8 > c2 := by rw [gt_iff_lt, BitVec.lt_def, succ_toNat c1 (by omega)]; omega
    rw [if_pos hgt, runFrom_zero]; simp [Outcome.pure_eq]
  | succ k ih =>
    intro fuel c1 h hf
    obtain ⟨f, rfl⟩ : ∃ f, fuel = f + 1 := ⟨fuel - 1, by omega⟩
    unfold rangeLoop
    rw [addChk_succ p c1 (by omega), Outcome.ok_bind]
    have hs := succ_toNat c1 (by omega)
    have hgt : ¬ c1 + 1#8 > c2 := by rw [gt_iff_lt, BitVec.lt_def, hs]; omega
    rw [if_neg hgt, ih f (c1 + 1#8) (by omega) (by omega), Outcome.ok_bind,
      runFrom_succ c1 (c1 + 1#8) k hs]; rfl

theorem rangeLoop_release_diverges (out : CcOutput) : ∀ (fuel : Nat) (c1 : U8),
    rangeLoop .release out 0xff#8 fuel c1 = .timeout := by
  intro fuel
  induction fuel with
  | zero => intro c1; rfl
  | succ fuel ih =>
    intro c1
    unfold rangeLoop
    have hadd : addChk (ε := CompileError) .release c1 1#8 = .ok (c1 + 1#8) := by unfold addChk; simp
    rw [hadd, Outcome.ok_bind]
    have hgt : ¬ c1 + 1#8 > 0xff#8 := by
      rw [gt_iff_lt, BitVec.lt_def]; have := (c1 + 1#8).isLt; simp; omega
    rw [if_neg hgt, ih]; rfl

theorem rangeLoop_debug_panics (out : CcOutput) : ∀ (k fuel : Nat) (c1 : U8), c1.toNat + k = 255 →
    k < fuel → rangeLoop .debug out 0xff#8 fuel c1 = .panic "attempt to add with overflow" := by
  intro k
  induction k with
  | zero =>
    intro fuel c1 h hf
    obtain ⟨f, rfl⟩ : ∃ f, fuel = f + 1 := ⟨fuel - 1, by omega⟩
    unfold rangeLoop addChk
    rw [if_pos ⟨rfl, by simp; omega⟩]; rfl
  | succ k ih =>
    intro fuel c1 h hf
    obtain ⟨f, rfl⟩ : ∃ f, fuel = f + 1 := ⟨fuel - 1, by omega⟩
    unfold rangeLoop
    rw [addChk_succ .debug c1 (by omega), Outcome.ok_bind]
    have hs := succ_toNat c1 (by omega)
    have hgt : ¬ c1 + 1#8 > 0xff#8 := by
      rw [gt_iff_lt, BitVec.lt_def]; have := (c1 + 1#8).isLt; simp; omega
    rw [if_neg hgt, ih f (c1 + 1#8) (by omega) (by omega)]; rfl

theorem sub_toNat (c1 c2 : U8) (h : c1 ≤ c2) : (c2 - c1).toNat = c2.toNat - c1.toNat := by
  rw [BitVec.le_def] at h
  rw [BitVec.toNat_sub]; have := c1.isLt; have := c2.isLt; omega

/-- The text `describe_range` should write for `c1 ≤ c2`. -/
def rangeText (c1 c2 : U8) (out : CcOutput) : Str :=
  if c2.toNat - c1.toNat < 4 then (runFrom c1 (c2.toNat - c1.toNat)).flatMap (fun c => describeChar c out)
  else describeChar c1 out ++ ['-'] ++ describeChar c2 out

theorem subChk_le {ε : Type} (p : Profile) (c1 c2 : U8) (h : c1 ≤ c2) : subChk (ε := ε) p c2 c1 = .ok (c2 - c1) := by
  rw [BitVec.le_def] at h
  unfold subChk; rw [if_neg]; rintro ⟨-, h2⟩; omega

theorem describeRange_ok (p : Profile) (fuel : Nat) (hf : 4 ≤ fuel) (c1 c2 : U8) (out : CcOutput)
    (h : c1 ≤ c2) (hne : c2 ≠ 0xff#8 ∨ c1 = c2 ∨ c1.toNat + 4 ≤ c2.toNat) :
    describeRange p fuel c1 c2 out = .ok (rangeText c1 c2 out) := by
  have h' := h; rw [BitVec.le_def] at h'
  unfold describeRange rangeText
  by_cases e : c1 = c2
  · subst e; rw [if_pos rfl]; simp [runFrom_zero]
  · rw [if_neg e, subChk_le p c1 c2 h, Outcome.ok_bind]
    have hs := sub_toNat c1 c2 h
    by_cases hd : c2.toNat - c1.toNat < 4
    · have : c2 - c1 < 4#8 := by rw [BitVec.lt_def, hs]; simpa using hd
      rw [if_pos this, if_pos hd]
      have hc2 : c2.toNat < 255 := by
        have h3 := c2.isLt
        have : c2 ≠ 0xff#8 := by
          rcases hne with h4 | h4 | h4
          · exact h4
          · exact absurd h4 e
          · omega
        rw [Ne, ← BitVec.toNat_inj] at this
        simp at this; omega
      exact rangeLoop_ok p out c2 hc2 _ fuel c1 (by omega) (by omega)
    · have : ¬ c2 - c1 < 4#8 := by rw [BitVec.lt_def, hs]; simpa using hd
      rw [if_neg this, if_neg hd]; rfl

theorem describeRange_bad (p : Profile) (fuel : Nat) (c1 : U8) (out : CcOutput)
    (h1 : 252 ≤ c1.toNat) (h2 : c1.toNat < 255) :
    describeRange p fuel c1 0xff#8 out = rangeLoop p out 0xff#8 fuel c1 := by
  have hle : c1 ≤ 0xff#8 := by rw [BitVec.le_def]; simp; omega
  unfold describeRange
  have e : c1 ≠ 0xff#8 := by rw [Ne, ← BitVec.toNat_inj]; simp; omega
  have hs := sub_toNat c1 0xff#8 hle
  have : 0xff#8 - c1 < 4#8 := by rw [BitVec.lt_def, hs]; simp; omega
  rw [if_neg e, subChk_le p c1 _ hle, Outcome.ok_bind, if_pos this]

/-! ## Simple classes -/

open CharReach in
theorem count_fromChar : ∀ x : U8, (fromChar x).count = 1 ∧ (fromChar x).not.count = 255 := by
  decide +kernel

theorem findFirst_fromChar (x : U8) : (CharReach.fromChar x).findFirst = some x := by
  have h := BitField256.findFirst_least (CharReach.fromChar x).bits
  have ht : ∀ m, (CharReach.fromChar x).bits.test m = decide (m = x) := CharReach.fromChar_test x
  show (CharReach.fromChar x).bits.findFirst = some x
  cases hf : (CharReach.fromChar x).bits.findFirst with
  | none => rw [hf] at h; have := h x; rw [ht] at this; simp at this
  | some y => rw [hf] at h; have := h.1; rw [ht] at this; simp at this; rw [this]

theorem not_not (cr : CharReach) : cr.not.not = cr := by
  apply CharReach.ext_test; intro c; rw [CharReach.not_test, CharReach.not_test, Bool.not_not]

theorem describeClass_all (p : Profile) (fuel : Nat) (cr : CharReach) (n : Nat) (out : CcOutput)
    (h : ∀ c, cr.test c = true) : describeClass p fuel cr n out = .ok "<any>".toList := by
  unfold describeClass; rw [if_pos ((CharReach.all_iff cr).2 h)]

theorem describeClass_none (p : Profile) (fuel : Nat) (cr : CharReach) (n : Nat) (out : CcOutput)
    (h : ∀ c, cr.test c = false) : describeClass p fuel cr n out = .ok "<empty>".toList := by
  unfold describeClass
  rw [if_neg, if_pos ((CharReach.none_iff cr).2 h)]
  rw [CharReach.all_iff]; intro h2; have := h 0#8; rw [h2] at this; cases this

theorem not_all_none (cr : CharReach) (a b : U8) (ha : cr.test a = true) (hb : cr.test b = false) :
    cr.all = false ∧ cr.none = false := by
  constructor
  · rw [Bool.eq_false_iff, Ne, CharReach.all_iff]; intro h; rw [h b] at hb; cases hb
  · rw [Bool.eq_false_iff, Ne, CharReach.none_iff]; intro h; rw [h a] at ha; cases ha

theorem describeClass_singleton (p : Profile) (fuel : Nat) (n : Nat) (out : CcOutput) (x : U8) :
    describeClass p fuel (CharReach.fromChar x) n out = .ok (describeChar x out) := by
  obtain ⟨h1, h2⟩ := not_all_none (CharReach.fromChar x) x (x + 1#8)
    (by rw [CharReach.fromChar_test]; simp)
    (by rw [CharReach.fromChar_test]; revert x; decide +kernel)
  unfold describeClass
  rw [h1, h2, if_neg (by simp), if_neg (by simp), if_pos (count_fromChar x).1, findFirst_fromChar]
  rfl

theorem describeClass_cosingleton (p : Profile) (fuel : Nat) (n : Nat) (out : CcOutput) (x : U8) :
    describeClass p fuel (CharReach.fromChar x).not n out
      = .ok ("[^".toList ++ describeChar x out ++ [']']) := by
  obtain ⟨h1, h2⟩ := not_all_none (CharReach.fromChar x).not (x + 1#8) x
    (by rw [CharReach.not_test, CharReach.fromChar_test]; revert x; decide +kernel)
    (by rw [CharReach.not_test, CharReach.fromChar_test]; simp)
  unfold describeClass
  rw [h1, h2, if_neg (by simp), if_neg (by simp), if_neg (by rw [(count_fromChar x).2]; decide),
    not_not, if_pos (count_fromChar x).1, findFirst_fromChar]
  rfl

theorem dec_ne (c : U8) (x : Char) (s : Str) (h1 : x ≠ '\\') (h2 : s ≠ []) (out : CcOutput) :
    describeChar c out ≠ x :: s := by
  intro h
  have := dec_describeChar out c
  rw [h] at this
  unfold dec at this
  simp [h1] at this
  exact h2 this.2

end Rescan.Dump
