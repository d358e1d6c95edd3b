import Verif.Model.Repaired
import Verif.Proofs.Writes
import Verif.Props.CharReach
import Verif.Props.Arith
import Verif.Props.Literal
import Verif.Props.DumpCharClass
import Verif.Props.Report
import Verif.Props.Graph
import Verif.Props.Compiler
/-! # C98: each of these defects is one line

For several properties whose full statement is false of the code, the same statement, about a function with
one line changed (`Model/Repaired.lean`).  Every statement is written for an arbitrary function in place of
the code's; an `example` after it shows that for the code's function it is the full statement that was refuted. -/
namespace Rescan
open Spec Repaired

/-! ## C16: `fill_bitvector` -/

/-- C16's full statement about a function `f`. -/
def FillBitvectorSpecOf (f : CharReach → List U8 → Res (List U8)) : Prop :=
  ∀ (cr : CharReach) (bits : List U8), 32 ≤ bits.length →
    ∃ out, f cr bits = .ok out ∧ out.length = bits.length ∧
      (∀ j, 32 ≤ j → out[j]? = bits[j]?) ∧
      ∀ c : U8, (out[c.toNat / 8]?.getD 0#8).getLsbD (c.toNat % 8) = cr.test c

example (p : Profile) : FillBitvectorSpecOf (CharReach.fillBitvector p) ↔ CharReach.FillBitvectorSpec p := Iff.rfl

theorem repaired_fillStep (p : Profile) (bits : List U8) (pos : U8) :
    fillStep p bits pos = .ok (bits.modify (pos.toNat / 8) (fun b => b ||| 1#8 <<< (pos.toNat % 8))) := by
  have h : ∀ pos : U8, CharReach.shlOneChk p (pos &&& 7#8) = .ok (1#8 <<< (pos.toNat % 8)) := by
    cases p <;> decide +kernel
  unfold fillStep
  rw [h, Outcome.ok_bind]
  have : (pos / 8#8).toNat = pos.toNat / 8 := by simp
  rw [this]; rfl

theorem repaired_fold (p : Profile) : ∀ (l : List U8) (bits : List U8), 32 ≤ bits.length →
    ∃ out, l.foldlM (fillStep p) bits = .ok out ∧ out.length = bits.length ∧
      (∀ j, 32 ≤ j → out[j]? = bits[j]?) ∧
      ∀ c : U8, (out[c.toNat / 8]?.getD 0#8).getLsbD (c.toNat % 8) =
        ((bits[c.toNat / 8]?.getD 0#8).getLsbD (c.toNat % 8) || decide (c ∈ l)) := by
  intro l
  induction l with
  | nil => intro bits _; exact ⟨bits, rfl, rfl, fun _ _ => rfl, fun c => by simp⟩
  | cons a l ih =>
    intro bits hb
    obtain ⟨out, h1, h2, h3, h4⟩ := ih (bits.modify (a.toNat / 8) (fun b => b ||| 1#8 <<< (a.toNat % 8)))
      (by simpa using hb)
    refine ⟨out, ?_, by simpa using h2, fun j hj => ?_, fun c => ?_⟩
    · rw [List.foldlM_cons, repaired_fillStep, Outcome.ok_bind, h1]
    · rw [h3 j hj, List.getElem?_modify]
      have : a.toNat / 8 ≠ j := by have := a.isLt; omega
      simp [this]
    · rw [h4 c, List.getElem?_modify]
      have hc := c.isLt
      have hlt : c.toNat / 8 < bits.length := by omega
      rw [List.getElem?_eq_getElem hlt]
      have hbit : ∀ i, i < 8 → ∀ j, j < 8 → (1#8 <<< i).getLsbD j = decide (j = i) := by decide
      by_cases hq : a.toNat / 8 = c.toNat / 8
      · have e : (c = a) ↔ c.toNat % 8 = a.toNat % 8 := by
          rw [← BitVec.toNat_inj]; omega
        have e' : (c.toNat % 8 < 8 ∧ a.toNat % 8 ≤ c.toNat % 8) ∧ c.toNat % 8 - a.toNat % 8 = 0 ↔
            c.toNat % 8 = a.toNat % 8 := by omega
        simp only [hq, if_true, Option.getD_some, BitVec.getLsbD_or,
          hbit _ (Nat.mod_lt a.toNat (by decide)) _ (Nat.mod_lt c.toNat (by decide)), List.mem_cons]
        rw [Bool.eq_iff_iff]; simp [e, e', or_assoc]
      · have e : c ≠ a := by rintro rfl; exact hq rfl
        simp [hq, List.mem_cons, e]

/-- C98, C16 repaired: with `pos & 7` the bitmap is right, in both profiles. -/
theorem C98_fill_bitvector (p : Profile) : FillBitvectorSpecOf (Repaired.fillBitvector p) := by
  intro cr bits hb
  obtain ⟨out, h1, h2, h3, h4⟩ := repaired_fold p cr.memberSeq (List.replicate 32 0#8 ++ bits.drop 32) (by simp)
  refine ⟨out, ?_, ?_, fun j hj => ?_, fun c => ?_⟩
  · unfold Repaired.fillBitvector; rw [if_neg (by omega), h1]
  · rw [h2]; simp; omega
  · rw [h3 j hj, List.getElem?_append_right (by simpa using hj)]
    simp only [List.length_replicate, List.getElem?_drop, show 32 + (j - 32) = j by omega]
  · rw [h4 c, List.getElem?_append_left (by simp; have := c.isLt; omega), List.getElem?_replicate,
      if_pos (by have := c.isLt; omega)]
    simp only [Option.getD_some, BitVec.getLsbD_zero, Bool.false_or]
    rw [Bool.eq_iff_iff, decide_eq_true_iff, CharReach.mem_memberSeq]

example : Repaired.fillBitvector .debug (CharReach.fromBytes [9#8, 10#8]) (List.replicate 32 0#8)
    = .ok ((List.replicate 32 0#8).set 1 6#8) := by decide +kernel

/-! ## C18: `round_up_n`, `round_down_n` -/

/-- C18's full statement about a pair of functions. -/
def RoundingSpecOf (down up : {w : Nat} → BitVec w → U8 → Res (BitVec w)) (w k : Nat) : Prop :=
  ∀ a : BitVec w,
    (∃ r, down a (BitVec.ofNat 8 (2 ^ k)) = .ok r ∧ IsFloorMultiple (2 ^ k) a.toNat r.toNat) ∧
    (a.toNat + (2 ^ k - 1) < 2 ^ w →
      ∃ r, up a (BitVec.ofNat 8 (2 ^ k)) = .ok r ∧ IsCeilMultiple (2 ^ k) a.toNat r.toNat)

example (p : Profile) (w k : Nat) :
    RoundingSpecOf (fun a n => Rescan.roundDownN p a n) (fun a n => Rescan.roundUpN p a n) w k ↔ RoundingSpec p w k :=
  Iff.rfl

/-- The mask `!(2^k - 1)` taken at full width. -/
theorem repaired_mask {w : Nat} (hw : 8 ≤ w) (a : BitVec w) (k : Nat) (hk : k < 8) :
    (a &&& ~~~ ((BitVec.ofNat 8 (2 ^ k - 1)).setWidth w)).toNat = a.toNat / 2 ^ k * 2 ^ k := by
  apply Nat.eq_of_testBit_eq
  intro i
  rw [testBit_mul_pow, BitVec.testBit_toNat, BitVec.getLsbD_and, BitVec.getLsbD_not, BitVec.getLsbD_setWidth,
    ← BitVec.testBit_toNat (BitVec.ofNat 8 (2 ^ k - 1)), toNat_pow_sub k hk, Nat.testBit_two_pow_sub_one,
    BitVec.testBit_toNat]
  by_cases hi : i < w
  · by_cases h : k ≤ i
    · simp [hi, h, Nat.not_lt.2 h]
    · simp [hi, h, Nat.lt_of_not_le h]
  · simp [hi, BitVec.getLsbD_of_ge a i (by omega)]

/-- C98, C18 repaired: with the complement taken after widening, both functions are right at every width. -/
theorem C98_rounding (p : Profile) (w k : Nat) (hw : 8 ≤ w) (hk : k < 8) :
    RoundingSpecOf (fun a n => Repaired.roundDownN p a n) (fun a n => Repaired.roundUpN p a n) w k := by
  intro a
  have hpos : 0 < 2 ^ k := Nat.two_pow_pos k
  constructor
  · refine ⟨_, by show Repaired.roundDownN p a _ = _; unfold Repaired.roundDownN; rw [pow_sub_one p k hk]; rfl, ?_⟩
    rw [isFloorMultiple_iff hpos, repaired_mask hw a k hk]
  · intro hlt
    have hadd : addChk (ε := CompileError) p a ((BitVec.ofNat 8 (2 ^ k - 1)).setWidth w)
        = .ok (a + (BitVec.ofNat 8 (2 ^ k - 1)).setWidth w) := by
      unfold addChk
      rw [if_neg]
      rintro ⟨_, h⟩
      rw [setWidth_toNat _ w hw, toNat_pow_sub k hk] at h; omega
    refine ⟨_, by show Repaired.roundUpN p a _ = _; unfold Repaired.roundUpN; rw [pow_sub_one p k hk, Outcome.ok_bind, hadd]; rfl, ?_⟩
    rw [isCeilMultiple_iff hpos, repaired_mask hw _ k hk, BitVec.toNat_add, setWidth_toNat _ w hw,
      toNat_pow_sub k hk, Nat.mod_eq_of_lt hlt]

example : Repaired.roundUpN .debug (1000#64) 16#8 = .ok 1008#64 ∧
    Rescan.roundUpN .debug (1000#64) 16#8 = .ok 240#64 := by decide

/-! ## C22: `Ue2Literal::eq` -/

/-- C22's full statement about an equality test. -/
def EqAgreesWithCmpOf (eq : Ue2Literal → Ue2Literal → Bool) : Prop :=
  ∀ a b : Ue2Literal, eq a b = true ↔ a.cmp b = .eq

example : EqAgreesWithCmpOf Ue2Literal.eq ↔ Ue2Literal.EqAgreesWithCmp := Iff.rfl

/-- C98, C22 repaired: comparing the case flags too makes `==` agree with the ordering. -/
theorem C98_literal_eq : EqAgreesWithCmpOf literalEq := by
  intro a b
  rw [(Ue2Literal.C22_total_order a b b).1]
  unfold literalEq
  cases a; cases b; simp

example : literalEq ⟨[0x41#8], [false]⟩ ⟨[0x41#8], [true]⟩ = false ∧
    literalEq ⟨[0x41#8], [true]⟩ ⟨[0x41#8], [true]⟩ = true := by decide

/-! ## C60: `describe_range` -/

/-- C60's full statement about a function. -/
def DescribeRangeTerminatesOf (f : Nat → U8 → U8 → CcOutput → Res Str) : Prop :=
  ∀ (c1 c2 : U8) (out : CcOutput), c1 ≤ c2 → ∃ fuel s, f fuel c1 c2 out = .ok s

example (p : Profile) : DescribeRangeTerminatesOf (Dump.describeRange p) ↔ Dump.DescribeRangeTerminates p := Iff.rfl

theorem repaired_rangeLoop (p : Profile) (out : CcOutput) (c2 : U8) : ∀ (k fuel : Nat) (c1 : U8),
    c1.toNat + k = c2.toNat → k < fuel → ∃ s, Repaired.rangeLoop p out c2 fuel c1 = .ok s := by
  intro k
  induction k with
  | zero =>
    intro fuel c1 h hf
    obtain ⟨f, rfl⟩ : ∃ f, fuel = f + 1 := ⟨fuel - 1, by omega⟩
    exact ⟨_, by unfold Repaired.rangeLoop; rw [if_pos (by rw [← BitVec.toNat_inj]; omega)]⟩
  | succ k ih =>
    intro fuel c1 h hf
    obtain ⟨f, rfl⟩ : ∃ f, fuel = f + 1 := ⟨fuel - 1, by omega⟩
    have := c2.isLt
    obtain ⟨s, hs⟩ := ih f (c1 + 1#8) (by rw [BitVec.toNat_add]; simp; omega) (by omega)
    refine ⟨Dump.describeChar c1 out ++ s, ?_⟩
    unfold Repaired.rangeLoop
    rw [if_neg (by rw [← BitVec.toNat_inj]; omega)]
    have : addChk (ε := CompileError) p c1 1#8 = .ok (c1 + 1#8) := by
      unfold addChk; rw [if_neg]; rintro ⟨_, h'⟩; simp at h'; omega
    rw [this, Outcome.ok_bind, hs]; rfl

/-- C98, C60 repaired: with the test before the increment `describe_range` returns for every range. -/
theorem C98_describe_range (p : Profile) : DescribeRangeTerminatesOf (Repaired.describeRange p) := by
  intro c1 c2 out h
  unfold Repaired.describeRange
  by_cases e : c1 = c2
  · exact ⟨0, _, by rw [if_pos e]⟩
  · rw [BitVec.le_def] at h
    obtain ⟨s, hs⟩ := repaired_rangeLoop p out c2 (c2.toNat - c1.toNat) (c2.toNat - c1.toNat + 1) c1 (by omega) (by omega)
    refine ⟨c2.toNat - c1.toNat + 1, ?_⟩
    have : subChk (ε := CompileError) p c2 c1 = .ok (c2 - c1) := by
      unfold subChk; rw [if_neg]; rintro ⟨_, h'⟩; omega
    rw [if_neg e, this, Outcome.ok_bind]
    by_cases h4 : c2 - c1 < 4#8
    · rw [if_pos h4]; exact ⟨s, hs⟩
    · rw [if_neg h4]; exact ⟨_, rfl⟩

example : Repaired.describeRange .release 4 0xfe#8 0xff#8 .text = .ok "\\xfe\\xff".toList := by decide +kernel

/-! ## C65: the message of a SINGLEMATCH conflict -/

namespace ReportManager

/-- Registering every entry of `es` with `f`, ignoring the results. -/
def regAll (f : ReportManager → Nat → ExternalReportInfo → ReportManager × Except CompileError Unit) :
    ReportManager → List (Nat × ExternalReportInfo) → ReportManager
  | rm, [] => rm
  | rm, e :: es => regAll f (f rm e.1 e.2).1 es

/-- C65's full statement about a function. -/
def ConflictMessageTruthfulOf
    (f : ReportManager → Nat → ExternalReportInfo → ReportManager × Except CompileError Unit) : Prop :=
  ∀ (g : Grey) (es : List (Nat × ExternalReportInfo)) (id : Nat) (ext old : ExternalReportInfo) (e : CompileError),
    firstFor es id = some old → (f (regAll f (new g) es) id ext).2 = .error e →
    e.reason = truthfulMessage id ext old

theorem regAll_eq : ∀ (es : List (Nat × ExternalReportInfo)) (rm : ReportManager),
    regAll ReportManager.registerExtReport rm es = (runReg rm es).1 := by
  intro es
  induction es with
  | nil => intro rm; rfl
  | cons e es ih => intro rm; unfold regAll runReg; rw [ih]

example : ConflictMessageTruthfulOf ReportManager.registerExtReport ↔ ConflictMessageTruthful := by
  unfold ConflictMessageTruthfulOf ConflictMessageTruthful
  simp only [regAll_eq]

/-- The repaired function leaves the manager the code's leaves. -/
theorem repaired_register_fst (rm : ReportManager) (id : Nat) (ext : ExternalReportInfo) :
    (Repaired.registerExtReport rm id ext).1 = (rm.registerExtReport id ext).1 := by
  unfold Repaired.registerExtReport ReportManager.registerExtReport
  cases alookup rm.externalIdMap id with
  | none => rfl
  | some eri =>
    simp only
    by_cases h : eri.highlander ≠ ext.highlander
    · rw [if_pos h, if_pos h]
    · rw [if_neg h, if_neg h]

theorem repaired_regAll : ∀ (es : List (Nat × ExternalReportInfo)) (rm : ReportManager),
    regAll Repaired.registerExtReport rm es = (runReg rm es).1 := by
  intro es
  induction es with
  | nil => intro rm; rfl
  | cons e es ih => intro rm; unfold regAll runReg; rw [ih, repaired_register_fst]

/-- C98, C65 repaired: with the last clause the right way round the message is true. -/
theorem C98_conflict_message : ConflictMessageTruthfulOf Repaired.registerExtReport := by
  intro g es id ext old e h1 h2
  rw [repaired_regAll] at h2
  have h3 : alookup (runReg (new g) es).1.externalIdMap id = some old := by
    rw [C25_first_recorded, h1]
  unfold Repaired.registerExtReport at h2
  rw [h3] at h2
  simp only at h2
  by_cases h : old.highlander ≠ ext.highlander
  · rw [if_pos h] at h2
    injection h2 with h2
    rw [← h2]; rfl
  · rw [if_neg h] at h2; cases h2

example : ∃ e, (Repaired.registerExtReport (regAll Repaired.registerExtReport (new Grey.default) [(4, ⟨true, 0⟩)]) 4
    ⟨false, 1⟩).2 = .error e ∧ e.reason = truthfulMessage 4 ⟨false, 1⟩ ⟨true, 0⟩ :=
  ⟨_, rfl, C98_conflict_message Grey.default [(4, ⟨true, 0⟩)] 4 ⟨false, 1⟩ ⟨true, 0⟩ _ (by decide) rfl⟩

/-- C98, and nothing but the message changes: the report manager is left in the same state, and the same
registrations are rejected, at the same expression. -/
theorem C98_conflict_message_same (rm : ReportManager) (id : Nat) (ext : ExternalReportInfo) :
    (Repaired.registerExtReport rm id ext).1 = (rm.registerExtReport id ext).1 ∧
    ((Repaired.registerExtReport rm id ext).2 = .ok () ↔ (rm.registerExtReport id ext).2 = .ok ()) ∧
    ∀ e e', (Repaired.registerExtReport rm id ext).2 = .error e → (rm.registerExtReport id ext).2 = .error e' →
      e.index = e'.index ∧ e.kind = e'.kind := by
  unfold Repaired.registerExtReport registerExtReport
  simp only
  cases alookup rm.externalIdMap id with
  | none => exact ⟨rfl, Iff.rfl, fun e e' h => by cases h⟩
  | some eri =>
    simp only
    by_cases h : eri.highlander ≠ ext.highlander
    · rw [if_pos h, if_pos h]
      refine ⟨rfl, ⟨(fun h => by cases h), (fun h => by cases h)⟩, fun e e' h h' => ?_⟩
      injection h with h
      injection h' with h'
      subst h
      subst h'
      exact ⟨rfl, rfl⟩
    · rw [if_neg h, if_neg h]
      exact ⟨rfl, Iff.rfl, fun e e' h => by cases h⟩

example : ((Repaired.registerExtReport (regAll Repaired.registerExtReport (new Grey.default) [(4, ⟨true, 0⟩)]) 4
    ⟨false, 1⟩).2 matches .error _) = true := rfl

end ReportManager

/-! ## C42: epsilons from start -/

/-- C42's refuted statement about a function: from start, only epsilons that are caret flavoured stay. -/
def OnlyCaretEpsilonsOf
    (f : GlushkovBuildState → PositionInfo → List PositionInfo → Outcome Empty (List PositionInfo)) : Prop :=
  ∀ (bs : GlushkovBuildState) (from_ : PositionInfo) (tolist out : List PositionInfo),
    from_.pos = bs.startState → from_.pos ≠ bs.startDotStarState → f bs from_ tolist = .ok out →
    ∀ e ∈ out, e.pos = 2 ^ 32 - 2 → e.flags.contains .NOFLOAT = true

example : ¬ OnlyCaretEpsilonsOf GlushkovBuildState.filterEdges := C42_false

/-- C98, C42 repaired. -/
theorem C98_filter_edges : OnlyCaretEpsilonsOf Repaired.filterEdges := by
  intro bs from_ tolist out h1 h2 h3 e he hp
  unfold Repaired.filterEdges at h3
  rw [if_neg h2, if_pos h1] at h3
  obtain ⟨af, _, h4⟩ := bind_eq_ok h3
  injection h4 with h4
  have : e ∈ tolist.filter (fun e => e.pos != GlushkovBuildState.posEpsilon || e.flags.contains .NOFLOAT) := by
    rw [← h4] at he
    split at he
    · exact (List.mem_filter.1 (List.mem_filter.1 he).1).1
    · exact (List.mem_filter.1 he).1
  have h5 := (List.mem_filter.1 this).2
  rw [hp] at h5
  simpa [GlushkovBuildState.posEpsilon] using h5

/-- C98, and nothing but these epsilons changes: what leaves other vertices than start is filtered as
before, and so are the targets from start other than epsilon. -/
theorem C98_filter_edges_same (bs : GlushkovBuildState) (from_ : PositionInfo) (tolist : List PositionInfo) :
    (from_.pos ≠ bs.startState ∨ from_.pos = bs.startDotStarState →
      Repaired.filterEdges (ε := Empty) bs from_ tolist = bs.filterEdges from_ tolist) ∧
    ((∀ e ∈ tolist, e.pos ≠ 2 ^ 32 - 2) →
      Repaired.filterEdges (ε := Empty) bs from_ tolist = bs.filterEdges from_ tolist) := by
  unfold Repaired.filterEdges GlushkovBuildState.filterEdges
  constructor
  · intro h
    by_cases h2 : from_.pos = bs.startDotStarState
    · rw [if_pos h2, if_pos h2]
    · rw [if_neg h2, if_neg h2]
      have h1 : from_.pos ≠ bs.startState := h.resolve_right h2
      rw [if_neg h1, if_neg h1]
  · intro h
    have e : tolist.filter (fun e => e.pos != GlushkovBuildState.posEpsilon || e.flags.contains .NOFLOAT) =
        tolist.filter (fun e => e.pos != GlushkovBuildState.posEpsilon || e.flags.isEmpty) := by
      apply List.filter_congr
      intro x hx
      have : (x.pos != GlushkovBuildState.posEpsilon) = true := by
        rw [bne_iff_ne]; exact h x hx
      rw [this, Bool.true_or, Bool.true_or]
    simp only [e]

example : (∀ e ∈ [(⟨7, .NOFLOAT⟩ : PositionInfo), ⟨8, .MUST_FLOAT⟩], e.pos ≠ 2 ^ 32 - 2) := by decide

/-! ## C32, C33: the parser -/

/-- The context with every recorded offset negated modulo 2^64. -/
def Context.negated (c : Context) : Context :=
  { c with sequences := c.sequences.map (fun s => { s with offset := (2 ^ 64 - s.offset) % 2 ^ 64 }) }

/-- A panic of the code becomes the error for unsupported characters; contexts are negated. -/
def repairedOutcome : Res Context → Res Context
  | .ok d => .ok d.negated
  | .err e => .err e
  | .panic _ => .err (CompileError.new .locatedParse "Unsupported character")
  | .timeout => .timeout

theorem negate_offsetOf (n l : Nat) (h : n ≤ l) (hl : l < 2 ^ 64) :
    (2 ^ 64 - Context.offsetOf n l) % 2 ^ 64 = l - n := by
  unfold Context.offsetOf
  split
  · have : n - l = 0 := by omega
    rw [this]
    have : l - n = 0 := by omega
    rw [this]
  · rw [Nat.mod_eq_of_lt (by omega)]; omega

theorem repaired_main (pr : Profile) (c : Context) (a : Char) (cs : Str) (h1 : utf8Len (a :: cs) ≤ c.ptrLen)
    (h2 : c.ptrLen < 2 ^ 64) (h3 : c.groupIndex + 1 < 2 ^ 32) :
    Repaired.main pr c.negated (a :: cs) = repairedOutcome (c.main .release (a :: cs)) ∧
    ∀ d, c.main .release (a :: cs) = .ok d → d.p = cs ∧ d.ptrLen = c.ptrLen ∧ d.groupIndex ≤ c.groupIndex + 1 := by
  by_cases ho : a = '('
  · subst ho
    rw [Context.main_open_release c cs (by omega)]
    refine ⟨?_, ?_⟩
    · show (Repaired.pushSequence pr c.negated ('(' :: cs)).bind _ = _
      unfold Repaired.pushSequence Context.u32Incr
      have e1 : c.negated.groupIndex = c.groupIndex := rfl
      rw [e1, if_pos h3, Outcome.ok_bind]
      have e2 : c.negated.ptrLen = c.ptrLen := rfl
      unfold Context.usizeSub
      rw [e2, if_pos h1, Outcome.ok_bind]
      show Outcome.ok _ = Outcome.ok _
      congr 1
      simp only [Context.negated, Context.opened, List.map_cons, negate_offsetOf _ _ h1 h2, Nat.mod_eq_of_lt h3]
    · intro d hd
      injection hd with hd
      subst hd
      exact ⟨rfl, rfl, Nat.mod_le _ _⟩
  · by_cases hc : a = ')'
    · subst hc
      cases hs : c.sequences with
      | nil =>
        rw [Context.main_close_nil .release c cs hs]
        refine ⟨?_, fun d hd => by cases hd⟩
        show (Context.popSequence c.negated).bind _ = _
        have : c.negated.sequences = [] := by simp [Context.negated, hs]
        unfold Context.popSequence
        rw [this]; rfl
      | cons v rest =>
        rw [Context.main_close_cons .release c cs v rest hs]
        refine ⟨?_, fun d hd => ?_⟩
        · show (Context.popSequence c.negated).bind _ = _
          have : c.negated.sequences = { v with offset := (2 ^ 64 - v.offset) % 2 ^ 64 } ::
              rest.map (fun s => { s with offset := (2 ^ 64 - s.offset) % 2 ^ 64 }) := by
            simp [Context.negated, hs]
          unfold Context.popSequence
          rw [this]; rfl
        · injection hd with hd
          subst hd
          exact ⟨rfl, rfl, Nat.le_succ _⟩
    · by_cases hb : a = '|'
      · subst hb
        rw [Context.main_bar]
        refine ⟨rfl, fun d hd => ?_⟩
        injection hd with hd
        subst hd
        exact ⟨rfl, rfl, Nat.le_succ _⟩
      · by_cases ha : a.toNat < 128
        · have hl := getLiteralComponentClass_ascii a c.mode.caseless (by omega)
          have he : addLiteral c.currentSeq a c.mode
              = .ok (c.currentSeq.addComponent (.cls (litClass c.mode.caseless a))) := by
            unfold addLiteral; rw [hl]; rfl
          rw [Context.main_lit .release c a cs (by unfold special; simp [ho, hc, hb]) ha]
          refine ⟨?_, fun d hd => ?_⟩
          · unfold Repaired.main
            split
            · next h => injection h with h _; exact absurd h ho
            · next h => injection h with h _; exact absurd h hc
            · next h => injection h with h _; exact absurd h hb
            · next c' p' h1 h2 h3 h =>
              injection h with h4 h5
              subst h4; subst h5
              rw [if_pos ha]
              have : addLiteral c.negated.currentSeq a c.negated.mode
                  = .ok (c.currentSeq.addComponent (.cls (litClass c.mode.caseless a))) := he
              rw [this]; rfl
            · next h => cases h
          · injection hd with hd
            subst hd
            exact ⟨rfl, rfl, Nat.le_succ _⟩
        · have hm := Context.main_nonascii .release c a cs ha
          obtain ⟨m, hm⟩ : ∃ m, c.main .release (a :: cs) = .panic m := by
            cases hr : c.main .release (a :: cs) with
            | panic m => exact ⟨m, rfl⟩
            | ok d => rw [hr] at hm; cases hm
            | err e => rw [hr] at hm; cases hm
            | timeout => rw [hr] at hm; cases hm
          rw [hm]
          refine ⟨?_, fun d hd => by cases hd⟩
          unfold Repaired.main
          split
          · next h => injection h with h _; exact absurd h ho
          · next h => injection h with h _; exact absurd h hc
          · next h => injection h with h _; exact absurd h hb
          · next c' p' h1 h2 h3 h =>
            injection h with h4 h5
            subst h4; subst h5
            rw [if_neg ha]; rfl
          · next h => cases h

theorem repaired_loop (pr : Profile) : ∀ (s : Str) (c : Context) (n : Nat), c.p = s → s.length ≤ n →
    utf8Len s ≤ c.ptrLen → c.ptrLen < 2 ^ 64 → c.groupIndex + s.length < 2 ^ 32 →
    Repaired.mainLoop pr n c.negated = repairedOutcome (Context.loop .release s c) := by
  intro s
  induction s with
  | nil =>
    intro c n h _ _ _ _
    have : c.negated.p.isEmpty = true := by simp [Context.negated, h]
    unfold Repaired.mainLoop
    rw [if_pos this]; rfl
  | cons a cs ih =>
    intro c n h hn hl hp hg
    cases n with
    | zero => simp at hn
    | succ n =>
      have hne : ¬ c.negated.p.isEmpty = true := by simp [Context.negated, h]
      simp only [List.length_cons] at hg hn
      obtain ⟨h1, h2⟩ := repaired_main pr c a cs hl hp (by omega)
      have e : c.negated.p = a :: cs := h
      unfold Repaired.mainLoop Context.loop
      rw [if_neg hne]
      show (Repaired.main pr c.negated c.negated.p).bind _ = _
      rw [e, h1]
      cases hm : c.main .release (a :: cs) with
      | ok d =>
        obtain ⟨g1, g2, g3⟩ := h2 d hm
        have := Context.utf8Len_lt_cons a cs
        exact ih d n g1 (by omega) (by omega) (by omega) (by omega)
      | err x => rfl
      | panic m => rfl
      | timeout => rfl

/-- The repaired parser on a pattern of fewer than `u32::MAX` bytes with body `body`. -/
theorem repaired_parse {ptr body : Str} (hb : IsBody ptr body) (mode : ParseMode) (hl : utf8Len ptr < 2 ^ 32 - 1) :
    ∃ m, readControlVerbs ptr 0 mode = .ok (body, m) ∧ ∀ pr, Repaired.parse pr ptr mode =
      (repairedOutcome (Context.loop .release body (Context.new ptr body m))).bind
        (fun d => d.finish.bind (fun s => .ok (.sequence s, m))) := by
  obtain ⟨m, _, hm, _⟩ := parse_isBody hb .release mode
  obtain ⟨v, hv, hv0⟩ := isBody_len hb
  refine ⟨m, hm, fun pr => ?_⟩
  have hlen : utf8Len body ≤ utf8Len ptr := by rw [hv, Context.utf8Len_append]; omega
  have hg : 1 + body.length < 2 ^ 32 := by have := length_le_utf8Len body; omega
  unfold Repaired.parse
  rw [hm, Outcome.ok_bind]
  show (Repaired.mainLoop pr body.length (Context.new ptr body m).negated).bind _ = _
  rw [repaired_loop pr body (Context.new ptr body m) body.length rfl (Nat.le_refl _) hlen
    (by show utf8Len ptr < _; omega) hg]
  rfl

/-- Without a body the control verb is refused. -/
theorem noBody_err {ptr : Str} (h : ¬ ∃ body, IsBody ptr body) (mode : ParseMode) :
    ∃ e, readControlVerbs ptr 0 mode = .err e := by
  have hnv : ¬ NoVerb ptr := fun hn => h ⟨ptr, .inl ⟨hn, rfl⟩⟩
  obtain ⟨v, rest, hv⟩ : ∃ v rest, HasVerb ptr v rest := by
    cases hc : controlVerb ptr with
    | none => exact absurd (controlVerb_none.1 hc) hnv
    | some x => exact ⟨x.2, x.1, controlVerb_some.1 hc⟩
  have ha : ¬ AcceptedVerb v := fun ha => h ⟨rest, .inr ⟨v, hv, ha⟩⟩
  have h27 := (C27_control_verbs ptr 0 mode).2 v rest hv
  by_cases hr : RefusedVerb v
  · exact ⟨_, h27.2.1 hr⟩
  · exact ⟨_, h27.2.2 ha hr⟩

/-- C98, C33 repaired: the repaired parser does not panic (and ends), in both profiles, on any pattern of
fewer than `u32::MAX` bytes (beyond that the group counter, a `u32`, can overflow). -/
theorem C98_parse_no_panic (pr : Profile) (ptr : Str) (mode : ParseMode) (hl : utf8Len ptr < 2 ^ 32 - 1) :
    (Repaired.parse pr ptr mode).isPanic = false ∧ Repaired.parse pr ptr mode ≠ .timeout := by
  by_cases hex : ∃ body, IsBody ptr body
  · obtain ⟨body, hb⟩ := hex
    obtain ⟨m, _, h⟩ := repaired_parse hb mode hl
    rw [h pr]
    cases hr : Context.loop .release body (Context.new ptr body m) with
    | err e => exact ⟨rfl, by intro h; cases h⟩
    | panic e => exact ⟨rfl, by intro h; cases h⟩
    | timeout => exact absurd hr (Context.loop_ne_timeout _ _ _)
    | ok d =>
      show ((d.negated.finish).bind _).isPanic = false ∧ (d.negated.finish).bind _ ≠ _
      unfold Context.finish
      split
      · exact ⟨rfl, by intro h; cases h⟩
      · exact ⟨rfl, by intro h; cases h⟩
  · obtain ⟨e, he⟩ := noBody_err hex mode
    unfold Repaired.parse
    rw [he]
    exact ⟨rfl, by intro h; cases h⟩

example := C98_parse_no_panic .debug "(*UCP)a(é".toList ParseMode.default (by decide +kernel)

/-- C98: on the patterns the code (release build) accepts the repaired parser gives the same tree, and it
accepts no others. -/
theorem C98_parse_same (pr : Profile) (ptr : Str) (mode : ParseMode) (hl : utf8Len ptr < 2 ^ 32 - 1)
    (t : Component × ParseMode) :
    Repaired.parse pr ptr mode = .ok t ↔ parse .release ptr mode = .ok t := by
  by_cases hex : ∃ body, IsBody ptr body
  · obtain ⟨body, hb⟩ := hex
    obtain ⟨m, hm, h⟩ := repaired_parse hb mode hl
    have h' : parse .release ptr mode = (Context.loop .release body (Context.new ptr body m)).bind
        (fun d => d.finish.bind (fun s => .ok (.sequence s, m))) := by
      unfold parse
      rw [hm, Outcome.ok_bind]
      show ((Context.new ptr body m).parse .release).bind _ = _
      rw [Context.parse_eq, obind_assoc]; rfl
    rw [h pr, h']
    cases Context.loop .release body (Context.new ptr body m) with
    | err e => exact Iff.rfl
    | panic e => exact ⟨(fun h => by cases h), (fun h => by cases h)⟩
    | timeout => exact Iff.rfl
    | ok d =>
      show (d.negated.finish).bind _ = _ ↔ (d.finish).bind _ = _
      unfold Context.finish
      cases hs : d.sequences with
      | nil =>
        have : d.negated.sequences = [] := by simp [Context.negated, hs]
        rw [this]; exact Iff.rfl
      | cons v rest =>
        have : ∃ v' r', d.negated.sequences = v' :: r' := by simp [Context.negated, hs]
        obtain ⟨v', r', h2⟩ := this
        rw [h2]
        exact ⟨(fun h => by cases h), (fun h => by cases h)⟩
  · obtain ⟨e, he⟩ := noBody_err hex mode
    unfold Repaired.parse parse
    rw [he]; exact Iff.rfl

/-- Release build, ASCII, too few `)`: the stack when the input is used up. -/
theorem loop_missing (ptr pre post : Str) (mode : ParseMode) (ha : IsAscii (pre ++ '(' :: post))
    (hp : PrefixOk 0 (pre ++ '(' :: post)) (hb : Balanced post) :
    ∃ d v rest, Context.loop .release (pre ++ '(' :: post) (Context.new ptr (pre ++ '(' :: post) mode) = .ok d ∧
      d.sequences = v :: rest ∧ v.offset = Context.offsetOf (utf8Len ('(' :: post)) (utf8Len ptr) := by
  have ha' := Context.isAscii_append.1 ha
  obtain ⟨ctx, h1, h2, h3, h4⟩ := Context.loop_ok pre (Context.new ptr (pre ++ '(' :: post) mode) ('(' :: post)
    ha'.1 (prefixOk_left hp) (by simp [Context.new])
  rw [h1, Context.loop_cons, Context.main_open_release ctx _ h3]
  obtain ⟨a, hw, rfl⟩ := exists_tree post hb
  have h5 : ∀ x, Context.loop .release (a.print ++ []) (ctx.opened a.print x) = _ := fun x =>
    Context.loop_alts a (ctx.opened a.print x) ((ctx.groupIndex + 1)) [] hw (Context.isAscii_cons.1 ha'.2).2
    (by simp [Context.opened]) rfl
  simp only [List.append_nil] at h5
  simp only [Outcome.bind, h5]
  have e2 : ctx.ptrLen = utf8Len ptr := h4
  rw [e2]
  exact ⟨_, _, _, rfl, rfl, rfl⟩

/-- C32's refuted statement about a parser, for patterns of fewer than `limit` bytes. -/
def IndexReportedOf (f : Str → ParseMode → Res (Component × ParseMode)) (limit : Nat) : Prop :=
  ∀ (ptr pre post : Str) (mode : ParseMode), utf8Len ptr < limit → IsBody ptr (pre ++ '(' :: post) →
    IsAscii (pre ++ '(' :: post) → PrefixOk 0 (pre ++ '(' :: post) → Balanced post →
    f ptr mode = .err ⟨.parse,
      "Missing close parenthesis for group started at index "
        ++ toString (utf8Len ptr - utf8Len ('(' :: post)) ++ ".", none⟩

example : ¬ ∀ limit, IndexReportedOf (parse .release) limit := fun h => C32_false fun ptr pre post mode h1 h2 h3 h4 =>
  h (utf8Len ptr + 1) ptr pre post mode (Nat.lt_succ_self _) h1 h2 h3 h4

/-- C98, C32 repaired: with the subtraction the right way round the message names the innermost open group,
in both profiles. -/
theorem C98_parse_index (pr : Profile) : IndexReportedOf (Repaired.parse pr) (2 ^ 32 - 1) := by
  intro ptr pre post mode hl hb ha hp hbal
  obtain ⟨m, hm, h⟩ := repaired_parse hb mode hl
  rw [h pr]
  obtain ⟨v, hv, _⟩ := isBody_len hb
  have hlen : utf8Len ('(' :: post) ≤ utf8Len ptr := by
    rw [hv, Context.utf8Len_append, Context.utf8Len_append]; omega
  obtain ⟨d, w, rest, h1, h2, h3⟩ := loop_missing ptr pre post m ha hp hbal
  rw [h1]
  show (d.negated.finish).bind _ = _
  have : d.negated.sequences = { w with offset := (2 ^ 64 - w.offset) % 2 ^ 64 } ::
      rest.map (fun s => { s with offset := (2 ^ 64 - s.offset) % 2 ^ 64 }) := by
    simp [Context.negated, h2]
  unfold Context.finish
  rw [this]
  simp only [h3, negate_offsetOf _ _ hlen (Nat.lt_trans hl (by decide))]
  rfl

example : (match Repaired.parse .debug "(*UCP)a(b".toList ParseMode.default with
    | .err e => e.reason
    | _ => "") = "Missing close parenthesis for group started at index 7." ∧
    (Repaired.parse .debug "a(é)".toList ParseMode.default).isPanic = false ∧
    (Repaired.parse .debug "a()".toList ParseMode.default).isOk = true := by
  decide +kernel

/-! ## C50: every expression is looked at -/

/-- C50's full statement about a function. -/
def EveryExpressionCheckedOf (f : Profile → List Str → List Flags → List Nat → Mode → Res Database) : Prop :=
  ∀ (p : Profile) (es : List Str) (fs : List Flags) (ids : List Nat) (mode : Mode),
    (f p es fs ids mode).isOk = true → ∀ t ∈ es, Acceptable p t

example : EveryExpressionCheckedOf compileMulti ↔ EveryExpressionChecked := Iff.rfl

/-- C98, C50 repaired: with a check of the lengths every expression is looked at. -/
theorem C98_lengths :
    EveryExpressionCheckedOf (fun p es fs ids mode => compileChecked p es fs ids mode Grey.default) := by
  intro p es fs ids mode h t ht
  unfold compileChecked at h
  by_cases hl : fs.length ≠ es.length ∨ ids.length ≠ es.length
  · simp only [if_pos hl] at h; cases h
  · simp only [if_neg hl] at h
    obtain ⟨i, hi, rfl⟩ := List.mem_iff_getElem.1 ht
    have h1 : i < fs.length := by omega
    have h2 : i < ids.length := by omega
    exact (C50_checked_partial p es fs ids mode Grey.default sane_default h i es[i] fs[i] ids[i]
      (List.getElem?_eq_getElem hi) (List.getElem?_eq_getElem h1) (List.getElem?_eq_getElem h2)).2.2

/-! ## C52: the mode -/

/-- C52's full statement about a function. -/
def ModeRecordedOf (f : Profile → List Str → List Flags → List Nat → Mode → Res Database) : Prop :=
  ∀ (p : Profile) (es : List Str) (fs : List Flags) (ids : List Nat) (mode : Mode) (db : Database),
    f p es fs ids mode = .ok db → db.rose.mode = mode

example : ModeRecordedOf compileMulti ↔ ModeRecorded := Iff.rfl

/-- C98, C52 repaired: recording the mode itself.  Nothing else about the result changes. -/
theorem C98_mode : ModeRecordedOf (fun p es fs ids mode => compileWithMode p es fs ids mode Grey.default) ∧
    ∀ (p : Profile) (es : List Str) (fs : List Flags) (ids : List Nat) (mode : Mode) (g : Grey),
      compileWithMode p es fs ids mode g =
        (compileMultiInt p es fs ids mode g).bind (fun db => .ok ⟨{ db.rose with mode := mode }⟩) := by
  have key : ∀ (p : Profile) (es : List Str) (fs : List Flags) (ids : List Nat) (mode : Mode) (g : Grey),
      compileWithMode p es fs ids mode g =
        (compileMultiInt p es fs ids mode g).bind (fun db => .ok ⟨{ db.rose with mode := mode }⟩) := by
    intro p es fs ids mode g
    show (compileNg p es fs ids mode g).bind _ = ((compileNg p es fs ids mode g).bind _).bind _
    cases compileNg p es fs ids mode g <;> rfl
  refine ⟨?_, key⟩
  intro p es fs ids mode db h
  obtain ⟨_, _, h2⟩ := bind_eq_ok h
  injection h2 with h2
  rw [← h2]

example : compileWithMode .release ["a".toList] [Flags.empty] [0] (.stream (some .small)) Grey.default
    = .ok ⟨⟨.fullRose, .stream (some .small)⟩⟩ := by decide +kernel

example : (compileChecked .release ["a".toList, "b".toList] [Flags.empty, Flags.empty] [0, 1] .block Grey.default).isOk
      = true ∧
    (compileChecked .release ["a".toList, ")".toList] [Flags.empty] [0, 1] .block Grey.default).isOk = false := by
  decide +kernel

end Rescan
