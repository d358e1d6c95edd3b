import Verif.Model.Compiler
import Verif.Spec.Agree
/-! # Debug and release builds agree unless the debug build panics -/
namespace Rescan
open Spec

variable {ε α β σ : Type}

theorem agrees_refl (x : Outcome ε α) : ProfilesAgree x x := Or.inr rfl

theorem agrees_panic (m : String) (x : Outcome ε α) : ProfilesAgree (.panic m) x := Or.inl rfl

theorem agrees_bind {d r : Outcome ε α} {f g : α → Outcome ε β} (h : ProfilesAgree d r)
    (hf : ∀ a, ProfilesAgree (f a) (g a)) : ProfilesAgree (d >>= f) (r >>= g) := by
  rcases h with h | rfl
  · left
    cases d <;> simp_all [Outcome.isPanic, Bind.bind, Outcome.bind]
  · cases d with
    | ok a => exact hf a
    | err e => exact agrees_refl _
    | panic m => exact agrees_panic _ _
    | timeout => exact agrees_refl _

theorem agrees_ite {c : Prop} [Decidable c] {a b a' b' : Outcome ε α} (h1 : c → ProfilesAgree a b)
    (h2 : ¬ c → ProfilesAgree a' b') : ProfilesAgree (if c then a else a') (if c then b else b') := by
  by_cases h : c
  · rw [if_pos h, if_pos h]; exact h1 h
  · rw [if_neg h, if_neg h]; exact h2 h

theorem agrees_rdebugAssert (b : Bool) (m : String) :
    ProfilesAgree (rdebugAssert (ε := ε) .debug b m) (rdebugAssert .release b m) := by
  cases b
  · exact agrees_panic _ _
  · exact agrees_refl _

theorem agrees_addChk {w : Nat} (a b : BitVec w) : ProfilesAgree (addChk (ε := ε) .debug a b) (addChk .release a b) := by
  unfold addChk
  by_cases h : 2 ^ w ≤ a.toNat + b.toNat
  · rw [if_pos ⟨rfl, h⟩]; exact agrees_panic _ _
  · rw [if_neg (fun x => h x.2), if_neg (fun x => h x.2)]; exact agrees_refl _

theorem agrees_subChk {w : Nat} (a b : BitVec w) : ProfilesAgree (subChk (ε := ε) .debug a b) (subChk .release a b) := by
  unfold subChk
  by_cases h : a.toNat < b.toNat
  · rw [if_pos ⟨rfl, h⟩]; exact agrees_panic _ _
  · rw [if_neg (fun x => h x.2), if_neg (fun x => h x.2)]; exact agrees_refl _

theorem agrees_usizeSub (a b : Nat) :
    ProfilesAgree (Context.usizeSub (ε := ε) .debug a b) (Context.usizeSub .release a b) := by
  unfold Context.usizeSub
  refine agrees_ite (fun _ => agrees_refl _) (fun _ => ?_)
  rw [if_pos rfl]; exact agrees_panic _ _

theorem agrees_u32Incr (a : Nat) :
    ProfilesAgree (Context.u32Incr .debug a) (Context.u32Incr .release a) := by
  unfold Context.u32Incr
  refine agrees_ite (fun _ => agrees_refl _) (fun _ => ?_)
  rw [if_pos rfl]; exact agrees_panic _ _

theorem agrees_shlOneChk (k : U8) :
    ProfilesAgree (CharReach.shlOneChk .debug k) (CharReach.shlOneChk .release k) := by
  unfold CharReach.shlOneChk
  by_cases h : 8 ≤ k.toNat
  · rw [if_pos ⟨rfl, h⟩]; exact agrees_panic _ _
  · rw [if_neg (fun x => h x.2), if_neg (fun x => h x.2)]; exact agrees_refl _

/-- Proves `ProfilesAgree` goals whose two sides differ in the profile only. -/
macro "agrees" : tactic => `(tactic| repeat' (first
  | (with_reducible exact agrees_refl _)
  | assumption
  | exact agrees_panic _ _
  | (with_reducible apply agrees_rdebugAssert)
  | (with_reducible apply agrees_addChk)
  | (with_reducible apply agrees_subChk)
  | (with_reducible apply agrees_usizeSub)
  | (with_reducible apply agrees_u32Incr)
  | (with_reducible apply agrees_shlOneChk)
  | (with_reducible refine agrees_bind ?_ (fun _ => ?_))
  | (with_reducible refine agrees_ite (fun _ => ?_) (fun _ => ?_))))

theorem agrees_foldlM {f g : σ → α → Outcome ε σ} (h : ∀ s a, ProfilesAgree (f s a) (g s a)) :
    ∀ (l : List α) (s : σ), ProfilesAgree (l.foldlM f s) (l.foldlM g s)
  | [], s => agrees_refl _
  | a :: l, s => by
    rw [List.foldlM_cons, List.foldlM_cons]
    exact agrees_bind (h s a) (fun s' => agrees_foldlM h l s')

/-! ## Byte sets -/

theorem agrees_roundUpN {w : Nat} (a : BitVec w) (n : U8) :
    ProfilesAgree (roundUpN .debug a n) (roundUpN .release a n) := by unfold roundUpN; agrees

theorem agrees_roundDownN {w : Nat} (a : BitVec w) (n : U8) :
    ProfilesAgree (roundDownN .debug a n) (roundDownN .release a n) := by unfold roundDownN; agrees

theorem agrees_roundUp16 {w : Nat} (a : BitVec w) :
    ProfilesAgree (roundUp16 .debug a) (roundUp16 .release a) := by unfold roundUp16; agrees

theorem agrees_roundUpCacheLine {w : Nat} (a : BitVec w) :
    ProfilesAgree (roundUpCacheLine .debug a) (roundUpCacheLine .release a) := by
  unfold roundUpCacheLine; agrees

theorem agrees_fillStep (bits : List U8) (pos : U8) :
    ProfilesAgree (CharReach.fillStep .debug bits pos) (CharReach.fillStep .release bits pos) := by
  unfold CharReach.fillStep; agrees

theorem agrees_fillBitvector (cr : CharReach) (bits : List U8) :
    ProfilesAgree (cr.fillBitvector .debug bits) (cr.fillBitvector .release bits) := by
  unfold CharReach.fillBitvector
  exact agrees_ite (fun _ => agrees_refl _) (fun _ => agrees_foldlM agrees_fillStep _ _)

theorem agrees_setRangeHead (b : BitField256) (i : Nat) :
    ProfilesAgree (b.setRangeHead .debug i) (b.setRangeHead .release i) := by
  unfold BitField256.setRangeHead
  have := agrees_roundUpN (BitVec.ofNat 64 i) 64#8
  agrees

theorem agrees_setRange (b : BitField256) (x y : U8) :
    ProfilesAgree (b.setRange .debug x y) (b.setRange .release x y) := by
  unfold BitField256.setRange
  have := agrees_setRangeHead b x.toNat
  agrees

theorem agrees_clearLowest : ∀ (k : Nat) (w : U64),
    ProfilesAgree (BitField256.clearLowest .debug k w) (BitField256.clearLowest .release k w)
  | 0, w => agrees_refl _
  | k + 1, w => by
    unfold BitField256.clearLowest
    refine agrees_bind (agrees_rdebugAssert _ _) (fun _ => agrees_bind (agrees_subChk _ _) (fun _ => ?_))
    exact agrees_clearLowest k _

theorem agrees_nthIn (b : BitField256) (n : Nat) : ∀ (l : List (Nat × U64)) (sum : Nat),
    ProfilesAgree (b.nthIn .debug n sum l) (b.nthIn .release n sum l)
  | [], sum => by unfold BitField256.nthIn; agrees
  | (i, w) :: l, sum => by
    unfold BitField256.nthIn
    have h1 := agrees_nthIn b n l (sum + countOnes w)
    have h2 := agrees_clearLowest (n - sum) w
    agrees

/-! ## Descriptions -/

theorem agrees_rangeLoop (out : CcOutput) (c2 : U8) : ∀ (fuel : Nat) (c1 : U8),
    ProfilesAgree (Dump.rangeLoop .debug out c2 fuel c1) (Dump.rangeLoop .release out c2 fuel c1)
  | 0, _ => agrees_refl _
  | fuel + 1, c1 => by
    unfold Dump.rangeLoop
    refine agrees_bind (agrees_addChk _ _) (fun c => ?_)
    have := agrees_rangeLoop out c2 fuel c
    agrees

theorem agrees_describeRange (fuel : Nat) (c1 c2 : U8) (out : CcOutput) :
    ProfilesAgree (Dump.describeRange .debug fuel c1 c2 out) (Dump.describeRange .release fuel c1 c2 out) := by
  unfold Dump.describeRange
  have := agrees_rangeLoop out c2 fuel c1
  agrees

theorem agrees_rangesLoop (fuel maxLen : Nat) (out : CcOutput) : ∀ (l : List U8) (cs cl : U8) (i : Nat)
    (acc : Str), ProfilesAgree (Dump.rangesLoop .debug fuel maxLen out cs cl i acc l)
      (Dump.rangesLoop .release fuel maxLen out cs cl i acc l)
  | [], cs, cl, i, acc => by
    unfold Dump.rangesLoop
    have := agrees_describeRange fuel cs cl out
    agrees
  | c :: l, cs, cl, i, acc => by
    unfold Dump.rangesLoop
    have h1 := agrees_describeRange fuel cs cl out
    have h2 := agrees_rangesLoop fuel maxLen out l cs c i acc
    refine agrees_ite (fun _ => agrees_bind h1 (fun d => ?_)) (fun _ => h2)
    exact agrees_ite (fun _ => agrees_refl _) (fun _ => agrees_rangesLoop fuel maxLen out l _ _ _ _)

theorem agrees_describeClassInt (fuel : Nat) (cr : CharReach) (maxLen : Nat) (out : CcOutput) :
    ProfilesAgree (Dump.describeClassInt .debug fuel cr maxLen out)
      (Dump.describeClassInt .release fuel cr maxLen out) := by
  unfold Dump.describeClassInt
  cases Dump.contiguousRange cr with
  | some x => exact agrees_bind (agrees_describeRange _ _ _ _) (fun _ => agrees_refl _)
  | none =>
    refine agrees_bind (agrees_refl _) (fun r => ?_)
    cases r with
    | inl s => exact agrees_refl _
    | inr t =>
      obtain ⟨acc, c, i⟩ := t
      refine agrees_ite (fun _ => agrees_refl _) (fun _ => ?_)
      cases c.memberSeq with
      | nil => exact agrees_refl _
      | cons x xs => exact agrees_rangesLoop _ _ _ _ _ _ _ _

theorem agrees_describeClass (fuel : Nat) (cr : CharReach) (maxLen : Nat) (out : CcOutput) :
    ProfilesAgree (Dump.describeClass .debug fuel cr maxLen out)
      (Dump.describeClass .release fuel cr maxLen out) := by
  unfold Dump.describeClass
  have h1 := agrees_describeClassInt fuel cr maxLen out
  have h2 := agrees_describeClassInt fuel cr.not maxLen out
  agrees

/-! ## Parsing and walking -/

theorem agrees_main (ctx : Context) (ts : Str) :
    ProfilesAgree (ctx.main .debug ts) (ctx.main .release ts) := by
  unfold Context.main
  split
  · unfold Context.pushSequence; agrees
  · agrees
  · agrees
  · refine agrees_bind (agrees_refl _) (fun _ => ?_)
    cases addLiteral ctx.currentSeq _ ctx.mode <;> agrees
  · agrees

theorem agrees_mainLoop : ∀ (fuel : Nat) (ctx : Context),
    ProfilesAgree (Context.mainLoop .debug fuel ctx) (Context.mainLoop .release fuel ctx)
  | 0, ctx => by
    unfold Context.mainLoop; agrees
  | fuel + 1, ctx => by
    unfold Context.mainLoop
    exact agrees_ite (fun _ => agrees_refl _) (fun _ =>
      agrees_bind (agrees_main ctx _) (fun c => agrees_mainLoop fuel c))

theorem agrees_parse (ptr : Str) (mode : ParseMode) :
    ProfilesAgree (parse .debug ptr mode) (parse .release ptr mode) := by
  unfold parse
  refine agrees_bind (agrees_refl _) (fun r => ?_)
  refine agrees_bind ?_ (fun _ => agrees_refl _)
  unfold Context.parse
  exact agrees_bind (agrees_mainLoop _ _) (fun _ => agrees_refl _)

/-- Two visitors whose methods agree. -/
structure VisitorsAgree (v w : Visitor ε σ) : Prop where
  preClass : ∀ s c, ProfilesAgree (v.preAsciiComponentClass s c) (w.preAsciiComponentClass s c)
  preAlt : ∀ s c, ProfilesAgree (v.preComponentAlternation s c) (w.preComponentAlternation s c)
  preSeq : ∀ s c, ProfilesAgree (v.preComponentSequence s c) (w.preComponentSequence s c)
  duringClass : ∀ s c, ProfilesAgree (v.duringAsciiComponentClass s c) (w.duringAsciiComponentClass s c)
  duringAlt : ∀ s c, ProfilesAgree (v.duringComponentAlternation s c) (w.duringComponentAlternation s c)
  duringSeq : ∀ s c, ProfilesAgree (v.duringComponentSequence s c) (w.duringComponentSequence s c)
  postClass : ∀ s c, ProfilesAgree (v.postAsciiComponentClass s c) (w.postAsciiComponentClass s c)
  postAlt : ∀ s c, ProfilesAgree (v.postComponentAlternation s c) (w.postComponentAlternation s c)
  postSeq : ∀ s c, ProfilesAgree (v.postComponentSequence s c) (w.postComponentSequence s c)

theorem VisitorsAgree.refl (v : Visitor ε σ) : VisitorsAgree v v :=
  ⟨fun _ _ => agrees_refl _, fun _ _ => agrees_refl _, fun _ _ => agrees_refl _,
   fun _ _ => agrees_refl _, fun _ _ => agrees_refl _, fun _ _ => agrees_refl _,
   fun _ _ => agrees_refl _, fun _ _ => agrees_refl _, fun _ _ => agrees_refl _⟩

mutual
theorem agrees_walk {v w : Visitor ε σ} (h : VisitorsAgree v w) : ∀ (c : Component) (s : σ),
    ProfilesAgree (walkComponent .debug v s c) (walkComponent .release w s c)
  | .alternation (.mk cs), s => by
    unfold walkComponent walkComponentAlternation
    exact agrees_bind (h.preAlt _ _) (fun s => agrees_bind (agrees_walkSeqs h _ cs s) (fun s => h.postAlt _ _))
  | .cls (.ascii c), s => by
    unfold walkComponent walkComponentClass
    exact agrees_bind (h.preClass _ _) (fun s => agrees_bind (h.duringClass _ _) (fun s => h.postClass _ _))
  | .sequence c, s => by
    unfold walkComponent
    exact agrees_walkSeq h c s
theorem agrees_walkSeq {v w : Visitor ε σ} (h : VisitorsAgree v w) : ∀ (c : ComponentSequence) (s : σ),
    ProfilesAgree (walkComponentSequence .debug v s c) (walkComponentSequence .release w s c)
  | .mk cs a i n, s => by
    unfold walkComponentSequence
    exact agrees_bind (agrees_rdebugAssert _ _) (fun _ => agrees_bind (h.preSeq _ _) (fun s =>
      agrees_bind (agrees_walkAll h _ cs s) (fun s => h.postSeq _ _)))
theorem agrees_walkSeqs {v w : Visitor ε σ} (h : VisitorsAgree v w) :
    ∀ (a : ComponentAlternation) (cs : List ComponentSequence) (s : σ),
      ProfilesAgree (walkSequences .debug v s a cs) (walkSequences .release w s a cs)
  | _, [], s => by unfold walkSequences; exact agrees_refl _
  | a, c :: cs, s => by
    unfold walkSequences
    exact agrees_bind (agrees_walkSeq h c s) (fun s => agrees_ite
      (fun _ => agrees_bind (h.duringAlt _ _) (fun s => agrees_walkSeqs h a cs s))
      (fun _ => agrees_walkSeqs h a cs s))
theorem agrees_walkAll {v w : Visitor ε σ} (h : VisitorsAgree v w) :
    ∀ (q : ComponentSequence) (cs : List Component) (s : σ),
      ProfilesAgree (walkComponents .debug v s q cs) (walkComponents .release w s q cs)
  | _, [], s => by unfold walkComponents; exact agrees_refl _
  | q, c :: cs, s => by
    unfold walkComponents
    exact agrees_bind (agrees_walk h c s) (fun s => agrees_ite
      (fun _ => agrees_bind (h.duringSeq _ _) (fun s => agrees_walkAll h q cs s))
      (fun _ => agrees_walkAll h q cs s))
end

theorem agrees_outdent (s : Dump.DumpState) : ProfilesAgree (Dump.outdent .debug s) (Dump.outdent .release s) := by
  unfold Dump.outdent; agrees

theorem agrees_dumpVisitor (fuel : Nat) :
    VisitorsAgree (Dump.dumpVisitor .debug fuel) (Dump.dumpVisitor .release fuel) where
  preClass s c := by
    show ProfilesAgree (Dump.preClass .debug fuel s c) (Dump.preClass .release fuel s c)
    unfold Dump.preClass
    exact agrees_bind (agrees_describeClass _ _ _ _) (fun _ => agrees_refl _)
  preAlt s c := agrees_refl _
  preSeq s c := agrees_refl _
  duringClass s c := agrees_refl _
  duringAlt s c := agrees_refl _
  duringSeq s c := agrees_refl _
  postClass s c := agrees_outdent s
  postAlt s c := agrees_outdent s
  postSeq s c := agrees_outdent s

theorem agrees_dumpTree (fuel : Nat) (c : Component) :
    ProfilesAgree (Dump.dumpTree .debug fuel c) (Dump.dumpTree .release fuel c) := by
  unfold Dump.dumpTree
  exact agrees_bind (agrees_walk (agrees_dumpVisitor fuel) _ _) (fun _ => agrees_refl _)

/-! ## Compiling -/

theorem agrees_addLiteral (ng : Ng) (l : Ue2Literal) (i er : Nat) (hl : Bool) (som : SomType) (q : Bool) :
    ProfilesAgree (ng.addLiteral .debug l i er hl som q) (ng.addLiteral .release l i er hl som q) := by
  unfold Ng.addLiteral
  refine agrees_bind (agrees_rdebugAssert _ _) (fun _ => ?_)
  refine agrees_ite (fun _ => agrees_refl _) (fun _ => agrees_ite (fun _ => agrees_refl _) (fun _ => ?_))
  split
  · exact agrees_refl _
  · refine agrees_bind ?_ (fun r => agrees_refl _)
    cases som with
    | none => exact agrees_refl _
    | left => exact agrees_bind (agrees_rdebugAssert _ _) (fun _ => agrees_refl _)

theorem agrees_shortcutLiteral (ng : Ng) (pe : ParsedExpression) :
    ProfilesAgree (shortcutLiteral .debug ng pe) (shortcutLiteral .release ng pe) := by
  unfold shortcutLiteral
  refine agrees_ite (fun _ => agrees_refl _) (fun _ => ?_)
  rcases agrees_walk (VisitorsAgree.refl constructLiteralVisitor) pe.component Ue2Literal.default with h | h
  · cases hw : walkComponent .debug constructLiteralVisitor Ue2Literal.default pe.component
    all_goals simp only [hw, Outcome.isPanic] at h
    · cases h
    · cases h
    · exact agrees_panic _ _
    · cases h
  · rw [h]
    cases walkComponent .release constructLiteralVisitor Ue2Literal.default pe.component with
    | ok lit =>
      exact agrees_ite (fun _ => agrees_refl _) (fun _ => agrees_bind (agrees_refl _) (fun i =>
        agrees_addLiteral _ _ _ _ _ _ _))
    | err e => exact agrees_refl _
    | panic m => exact agrees_refl _
    | timeout => exact agrees_refl _

theorem agrees_parsedExpression (index : Nat) (e : Str) (f : Flags) (id : Nat) :
    ProfilesAgree (ParsedExpression.new .debug index e f id) (ParsedExpression.new .release index e f id) := by
  unfold ParsedExpression.new
  exact agrees_ite (fun _ => agrees_refl _) (fun _ => agrees_bind (agrees_parse _ _) (fun _ => agrees_refl _))

theorem agrees_connectSuccessors (bs : GlushkovBuildState) (f : PositionInfo) (l : List PositionInfo) :
    ProfilesAgree (bs.connectSuccessors (ε := ε) .debug f l) (bs.connectSuccessors .release f l) := by
  unfold GlushkovBuildState.connectSuccessors
  exact agrees_bind (agrees_rdebugAssert _ _) (fun _ => agrees_refl _)

theorem agrees_connectRegions (bs : GlushkovBuildState) (l f : List PositionInfo) :
    ProfilesAgree (bs.connectRegions (ε := ε) .debug l f) (bs.connectRegions .release l f) := by
  unfold GlushkovBuildState.connectRegions
  exact agrees_foldlM (fun _ _ => agrees_connectSuccessors _ _ _) _ _

theorem agrees_buildGraph (pe : ParsedExpression) :
    ProfilesAgree (buildGraph (ε := ε) .debug pe) (buildGraph .release pe) := by
  unfold buildGraph
  refine agrees_bind (agrees_refl _) (fun b => agrees_bind ?_ (fun _ => agrees_refl _))
  exact agrees_connectRegions _ _ _

theorem agrees_addExpression (ng : Ng) (index : Nat) (e : Str) (f : Flags) (id : Nat) :
    ProfilesAgree (addExpression .debug ng index e f id) (addExpression .release ng index e f id) := by
  unfold addExpression
  refine agrees_ite (fun _ => agrees_refl _) (fun _ => ?_)
  refine agrees_bind (agrees_parsedExpression _ _ _ _) (fun pe => ?_)
  refine agrees_bind (agrees_shortcutLiteral _ _) (fun r => ?_)
  exact agrees_ite (fun _ => agrees_refl _) (fun _ => agrees_bind (agrees_buildGraph _) (fun _ => agrees_refl _))

theorem agrees_addAll : ∀ (l : List (Str × Flags × Nat)) (i : Nat) (ng : Ng),
    ProfilesAgree (addAll .debug i ng l) (addAll .release i ng l)
  | [], i, ng => agrees_refl _
  | (e, f, id) :: l, i, ng => by
    unfold addAll
    rcases agrees_addExpression ng i e f id with h | h
    · cases hw : addExpression .debug ng i e f id
      all_goals simp only [hw, Outcome.isPanic] at h
      · cases h
      · cases h
      · exact agrees_panic _ _
      · cases h
    · rw [h]
      cases addExpression .release ng i e f id with
      | ok ng' => exact agrees_addAll l (i + 1) ng'
      | err e =>
        refine agrees_bind (agrees_refl _) (fun i => agrees_bind ?_ (fun _ => agrees_refl _))
        unfold CompileError.setExpressionIndex
        exact agrees_bind (agrees_rdebugAssert _ _) (fun _ => agrees_refl _)
      | panic m => exact agrees_refl _
      | timeout => exact agrees_refl _

theorem agrees_compileNg (es : List Str) (fs : List Flags) (ids : List Nat) (mode : Mode) (g : Grey) :
    ProfilesAgree (compileNg .debug es fs ids mode g) (compileNg .release es fs ids mode g) := by
  unfold compileNg
  exact agrees_ite (fun _ => agrees_refl _) (fun _ => agrees_ite (fun _ => agrees_refl _)
    (fun _ => agrees_addAll _ _ _))

theorem agrees_compileMultiInt (es : List Str) (fs : List Flags) (ids : List Nat) (mode : Mode) (g : Grey) :
    ProfilesAgree (compileMultiInt .debug es fs ids mode g) (compileMultiInt .release es fs ids mode g) :=
  agrees_bind (agrees_compileNg _ _ _ _ _) (fun _ => agrees_refl _)

end Rescan
