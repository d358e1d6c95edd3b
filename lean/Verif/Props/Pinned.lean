import Verif.Model.Pinned
/-! # Property C87: the pointer of the small-write builder -/
namespace Rescan

/-- A memory that comes about by steps that return. -/
inductive Arises (p : Profile) : Heap → Prop
  | empty : Arises p Heap.empty
  | step (h h' : Heap) (s : NgStep) : Arises p h → s.run p h = some (.ok h') → Arises p h'

/-- Running steps one after another (for the examples). -/
def runSteps (p : Profile) : List NgStep → Heap → Option (Res Heap)
  | [], h => some (.ok h)
  | s :: ss, h =>
    match s.run p h with
    | some (.ok h') => runSteps p ss h'
    | x => x

theorem arises_runSteps (p : Profile) : ∀ (ss : List NgStep) (h h' : Heap), Arises p h →
    runSteps p ss h = some (.ok h') → Arises p h' := by
  intro ss
  induction ss with
  | nil => intro h h' ha hr; cases hr; exact ha
  | cons s ss ih =>
    intro h h' ha hr
    unfold runSteps at hr
    cases hs : s.run p h with
    | none => rw [hs] at hr; cases hr
    | some x =>
      rw [hs] at hr
      cases x with
      | ok h1 => exact ih h1 h' (.step h h1 s ha hs) hr
      | err e => cases hr
      | panic m => cases hr
      | timeout => cases hr

private def demo : List NgStep :=
  [.new 4 ⟨false, false, Grey.default⟩ 1 1, .new 9 ⟨true, false, Grey.default⟩ 2 1,
   .addLiteral 9 ⟨[0x61#8], [false]⟩ 0 7 false .none false,
   .addLiteral 4 ⟨[0x62#8], [false]⟩ 0 7 true .none false, .drop 4, .new 4 ⟨true, true, Grey.default⟩ 1 1]

/-- After them address 9 holds an object with a report. -/
private theorem demo_arises : ∃ h c, Arises .debug h ∧ h 9 = some c ∧ c.ng.rm.reportIds.length = 1 := by
  cases hr : runSteps .debug demo Heap.empty with
  | none => exact absurd hr (by unfold demo; nofun)
  | some x =>
    cases x with
    | ok h =>
      have hx : ((match runSteps .debug demo Heap.empty with
        | some (.ok h) => (h 9).map (fun c => c.ng.rm.reportIds.length) | _ => none)) = some 1 := by decide +kernel
      rw [hr] at hx
      cases hc : h 9 with
      | none => simp only [hc] at hx; cases hx
      | some c => simp only [hc] at hx; exact ⟨h, c, arises_runSteps _ _ _ _ .empty hr, hc, Option.some.inj hx⟩
    | err e => exact absurd hr (by unfold demo; nofun)
    | panic m => exact absurd hr (by unfold demo; nofun)
    | timeout => exact absurd hr (by unfold demo; nofun)

/-- **C87.** However many objects are made, used and dropped, whatever addresses are reused: the pointer of
each object's small-write builder leads to the report manager of that object, as it is now. -/
theorem C87_pointer (p : Profile) (h : Heap) (ha : Arises p h) (a : Addr) (c : NgCell) (hc : h a = some c) :
    c.rmPtr = some a ∧ h.derefRm c.rmPtr = some c.ng.rm := by
  have key : ∀ h, Arises p h → ∀ a c, h a = some c → c.rmPtr = some a := by
    intro h ha
    induction ha with
    | empty => intro a c hc; cases hc
    | step h h' s _ hs ih =>
      have hput : ∀ (a : Addr) (x : Option NgCell), (∀ c, x = some c → c.rmPtr = some a) →
          ∀ b c, h.put a x b = some c → c.rmPtr = some b := by
        intro a x hx b c hb
        unfold Heap.put at hb
        split at hb
        · rename_i e; subst e; exact hx c hb
        · exact ih b c hb
      cases s with
      | new a cc np som =>
        have hs' : (h.newNg a cc np som).map Outcome.ok = some (.ok h') := hs
        unfold Heap.newNg at hs'
        split at hs'
        · cases hs'
        · cases hs'
          intro b c hb
          unfold Heap.put at hb
          split at hb
          · rename_i e; subst e; cases hb; rfl
          · exact ih b c hb
      | addLiteral a l i r hl som q =>
        unfold NgStep.run at hs
        simp only at hs
        split at hs
        · cases hs
        · rename_i c0 h0
          have hs2 : Outcome.bind (c0.ng.addLiteral p l i r hl som q) _ = .ok h' := Option.some.inj hs
          cases hd : c0.ng.addLiteral p l i r hl som q with
          | ok x =>
            rw [hd] at hs2
            cases hs2
            exact hput a _ (fun c e => by cases e; exact ih a c0 h0)
          | err e => rw [hd] at hs2; cases hs2
          | panic m => rw [hd] at hs2; cases hs2
          | timeout => rw [hd] at hs2; cases hs2
      | addGraph a expr g =>
        unfold NgStep.run at hs
        simp only at hs
        split at hs
        · cases hs
        · rename_i c0 h0
          cases hs
          exact hput a _ (fun c e => by cases e; exact ih a c0 h0)
      | swAddExpression a g expr =>
        have hs' : h.swAddExpression a g expr = some (.ok h') := hs
        unfold Heap.swAddExpression at hs'
        split at hs'
        · cases hs'
        · rename_i c0 h0
          simp only at hs'
          split at hs'
          · cases hs'; exact ih
          split at hs'
          · cases hs'; exact hput a _ (fun c e => by cases e; exact ih a c0 h0)
          split at hs'
          · cases hs'; exact hput a _ (fun c e => by cases e; exact ih a c0 h0)
          split at hs' <;> cases hs'
          exact hput a _ (fun c e => by cases e; exact ih a c0 h0)
      | drop a =>
        unfold NgStep.run at hs
        simp only at hs
        split at hs
        · cases hs
        · cases hs
          exact hput a none (fun c e => nomatch e)
  refine ⟨key h ha a c hc, ?_⟩
  rw [key h ha a c hc]
  simp only [Heap.derefRm, hc, Option.map]

example : ∃ h c, Arises .debug h ∧ h 9 = some c ∧ c.rmPtr = some 9 ∧ h.derefRm c.rmPtr = some c.ng.rm := by
  obtain ⟨h, c, h1, h2, _⟩ := demo_arises
  exact ⟨h, c, h1, h2, C87_pointer .debug h h1 9 c h2⟩

private theorem anyMinLengthAt_eq {ε : Type} (h : Heap) (ptr : Option Addr) (rm : ReportManager)
    (hp : h.derefRm ptr = some rm) : ∀ ids : List Nat,
    Heap.anyMinLengthAt (ε := ε) h ptr ids = some (SmallWriteBuild.anyMinLength rm ids) := by
  intro ids
  induction ids with
  | nil => rfl
  | cons id ids ih =>
    unfold Heap.anyMinLengthAt SmallWriteBuild.anyMinLength
    rw [hp]
    show (match rm.getReport (ε := ε) id with
      | .ok r => _ | .err e => _ | .panic m => _ | .timeout => _) = some (Outcome.bind (rm.getReport id) _)
    cases rm.getReport (ε := ε) id with
    | ok r =>
      show (if r.minLength > 0 then _ else _) = some (if r.minLength > 0 then _ else _)
      split
      · rfl
      · exact ih
    | err e => rfl
    | panic m => rfl
    | timeout => rfl

/-- **C87.** Hence no step on an existing object is undefined behaviour, and the call that follows the pointer
does what it does when handed the object's own report manager; no step touches another object. -/
theorem C87_defined (p : Profile) (h : Heap) (ha : Arises p h) (a : Addr) (c : NgCell) (hc : h a = some c)
    (g : NgHolder) (expr : ExpressionInfo) :
    (NgStep.swAddExpression a g expr).run p h = some (do
      let smwr ← c.ng.smwr.addExpression c.ng.rm g expr
      return h.put a (some { c with ng := { c.ng with smwr := smwr } })) := by
  have hp := (C87_pointer p h ha a c hc).2
  have hself : h.put a (some c) = h := by
    funext b
    unfold Heap.put
    split
    · rename_i e; rw [e, hc]
    · rfl
  show h.swAddExpression a g expr = _
  unfold Heap.swAddExpression SmallWriteBuild.addExpression
  rw [hc]
  simp only
  split
  · exact congrArg (fun x => some (Outcome.ok x)) hself.symm
  split
  · rfl
  split
  · rfl
  rw [anyMinLengthAt_eq h c.rmPtr c.ng.rm hp]
  show _ = some (Outcome.bind (Outcome.bind (SmallWriteBuild.anyMinLength c.ng.rm g.allReports) _) _)
  cases SmallWriteBuild.anyMinLength (ε := CompileError) c.ng.rm g.allReports with
  | ok b => cases b <;> rfl
  | err e => rfl
  | panic m => rfl
  | timeout => rfl

example : ∃ h c, Arises .debug h ∧ h 9 = some c ∧ c.ng.rm.reportIds.length = 1 := demo_arises

/-- The object a step is about. -/
def NgStep.target : NgStep → Addr
  | .new a _ _ _ | .addLiteral a _ _ _ _ _ _ | .addGraph a _ _ | .swAddExpression a _ _ | .drop a => a

/-- C87: no step touches another object than its own. -/
theorem C87_isolated (p : Profile) (h h' : Heap) (s : NgStep) (hs : s.run p h = some (.ok h')) (b : Addr)
    (hb : b ≠ s.target) : h' b = h b := by
  have hput : ∀ (a : Addr) (x : Option NgCell), b ≠ a → h.put a x b = h b := by
    intro a x hne
    unfold Heap.put
    rw [if_neg hne]
  cases s with
  | new a cc np som =>
    have hs' : (h.newNg a cc np som).map Outcome.ok = some (.ok h') := hs
    unfold Heap.newNg at hs'
    split at hs'
    · cases hs'
    · cases hs'
      have hb' : b ≠ a := hb
      unfold Heap.put
      simp only [if_neg hb']
  | addLiteral a l i r hl som q =>
    unfold NgStep.run at hs
    simp only at hs
    split at hs
    · cases hs
    · rename_i c0 h0
      have hs2 : Outcome.bind (c0.ng.addLiteral p l i r hl som q) _ = .ok h' := Option.some.inj hs
      cases hd : c0.ng.addLiteral p l i r hl som q <;> rw [hd] at hs2 <;> cases hs2
      exact hput a _ hb
  | addGraph a expr g =>
    unfold NgStep.run at hs
    simp only at hs
    split at hs
    · cases hs
    · cases hs; exact hput a _ hb
  | swAddExpression a g expr =>
    have hs' : h.swAddExpression a g expr = some (.ok h') := hs
    unfold Heap.swAddExpression at hs'
    split at hs'
    · cases hs'
    · simp only at hs'
      split at hs'
      · cases hs'; rfl
      split at hs'
      · cases hs'; exact hput a _ hb
      split at hs'
      · cases hs'; exact hput a _ hb
      split at hs' <;> cases hs'
      exact hput a _ hb
  | drop a =>
    unfold NgStep.run at hs
    simp only at hs
    split at hs
    · cases hs
    · cases hs; exact hput a none hb

example : ∃ h h', (NgStep.new 4 ⟨true, true, Grey.default⟩ 1 1).run .debug h = some (.ok h') ∧
    (9 : Addr) ≠ (NgStep.new 4 ⟨true, true, Grey.default⟩ 1 1).target ∧ h = Heap.empty :=
  ⟨Heap.empty, _, rfl, by decide, rfl⟩

/-- C87, why `Ng` is pinned: were it moved, its pointer would lead nowhere, or, once another object is made
at the old address, to the report manager of that one. -/
theorem C87_move (p : Profile) (h : Heap) (ha : Arises p h) (a b : Addr) (hne : a ≠ b) (c : NgCell)
    (hc : h a = some c) :
    (h.moveNg a b) b = some c ∧ (h.moveNg a b).derefRm c.rmPtr = none ∧
    ∀ cc np som, ∃ h', (NgStep.new a cc np som).run p (h.moveNg a b) = some (.ok h') ∧ h' b = some c ∧
      h'.derefRm c.rmPtr = some (ReportManager.new cc.grey) := by
  have hp := (C87_pointer p h ha a c hc).1
  have hfree : h.moveNg a b a = none := by
    unfold Heap.moveNg Heap.put
    rw [if_neg hne, if_pos rfl]
  have hb : h.moveNg a b b = some c := by
    unfold Heap.moveNg Heap.put
    rw [if_pos rfl, hc]
  refine ⟨hb, ?_, fun cc np som => ?_⟩
  · rw [hp]; simp only [Heap.derefRm, hfree, Option.map]
  · refine ⟨_, by show Option.map _ (Heap.newNg _ a cc np som) = _; unfold Heap.newNg; rw [hfree]; rfl, ?_, ?_⟩
    · unfold Heap.put
      simp only [if_neg hne.symm, hb]
    · rw [hp]
      simp [Heap.derefRm, Heap.put, Ng.new]

example : ∃ h c, Arises .debug h ∧ (9 : Addr) ≠ 5 ∧ h 9 = some c ∧ (h.moveNg 9 5).derefRm c.rmPtr = none := by
  obtain ⟨h, c, h1, h2, _⟩ := demo_arises
  exact ⟨h, c, h1, by decide, h2, (C87_move .debug h h1 9 5 (by decide) c h2).2.1⟩

/-- Two objects, one dropped and its address used again: each pointer leads to its own object's reports. -/
example : (match runSteps .debug demo Heap.empty with
    | some (.ok h) => [4, 9].map (fun a => (h a).map (fun c =>
        (c.rmPtr, c.ng.cc.vectored, (h.derefRm c.rmPtr).map (fun rm => rm.reportIds.length))))
    | _ => []) = [some (some 4, true, some 0), some (some 9, false, some 1)] := by decide +kernel

end Rescan
