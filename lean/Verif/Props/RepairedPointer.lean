import Verif.Model.RepairedPointer
import Verif.Props.TreeBorrows
/-! # C98: the pointer of C97 and C100, repaired -/
namespace Rescan
open Spec

namespace Borrows
open M

/-- The full statement of C97 for `new` with line 53 changed: no step on a boxed `Ng` that came about by steps that
returned is undefined. -/
def PointerUsableRepaired : Prop :=
  ∀ (p : Profile) (cc : CompileContext) (np sp : Nat) (ss : List Step) (o : Boxed) (m : Mem),
    (newNgRepaired cc np sp >>= runSteps p ss) Mem.start = some (.ok o, m) → ∀ s : Step, s.run p o m ≠ none

/-- The shared read-write items after `new`. -/
def startBlockRepaired : Stack :=
  [⟨1, .sharedRW, none⟩, ⟨2, .sharedRW, none⟩, ⟨3, .sharedRW, none⟩, ⟨4, .sharedRW, none⟩, ⟨5, .sharedRW, none⟩,
   ⟨6, .sharedRW, none⟩, ⟨7, .sharedRW, none⟩]

/-- The state right after `new`: the pointer is in the block of the box. -/
theorem newNgRepaired_eq (cc : CompileContext) (np sp : Nat) :
    ∃ m, newNgRepaired cc np sp Mem.start = some (.ok ⟨Ng.new cc np sp, 7, 4⟩, m) ∧ Inv [7, 4] (-1) false m := by
  have : ∃ st, newNgRepaired cc np sp Mem.start = some (.ok ⟨Ng.new cc np sp, 7, 4⟩, ⟨st, 8, []⟩) ∧
      ∀ q, st q = ⟨0, .unique, none⟩ :: (startBlockRepaired ++ []) :=
    ⟨_, rfl, fun q => by cases q <;> rfl⟩
  obtain ⟨st, h1, h2⟩ := this
  refine ⟨_, h1, ⟨fun q => ?_, ?_, (show (-1 : Int) < 8 by decide)⟩⟩
  · refine ⟨⟨0, .unique, none⟩, startBlockRepaired, [], ?_⟩
    have hp : ∀ x ∈ (⟨0, .unique, none⟩ :: (startBlockRepaired ++ []) : Stack), x.protector = none := by decide
    refine ⟨h2 q, rfl, by decide, by decide, by simp, ?_, ?_, ?_⟩
    · show ((st q).map Item.tag).Nodup
      rw [h2 q]; decide
    · show ∀ x ∈ st q, x.tag < 8
      rw [h2 q]; decide
    · intro x hx c hc
      rw [hp x (by rw [← h2 q]; exact hx)] at hc
      cases hc
  · intro x _
    omega

/-- Every step is defined from memory in which the box and the pointer are in order, and leaves them so, whatever its
outcome. -/
theorem step_repaired (p : Profile) (o : Boxed) (s : Step) (hb : o.box = 7) (hp : o.ptr = 4) (m : Mem)
    (hm : Fine [7, 4] (-1) m) :
    ∃ r m', s.run p o m = some (r, m') ∧ Fine [7, 4] (-1) m' ∧ ∀ o', r = .ok o' → o'.box = 7 ∧ o'.ptr = 4 := by
  have hbox : o.box ∈ [7, 4] := by rw [hb]; simp
  cases s with
  | literal c =>
    obtain ⟨m', h1, h2⟩ := fine_run (ts := [7, 4]) (ptr := -1) (fun b => ⟨_, run_addLiteral p o c.literal c.index c.report c.highlander
      c.som c.quiet hbox⟩) m hm
    have e : (Step.run p o (.literal c) m) = M.bind (addLiteral p o c.literal c.index c.report c.highlander c.som c.quiet)
        (fun x => pure x.1) m := rfl
    rw [e]
    unfold M.bind
    rw [h1]
    cases o.ng.addLiteral p c.literal c.index c.report c.highlander c.som c.quiet with
    | ok x => exact ⟨_, m', rfl, h2, fun o' ho => by cases ho; exact ⟨hb, hp⟩⟩
    | err e => exact ⟨_, m', rfl, h2, fun o' ho => by cases ho⟩
    | panic e => exact ⟨_, m', rfl, h2, fun o' ho => by cases ho⟩
    | timeout => exact ⟨_, m', rfl, h2, fun o' ho => by cases ho⟩
  | graph e g =>
    obtain ⟨b, hm⟩ := hm
    obtain ⟨r, m', h1, h2, h3⟩ := tri_addGraph (ts := [7, 4]) (ptr := -1) (b := b) (E := fun _ => False) o e g hbox m hm
    cases r with
    | ok o' =>
      obtain ⟨h4, h5⟩ := h2 o' rfl
      subst h4
      exact ⟨_, m', h1, ⟨b, h5⟩, fun o' ho => by cases ho; exact ⟨hb, hp⟩⟩
    | err e => exact (h3 (fun a ha => by cases ha)).elim
    | panic e => exact (h3 (fun a ha => by cases ha)).elim
    | timeout => exact (h3 (fun a ha => by cases ha)).elim
  | look =>
    obtain ⟨b, hm⟩ := hm
    obtain ⟨r, m', h1, h2, h3⟩ := tri_look (ts := [7, 4]) (ptr := -1) (b := b) (E := fun _ => False) o hbox m hm
    have e : (Step.run p o .look m) = M.bind (Borrows.look o) (fun _ => pure o) m := rfl
    rw [e]
    unfold M.bind
    rw [h1]
    cases r with
    | ok u => exact ⟨_, m', rfl, ⟨b, h2 u rfl⟩, fun o' ho => by cases ho; exact ⟨hb, hp⟩⟩
    | err e => exact (h3 (fun a ha => by cases ha)).elim
    | panic e => exact (h3 (fun a ha => by cases ha)).elim
    | timeout => exact (h3 (fun a ha => by cases ha)).elim
  | offer g e =>
    obtain ⟨b, hm⟩ := hm
    obtain ⟨m', h1, h2⟩ := run_swAddExpression (ts := [7, 4]) (ptr := -1) (b := b) o g e hbox (.inl (follow_block o (by rw [hp]; simp))) m hm
    refine ⟨_, m', h1, ⟨b, h2⟩, fun o' ho => ?_⟩
    cases hx : o.ng.smwr.addExpression (ε := CompileError) o.ng.rm g e with
    | ok sw => rw [hx] at ho; cases ho; exact ⟨hb, hp⟩
    | err e => rw [hx] at ho; cases ho
    | panic e => rw [hx] at ho; cases ho
    | timeout => rw [hx] at ho; cases ho

theorem steps_repaired (p : Profile) : ∀ (ss : List Step) (o : Boxed) (m : Mem), o.box = 7 → o.ptr = 4 →
    Fine [7, 4] (-1) m →
    ∃ r m', runSteps p ss o m = some (r, m') ∧ Fine [7, 4] (-1) m' ∧ ∀ o', r = .ok o' → o'.box = 7 ∧ o'.ptr = 4
  | [], o, m, hb, hp, hm => ⟨_, m, rfl, hm, fun o' ho => by cases ho; exact ⟨hb, hp⟩⟩
  | s :: ss, o, m, hb, hp, hm => by
    obtain ⟨r, m', h1, h2, h3⟩ := step_repaired p o s hb hp m hm
    show ∃ r m', M.bind (s.run p o) (runSteps p ss) m = some (r, m') ∧ _
    unfold M.bind
    rw [h1]
    cases r with
    | ok o' => exact steps_repaired p ss o' m' (h3 o' rfl).1 (h3 o' rfl).2 h2
    | err e => exact ⟨_, m', rfl, h2, fun o' ho => by cases ho⟩
    | panic e => exact ⟨_, m', rfl, h2, fun o' ho => by cases ho⟩
    | timeout => exact ⟨_, m', rfl, h2, fun o' ho => by cases ho⟩

/-- **C98, for C97:** with a pointer to the whole `Ng` made from a mutable reference, no step is undefined, wherever it
comes. -/
theorem C98_pointer_stacked : PointerUsableRepaired := by
  intro p cc np sp ss o m h s
  obtain ⟨m0, h1, h2⟩ := newNgRepaired_eq cc np sp
  obtain ⟨r, m1, h3, h4, h5⟩ := steps_repaired p ss ⟨Ng.new cc np sp, 7, 4⟩ m0 rfl rfl ⟨false, h2⟩
  have h0 : M.bind (newNgRepaired cc np sp) (runSteps p ss) Mem.start = some (.ok o, m) := h
  unfold M.bind at h0
  rw [h1] at h0
  simp only at h0
  rw [h3] at h0
  cases h0
  obtain ⟨r, m', h6, _⟩ := step_repaired p o s (h5 o rfl).1 (h5 o rfl).2 m h4
  rw [h6]
  simp

/-- C98, for C97: any number of steps, whatever their outcomes, and dropping the box after them, is defined. -/
theorem C98_pointer_drop_stacked (p : Profile) (cc : CompileContext) (np sp : Nat) (ss : List Step) :
    ((newNgRepaired cc np sp >>= fun o => thenDrop o (runSteps p ss o)) Mem.start).isSome = true := by
  obtain ⟨m0, h1, h2⟩ := newNgRepaired_eq cc np sp
  obtain ⟨r, m1, h3, ⟨b, h4⟩, _⟩ := steps_repaired p ss ⟨Ng.new cc np sp, 7, 4⟩ m0 rfl rfl ⟨false, h2⟩
  obtain ⟨r', m2, h5, _⟩ := tri_drop (ts := [7, 4]) (E := fun _ => True) ⟨Ng.new cc np sp, 7, 4⟩ (by simp) m1 h4
  show (M.bind _ _ _).isSome = true
  unfold M.bind
  rw [h1]
  simp only
  unfold thenDrop
  rw [h3]
  simp only
  rw [h5]; rfl

/-- C98, for C97: compiling is defined as before, with the same result. -/
theorem C98_pointer_compile_stacked (p : Profile) (expressions : List Str) (flags : List Flags) (ids : List Nat)
    (mode : Mode) (g : Grey) :
    ∃ m, compileMultiIntRepaired p expressions flags ids mode g Mem.start
      = some (Rescan.compileMultiInt p expressions flags ids mode g, m) := by
  unfold compileMultiIntRepaired Rescan.compileMultiInt compileNg
  by_cases h1 : expressions.isEmpty = true
  · rw [if_pos h1, if_pos h1]; exact ⟨_, rfl⟩
  rw [if_neg h1, if_neg h1]
  by_cases h2 : expressions.length > g.limitPatternCount
  · rw [if_pos h2, if_pos h2]; exact ⟨_, rfl⟩
  rw [if_neg h2, if_neg h2]
  obtain ⟨m, hm, hi⟩ := newNgRepaired_eq ⟨mode.isStreaming, mode.isVectored, g⟩ expressions.length mode.somPrecision
  show ∃ m, M.bind _ _ _ = _
  unfold M.bind
  rw [hm]
  simp only
  generalize ho : (⟨Ng.new ⟨mode.isStreaming, mode.isVectored, g⟩ expressions.length mode.somPrecision, 7, 4⟩ : Boxed) = o
  have hbox : o.box ∈ [7, 4] := by rw [← ho]; simp
  have hng : o.ng = Ng.new ⟨mode.isStreaming, mode.isVectored, g⟩ expressions.length mode.somPrecision := by rw [← ho]
  rw [← hng]
  have hbody : Run (Fine [7, 4] (-1))
      (addAll p 0 o (izip expressions flags ids) >>= fun o => look o >>= fun _ => pure (build o.ng))
      ((Rescan.addAll p 0 o.ng (izip expressions flags ids) >>= fun ng => pure { o with ng := ng }) >>= fun o' =>
        pure (build o'.ng)) (Fine [7, 4] (-1)) := by
    refine run_bind (run_addAll p _ 0 o hbox) (fun o' ho' => ?_) (fun _ m h => h)
    have hbox' : o'.box ∈ [7, 4] := by
      cases hy : Rescan.addAll p 0 o.ng (izip expressions flags ids) with
      | ok y => rw [hy] at ho'; cases ho'; exact hbox
      | err e => rw [hy] at ho'; cases ho'
      | panic e => rw [hy] at ho'; cases ho'
      | timeout => rw [hy] at ho'; cases ho'
    exact run_step (fine_tri (fun b => tri_look o' hbox')) (fun _ => run_pure _)
  obtain ⟨m1, h3, b, h4⟩ := hbody m ⟨false, hi⟩
  obtain ⟨r, m2, h5, _⟩ := tri_drop (E := fun _ => True) o hbox m1 h4
  refine ⟨m2, ?_⟩
  unfold thenDrop
  rw [h3]
  simp only
  rw [h5]
  simp only
  congr 2
  cases Rescan.addAll p 0 o.ng (izip expressions flags ids) <;> rfl

/-- The sequence that is undefined for the code as it is (`C97_false`). -/
example : ∃ r m, (newNgRepaired exampleContext 2 0 >>=
      runSteps .release [.literal litA, .offer reportGraph plainExpr]) Mem.start = some (r, m) := by
  obtain ⟨m0, h1, h2⟩ := newNgRepaired_eq exampleContext 2 0
  obtain ⟨r, m1, h3, _⟩ := steps_repaired .release [.literal litA, .offer reportGraph plainExpr]
    ⟨Ng.new exampleContext 2 0, 7, 4⟩ m0 rfl rfl ⟨false, h2⟩
  refine ⟨r, m1, ?_⟩
  show M.bind _ _ _ = _
  unfold M.bind
  rw [h1]; exact h3

/-- The pointer is followed there: the literal "a" leaves the builder unpoisoned. -/
example : ∃ o m, (newNgRepaired exampleContext 2 0 >>= runSteps .release [.literal litA]) Mem.start = some (.ok o, m) ∧
    Borrows.Follows o reportGraph plainExpr := by
  obtain ⟨m0, h1, h2⟩ := newNgRepaired_eq exampleContext 2 0
  have h4 : (match (Ng.new exampleContext 2 0).addLiteral .release litA.literal litA.index litA.report litA.highlander
      litA.som litA.quiet with
    | .ok x => !x.1.smwr.poisoned
    | _ => false) = true := by decide +kernel
  obtain ⟨m1, h3, _⟩ := run_addLiteral .release ⟨Ng.new exampleContext 2 0, 7, 4⟩ litA.literal litA.index litA.report
    litA.highlander litA.som litA.quiet (ts := [7, 4]) (ptr := -1) (b := false) (by simp) m0 h2
  cases hx : (Ng.new exampleContext 2 0).addLiteral .release litA.literal litA.index litA.report litA.highlander litA.som
      litA.quiet with
  | err e => rw [hx] at h4; cases h4
  | panic e => rw [hx] at h4; cases h4
  | timeout => rw [hx] at h4; cases h4
  | ok x =>
    rw [hx] at h3 h4
    refine ⟨⟨x.1, 7, 4⟩, m1, ?_, by simpa using h4, rfl, by rw [← C74_vacuous]; decide +kernel, 0,
      by rw [← C74_all_reports]; decide +kernel⟩
    show M.bind (newNgRepaired exampleContext 2 0) (runSteps .release [.literal litA]) Mem.start = _
    unfold M.bind
    rw [h1]
    show M.bind (M.bind (addLiteral .release ⟨Ng.new exampleContext 2 0, 7, 4⟩ litA.literal litA.index litA.report
      litA.highlander litA.som litA.quiet) (fun x => pure x.1)) (runSteps .release []) m0 = _
    unfold M.bind
    rw [h3]; rfl

end Borrows

namespace TreeBorrows
open M
open Borrows (Boxed Step reportGraph plainExpr)

/-- The full statement of C100 for `new` with line 53 changed: no step on a boxed `Ng` that came about by steps that
returned is undefined. -/
def PointerUsableRepaired : Prop :=
  ∀ (w : Nat → Bool) (p : Profile) (cc : CompileContext) (np sp : Nat) (ss : List Step) (o : Boxed) (m : Mem),
    (newNgRepaired cc np sp >>= runSteps w p ss) Mem.start = some (.ok o, m) → ∀ s : Step, runStep w p o s m ≠ none

/-- The state right after `new`: the pointer is the root. -/
theorem newNgRepaired_eq (cc : CompileContext) (np sp : Nat) :
    ∃ m, newNgRepaired cc np sp Mem.start = some (.ok ⟨Ng.new cc np sp, 0, 0⟩, m) ∧ Inv [0] (-1) false m := by
  have : ∃ st, newNgRepaired cc np sp Mem.start = some (.ok ⟨Ng.new cc np sp, 0, 0⟩, ⟨st, 1, []⟩) ∧
      ∀ q, st q = [⟨0, [0], .active, none⟩] :=
    ⟨_, rfl, fun q => by cases q <;> rfl⟩
  obtain ⟨st, h1, h2⟩ := this
  refine ⟨_, h1, 0, by simp, ⟨fun q => ⟨⟨?_, ?_, ?_, ?_, ?_, by simp⟩, fun u hu => by cases hu⟩, ?_,
    (show (-1 : Int) < 1 by decide), (show 0 < 1 by decide)⟩⟩
  · show ∃ x ∈ st q, _
    rw [h2 q]
    exact ⟨⟨0, [0], .active, none⟩, by simp, rfl, rfl, rfl, rfl⟩
  · show ((st q).map Node.tag).Nodup
    rw [h2 q]; decide
  · show ∀ x ∈ st q, x.tag < 1
    rw [h2 q]; decide
  · show ∀ x ∈ st q, ∀ t ∈ x.path, t < 1
    rw [h2 q]; decide
  · show ∀ x ∈ st q, ∀ c, x.protector = some c → _
    rw [h2 q]
    simp
  · exact fun h => absurd h (by decide)

/-- Every step is defined from memory in which the box and the pointer are in order, and leaves them so, whatever its
outcome. -/
theorem step_repaired (w : Nat → Bool) (p : Profile) (o : Boxed) (s : Step) (hb : o.box = 0) (hp : o.ptr = 0) (m : Mem)
    (hm : Fine [0] (-1) m) :
    ∃ r m', runStep w p o s m = some (r, m') ∧ Fine [0] (-1) m' ∧ ∀ o', r = .ok o' → o'.box = 0 ∧ o'.ptr = 0 := by
  have hbox : o.box ∈ [0] := by rw [hb]; simp
  cases s with
  | literal c =>
    obtain ⟨m', h1, h2⟩ := fine_run (ts := [0]) (ptr := -1) (fun b => run_addLiteral w p o c.literal c.index c.report c.highlander
      c.som c.quiet hbox) m hm
    have e : (runStep w p o (.literal c) m) = M.bind (addLiteral w p o c.literal c.index c.report c.highlander c.som c.quiet)
        (fun x => pure x.1) m := rfl
    rw [e]
    unfold M.bind
    rw [h1]
    cases o.ng.addLiteral p c.literal c.index c.report c.highlander c.som c.quiet with
    | ok x => exact ⟨_, m', rfl, h2, fun o' ho => by cases ho; exact ⟨hb, hp⟩⟩
    | err e => exact ⟨_, m', rfl, h2, fun o' ho => by cases ho⟩
    | panic e => exact ⟨_, m', rfl, h2, fun o' ho => by cases ho⟩
    | timeout => exact ⟨_, m', rfl, h2, fun o' ho => by cases ho⟩
  | graph e g =>
    obtain ⟨b, hm⟩ := hm
    obtain ⟨r, m', h1, h2, h3⟩ := tri_addGraph (ts := [0]) (ptr := -1) (b := b) (E := fun _ => False) o e g hbox m hm
    cases r with
    | ok o' =>
      obtain ⟨h4, h5⟩ := h2 o' rfl
      subst h4
      exact ⟨_, m', h1, ⟨b, h5⟩, fun o' ho => by cases ho; exact ⟨hb, hp⟩⟩
    | err e => exact (h3 (fun a ha => by cases ha)).elim
    | panic e => exact (h3 (fun a ha => by cases ha)).elim
    | timeout => exact (h3 (fun a ha => by cases ha)).elim
  | look =>
    obtain ⟨b, hm⟩ := hm
    obtain ⟨r, m', h1, h2, h3⟩ := tri_look (ts := [0]) (ptr := -1) (b := b) (E := fun _ => False) o hbox m hm
    have e : (runStep w p o .look m) = M.bind (TreeBorrows.look o) (fun _ => pure o) m := rfl
    rw [e]
    unfold M.bind
    rw [h1]
    cases r with
    | ok u => exact ⟨_, m', rfl, ⟨b, h2 u rfl⟩, fun o' ho => by cases ho; exact ⟨hb, hp⟩⟩
    | err e => exact (h3 (fun a ha => by cases ha)).elim
    | panic e => exact (h3 (fun a ha => by cases ha)).elim
    | timeout => exact (h3 (fun a ha => by cases ha)).elim
  | offer g e =>
    obtain ⟨b, hm⟩ := hm
    obtain ⟨m', h1, h2⟩ := run_swAddExpression (ts := [0]) (ptr := -1) (b := b) o g e hbox (.inl (by rw [hb, ← hp]; exact follow_root o)) m hm
    refine ⟨_, m', h1, ⟨b, h2⟩, fun o' ho => ?_⟩
    cases hx : o.ng.smwr.addExpression (ε := CompileError) o.ng.rm g e with
    | ok sw => rw [hx] at ho; cases ho; exact ⟨hb, hp⟩
    | err e => rw [hx] at ho; cases ho
    | panic e => rw [hx] at ho; cases ho
    | timeout => rw [hx] at ho; cases ho

theorem steps_repaired (w : Nat → Bool) (p : Profile) : ∀ (ss : List Step) (o : Boxed) (m : Mem), o.box = 0 → o.ptr = 0 →
    Fine [0] (-1) m →
    ∃ r m', runSteps w p ss o m = some (r, m') ∧ Fine [0] (-1) m' ∧ ∀ o', r = .ok o' → o'.box = 0 ∧ o'.ptr = 0
  | [], o, m, hb, hp, hm => ⟨_, m, rfl, hm, fun o' ho => by cases ho; exact ⟨hb, hp⟩⟩
  | s :: ss, o, m, hb, hp, hm => by
    obtain ⟨r, m', h1, h2, h3⟩ := step_repaired w p o s hb hp m hm
    show ∃ r m', M.bind (runStep w p o s) (runSteps w p ss) m = some (r, m') ∧ _
    unfold M.bind
    rw [h1]
    cases r with
    | ok o' => exact steps_repaired w p ss o' m' (h3 o' rfl).1 (h3 o' rfl).2 h2
    | err e => exact ⟨_, m', rfl, h2, fun o' ho => by cases ho⟩
    | panic e => exact ⟨_, m', rfl, h2, fun o' ho => by cases ho⟩
    | timeout => exact ⟨_, m', rfl, h2, fun o' ho => by cases ho⟩

/-- **C98, for C100:** with a pointer to the whole `Ng` made from a mutable reference, no step is undefined, wherever it
comes. -/
theorem C98_pointer_tree : PointerUsableRepaired := by
  intro w p cc np sp ss o m h s
  obtain ⟨m0, h1, h2⟩ := newNgRepaired_eq cc np sp
  obtain ⟨r, m1, h3, h4, h5⟩ := steps_repaired w p ss ⟨Ng.new cc np sp, 0, 0⟩ m0 rfl rfl ⟨false, h2⟩
  have h0 : M.bind (newNgRepaired cc np sp) (runSteps w p ss) Mem.start = some (.ok o, m) := h
  unfold M.bind at h0
  rw [h1] at h0
  simp only at h0
  rw [h3] at h0
  cases h0
  obtain ⟨r, m', h6, _⟩ := step_repaired w p o s (h5 o rfl).1 (h5 o rfl).2 m h4
  rw [h6]
  simp

/-- C98, for C100: any number of steps, whatever their outcomes, and dropping the box after them, is defined. -/
theorem C98_pointer_drop_tree (w : Nat → Bool) (p : Profile) (cc : CompileContext) (np sp : Nat) (ss : List Step) :
    ((newNgRepaired cc np sp >>= fun o => thenDrop o (runSteps w p ss o)) Mem.start).isSome = true := by
  obtain ⟨m0, h1, h2⟩ := newNgRepaired_eq cc np sp
  obtain ⟨r, m1, h3, ⟨b, h4⟩, _⟩ := steps_repaired w p ss ⟨Ng.new cc np sp, 0, 0⟩ m0 rfl rfl ⟨false, h2⟩
  obtain ⟨r', m2, h5, _⟩ := tri_drop (ts := [0]) (E := fun _ => True) ⟨Ng.new cc np sp, 0, 0⟩ (by simp) m1 h4
  show (M.bind _ _ _).isSome = true
  unfold M.bind
  rw [h1]
  simp only
  unfold thenDrop
  rw [h3]
  simp only
  rw [h5]; rfl

/-- C98, for C100: compiling is defined as before, with the same result. -/
theorem C98_pointer_compile_tree (w : Nat → Bool) (p : Profile) (expressions : List Str) (flags : List Flags) (ids : List Nat)
    (mode : Mode) (g : Grey) :
    ∃ m, compileMultiIntRepaired w p expressions flags ids mode g Mem.start
      = some (Rescan.compileMultiInt p expressions flags ids mode g, m) := by
  unfold compileMultiIntRepaired Rescan.compileMultiInt compileNg
  by_cases h1 : expressions.isEmpty = true
  · rw [if_pos h1, if_pos h1]; exact ⟨_, rfl⟩
  rw [if_neg h1, if_neg h1]
  by_cases h2 : expressions.length > g.limitPatternCount
  · rw [if_pos h2, if_pos h2]; exact ⟨_, rfl⟩
  rw [if_neg h2, if_neg h2]
  obtain ⟨m, hm, hi⟩ := newNgRepaired_eq ⟨mode.isStreaming, mode.isVectored, g⟩ expressions.length mode.somPrecision
  show ∃ m, M.bind _ _ _ = _
  unfold M.bind
  rw [hm]
  simp only
  generalize ho : (⟨Ng.new ⟨mode.isStreaming, mode.isVectored, g⟩ expressions.length mode.somPrecision, 0, 0⟩ : Boxed) = o
  have hbox : o.box ∈ [0] := by rw [← ho]; simp
  have hng : o.ng = Ng.new ⟨mode.isStreaming, mode.isVectored, g⟩ expressions.length mode.somPrecision := by rw [← ho]
  rw [← hng]
  have hbody : Run (Fine [0] (-1))
      (addAll w p 0 o (izip expressions flags ids) >>= fun o => look o >>= fun _ => pure (build o.ng))
      ((Rescan.addAll p 0 o.ng (izip expressions flags ids) >>= fun ng => pure { o with ng := ng }) >>= fun o' =>
        pure (build o'.ng)) (Fine [0] (-1)) := by
    refine run_bind (run_addAll w p _ 0 o hbox) (fun o' ho' => ?_) (fun _ m h => h)
    have hbox' : o'.box ∈ [0] := by
      cases hy : Rescan.addAll p 0 o.ng (izip expressions flags ids) with
      | ok y => rw [hy] at ho'; cases ho'; exact hbox
      | err e => rw [hy] at ho'; cases ho'
      | panic e => rw [hy] at ho'; cases ho'
      | timeout => rw [hy] at ho'; cases ho'
    exact run_step (fine_tri (fun b => tri_look o' hbox')) (fun _ => run_pure _)
  obtain ⟨m1, h3, b, h4⟩ := hbody m ⟨false, hi⟩
  obtain ⟨r, m2, h5, _⟩ := tri_drop (E := fun _ => True) o hbox m1 h4
  refine ⟨m2, ?_⟩
  unfold thenDrop
  rw [h3]
  simp only
  rw [h5]
  simp only
  congr 2
  cases Rescan.addAll p 0 o.ng (izip expressions flags ids) <;> rfl

/-- The sequence that is undefined for the code as it is (`C100_false`). -/
example (w : Nat → Bool) : ∃ r m, (newNgRepaired exampleContext 2 0 >>=
      runSteps w .release [.literal Borrows.litA, .offer reportGraph plainExpr]) Mem.start = some (r, m) := by
  obtain ⟨m0, h1, h2⟩ := newNgRepaired_eq exampleContext 2 0
  obtain ⟨r, m1, h3, _⟩ := steps_repaired w .release [.literal Borrows.litA, .offer reportGraph plainExpr]
    ⟨Ng.new exampleContext 2 0, 0, 0⟩ m0 rfl rfl ⟨false, h2⟩
  refine ⟨r, m1, ?_⟩
  show M.bind _ _ _ = _
  unfold M.bind
  rw [h1]; exact h3

/-- The pointer is followed there: the literal "a" leaves the builder unpoisoned. -/
example (w : Nat → Bool) : ∃ o m, (newNgRepaired exampleContext 2 0 >>= runSteps w .release [.literal Borrows.litA]) Mem.start = some (.ok o, m) ∧
    Borrows.Follows o reportGraph plainExpr := by
  obtain ⟨m0, h1, h2⟩ := newNgRepaired_eq exampleContext 2 0
  have h4 : (match (Ng.new exampleContext 2 0).addLiteral .release Borrows.litA.literal Borrows.litA.index Borrows.litA.report Borrows.litA.highlander
      Borrows.litA.som Borrows.litA.quiet with
    | .ok x => !x.1.smwr.poisoned
    | _ => false) = true := by decide +kernel
  obtain ⟨m1, h3, _⟩ := run_addLiteral w .release ⟨Ng.new exampleContext 2 0, 0, 0⟩ Borrows.litA.literal Borrows.litA.index Borrows.litA.report
    Borrows.litA.highlander Borrows.litA.som Borrows.litA.quiet (ts := [0]) (ptr := -1) (b := false) (by simp) m0 h2
  cases hx : (Ng.new exampleContext 2 0).addLiteral .release Borrows.litA.literal Borrows.litA.index Borrows.litA.report Borrows.litA.highlander Borrows.litA.som
      Borrows.litA.quiet with
  | err e => rw [hx] at h4; cases h4
  | panic e => rw [hx] at h4; cases h4
  | timeout => rw [hx] at h4; cases h4
  | ok x =>
    rw [hx] at h3 h4
    refine ⟨⟨x.1, 0, 0⟩, m1, ?_, by simpa using h4, rfl, by rw [← C74_vacuous]; decide +kernel, 0,
      by rw [← C74_all_reports]; decide +kernel⟩
    show M.bind (newNgRepaired exampleContext 2 0) (runSteps w .release [.literal Borrows.litA]) Mem.start = _
    unfold M.bind
    rw [h1]
    show M.bind (M.bind (addLiteral w .release ⟨Ng.new exampleContext 2 0, 0, 0⟩ Borrows.litA.literal Borrows.litA.index Borrows.litA.report
      Borrows.litA.highlander Borrows.litA.som Borrows.litA.quiet) (fun x => pure x.1)) (runSteps w .release []) m0 = _
    unfold M.bind
    rw [h3]; rfl

end TreeBorrows

end Rescan
