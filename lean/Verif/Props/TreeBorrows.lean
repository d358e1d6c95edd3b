import Verif.Proofs.TreeBorrows
import Verif.Props.Borrows
/-! # C99, C100: aliasing under Tree Borrows -/
namespace Rescan
namespace TreeBorrows
open Borrows (Access Place Boxed reaches reaches_iff reportGraph plainExpr Step SomeTaken)
open M Spec

/-- The trees after `new`. -/
def startTree : Place → Tree
  | .rm => [⟨0, [0], .active, none⟩, ⟨1, [1, 0], .frozen, none⟩, ⟨2, [2, 1, 0], .frozen, none⟩]
  | .smwr => [⟨0, [0], .active, none⟩, ⟨1, [1, 0], .disabled, none⟩]
  | .rest => [⟨0, [0], .active, none⟩, ⟨1, [1, 0], .frozen, none⟩]

/-- The state right after `new`: the pointer may be read through. -/
theorem newNg_eq (cc : CompileContext) (np sp : Nat) :
    ∃ m, newNg cc np sp Mem.start = some (.ok ⟨Ng.new cc np sp, 0, 2⟩, m) ∧ Inv [0] 2 true m := by
  have : ∃ st, newNg cc np sp Mem.start = some (.ok ⟨Ng.new cc np sp, 0, 2⟩, ⟨st, 3, []⟩) ∧ ∀ q, st q = startTree q :=
    ⟨_, rfl, fun q => by cases q <;> rfl⟩
  obtain ⟨st, h1, h2⟩ := this
  refine ⟨_, h1, 0, by simp, ⟨fun q => ⟨⟨?_, ?_, ?_, ?_, ?_, by simp⟩, fun u hu => by cases hu⟩, ?_, (show 2 < 3 by decide),
    (show 0 < 3 by decide)⟩⟩
  · show ∃ x ∈ st q, _
    rw [h2 q]
    exact ⟨⟨0, [0], .active, none⟩, by cases q <;> simp [startTree], rfl, rfl, rfl, rfl⟩
  · show ((st q).map Node.tag).Nodup
    rw [h2 q]; cases q <;> decide
  · show ∀ x ∈ st q, x.tag < 3
    rw [h2 q]; cases q <;> decide
  · show ∀ x ∈ st q, ∀ t ∈ x.path, t < 3
    rw [h2 q]; cases q <;> decide
  · show ∀ x ∈ st q, ∀ c, x.protector = some c → _
    rw [h2 q]
    have hp : ∀ x ∈ startTree q, x.protector = none := by cases q <;> decide
    intro x hx c hc
    rw [hp x hx] at hc
    cases hc
  · refine fun _ => PtrOk.unheld ?_ (show (2 : Nat) ≠ 0 by decide)
    show PtrIs 0 2 true (st .rm)
    rw [h2]
    exact ⟨⟨2, [2, 1, 0], .frozen, none⟩, by simp [startTree], rfl, by simp, by simp, by
      rw [if_pos rfl]
      intro y hy _
      revert y
      decide⟩

/-! ## The compiler -/

variable {ts : List Nat} {ptr : Int}

/-- The memory is in order, whatever has become of the pointer. -/
def Fine (ts : List Nat) (ptr : Int) (m : Mem) : Prop := ∃ b, Inv ts ptr b m

theorem fine_run {α : Type} {x : M α} {r : Res α} {re sure : Bool}
    (h : ∀ b, Run (Inv ts ptr b) x r (After ts ptr b re sure)) : Run (Fine ts ptr) x r (Fine ts ptr) := by
  rintro m ⟨b, hm⟩
  obtain ⟨m', h1, b', h2, _⟩ := h b m hm
  exact ⟨m', h1, b', h2⟩

theorem fine_tri {α : Type} {x : M α} (h : ∀ b, Tri (Inv ts ptr b) x (fun _ => Inv ts ptr b) (fun _ => False)) :
    Tri (Fine ts ptr) x (fun _ => Fine ts ptr) (fun _ => False) := by
  rintro m ⟨b, hm⟩
  obtain ⟨r, m', h1, h2, h3⟩ := h b m hm
  exact ⟨r, m', h1, fun a ha => ⟨b, h2 a ha⟩, h3⟩

theorem run_shortcutLiteral (w : Nat → Bool) (p : Profile) (o : Boxed) (pe : ParsedExpression) (ht : o.box ∈ ts) :
    Run (Fine ts ptr) (shortcutLiteral w p o pe)
      (do let x ← Rescan.shortcutLiteral p o.ng pe; return ({ o with ng := x.1 }, x.2)) (Fine ts ptr) := by
  unfold shortcutLiteral Rescan.shortcutLiteral
  refine run_step (fine_tri (fun b => tri_look o ht)) (fun _ => ?_)
  by_cases h1 : (!o.ng.cc.grey.allowLiteral) = true
  · rw [if_pos h1, if_pos h1]; exact run_pure _
  rw [if_neg h1, if_neg h1]
  cases walkComponent p constructLiteralVisitor Ue2Literal.default pe.component with
  | err e => exact run_pure _
  | panic e => exact run_lift _
  | timeout => exact run_lift _
  | ok lit =>
    simp only
    by_cases h2 : lit.isEmpty = true
    · rw [if_pos h2, if_pos h2]; exact run_pure _
    rw [if_neg h2, if_neg h2]
    have e : ∀ (x : Res Nat) (f : Nat → Res (Ng × Bool)) (g : Ng × Bool → Res (Boxed × Bool)),
        ((x >>= f) >>= g) = (x >>= fun a => f a >>= g) := by
      intro x f g; cases x <;> rfl
    rw [e]
    exact run_bind (run_lift _) (fun i _ => fine_run (fun b => run_addLiteral w p o lit i _ _ _ _ ht)) (fun _ m h => h)

theorem run_addExpression (w : Nat → Bool) (p : Profile) (o : Boxed) (i : Nat) (exp : Str) (fl : Flags) (id : Nat) (ht : o.box ∈ ts) :
    Run (Fine ts ptr) (addExpression w p o i exp fl id)
      (do let ng ← Rescan.addExpression p o.ng i exp fl id; return { o with ng := ng }) (Fine ts ptr) := by
  unfold addExpression Rescan.addExpression
  refine run_step (fine_tri (fun b => tri_look o ht)) (fun _ => ?_)
  by_cases h1 : utf8Len exp > o.ng.cc.grey.limitPatternLength
  · rw [if_pos h1, if_pos h1]; exact run_lift _
  rw [if_neg h1, if_neg h1]
  have e : ∀ {α β : Type} (x : Res α) (f : α → Res β) (g : β → Res Boxed),
      ((x >>= f) >>= g) = (x >>= fun a => f a >>= g) := by
    intro _ _ x f g; cases x <;> rfl
  rw [e]
  refine run_bind (run_lift _) (fun pe _ => ?_) (fun _ m h => h)
  have key : ∀ pe : ParsedExpression,
      Run (Fine ts ptr) (shortcutLiteral w p o pe >>= fun x =>
          if x.2 = true then pure x.1 else lift (buildGraph p pe) >>= fun built => addGraph x.1 built.expr built.graph)
        ((Rescan.shortcutLiteral p o.ng pe >>= fun x => if x.2 = true then pure x.1
            else buildGraph p pe >>= fun built => pure (x.1.addGraph built.expr built.graph)) >>=
          fun ng => pure { o with ng := ng }) (Fine ts ptr) := by
    intro pe
    have e2 : ((Rescan.shortcutLiteral p o.ng pe >>= fun x => if x.2 = true then pure x.1
            else buildGraph p pe >>= fun built => pure (x.1.addGraph built.expr built.graph)) >>=
          fun ng => (pure { o with ng := ng } : Res Boxed))
        = ((Rescan.shortcutLiteral p o.ng pe >>= fun x => pure (({ o with ng := x.1 } : Boxed), x.2)) >>= fun x =>
            if x.2 = true then pure x.1
            else buildGraph p pe >>= fun built => pure { x.1 with ng := x.1.ng.addGraph built.expr built.graph }) := by
      cases Rescan.shortcutLiteral p o.ng pe with
      | ok x =>
        obtain ⟨ng, d⟩ := x
        cases d with
        | true => rfl
        | false =>
          show Outcome.bind (Outcome.bind _ _) _ = Outcome.bind _ _
          cases buildGraph (ε := CompileError) p pe <;> rfl
      | err e => rfl
      | panic e => rfl
      | timeout => rfl
    rw [e2]
    refine run_bind (run_shortcutLiteral w p o pe ht) (fun x hx => ?_) (fun _ m h => h)
    have hbox : x.1.box = o.box := by
      cases hy : Rescan.shortcutLiteral p o.ng pe with
      | ok y => rw [hy] at hx; cases hx; rfl
      | err e => rw [hy] at hx; cases hx
      | panic e => rw [hy] at hx; cases hx
      | timeout => rw [hy] at hx; cases hx
    by_cases h2 : x.2 = true
    · simp only [if_pos h2]; exact run_pure _
    · simp only [if_neg h2]
      refine run_bind (run_lift _) (fun bu _ => ?_) (fun _ m h => h)
      rintro m ⟨b, hm⟩
      obtain ⟨r, m', a1, a2, a3⟩ := tri_addGraph (ts := ts) (ptr := ptr) (b := b) (E := fun _ => False) x.1 bu.expr
        bu.graph (by rw [hbox]; exact ht) m hm
      cases r with
      | ok o' =>
        obtain ⟨h3, h4⟩ := a2 o' rfl
        subst h3
        exact ⟨m', a1, b, h4⟩
      | err e => exact (a3 (fun a ha => by cases ha)).elim
      | panic e => exact (a3 (fun a ha => by cases ha)).elim
      | timeout => exact (a3 (fun a ha => by cases ha)).elim
  exact key _

theorem run_addAll (w : Nat → Bool) (p : Profile) : ∀ (es : List (Str × Flags × Nat)) (i : Nat) (o : Boxed), o.box ∈ ts →
    Run (Fine ts ptr) (addAll w p i o es)
      (do let ng ← Rescan.addAll p i o.ng es; return { o with ng := ng }) (Fine ts ptr) := by
  intro es
  induction es with
  | nil => intro i o _; exact run_pure _
  | cons x es ih =>
    obtain ⟨exp, fl, id⟩ := x
    intro i o ht m hm
    obtain ⟨m', h1, h2⟩ := run_addExpression w p o i exp fl id ht m hm
    unfold addAll Rescan.addAll
    rw [h1]
    cases Rescan.addExpression p o.ng i exp fl id with
    | ok ng => exact ih (i + 1) { o with ng := ng } ht m' h2
    | panic e => exact ⟨m', rfl, h2⟩
    | timeout => exact ⟨m', rfl, h2⟩
    | err e =>
      refine ⟨m', ?_, h2⟩
      simp only [bind, Outcome.bind]
      cases ReportManager.toU32 (ε := CompileError) i "called `Result::unwrap()` on an `Err` value: TryFromIntError(())" with
      | ok idx => simp only; cases e.setExpressionIndex p idx <;> rfl
      | _ => rfl

/-- **C99.** Under Tree Borrows, for every list of expressions, compiling — making the `Ng`, giving it all the
expressions, building the database, and dropping it on whatever way out — has no undefined behaviour, and its result is
that of `compile_multi_int`. -/
theorem C99_compile (w : Nat → Bool) (p : Profile) (expressions : List Str) (flags : List Flags) (ids : List Nat) (mode : Mode) (g : Grey) :
    ∃ m, compileMultiInt w p expressions flags ids mode g Mem.start
      = some (Rescan.compileMultiInt p expressions flags ids mode g, m) := by
  unfold compileMultiInt Rescan.compileMultiInt compileNg
  by_cases h1 : expressions.isEmpty = true
  · rw [if_pos h1, if_pos h1]; exact ⟨_, rfl⟩
  rw [if_neg h1, if_neg h1]
  by_cases h2 : expressions.length > g.limitPatternCount
  · rw [if_pos h2, if_pos h2]; exact ⟨_, rfl⟩
  rw [if_neg h2, if_neg h2]
  obtain ⟨m, hm, hi⟩ := newNg_eq ⟨mode.isStreaming, mode.isVectored, g⟩ expressions.length mode.somPrecision
  show ∃ m, M.bind _ _ _ = _
  unfold M.bind
  rw [hm]
  simp only
  generalize ho : (⟨Ng.new ⟨mode.isStreaming, mode.isVectored, g⟩ expressions.length mode.somPrecision, 0, 2⟩ : Boxed) = o
  have hbox : o.box ∈ [0] := by rw [← ho]; simp
  have hng : o.ng = Ng.new ⟨mode.isStreaming, mode.isVectored, g⟩ expressions.length mode.somPrecision := by rw [← ho]
  rw [← hng]
  have hbody : Run (Fine [0] 2)
      (addAll w p 0 o (izip expressions flags ids) >>= fun o => look o >>= fun _ => pure (build o.ng))
      ((Rescan.addAll p 0 o.ng (izip expressions flags ids) >>= fun ng => pure { o with ng := ng }) >>= fun o' =>
        pure (build o'.ng)) (Fine [0] 2) := by
    refine run_bind (run_addAll w p _ 0 o hbox) (fun o' ho' => ?_) (fun _ m h => h)
    have hbox' : o'.box ∈ [0] := by
      cases hy : Rescan.addAll p 0 o.ng (izip expressions flags ids) with
      | ok y => rw [hy] at ho'; cases ho'; exact hbox
      | err e => rw [hy] at ho'; cases ho'
      | panic e => rw [hy] at ho'; cases ho'
      | timeout => rw [hy] at ho'; cases ho'
    exact run_step (fine_tri (fun b => tri_look o' hbox')) (fun _ => run_pure _)
  obtain ⟨m1, h3, b, h4⟩ := hbody m ⟨true, hi⟩
  obtain ⟨r, m2, h5, _⟩ := tri_drop (E := fun _ => True) o hbox m1 h4
  refine ⟨m2, ?_⟩
  unfold thenDrop
  rw [h3]
  simp only
  rw [h5]
  simp only
  congr 2
  cases Rescan.addAll p 0 o.ng (izip expressions flags ids) <;> rfl

/-- Two literals and a graph, with the box dropped at the end. -/
example (w : Nat → Bool) : ∃ r m, compileMultiInt w .debug ["ab".toList, "c[de]f".toList, "xyz".toList] [.empty, .empty, .CASELESS] [1, 2, 3]
    .block Grey.default Mem.start = some (r, m) ∧ r.isOk = true := by
  obtain ⟨m, h⟩ := C99_compile w .debug ["ab".toList, "c[de]f".toList, "xyz".toList] [.empty, .empty, .CASELESS] [1, 2, 3]
    .block Grey.default
  exact ⟨_, m, h, by decide +kernel⟩

/-! ## The pointer -/

/-- What can be done with a boxed `Ng`. -/
def runStep (w : Nat → Bool) (p : Profile) (o : Boxed) : Step → M Boxed
  | .literal c => do
    let (o, _) ← addLiteral w p o c.literal c.index c.report c.highlander c.som c.quiet
    return o
  | .graph e g => addGraph o e g
  | .look => do TreeBorrows.look o; return o
  | .offer g e => swAddExpression o g e

/-- Steps one after the other. -/
def runSteps (w : Nat → Bool) (p : Profile) : List Step → Boxed → M Boxed
  | [], o => return o
  | s :: ss, o => runStep w p o s >>= runSteps w p ss

/-- A new `Ng` and then steps. -/
def life (w : Nat → Bool) (p : Profile) (cc : CompileContext) (np sp : Nat) (ss : List Step) : M Boxed :=
  newNg cc np sp >>= runSteps w p ss

/-- **C100, full statement:** no step on a boxed `Ng` that came about by steps that returned is undefined. -/
def PointerUsable : Prop :=
  ∀ (w : Nat → Bool) (p : Profile) (cc : CompileContext) (np sp : Nat) (ss : List Step) (o : Boxed) (m : Mem),
    life w p cc np sp ss Mem.start = some (.ok o, m) → ∀ s : Step, runStep w p o s m ≠ none

theorem addLiteral_unreached (p : Profile) (ng ng' : Ng) (l : Ue2Literal) (i r : Nat) (hl : Bool) (som : SomType) (q a : Bool)
    (hr : reaches p ng l = false) (h : ng.addLiteral p l i r hl som q = .ok (ng', a)) : ng' = ng := by
  unfold Ng.addLiteral at h
  obtain ⟨u, hu, h⟩ := bind_eq_ok h
  split at h
  · cases h; rfl
  next h1 =>
  split at h
  · cases h; rfl
  next h2 =>
  unfold reaches at hr
  have e1 : ng.cc.grey.shortcutLiterals = true := by simpa using h1
  have e2 : mixedSensitivity l.iter = false := by simpa using h2
  rw [e1, e2] at hr
  cases p with
  | release => cases hr
  | debug =>
    cases he : l.isEmpty with
    | true => rw [he] at hu; cases hu
    | false => rw [he] at hr; cases hr

/-- What a step does to the pointer, if it is defined. -/
theorem step_inv (w : Nat → Bool) (p : Profile) (cc : CompileContext) (o o' : Boxed) (m m' : Mem) (s : Step) (b : Bool) (hcc : o.ng.cc = cc)
    (hb : b = true → o.ng.rm.externalIdMap = []) (hi : Inv [o.box] o.ptr b m) (hr : runStep w p o s m = some (.ok o', m')) :
    o'.box = o.box ∧ o'.ptr = o.ptr ∧ o'.ng.cc = cc ∧
    ((¬ ∃ c, s = .literal c ∧ cc.grey.shortcutLiterals = true ∧ ¬ Mixed c.literal) → o'.ng.rm = o.ng.rm) ∧
    ((∃ c, s = .literal c ∧ cc.grey.shortcutLiterals = true ∧ ¬ Mixed c.literal) → Inv [o.box] o.ptr false m') ∧
    ((¬ ∃ c, s = .literal c ∧ cc.grey.shortcutLiterals = true ∧ ¬ Mixed c.literal) → Inv [o.box] o.ptr b m') := by
  have hno : ∀ {P : Prop}, (∀ c, s ≠ .literal c) → Inv [o.box] o.ptr b m' →
      ((∃ c, s = .literal c ∧ cc.grey.shortcutLiterals = true ∧ ¬ Mixed c.literal) → P) ∧
      ((¬ ∃ c, s = .literal c ∧ cc.grey.shortcutLiterals = true ∧ ¬ Mixed c.literal) → Inv [o.box] o.ptr b m') :=
    fun h1 h2 => ⟨fun ⟨c, hc, _⟩ => absurd hc (h1 c), fun _ => h2⟩
  cases s with
  | literal c =>
    obtain ⟨m1, h1, h2⟩ := run_addLiteral w p o c.literal c.index c.report c.highlander c.som c.quiet
      (ts := [o.box]) (ptr := o.ptr) (b := b) (by simp) m hi
    have h3 : M.bind (addLiteral w p o c.literal c.index c.report c.highlander c.som c.quiet) (fun x => pure x.1) m
        = some (.ok o', m') := hr
    unfold M.bind at h3
    rw [h1] at h3
    cases hx : o.ng.addLiteral p c.literal c.index c.report c.highlander c.som c.quiet with
    | err e => rw [hx] at h3; cases h3
    | panic e => rw [hx] at h3; cases h3
    | timeout => rw [hx] at h3; cases h3
    | ok x =>
      rw [hx] at h3
      obtain ⟨ng', a⟩ := x
      have h4 : some (Outcome.ok (ε := CompileError) ({ o with ng := ng' } : Boxed), m1) = some (.ok o', m') := h3
      cases h4
      have hne : p = .debug → c.literal.s ≠ [] := by
        rintro rfl he
        rw [addLiteral_empty o.ng c he] at hx
        cases hx
      have hre := reaches_iff p o.ng c hne
      rw [hcc] at hre
      have hno5 : (¬ ∃ c', Step.literal c = .literal c' ∧ cc.grey.shortcutLiterals = true ∧ ¬ Mixed c'.literal) →
          reaches p o.ng c.literal = false := by
        intro h5
        cases hq : reaches p o.ng c.literal with
        | false => rfl
        | true => exact absurd ⟨c, rfl, hre.1 hq⟩ h5
      refine ⟨rfl, rfl, (Borrows.addLiteral_cc _ _ _ _ _ _ _ _ _ _ hx).trans hcc, ?_, ?_, ?_⟩
      · intro h5
        have hq := hno5 h5
        rw [addLiteral_unreached _ _ _ _ _ _ _ _ _ _ hq hx]
      · rintro ⟨c', hc', h5⟩
        cases hc'
        obtain ⟨b', i1, i2, i3, i4⟩ := h2
        have : b' = false := by
          cases b with
          | false => exact i2 rfl
          | true =>
            refine i4 (hre.2 h5) ?_
            unfold registerWrites
            rw [hb rfl]; rfl
        rw [← this]; exact i1
      · intro h5
        obtain ⟨b', i1, i2, i3, i4⟩ := h2
        rw [← i3 (hno5 h5)]; exact i1
  | graph e g =>
    obtain ⟨r, m1, h1, h2, h3⟩ := tri_addGraph (ts := [o.box]) (ptr := o.ptr) (b := b) (E := fun _ => False) o e g
      (by simp) m hi
    rw [show runStep w p o (.graph e g) m = addGraph o e g m from rfl, h1] at hr
    cases hr
    obtain ⟨h4, h5⟩ := h2 o' rfl
    subst h4
    refine ⟨rfl, rfl, ?_, fun _ => ?_, hno (by simp) h5⟩
    · show (o.ng.addGraph e g).cc = cc
      unfold Ng.addGraph
      split <;> exact hcc
    · show (o.ng.addGraph e g).rm = o.ng.rm
      unfold Ng.addGraph
      split <;> rfl
  | look =>
    obtain ⟨r, m1, h1, h2, h3⟩ := tri_look (ts := [o.box]) (ptr := o.ptr) (b := b) (E := fun _ => False) o (by simp) m hi
    have h4 : M.bind (TreeBorrows.look o) (fun _ => pure o) m = some (.ok o', m') := hr
    unfold M.bind at h4
    rw [h1] at h4
    cases r with
    | ok u => cases h4; exact ⟨rfl, rfl, hcc, fun _ => rfl, hno (by simp) (h2 u rfl)⟩
    | err e => cases h4
    | panic e => cases h4
    | timeout => cases h4
  | offer g e =>
    have h0 : swAddExpression o g e m = some (.ok o', m') := hr
    by_cases hok : b = true ∨ o.ng.smwr.poisoned = true ∨ e.som ≠ .none ∨ g.isVacuous = true ∨ g.allReports = []
    · obtain ⟨m1, h1, h2⟩ := run_swAddExpression (ts := [o.box]) (ptr := o.ptr) (b := b) o g e (by simp)
          (by rcases hok with rfl | h; exact .inl (follow_eq o); exact .inr h) m hi
      rw [h0] at h1
      injection h1 with h1
      injection h1 with h3 h4
      subst h4
      cases hx : o.ng.smwr.addExpression (ε := CompileError) o.ng.rm g e with
      | ok sw => rw [hx] at h3; cases h3; exact ⟨rfl, rfl, hcc, fun _ => rfl, hno (by simp) h2⟩
      | err e => rw [hx] at h3; cases h3
      | panic e => rw [hx] at h3; cases h3
      | timeout => rw [hx] at h3; cases h3
    · simp only [not_or] at hok
      obtain ⟨g1, g2, g3, g4, g5⟩ := hok
      have hb : b = false := by simpa using g1
      subst hb
      rw [ub_swAddExpression (ts := [o.box]) o g e (by simp) (by simpa using g2) (by simpa using g3)
        (by simpa using g4) g5 m hi] at h0
      cases h0

theorem steps_inv (w : Nat → Bool) (p : Profile) (cc : CompileContext) : ∀ (ss : List Step) (o o' : Boxed) (m m' : Mem) (b : Bool),
    o.ng.cc = cc → (b = true → o.ng.rm.externalIdMap = []) → Inv [o.box] o.ptr b m → runSteps w p ss o m = some (.ok o', m') →
    o'.box = o.box ∧ o'.ptr = o.ptr ∧ o'.ng.cc = cc ∧ (SomeTaken cc.grey ss → Inv [o.box] o.ptr false m') ∧
    (¬ SomeTaken cc.grey ss → Inv [o.box] o.ptr b m') := by
  intro ss
  induction ss with
  | nil =>
    intro o o' m m' b hcc hb hi hr
    cases hr
    exact ⟨rfl, rfl, hcc, (fun ⟨c, hc, _⟩ => by cases hc), fun _ => hi⟩
  | cons s ss ih =>
    intro o o' m m' b hcc hb hi hr
    have h0 : M.bind (runStep w p o s) (runSteps w p ss) m = some (.ok o', m') := hr
    unfold M.bind at h0
    cases h1 : runStep w p o s m with
    | none => rw [h1] at h0; cases h0
    | some y =>
      rw [h1] at h0
      obtain ⟨r, m1⟩ := y
      cases r with
      | err e => cases h0
      | panic e => cases h0
      | timeout => cases h0
      | ok o1 =>
        obtain ⟨a1, a2, a3, a6, a4, a5⟩ := step_inv w p cc o o1 m m1 s b hcc hb hi h1
        have hsplit : SomeTaken cc.grey (s :: ss) ↔
            (∃ c, s = .literal c ∧ cc.grey.shortcutLiterals = true ∧ ¬ Mixed c.literal) ∨ SomeTaken cc.grey ss := by
          constructor
          · rintro ⟨c, hc, hw⟩
            rcases List.mem_cons.1 hc with hc | hc
            · exact .inl ⟨c, hc.symm, hw⟩
            · exact .inr ⟨c, hc, hw⟩
          · rintro (⟨c, rfl, hw⟩ | ⟨c, hc, hw⟩)
            · exact ⟨c, by simp, hw⟩
            · exact ⟨c, by simp [hc], hw⟩
        by_cases hs : ∃ c, s = .literal c ∧ cc.grey.shortcutLiterals = true ∧ ¬ Mixed c.literal
        · obtain ⟨b1, b2, b3, b4, b5⟩ := ih o1 o' m1 m' false a3 (by simp) (by rw [a1, a2]; exact a4 hs) h0
          rw [a1, a2] at b4 b5
          refine ⟨b1.trans a1, b2.trans a2, b3, fun _ => ?_, fun h => absurd (hsplit.2 (.inl hs)) h⟩
          by_cases h2 : SomeTaken cc.grey ss
          · exact b4 h2
          · exact b5 h2
        · obtain ⟨b1, b2, b3, b4, b5⟩ := ih o1 o' m1 m' b a3 (by rw [a6 hs]; exact hb) (by rw [a1, a2]; exact a5 hs) h0
          rw [a1, a2] at b4 b5
          refine ⟨b1.trans a1, b2.trans a2, b3, fun h => ?_, fun h => ?_⟩
          · rcases hsplit.1 h with h | h
            · exact absurd h hs
            · exact b4 h
          · exact b5 (fun h2 => h (hsplit.2 (.inr h2)))

theorem life_inv (w : Nat → Bool) (p : Profile) (cc : CompileContext) (np sp : Nat) (ss : List Step) (o : Boxed) (m : Mem)
    (h : life w p cc np sp ss Mem.start = some (.ok o, m)) :
    ∃ b, Inv [o.box] o.ptr b m ∧ (b = false ↔ SomeTaken cc.grey ss) := by
  obtain ⟨m0, h1, h2⟩ := newNg_eq cc np sp
  have h0 : M.bind (newNg cc np sp) (runSteps w p ss) Mem.start = some (.ok o, m) := h
  unfold M.bind at h0
  rw [h1] at h0
  obtain ⟨a1, a2, a3, a4, a5⟩ := steps_inv w p cc ss ⟨Ng.new cc np sp, 0, 2⟩ o m0 m true rfl (fun _ => rfl) h2 h0
  rw [a1, a2]
  by_cases hs : SomeTaken cc.grey ss
  · exact ⟨false, a4 hs, by simp [hs]⟩
  · exact ⟨true, a5 hs, by simp [hs]⟩

/-- A boxed `Ng` after the literal "a". -/
theorem life_litA : ∃ o m, life (fun _ => false) .release exampleContext 2 0 [.literal Borrows.litA] Mem.start = some (.ok o, m) ∧
    o.ng.smwr.poisoned = false := by
  obtain ⟨m, h1, h2⟩ := newNg_eq exampleContext 2 0
  obtain ⟨m1, h3, _⟩ := run_addLiteral (fun _ => false) .release ⟨Ng.new exampleContext 2 0, 0, 2⟩ Borrows.litA.literal Borrows.litA.index Borrows.litA.report
    Borrows.litA.highlander Borrows.litA.som Borrows.litA.quiet (ts := [0]) (ptr := 2) (b := true) (by simp) m h2
  have h4 : (match (Ng.new exampleContext 2 0).addLiteral .release Borrows.litA.literal Borrows.litA.index Borrows.litA.report Borrows.litA.highlander
      Borrows.litA.som Borrows.litA.quiet with
    | .ok x => !x.1.smwr.poisoned
    | _ => false) = true := by decide +kernel
  cases hx : (Ng.new exampleContext 2 0).addLiteral .release Borrows.litA.literal Borrows.litA.index Borrows.litA.report Borrows.litA.highlander Borrows.litA.som
      Borrows.litA.quiet with
  | err e => rw [hx] at h4; cases h4
  | panic e => rw [hx] at h4; cases h4
  | timeout => rw [hx] at h4; cases h4
  | ok x =>
    rw [hx] at h3 h4
    refine ⟨⟨x.1, 0, 2⟩, m1, ?_, by simpa using h4⟩
    show M.bind (newNg exampleContext 2 0) (runSteps (fun _ => false) .release [.literal Borrows.litA]) Mem.start = _
    unfold M.bind
    rw [h1]
    show M.bind (M.bind (addLiteral (fun _ => false) .release ⟨Ng.new exampleContext 2 0, 0, 2⟩ Borrows.litA.literal Borrows.litA.index Borrows.litA.report
      Borrows.litA.highlander Borrows.litA.som Borrows.litA.quiet) (fun x => pure x.1)) (runSteps (fun _ => false) .release []) m = _
    unfold M.bind
    rw [h3]; rfl

/-- C100, what holds (missing: the pointer is made from a shared reference and dies with the first mutable use of the
report manager): a step on a boxed `Ng` is undefined exactly if it offers a graph to the small-write builder that makes it
follow its pointer, after some literal was taken. -/
theorem C100_pointer_partial (w : Nat → Bool) (p : Profile) (cc : CompileContext) (np sp : Nat) (ss : List Step) (o : Boxed) (m : Mem)
    (h : life w p cc np sp ss Mem.start = some (.ok o, m)) (s : Step) :
    runStep w p o s m = none ↔ (∃ g e, s = .offer g e ∧ Borrows.Follows o g e) ∧ SomeTaken cc.grey ss := by
  obtain ⟨b, hi, hb⟩ := life_inv w p cc np sp ss o m h
  have hfol : ∀ g e, (o.ng.smwr.poisoned = false ∧ e.som = .none ∧ g.isVacuous = false ∧ g.allReports ≠ []) ↔
      Borrows.Follows o g e := by
    intro g e
    have h1 : g.isVacuous = false ↔ ¬ VacuousGraph g := by rw [← C74_vacuous]; simp
    have h2 : g.allReports ≠ [] ↔ ∃ r, ReportedBy g r := by
      constructor
      · intro hne
        obtain ⟨r, hr⟩ := List.exists_mem_of_ne_nil _ hne
        exact ⟨r, (C74_all_reports g r).1 hr⟩
      · rintro ⟨r, hr⟩ he
        have := (C74_all_reports g r).2 hr
        rw [he] at this; cases this
    unfold Borrows.Follows
    rw [h1, h2]
  cases s with
  | literal c =>
    constructor
    · intro h0
      obtain ⟨m1, h1, _⟩ := run_addLiteral w p o c.literal c.index c.report c.highlander c.som c.quiet
        (ts := [o.box]) (ptr := o.ptr) (b := b) (by simp) m hi
      have h3 : M.bind (addLiteral w p o c.literal c.index c.report c.highlander c.som c.quiet) (fun x => pure x.1) m
          = none := h0
      unfold M.bind at h3
      rw [h1] at h3
      cases hx : o.ng.addLiteral p c.literal c.index c.report c.highlander c.som c.quiet with
      | err e => rw [hx] at h3; cases h3
      | panic e => rw [hx] at h3; cases h3
      | timeout => rw [hx] at h3; cases h3
      | ok x => rw [hx] at h3; cases h3
    · rintro ⟨⟨g, e, hs, _⟩, _⟩; cases hs
  | graph e g =>
    constructor
    · intro h0
      obtain ⟨r, m1, h1, _⟩ := tri_addGraph (ts := [o.box]) (ptr := o.ptr) (b := b) (E := fun _ => False) o e g
        (by simp) m hi
      rw [show runStep w p o (.graph e g) m = addGraph o e g m from rfl, h1] at h0
      cases h0
    · rintro ⟨⟨g, e, hs, _⟩, _⟩; cases hs
  | look =>
    constructor
    · intro h0
      obtain ⟨r, m1, h1, _, h3⟩ := tri_look (ts := [o.box]) (ptr := o.ptr) (b := b) (E := fun _ => False) o (by simp) m hi
      have h4 : M.bind (TreeBorrows.look o) (fun _ => pure o) m = none := h0
      unfold M.bind at h4
      rw [h1] at h4
      cases r <;> cases h4
    · rintro ⟨⟨g, e, hs, _⟩, _⟩; cases hs
  | offer g e =>
    have hrun : runStep w p o (.offer g e) m = swAddExpression o g e m := rfl
    rw [hrun]
    constructor
    · intro h0
      have hnot : ¬ (b = true ∨ o.ng.smwr.poisoned = true ∨ e.som ≠ .none ∨ g.isVacuous = true ∨ g.allReports = []) := by
        intro hok
        obtain ⟨m1, h1, _⟩ := run_swAddExpression (ts := [o.box]) (ptr := o.ptr) (b := b) o g e (by simp)
          (by rcases hok with rfl | h; exact .inl (follow_eq o); exact .inr h) m hi
        rw [h0] at h1; cases h1
      simp only [not_or] at hnot
      obtain ⟨g1, g2, g3, g4, g5⟩ := hnot
      exact ⟨⟨g, e, rfl, (hfol g e).1 ⟨by simpa using g2, by simpa using g3, by simpa using g4, g5⟩⟩,
        hb.1 (by simpa using g1)⟩
    · rintro ⟨⟨g', e', hs, hf⟩, ht⟩
      cases hs
      have hbf := hb.2 ht
      subst hbf
      obtain ⟨f1, f2, f3, f4⟩ := (hfol g e).2 hf
      exact ub_swAddExpression (ts := [o.box]) o g e (by simp) f1 f2 f3 f4 m hi

example : ∃ o m, life (fun _ => false) .release exampleContext 2 0 [.literal Borrows.litA] Mem.start = some (.ok o, m) ∧
    o.ng.smwr.poisoned = false := life_litA

/-- C100: dropping the box is never undefined, whatever the last step did. -/
theorem C100_drop (w : Nat → Bool) (p : Profile) (cc : CompileContext) (np sp : Nat) (ss : List Step) (o : Boxed) (m : Mem)
    (h : life w p cc np sp ss Mem.start = some (.ok o, m)) : (dropNg o m).isSome = true := by
  obtain ⟨b, hi, _⟩ := life_inv w p cc np sp ss o m h
  obtain ⟨r, m', h1, _⟩ := tri_drop (ts := [o.box]) (E := fun _ => True) o (by simp) m hi
  rw [h1]; rfl

example : ∃ o m, life (fun _ => false) .release exampleContext 2 0 [.literal Borrows.litA] Mem.start = some (.ok o, m) ∧
    (dropNg o m).isSome = true := by
  obtain ⟨o, m, h, _⟩ := life_litA
  exact ⟨o, m, h, C100_drop _ _ _ _ _ _ _ _ h⟩

/-- C100 is false: after the literal "a" the builder's pointer is dead. -/
theorem C100_false : ¬ PointerUsable := by
  intro h
  obtain ⟨o, m, hr, hn⟩ := life_litA
  refine h (fun _ => false) .release exampleContext 2 0 _ o m hr (.offer reportGraph plainExpr) ?_
  rw [C100_pointer_partial (fun _ => false) .release exampleContext 2 0 _ o m hr]
  refine ⟨⟨_, _, rfl, hn, rfl, ?_, 0, ?_⟩, Borrows.litA, by simp, rfl, ?_⟩
  · rw [← C74_vacuous]; decide +kernel
  · rw [← C74_all_reports]; decide +kernel
  · rw [← mixed_iff]; decide

/-- Without the literal the same graph is handled. -/
example (w : Nat → Bool) : ∃ o m, life w .release exampleContext 2 0 [] Mem.start = some (.ok o, m) ∧ Borrows.Follows o reportGraph plainExpr ∧
    runStep w .release o (.offer reportGraph plainExpr) m ≠ none ∧ (dropNg o m).isSome = true := by
  obtain ⟨m, h1, h2⟩ := newNg_eq exampleContext 2 0
  have h3 : life w .release exampleContext 2 0 [] Mem.start = some (.ok ⟨Ng.new exampleContext 2 0, 0, 2⟩, m) := by
    show M.bind (newNg exampleContext 2 0) (runSteps w .release []) Mem.start = _
    unfold M.bind
    rw [h1]; rfl
  refine ⟨_, m, h3, ⟨rfl, rfl, by rw [← C74_vacuous]; decide +kernel, 0, by rw [← C74_all_reports]; decide +kernel⟩, ?_,
    C100_drop _ _ _ _ _ _ _ _ h3⟩
  intro h
  obtain ⟨_, c, hc, _⟩ := (C100_pointer_partial w .release exampleContext 2 0 [] _ m h3 _).1 h
  cases hc

/-- **C100.** Which calls of `register_ext_report` are taken to write: on a manager that is still globally exhaustible,
those that change it; on any manager, all that do, and none that fail. -/
theorem C100_writes (rm : ReportManager) (id : Nat) (ext : ExternalReportInfo) :
    ((rm.registerExtReport id ext).1 ≠ rm → registerWrites rm id ext = true) ∧
    (rm.globalExhaust = true → registerWrites rm id ext = true → (rm.registerExtReport id ext).1 ≠ rm) ∧
    (registerWrites rm id ext = true → (rm.registerExtReport id ext).2.isOk = true) := by
  unfold ReportManager.registerExtReport registerWrites
  cases h : alookup rm.externalIdMap id with
  | none =>
    refine ⟨fun _ => rfl, fun _ _ he => ?_, fun _ => rfl⟩
    have := congrArg (fun r => r.externalIdMap.length) he
    cases hh : ext.highlander <;> simp [hh] at this
  | some eri =>
    simp only
    by_cases he : eri.highlander = ext.highlander
    · rw [if_neg (by simp [he])]
      refine ⟨?_, ?_, fun _ => rfl⟩
      · cases hh : ext.highlander <;> simp [he, hh]
      · intro hg
        cases hh : ext.highlander
        · intro _ hc
          have := congrArg (·.globalExhaust) hc
          simp [hg] at this
        · simp
    · rw [if_pos he]
      simp [he]

example : registerWrites (ReportManager.new Grey.default) 7 ⟨true, 0⟩ = true ∧
    registerWrites ((ReportManager.new Grey.default).registerExtReport 7 ⟨true, 0⟩).1 7 ⟨true, 1⟩ = false ∧
    ((ReportManager.new Grey.default).registerExtReport 7 ⟨true, 0⟩).1.globalExhaust = true := by decide

end TreeBorrows
end Rescan
