import Verif.Proofs.Borrows
import Verif.Props.AddLiteral
/-! # C96, C97: aliasing -/
namespace Rescan
namespace Borrows
open M Spec

/-- The shared read-write items after `new`: the box and the references made from it. -/
def startBlock : Stack :=
  [⟨1, .sharedRW, none⟩, ⟨4, .sharedRW, none⟩, ⟨5, .sharedRW, none⟩, ⟨6, .sharedRW, none⟩]

/-- The items above them. -/
def startTail : Place → Stack
  | .rm => [⟨2, .sharedRO, none⟩, ⟨3, .sharedRO, none⟩]
  | .smwr => []
  | .rest => [⟨2, .sharedRO, none⟩]

/-- The state right after `new`: the pointer may be read through. -/
theorem newNg_eq (cc : CompileContext) (np sp : Nat) :
    ∃ m, newNg cc np sp Mem.start = some (.ok ⟨Ng.new cc np sp, 6, 3⟩, m) ∧ Inv [6] 3 true m := by
  have : ∃ st, newNg cc np sp Mem.start = some (.ok ⟨Ng.new cc np sp, 6, 3⟩, ⟨st, 7, []⟩) ∧
      ∀ q, st q = ⟨0, .unique, none⟩ :: (startBlock ++ startTail q) :=
    ⟨_, rfl, fun q => by cases q <;> rfl⟩
  obtain ⟨st, h1, h2⟩ := this
  refine ⟨_, h1, ⟨fun q => ?_, ?_, (show 3 < 7 by decide)⟩⟩
  · refine ⟨⟨0, .unique, none⟩, startBlock, startTail q, ?_⟩
    have hp : ∀ x ∈ (⟨0, .unique, none⟩ :: (startBlock ++ startTail q) : Stack), x.protector = none := by
      cases q <;> decide
    refine ⟨h2 q, rfl, by decide, by decide, ?_, ?_, ?_, ?_⟩
    · cases q <;> decide
    · show ((st q).map Item.tag).Nodup
      rw [h2 q]; cases q <;> decide
    · show ∀ x ∈ st q, x.tag < 7
      rw [h2 q]; cases q <;> decide
    · intro x hx c hc
      rw [hp x (by rw [← h2 q]; exact hx)] at hc
      cases hc
  · show PtrIs 3 true (st .rm)
    rw [h2]
    exact ⟨⟨3, .sharedRO, none⟩, by decide, rfl, rfl⟩

/-! ## The compiler -/

variable {ts : List Nat} {ptr : Int}

/-- The memory is in order, whatever has become of the pointer. -/
def Fine (ts : List Nat) (ptr : Int) (m : Mem) : Prop := ∃ b, Inv ts ptr b m

theorem fine_run {α : Type} {x : M α} {r : Res α}
    (h : ∀ b, ∃ b', Run (Inv ts ptr b) x r (Inv ts ptr b')) : Run (Fine ts ptr) x r (Fine ts ptr) := by
  rintro m ⟨b, hm⟩
  obtain ⟨b', hr⟩ := h b
  obtain ⟨m', h1, h2⟩ := hr m hm
  exact ⟨m', h1, b', h2⟩

theorem fine_tri {α : Type} {x : M α} (h : ∀ b, Tri (Inv ts ptr b) x (fun _ => Inv ts ptr b) (fun _ => False)) :
    Tri (Fine ts ptr) x (fun _ => Fine ts ptr) (fun _ => False) := by
  rintro m ⟨b, hm⟩
  obtain ⟨r, m', h1, h2, h3⟩ := h b m hm
  exact ⟨r, m', h1, fun a ha => ⟨b, h2 a ha⟩, h3⟩

theorem run_shortcutLiteral (p : Profile) (o : Boxed) (pe : ParsedExpression) (ht : o.box ∈ ts) :
    Run (Fine ts ptr) (shortcutLiteral p o pe)
      (do let x ← Rescan.shortcutLiteral p o.ng pe; return ({ o with ng := x.1 }, x.2)) (Fine ts ptr) := by
  unfold shortcutLiteral Rescan.shortcutLiteral
  refine run_step (fine_tri (fun b => tri_look o ht)) (fun _ => ?_)
  by_cases h1 : (!o.ng.cc.grey.allowLiteral) = true
  · rw [if_pos h1, if_pos h1]; exact run_pure _
  rw [if_neg h1, if_neg h1]
  cases walkComponent p constructLiteralVisitor Ue2Literal.default pe.component with
  | err e => exact run_pure _
  | panic e => exact run_lift _
  | timeout => exact run_lift _
  | ok lit =>
    simp only
    by_cases h2 : lit.isEmpty = true
    · rw [if_pos h2, if_pos h2]; exact run_pure _
    rw [if_neg h2, if_neg h2]
    have e : ∀ (x : Res Nat) (f : Nat → Res (Ng × Bool)) (g : Ng × Bool → Res (Boxed × Bool)),
        ((x >>= f) >>= g) = (x >>= fun a => f a >>= g) := by
      intro x f g; cases x <;> rfl
    rw [e]
    exact run_bind (run_lift _) (fun i _ => fine_run (fun b => ⟨_, run_addLiteral p o lit i _ _ _ _ ht⟩)) (fun _ m h => h)

theorem run_addExpression (p : Profile) (o : Boxed) (i : Nat) (exp : Str) (fl : Flags) (id : Nat) (ht : o.box ∈ ts) :
    Run (Fine ts ptr) (addExpression p o i exp fl id)
      (do let ng ← Rescan.addExpression p o.ng i exp fl id; return { o with ng := ng }) (Fine ts ptr) := by
  unfold addExpression Rescan.addExpression
  refine run_step (fine_tri (fun b => tri_look o ht)) (fun _ => ?_)
  by_cases h1 : utf8Len exp > o.ng.cc.grey.limitPatternLength
  · rw [if_pos h1, if_pos h1]; exact run_lift _
  rw [if_neg h1, if_neg h1]
  have e : ∀ {α β : Type} (x : Res α) (f : α → Res β) (g : β → Res Boxed),
      ((x >>= f) >>= g) = (x >>= fun a => f a >>= g) := by
    intro _ _ x f g; cases x <;> rfl
  rw [e]
  refine run_bind (run_lift _) (fun pe _ => ?_) (fun _ m h => h)
  have key : ∀ pe : ParsedExpression,
      Run (Fine ts ptr) (shortcutLiteral p o pe >>= fun x =>
          if x.2 = true then pure x.1 else lift (buildGraph p pe) >>= fun built => addGraph x.1 built.expr built.graph)
        ((Rescan.shortcutLiteral p o.ng pe >>= fun x => if x.2 = true then pure x.1
            else buildGraph p pe >>= fun built => pure (x.1.addGraph built.expr built.graph)) >>=
          fun ng => pure { o with ng := ng }) (Fine ts ptr) := by
    intro pe
    have e2 : ((Rescan.shortcutLiteral p o.ng pe >>= fun x => if x.2 = true then pure x.1
            else buildGraph p pe >>= fun built => pure (x.1.addGraph built.expr built.graph)) >>=
          fun ng => (pure { o with ng := ng } : Res Boxed))
        = ((Rescan.shortcutLiteral p o.ng pe >>= fun x => pure (({ o with ng := x.1 } : Boxed), x.2)) >>= fun x =>
            if x.2 = true then pure x.1
            else buildGraph p pe >>= fun built => pure { x.1 with ng := x.1.ng.addGraph built.expr built.graph }) := by
      cases Rescan.shortcutLiteral p o.ng pe with
      | ok x =>
        obtain ⟨ng, d⟩ := x
        cases d with
        | true => rfl
        | false =>
          show Outcome.bind (Outcome.bind _ _) _ = Outcome.bind _ _
          cases buildGraph (ε := CompileError) p pe <;> rfl
      | err e => rfl
      | panic e => rfl
      | timeout => rfl
    rw [e2]
    refine run_bind (run_shortcutLiteral p o pe ht) (fun x hx => ?_) (fun _ m h => h)
    have hbox : x.1.box = o.box := by
      cases hy : Rescan.shortcutLiteral p o.ng pe with
      | ok y => rw [hy] at hx; cases hx; rfl
      | err e => rw [hy] at hx; cases hx
      | panic e => rw [hy] at hx; cases hx
      | timeout => rw [hy] at hx; cases hx
    by_cases h2 : x.2 = true
    · simp only [if_pos h2]; exact run_pure _
    · simp only [if_neg h2]
      refine run_bind (run_lift _) (fun bu _ => ?_) (fun _ m h => h)
      rintro m ⟨b, hm⟩
      obtain ⟨r, m', a1, a2, a3⟩ := tri_addGraph (ts := ts) (ptr := ptr) (b := b) (E := fun _ => False) x.1 bu.expr
        bu.graph (by rw [hbox]; exact ht) m hm
      cases r with
      | ok o' =>
        obtain ⟨h3, h4⟩ := a2 o' rfl
        subst h3
        exact ⟨m', a1, b, h4⟩
      | err e => exact (a3 (fun a ha => by cases ha)).elim
      | panic e => exact (a3 (fun a ha => by cases ha)).elim
      | timeout => exact (a3 (fun a ha => by cases ha)).elim
  exact key _

theorem run_addAll (p : Profile) : ∀ (es : List (Str × Flags × Nat)) (i : Nat) (o : Boxed), o.box ∈ ts →
    Run (Fine ts ptr) (addAll p i o es)
      (do let ng ← Rescan.addAll p i o.ng es; return { o with ng := ng }) (Fine ts ptr) := by
  intro es
  induction es with
  | nil => intro i o _; exact run_pure _
  | cons x es ih =>
    obtain ⟨exp, fl, id⟩ := x
    intro i o ht m hm
    obtain ⟨m', h1, h2⟩ := run_addExpression p o i exp fl id ht m hm
    unfold addAll Rescan.addAll
    rw [h1]
    cases Rescan.addExpression p o.ng i exp fl id with
    | ok ng => exact ih (i + 1) { o with ng := ng } ht m' h2
    | panic e => exact ⟨m', rfl, h2⟩
    | timeout => exact ⟨m', rfl, h2⟩
    | err e =>
      refine ⟨m', ?_, h2⟩
      simp only [bind, Outcome.bind]
      cases ReportManager.toU32 (ε := CompileError) i "called `Result::unwrap()` on an `Err` value: TryFromIntError(())" with
      | ok idx => simp only; cases e.setExpressionIndex p idx <;> rfl
      | _ => rfl

/-- **C96.** Under Stacked Borrows, for every list of expressions, compiling — making the `Ng`, giving it all the
expressions, building the database, and dropping it on whatever way out — has no undefined behaviour, and its result is
that of `compile_multi_int`. -/
theorem C96_compile (p : Profile) (expressions : List Str) (flags : List Flags) (ids : List Nat) (mode : Mode) (g : Grey) :
    ∃ m, compileMultiInt p expressions flags ids mode g Mem.start
      = some (Rescan.compileMultiInt p expressions flags ids mode g, m) := by
  unfold compileMultiInt Rescan.compileMultiInt compileNg
  by_cases h1 : expressions.isEmpty = true
  · rw [if_pos h1, if_pos h1]; exact ⟨_, rfl⟩
  rw [if_neg h1, if_neg h1]
  by_cases h2 : expressions.length > g.limitPatternCount
  · rw [if_pos h2, if_pos h2]; exact ⟨_, rfl⟩
  rw [if_neg h2, if_neg h2]
  obtain ⟨m, hm, hi⟩ := newNg_eq ⟨mode.isStreaming, mode.isVectored, g⟩ expressions.length mode.somPrecision
  show ∃ m, M.bind _ _ _ = _
  unfold M.bind
  rw [hm]
  simp only
  generalize ho : (⟨Ng.new ⟨mode.isStreaming, mode.isVectored, g⟩ expressions.length mode.somPrecision, 6, 3⟩ : Boxed) = o
  have hbox : o.box ∈ [6] := by rw [← ho]; simp
  have hng : o.ng = Ng.new ⟨mode.isStreaming, mode.isVectored, g⟩ expressions.length mode.somPrecision := by rw [← ho]
  rw [← hng]
  have hbody : Run (Fine [6] 3)
      (addAll p 0 o (izip expressions flags ids) >>= fun o => look o >>= fun _ => pure (build o.ng))
      ((Rescan.addAll p 0 o.ng (izip expressions flags ids) >>= fun ng => pure { o with ng := ng }) >>= fun o' =>
        pure (build o'.ng)) (Fine [6] 3) := by
    refine run_bind (run_addAll p _ 0 o hbox) (fun o' ho' => ?_) (fun _ m h => h)
    have hbox' : o'.box ∈ [6] := by
      cases hy : Rescan.addAll p 0 o.ng (izip expressions flags ids) with
      | ok y => rw [hy] at ho'; cases ho'; exact hbox
      | err e => rw [hy] at ho'; cases ho'
      | panic e => rw [hy] at ho'; cases ho'
      | timeout => rw [hy] at ho'; cases ho'
    exact run_step (fine_tri (fun b => tri_look o' hbox')) (fun _ => run_pure _)
  obtain ⟨m1, h3, b, h4⟩ := hbody m ⟨true, hi⟩
  obtain ⟨r, m2, h5, _⟩ := tri_drop (E := fun _ => True) o hbox m1 h4
  refine ⟨m2, ?_⟩
  unfold thenDrop
  rw [h3]
  simp only
  rw [h5]
  simp only
  congr 2
  cases Rescan.addAll p 0 o.ng (izip expressions flags ids) <;> rfl

/-- Two literals and a graph, with the box dropped at the end. -/
example : ∃ r m, compileMultiInt .debug ["ab".toList, "c[de]f".toList, "xyz".toList] [.empty, .empty, .CASELESS] [1, 2, 3]
    .block Grey.default Mem.start = some (r, m) ∧ r.isOk = true := by
  obtain ⟨m, h⟩ := C96_compile .debug ["ab".toList, "c[de]f".toList, "xyz".toList] [.empty, .empty, .CASELESS] [1, 2, 3]
    .block Grey.default
  exact ⟨_, m, h, by decide +kernel⟩

/-! ## The pointer -/

/-- What can be done with a boxed `Ng`; `offer` gives a graph to its small-write builder, which follows the pointer. -/
inductive Step where
  | literal (c : LitCall)
  | graph (e : ExpressionInfo) (g : NgHolder)
  | look
  | offer (g : NgHolder) (e : ExpressionInfo)

/-- Doing it. -/
def Step.run (p : Profile) (o : Boxed) : Step → M Boxed
  | .literal c => do
    let (o, _) ← addLiteral p o c.literal c.index c.report c.highlander c.som c.quiet
    return o
  | .graph e g => addGraph o e g
  | .look => do Borrows.look o; return o
  | .offer g e => swAddExpression o g e

/-- Steps one after the other. -/
def runSteps (p : Profile) : List Step → Boxed → M Boxed
  | [], o => return o
  | s :: ss, o => s.run p o >>= runSteps p ss

/-- A new `Ng` and then steps. -/
def life (p : Profile) (cc : CompileContext) (np sp : Nat) (ss : List Step) : M Boxed :=
  newNg cc np sp >>= runSteps p ss

/-- Some literal among the steps was taken: it is not mixed, and the short cut is on. -/
def SomeTaken (g : Grey) (ss : List Step) : Prop :=
  ∃ c, .literal c ∈ ss ∧ g.shortcutLiterals = true ∧ ¬ Mixed c.literal

/-- Offering this graph makes the builder follow its pointer. -/
def Follows (o : Boxed) (g : NgHolder) (e : ExpressionInfo) : Prop :=
  o.ng.smwr.poisoned = false ∧ e.som = .none ∧ ¬ VacuousGraph g ∧ ∃ r, ReportedBy g r

/-- **C97, full statement:** no step on a boxed `Ng` that came about by steps that returned is undefined. -/
def PointerUsable : Prop :=
  ∀ (p : Profile) (cc : CompileContext) (np sp : Nat) (ss : List Step) (o : Boxed) (m : Mem),
    life p cc np sp ss Mem.start = some (.ok o, m) → ∀ s : Step, s.run p o m ≠ none

theorem reaches_iff (p : Profile) (ng : Ng) (c : LitCall) (hne : p = .debug → c.literal.s ≠ []) :
    reaches p ng c.literal = true ↔ ng.cc.grey.shortcutLiterals = true ∧ ¬ Mixed c.literal := by
  have h1 : (p = .release || !c.literal.isEmpty) = true := by
    cases p with
    | release => rfl
    | debug =>
      cases hs : c.literal.s with
      | nil => exact absurd hs (hne rfl)
      | cons a b => simp [Ue2Literal.isEmpty, hs]
  unfold reaches
  rw [h1, ← mixed_iff]
  simp

theorem addLiteral_cc (p : Profile) (ng ng' : Ng) (l : Ue2Literal) (i r : Nat) (hl : Bool) (som : SomType) (q a : Bool)
    (h : ng.addLiteral p l i r hl som q = .ok (ng', a)) : ng'.cc = ng.cc := by
  unfold Ng.addLiteral at h
  obtain ⟨_, _, h⟩ := bind_eq_ok h
  split at h
  · cases h; rfl
  split at h
  · cases h; rfl
  split at h
  · cases h
  obtain ⟨⟨rm, rose, id⟩, _, h⟩ := bind_eq_ok h
  cases id with
  | error e => cases h
  | ok id =>
    simp only at h
    split at h
    · cases h
    obtain ⟨sw, _, h⟩ := bind_eq_ok h
    cases h; rfl

/-- What a step does to the pointer, if it is defined. -/
theorem step_inv (p : Profile) (cc : CompileContext) (o o' : Boxed) (m m' : Mem) (s : Step) (b : Bool) (hcc : o.ng.cc = cc)
    (hi : Inv [o.box] o.ptr b m) (hr : s.run p o m = some (.ok o', m')) :
    o'.box = o.box ∧ o'.ptr = o.ptr ∧ o'.ng.cc = cc ∧
    ((∃ c, s = .literal c ∧ cc.grey.shortcutLiterals = true ∧ ¬ Mixed c.literal) → Inv [o.box] o.ptr false m') ∧
    ((¬ ∃ c, s = .literal c ∧ cc.grey.shortcutLiterals = true ∧ ¬ Mixed c.literal) → Inv [o.box] o.ptr b m') := by
  have hno : ∀ {P : Prop}, (∀ c, s ≠ .literal c) → Inv [o.box] o.ptr b m' →
      ((∃ c, s = .literal c ∧ cc.grey.shortcutLiterals = true ∧ ¬ Mixed c.literal) → P) ∧
      ((¬ ∃ c, s = .literal c ∧ cc.grey.shortcutLiterals = true ∧ ¬ Mixed c.literal) → Inv [o.box] o.ptr b m') :=
    fun h1 h2 => ⟨fun ⟨c, hc, _⟩ => absurd hc (h1 c), fun _ => h2⟩
  cases s with
  | literal c =>
    obtain ⟨m1, h1, h2⟩ := run_addLiteral p o c.literal c.index c.report c.highlander c.som c.quiet
      (ts := [o.box]) (ptr := o.ptr) (b := b) (by simp) m hi
    have h3 : M.bind (addLiteral p o c.literal c.index c.report c.highlander c.som c.quiet) (fun x => pure x.1) m
        = some (.ok o', m') := hr
    unfold M.bind at h3
    rw [h1] at h3
    cases hx : o.ng.addLiteral p c.literal c.index c.report c.highlander c.som c.quiet with
    | err e => rw [hx] at h3; cases h3
    | panic e => rw [hx] at h3; cases h3
    | timeout => rw [hx] at h3; cases h3
    | ok x =>
      rw [hx] at h3
      obtain ⟨ng', a⟩ := x
      have h4 : some (Outcome.ok (ε := CompileError) ({ o with ng := ng' } : Boxed), m1) = some (.ok o', m') := h3
      cases h4
      have hne : p = .debug → c.literal.s ≠ [] := by
        rintro rfl he
        rw [addLiteral_empty o.ng c he] at hx
        cases hx
      have hre := reaches_iff p o.ng c hne
      rw [hcc] at hre
      refine ⟨rfl, rfl, (addLiteral_cc _ _ _ _ _ _ _ _ _ _ hx).trans hcc, ?_, ?_⟩
      · rintro ⟨c', hc', h5⟩
        cases hc'
        rw [hre.2 h5] at h2
        simpa using h2
      · intro h5
        have : reaches p o.ng c.literal = false := by
          cases hq : reaches p o.ng c.literal with
          | false => rfl
          | true => exact absurd ⟨c, rfl, hre.1 hq⟩ h5
        rw [this] at h2
        simpa using h2
  | graph e g =>
    obtain ⟨r, m1, h1, h2, h3⟩ := tri_addGraph (ts := [o.box]) (ptr := o.ptr) (b := b) (E := fun _ => False) o e g
      (by simp) m hi
    rw [show Step.run p o (.graph e g) m = addGraph o e g m from rfl, h1] at hr
    cases hr
    obtain ⟨h4, h5⟩ := h2 o' rfl
    subst h4
    refine ⟨rfl, rfl, ?_, hno (by simp) h5⟩
    show (o.ng.addGraph e g).cc = cc
    unfold Ng.addGraph
    split <;> exact hcc
  | look =>
    obtain ⟨r, m1, h1, h2, h3⟩ := tri_look (ts := [o.box]) (ptr := o.ptr) (b := b) (E := fun _ => False) o (by simp) m hi
    have h4 : M.bind (Borrows.look o) (fun _ => pure o) m = some (.ok o', m') := hr
    unfold M.bind at h4
    rw [h1] at h4
    cases r with
    | ok u => cases h4; exact ⟨rfl, rfl, hcc, hno (by simp) (h2 u rfl)⟩
    | err e => cases h4
    | panic e => cases h4
    | timeout => cases h4
  | offer g e =>
    have h0 : swAddExpression o g e m = some (.ok o', m') := hr
    by_cases hok : b = true ∨ o.ng.smwr.poisoned = true ∨ e.som ≠ .none ∨ g.isVacuous = true ∨ g.allReports = []
    · obtain ⟨m1, h1, h2⟩ := run_swAddExpression (ts := [o.box]) (ptr := o.ptr) (b := b) o g e (by simp)
          (by rcases hok with rfl | h; exact .inl (follow_eq o); exact .inr h) m hi
      rw [h0] at h1
      injection h1 with h1
      injection h1 with h3 h4
      subst h4
      cases hx : o.ng.smwr.addExpression (ε := CompileError) o.ng.rm g e with
      | ok sw => rw [hx] at h3; cases h3; exact ⟨rfl, rfl, hcc, hno (by simp) h2⟩
      | err e => rw [hx] at h3; cases h3
      | panic e => rw [hx] at h3; cases h3
      | timeout => rw [hx] at h3; cases h3
    · simp only [not_or] at hok
      obtain ⟨g1, g2, g3, g4, g5⟩ := hok
      have hb : b = false := by simpa using g1
      subst hb
      rw [ub_swAddExpression (ts := [o.box]) o g e (by simp) (by simpa using g2) (by simpa using g3)
        (by simpa using g4) g5 m hi] at h0
      cases h0

theorem steps_inv (p : Profile) (cc : CompileContext) : ∀ (ss : List Step) (o o' : Boxed) (m m' : Mem) (b : Bool),
    o.ng.cc = cc → Inv [o.box] o.ptr b m → runSteps p ss o m = some (.ok o', m') →
    o'.box = o.box ∧ o'.ptr = o.ptr ∧ o'.ng.cc = cc ∧ (SomeTaken cc.grey ss → Inv [o.box] o.ptr false m') ∧
    (¬ SomeTaken cc.grey ss → Inv [o.box] o.ptr b m') := by
  intro ss
  induction ss with
  | nil =>
    intro o o' m m' b hcc hi hr
    cases hr
    exact ⟨rfl, rfl, hcc, (fun ⟨c, hc, _⟩ => by cases hc), fun _ => hi⟩
  | cons s ss ih =>
    intro o o' m m' b hcc hi hr
    have h0 : M.bind (s.run p o) (runSteps p ss) m = some (.ok o', m') := hr
    unfold M.bind at h0
    cases h1 : s.run p o m with
    | none => rw [h1] at h0; cases h0
    | some y =>
      rw [h1] at h0
      obtain ⟨r, m1⟩ := y
      cases r with
      | err e => cases h0
      | panic e => cases h0
      | timeout => cases h0
      | ok o1 =>
        obtain ⟨a1, a2, a3, a4, a5⟩ := step_inv p cc o o1 m m1 s b hcc hi h1
        have hsplit : SomeTaken cc.grey (s :: ss) ↔
            (∃ c, s = .literal c ∧ cc.grey.shortcutLiterals = true ∧ ¬ Mixed c.literal) ∨ SomeTaken cc.grey ss := by
          constructor
          · rintro ⟨c, hc, hw⟩
            rcases List.mem_cons.1 hc with hc | hc
            · exact .inl ⟨c, hc.symm, hw⟩
            · exact .inr ⟨c, hc, hw⟩
          · rintro (⟨c, rfl, hw⟩ | ⟨c, hc, hw⟩)
            · exact ⟨c, by simp, hw⟩
            · exact ⟨c, by simp [hc], hw⟩
        by_cases hs : ∃ c, s = .literal c ∧ cc.grey.shortcutLiterals = true ∧ ¬ Mixed c.literal
        · obtain ⟨b1, b2, b3, b4, b5⟩ := ih o1 o' m1 m' false a3 (by rw [a1, a2]; exact a4 hs) h0
          rw [a1, a2] at b4 b5
          refine ⟨b1.trans a1, b2.trans a2, b3, fun _ => ?_, fun h => absurd (hsplit.2 (.inl hs)) h⟩
          by_cases h2 : SomeTaken cc.grey ss
          · exact b4 h2
          · exact b5 h2
        · obtain ⟨b1, b2, b3, b4, b5⟩ := ih o1 o' m1 m' b a3 (by rw [a1, a2]; exact a5 hs) h0
          rw [a1, a2] at b4 b5
          refine ⟨b1.trans a1, b2.trans a2, b3, fun h => ?_, fun h => ?_⟩
          · rcases hsplit.1 h with h | h
            · exact absurd h hs
            · exact b4 h
          · exact b5 (fun h2 => h (hsplit.2 (.inr h2)))

theorem life_inv (p : Profile) (cc : CompileContext) (np sp : Nat) (ss : List Step) (o : Boxed) (m : Mem)
    (h : life p cc np sp ss Mem.start = some (.ok o, m)) :
    ∃ b, Inv [o.box] o.ptr b m ∧ (b = false ↔ SomeTaken cc.grey ss) := by
  obtain ⟨m0, h1, h2⟩ := newNg_eq cc np sp
  have h0 : M.bind (newNg cc np sp) (runSteps p ss) Mem.start = some (.ok o, m) := h
  unfold M.bind at h0
  rw [h1] at h0
  obtain ⟨a1, a2, a3, a4, a5⟩ := steps_inv p cc ss ⟨Ng.new cc np sp, 6, 3⟩ o m0 m true rfl h2 h0
  rw [a1, a2]
  by_cases hs : SomeTaken cc.grey ss
  · exact ⟨false, a4 hs, by simp [hs]⟩
  · exact ⟨true, a5 hs, by simp [hs]⟩

/-- The graph of the examples: start → a vertex with report 0 → accept. -/
def reportGraph : NgHolder :=
  ⟨⟨[NfaGraphVertexProps.default, NfaGraphVertexProps.default, NfaGraphVertexProps.default,
      NfaGraphVertexProps.default, ⟨CharReach.default, [0], PosFlags.default⟩], [(0, 4), (4, 2)]⟩, 0, 1, 2, 3⟩

/-- An expression without start of match. -/
def plainExpr : ExpressionInfo := ⟨0, 0, false, false, false, false, .none, false⟩

/-- The literal "a". -/
def litA : LitCall := ⟨⟨[0x61#8], [false]⟩, 0, 0, false, .none, false⟩

/-- A boxed `Ng` after the literal "a". -/
theorem life_litA : ∃ o m, life .release exampleContext 2 0 [.literal litA] Mem.start = some (.ok o, m) ∧
    o.ng.smwr.poisoned = false := by
  obtain ⟨m, h1, h2⟩ := newNg_eq exampleContext 2 0
  obtain ⟨m1, h3, _⟩ := run_addLiteral .release ⟨Ng.new exampleContext 2 0, 6, 3⟩ litA.literal litA.index litA.report
    litA.highlander litA.som litA.quiet (ts := [6]) (ptr := 3) (b := true) (by simp) m h2
  have h4 : (match (Ng.new exampleContext 2 0).addLiteral .release litA.literal litA.index litA.report litA.highlander
      litA.som litA.quiet with
    | .ok x => !x.1.smwr.poisoned
    | _ => false) = true := by decide +kernel
  cases hx : (Ng.new exampleContext 2 0).addLiteral .release litA.literal litA.index litA.report litA.highlander litA.som
      litA.quiet with
  | err e => rw [hx] at h4; cases h4
  | panic e => rw [hx] at h4; cases h4
  | timeout => rw [hx] at h4; cases h4
  | ok x =>
    rw [hx] at h3 h4
    refine ⟨⟨x.1, 6, 3⟩, m1, ?_, by simpa using h4⟩
    show M.bind (newNg exampleContext 2 0) (runSteps .release [.literal litA]) Mem.start = _
    unfold M.bind
    rw [h1]
    show M.bind (M.bind (addLiteral .release ⟨Ng.new exampleContext 2 0, 6, 3⟩ litA.literal litA.index litA.report
      litA.highlander litA.som litA.quiet) (fun x => pure x.1)) (runSteps .release []) m = _
    unfold M.bind
    rw [h3]; rfl

/-- C97, what holds (missing: the pointer is made from a shared reference and dies with the first mutable use of the
report manager): a step on a boxed `Ng` is undefined exactly if it offers a graph to the small-write builder that makes it
follow its pointer, after some literal was taken. -/
theorem C97_pointer_partial (p : Profile) (cc : CompileContext) (np sp : Nat) (ss : List Step) (o : Boxed) (m : Mem)
    (h : life p cc np sp ss Mem.start = some (.ok o, m)) (s : Step) :
    s.run p o m = none ↔ (∃ g e, s = .offer g e ∧ Follows o g e) ∧ SomeTaken cc.grey ss := by
  obtain ⟨b, hi, hb⟩ := life_inv p cc np sp ss o m h
  have hfol : ∀ g e, (o.ng.smwr.poisoned = false ∧ e.som = .none ∧ g.isVacuous = false ∧ g.allReports ≠ []) ↔
      Follows o g e := by
    intro g e
    have h1 : g.isVacuous = false ↔ ¬ VacuousGraph g := by rw [← C74_vacuous]; simp
    have h2 : g.allReports ≠ [] ↔ ∃ r, ReportedBy g r := by
      constructor
      · intro hne
        obtain ⟨r, hr⟩ := List.exists_mem_of_ne_nil _ hne
        exact ⟨r, (C74_all_reports g r).1 hr⟩
      · rintro ⟨r, hr⟩ he
        have := (C74_all_reports g r).2 hr
        rw [he] at this; cases this
    unfold Follows
    rw [h1, h2]
  cases s with
  | literal c =>
    constructor
    · intro h0
      obtain ⟨m1, h1, _⟩ := run_addLiteral p o c.literal c.index c.report c.highlander c.som c.quiet
        (ts := [o.box]) (ptr := o.ptr) (b := b) (by simp) m hi
      have h3 : M.bind (addLiteral p o c.literal c.index c.report c.highlander c.som c.quiet) (fun x => pure x.1) m
          = none := h0
      unfold M.bind at h3
      rw [h1] at h3
      cases hx : o.ng.addLiteral p c.literal c.index c.report c.highlander c.som c.quiet with
      | err e => rw [hx] at h3; cases h3
      | panic e => rw [hx] at h3; cases h3
      | timeout => rw [hx] at h3; cases h3
      | ok x => rw [hx] at h3; cases h3
    · rintro ⟨⟨g, e, hs, _⟩, _⟩; cases hs
  | graph e g =>
    constructor
    · intro h0
      obtain ⟨r, m1, h1, _⟩ := tri_addGraph (ts := [o.box]) (ptr := o.ptr) (b := b) (E := fun _ => False) o e g
        (by simp) m hi
      rw [show Step.run p o (.graph e g) m = addGraph o e g m from rfl, h1] at h0
      cases h0
    · rintro ⟨⟨g, e, hs, _⟩, _⟩; cases hs
  | look =>
    constructor
    · intro h0
      obtain ⟨r, m1, h1, _, h3⟩ := tri_look (ts := [o.box]) (ptr := o.ptr) (b := b) (E := fun _ => False) o (by simp) m hi
      have h4 : M.bind (Borrows.look o) (fun _ => pure o) m = none := h0
      unfold M.bind at h4
      rw [h1] at h4
      cases r <;> cases h4
    · rintro ⟨⟨g, e, hs, _⟩, _⟩; cases hs
  | offer g e =>
    have hrun : Step.run p o (.offer g e) m = swAddExpression o g e m := rfl
    rw [hrun]
    constructor
    · intro h0
      have hnot : ¬ (b = true ∨ o.ng.smwr.poisoned = true ∨ e.som ≠ .none ∨ g.isVacuous = true ∨ g.allReports = []) := by
        intro hok
        obtain ⟨m1, h1, _⟩ := run_swAddExpression (ts := [o.box]) (ptr := o.ptr) (b := b) o g e (by simp)
          (by rcases hok with rfl | h; exact .inl (follow_eq o); exact .inr h) m hi
        rw [h0] at h1; cases h1
      simp only [not_or] at hnot
      obtain ⟨g1, g2, g3, g4, g5⟩ := hnot
      exact ⟨⟨g, e, rfl, (hfol g e).1 ⟨by simpa using g2, by simpa using g3, by simpa using g4, g5⟩⟩,
        hb.1 (by simpa using g1)⟩
    · rintro ⟨⟨g', e', hs, hf⟩, ht⟩
      cases hs
      have hbf := hb.2 ht
      subst hbf
      obtain ⟨f1, f2, f3, f4⟩ := (hfol g e).2 hf
      exact ub_swAddExpression (ts := [o.box]) o g e (by simp) f1 f2 f3 f4 m hi

example : ∃ o m, life .release exampleContext 2 0 [.literal litA] Mem.start = some (.ok o, m) ∧
    o.ng.smwr.poisoned = false := life_litA

/-- C97: dropping the box is never undefined, whatever the last step did. -/
theorem C97_drop (p : Profile) (cc : CompileContext) (np sp : Nat) (ss : List Step) (o : Boxed) (m : Mem)
    (h : life p cc np sp ss Mem.start = some (.ok o, m)) : (dropNg o m).isSome = true := by
  obtain ⟨b, hi, _⟩ := life_inv p cc np sp ss o m h
  obtain ⟨r, m', h1, _⟩ := tri_drop (ts := [o.box]) (E := fun _ => True) o (by simp) m hi
  rw [h1]; rfl

example : ∃ o m, life .release exampleContext 2 0 [.literal litA] Mem.start = some (.ok o, m) ∧
    (dropNg o m).isSome = true := by
  obtain ⟨o, m, h, _⟩ := life_litA
  exact ⟨o, m, h, C97_drop _ _ _ _ _ _ _ h⟩

/-- C97 is false: after the literal "a" the builder's pointer is dead. -/
theorem C97_false : ¬ PointerUsable := by
  intro h
  obtain ⟨o, m, hr, hn⟩ := life_litA
  refine h .release exampleContext 2 0 _ o m hr (.offer reportGraph plainExpr) ?_
  rw [C97_pointer_partial .release exampleContext 2 0 _ o m hr]
  refine ⟨⟨_, _, rfl, hn, rfl, ?_, 0, ?_⟩, litA, by simp, rfl, ?_⟩
  · rw [← C74_vacuous]; decide +kernel
  · rw [← C74_all_reports]; decide +kernel
  · rw [← mixed_iff]; decide

/-- Without the literal the same graph is handled. -/
example : ∃ o m, life .release exampleContext 2 0 [] Mem.start = some (.ok o, m) ∧ Follows o reportGraph plainExpr ∧
    (Step.offer reportGraph plainExpr).run .release o m ≠ none ∧ (dropNg o m).isSome = true := by
  obtain ⟨m, h1, h2⟩ := newNg_eq exampleContext 2 0
  have h3 : life .release exampleContext 2 0 [] Mem.start = some (.ok ⟨Ng.new exampleContext 2 0, 6, 3⟩, m) := by
    show M.bind (newNg exampleContext 2 0) (runSteps .release []) Mem.start = _
    unfold M.bind
    rw [h1]; rfl
  refine ⟨_, m, h3, ⟨rfl, rfl, by rw [← C74_vacuous]; decide +kernel, 0, by rw [← C74_all_reports]; decide +kernel⟩, ?_,
    C97_drop _ _ _ _ _ _ _ h3⟩
  intro h
  obtain ⟨_, c, hc, _⟩ := (C97_pointer_partial .release exampleContext 2 0 [] _ m h3 _).1 h
  cases hc

end Borrows
end Rescan
