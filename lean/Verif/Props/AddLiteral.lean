import Verif.Props.Expression
/-! # C95: `add_literal` and `add_graph` called in any order, with any start-of-match setting (src/nfagraph/ng.rs)

The compiler itself only ever passes `SomType::None`.  Here the build state is used through its own interface. -/
namespace Rescan
open Spec

/-- The arguments of one call of `add_literal`. -/
structure LitCall where
  literal : Ue2Literal
  index : Nat
  report : Nat
  highlander : Bool
  som : SomType
  quiet : Bool

/-- A call on the build state. -/
inductive NgOp where
  | literal (c : LitCall)
  | graph (e : ExpressionInfo) (g : NgHolder)

/-- One call, stopping at the first failure (the answer of `add_literal` is dropped). -/
def runOp (p : Profile) (ng : Ng) : NgOp → Res Ng
  | .literal c => (ng.addLiteral p c.literal c.index c.report c.highlander c.som c.quiet).bind (fun x => .ok x.1)
  | .graph e g => .ok (ng.addGraph e g)

/-- Calls made one after the other. -/
def runOps (p : Profile) : List NgOp → Ng → Res Ng
  | [], ng => .ok ng
  | o :: os, ng => (runOp p ng o).bind (runOps p os)

namespace Spec

/-- Letters of both kinds occur: one with case and one without. -/
def Mixed (l : Ue2Literal) : Prop :=
  (∃ e ∈ l.iter, ourisalpha e.c = true ∧ e.nocase = false) ∧ (∃ e ∈ l.iter, ourisalpha e.c = true ∧ e.nocase = true)

open Classical in
/-- The literals that the calls `ops` put into the state: all but the mixed ones, or none if the short cut for literals
is switched off. -/
noncomputable def taken (g : Grey) (ops : List NgOp) : List LitCall :=
  ops.filterMap (fun o => match o with
    | .literal c => if g.shortcutLiterals = true ∧ ¬ Mixed c.literal then some c else none
    | .graph _ _ => none)

/-- Some graph with a start of match was added. -/
def SomGraph (ops : List NgOp) : Prop := ∃ e g, .graph e g ∈ ops ∧ e.som ≠ .none

end Spec

/-- The registrations made by literals. -/
def regsBy (h : List LitCall) : List (Nat × ExternalReportInfo) :=
  h.map (fun x => (x.report, ⟨x.highlander, x.index⟩))

/-- The state after the literals `h`; `som`: a start of match was asked for. -/
structure NgHas (cc : CompileContext) (np : Nat) (h : List LitCall) (som : Prop) (ng : Ng) : Prop where
  context : ng.cc = cc
  roseCc : ng.rose.cc = cc
  roseSom : ng.rose.hasSom = true ↔ som
  limit : ng.rm.limitReportCount = cc.grey.limitReportCount
  inv : ng.rm.IdInv
  ids : ng.rm.reportIds = if h.isEmpty then [] else [⟨0⟩]
  short : ∀ x ∈ h, x.literal.s.length ≤ 2 ^ 31 - 2
  room : h ≠ [] → cc.grey.limitReportCount ≠ 0
  reg : ReportManager.RegInv ng.rm (regsBy h)
  keys : ∃ seen, ReportManager.KeyInv ng.rm seen ∧ seen.length ≤ h.length ∧
    ∀ id, id ∈ seen ↔ ∃ x ∈ h, x.som = .none ∧ x.highlander = true ∧ x.report = id
  width : ng.minWidth.val = h.foldl (fun m x => min m x.literal.s.length) (2 ^ 31 - 1)
  smwr : addLiterals (ε := CompileError) (h.map (fun x => (x.literal, 0))) (SmallWriteBuild.new np cc.grey)
    = .ok ng.smwr

theorem ngHas_new (cc : CompileContext) (np som : Nat) : NgHas cc np [] False (Ng.new cc np som) where
  context := rfl
  roseCc := rfl
  roseSom := by simp [Ng.new]
  limit := rfl
  inv := ReportManager.idInv_new _
  ids := rfl
  short := by simp
  room := fun h => absurd rfl h
  reg := ReportManager.regInv_new _
  keys := ⟨[], ReportManager.keyInv_new _, by simp, by simp⟩
  width := rfl
  smwr := rfl

/-- The part of `add_literal` that makes the report and gets its internal id. -/
def middle (p : Profile) (ng : Ng) (rm : ReportManager) (lit : Ue2Literal) (id : Nat) (single : Bool) (sm : SomType)
    (quiet : Bool) : Res (ReportManager × RoseBuild × Except CompileError Nat) :=
  match sm with
  | .none =>
    ((show Res (ReportManager × Option Nat) from
      if single then (rm.getExhaustibleKey id).bind (fun x => .ok (x.1, some x.2))
      else .ok (rm, none))).bind fun x =>
        (Ng.lift (x.1.getInternalId (makeECallback id 0 x.2 quiet))).bind fun y =>
          .ok (y.1, ng.rose, y.2)
  | _ => (rdebugAssert p (!single) "assertion failed: !highlander").bind fun _ =>
      (Ng.lift (rm.getInternalId (makeSomRelativeCallback id 0 lit.len))).bind fun y =>
        .ok (y.1, { ng.rose with hasSom := true }, y.2)

/-- What a call of `add_literal` answers when it does not fail in an earlier check, in terms of the history. -/
theorem addLiteral_any (p : Profile) {cc : CompileContext} {np : Nat} {h : List LitCall} {som : Prop} {ng : Ng}
    (hl2 : cc.grey.smallWriteLargestBuffer < 2 ^ 31)
    (hok : NgHas cc np h som ng) (c : LitCall) (hh : h.length < 2 ^ 32)
    (hne : p = .debug → c.literal.s ≠ []) (hg : cc.grey.shortcutLiterals = true)
    (hmix : mixedSensitivity c.literal.iter = false) :
    (∀ old, firstFor (regsBy h) c.report = some old → old.highlander ≠ c.highlander →
      ng.addLiteral p c.literal c.index c.report c.highlander c.som c.quiet
        = .err (CompileError.withIndex c.index
            (ReportManager.conflictMessage c.report ⟨c.highlander, c.index⟩ old))) ∧
    ((∀ old, firstFor (regsBy h) c.report = some old → old.highlander = c.highlander) →
      (p = .debug ∧ c.som ≠ .none ∧ c.highlander = true →
        ng.addLiteral p c.literal c.index c.report c.highlander c.som c.quiet
          = .panic "assertion failed: !highlander") ∧
      (¬ (p = .debug ∧ c.som ≠ .none ∧ c.highlander = true) →
        (cc.grey.limitReportCount = 0 →
          ng.addLiteral p c.literal c.index c.report c.highlander c.som c.quiet
            = .err ⟨.resourceLimit, "Resource limit exceeded.", none⟩) ∧
        (cc.grey.limitReportCount ≠ 0 → c.literal.s.length > 2 ^ 31 - 2 →
          ng.addLiteral p c.literal c.index c.report c.highlander c.som c.quiet
            = .err ⟨.other, "depth overflow", none⟩) ∧
        (cc.grey.limitReportCount ≠ 0 → c.literal.s.length ≤ 2 ^ 31 - 2 →
          ∃ ng', ng.addLiteral p c.literal c.index c.report c.highlander c.som c.quiet = .ok (ng', true) ∧
            NgHas cc np (h ++ [c]) (som ∨ c.som ≠ .none) ng'))) := by
  obtain ⟨hcc, hrose, hsom, hlimit, hinv, hids, hshort, hroom, hreg, ⟨seen, hkey, hseen, hkeys⟩, hwidth, hsmwr⟩ := hok
  obtain ⟨lit, i, id, single, sm, quiet⟩ := c
  simp only at hne hmix ⊢
  have hstart : ng.addLiteral p lit i id single sm quiet =
      match ng.rm.registerExtReport id ⟨single, i⟩ with
      | (_, .error e) => .err e
      | (rm, .ok ()) =>
        ((middle p ng rm lit id single sm quiet)).bind fun z =>
          match z.2.2 with
          | .error e => .err e
          | .ok id' =>
            match Depth.tryFrom lit.len with
            | none => .err (CompileError.new .other "depth overflow")
            | some d => (ng.smwr.addLiteral lit id').bind fun smwr =>
              .ok (({ ng with minWidth := Depth.min ng.minWidth d, rm := z.1, rose := z.2.1,
                              smwr := smwr } : Ng), true) := by
    unfold Ng.addLiteral
    have : rdebugAssert (ε := CompileError) p (!lit.isEmpty) "assertion failed: !literal.is_empty()" = .ok () := by
      cases p with
      | release => rfl
      | debug =>
        have := hne rfl
        cases hs : lit.s with
        | nil => exact absurd hs this
        | cons a b => simp [Ue2Literal.isEmpty, hs, rdebugAssert, rassert]
    rw [this]
    show (if _ then _ else _) = _
    rw [hcc, hg, if_neg (by simp), if_neg (by simp [hmix])]
    rfl
  refine ⟨fun old h1 h2 => ?_, fun hconf => ?_⟩
  · rw [hstart, ReportManager.register_err ng.rm (regsBy h) hreg id ⟨single, i⟩ old h1 h2]
  obtain ⟨hr1, hr2⟩ := ReportManager.register_ok ng.rm (regsBy h) hreg id ⟨single, i⟩ hconf
  obtain ⟨f1, f2, f3, f4⟩ := ReportManager.register_frame ng.rm id ⟨single, i⟩
  rw [hstart]
  generalize ng.rm.registerExtReport id ⟨single, i⟩ = reg at hr1 hr2 f1 f2 f3 f4
  obtain ⟨rm1, res⟩ := reg
  simp only at hr1 hr2 f1 f2 f3 f4
  subst hr1
  simp only
  have hkey1 : ReportManager.KeyInv rm1 seen := by
    unfold ReportManager.KeyInv at hkey ⊢; rw [f4]; exact hkey
  refine ⟨fun ⟨hp, hs, hsg⟩ => ?_, fun hno => ?_⟩
  · subst hp hsg
    cases sm with
    | none => exact absurd rfl hs
    | left => rfl
  -- the first part: the exhaustible key
  obtain ⟨rm2, rose2, hk, ⟨seen2, hkey2, hseen2, hkeys2⟩, hrc, hrs, g1, g2, g3, g4, g5⟩ : ∃ rm2 rose2,
      (middle p ng rm1 lit id single sm quiet)
        = (Ng.lift (rm2.getInternalId ⟨0⟩)).bind (fun y => .ok (y.1, rose2, y.2)) ∧
      (∃ seen2, ReportManager.KeyInv rm2 seen2 ∧ seen2.length ≤ h.length + 1 ∧
        ∀ k, k ∈ seen2 ↔ k ∈ seen ∨ (sm = .none ∧ single = true ∧ id = k)) ∧
      rose2.cc = cc ∧ (rose2.hasSom = true ↔ som ∨ sm ≠ .none) ∧
      rm2.limitReportCount = rm1.limitReportCount ∧ rm2.reportIds = rm1.reportIds ∧
      rm2.reportIdToInternalMap = rm1.reportIdToInternalMap ∧
      rm2.externalIdMap = rm1.externalIdMap ∧ rm2.globalExhaust = rm1.globalExhaust := by
    cases sm with
    | left =>
      have : rdebugAssert (ε := CompileError) p (!single) "assertion failed: !highlander" = .ok () := by
        cases p with
        | release => rfl
        | debug =>
          cases single with
          | false => rfl
          | true => exact absurd ⟨rfl, by simp, rfl⟩ hno
      simp only [middle, this]
      exact ⟨rm1, { ng.rose with hasSom := true }, rfl, ⟨seen, hkey1, by omega, by simp⟩, hrose, by simp, rfl, rfl,
        rfl, rfl, rfl⟩
    | none =>
      cases single with
      | false =>
        exact ⟨rm1, ng.rose, rfl, ⟨seen, hkey1, by omega, by simp⟩, hrose, by simpa using hsom, rfl, rfl, rfl, rfl, rfl⟩
      | true =>
        obtain ⟨rm2, k, h1, h2, h3⟩ := ReportManager.getExhaustibleKey_spec (ε := CompileError) rm1 seen
          hkey1 (2 ^ 32) (Nat.le_refl _) (by omega) id
        obtain ⟨e1, e2, e3, e4, e5⟩ := ReportManager.getExhaustibleKey_frame rm1 rm2 id k h1
        refine ⟨rm2, ng.rose, ?_, ⟨_, h3, ?_, ?_⟩, hrose, by simpa using hsom, e1, e2, e3, e4, e5⟩
        · simp only [middle, if_pos, h1]; rfl
        · unfold assign
          split
          · simp; omega
          · split <;> simp <;> omega
        · intro k'
          unfold assign
          split
          · rename_i hm
            constructor
            · exact .inl
            · rintro (h | ⟨_, _, rfl⟩)
              · exact h
              · exact hm
          · rw [if_neg (by omega)]
            simp [eq_comm]
  rw [hk]
  have hinv2 : rm2.IdInv := by
    unfold ReportManager.IdInv at hinv ⊢
    rw [g2, g3, f2, f3]; exact hinv
  have hlim2 : rm2.limitReportCount = cc.grey.limitReportCount := by rw [g1, f1, hlimit]
  obtain ⟨rm3, h1, h2, h3, h4, h5, h6, h7⟩ := ReportManager.getInternalId_spec rm2 hinv2 ⟨0⟩
    (.inr (.inr (by rw [g2, f2, hids]; split <;> simp)))
  have hid0 : rm2.reportIds = if h.isEmpty then [] else [⟨0⟩] := by rw [g2, f2, hids]
  rw [h1]
  simp only [Ng.lift, Outcome.bind]
  refine ⟨fun hz => ?_, fun hz hlen => ?_, fun hz hlen => ?_⟩
  · have : h = [] := Classical.byContradiction (fun hn => hroom hn hz)
    subst this
    have : assign rm2.limitReportCount rm2.reportIds (⟨0⟩ : Report) = ([], none) := by
      rw [hid0, hlim2, hz]; rfl
    rw [this]; rfl
  all_goals
    have hass : assign rm2.limitReportCount rm2.reportIds (⟨0⟩ : Report) = ([⟨0⟩], some 0) := by
      rw [hid0, hlim2]
      cases h with
      | nil =>
        unfold assign
        rw [if_neg (by simp), if_neg (by simp; omega)]
        rfl
      | cons x h => rfl
    rw [hass] at h3 ⊢
    simp only [ReportManager.ofAnswer]
  · have hd : Depth.tryFrom lit.len = none := by
      unfold Depth.tryFrom Depth.maxValue Depth.infinityVal Ue2Literal.len
      rw [if_neg (by omega)]
    rw [hd]; rfl
  · have hd : Depth.tryFrom lit.len = some ⟨lit.s.length⟩ := by
      unfold Depth.tryFrom Depth.maxValue Depth.infinityVal Ue2Literal.len
      rw [if_pos (by omega)]
    rw [hd]
    simp only
    obtain ⟨sw', hsw'⟩ := addLiterals_ok (ε := CompileError) np cc.grey hl2
      (h.map (fun x => (x.literal, 0)) ++ [(lit, 0)])
    have hsw1 : ng.smwr.addLiteral (ε := CompileError) lit 0 = .ok sw' := by
      rw [addLiterals_append, hsmwr] at hsw'
      replace hsw' : (ng.smwr.addLiteral lit 0).bind _ = _ := hsw'
      cases hx : ng.smwr.addLiteral (ε := CompileError) lit 0 with
      | ok sw => rw [hx] at hsw'; exact hsw'
      | err e => rw [hx] at hsw'; cases hsw'
      | panic e => rw [hx] at hsw'; cases hsw'
      | timeout => rw [hx] at hsw'; cases hsw'
    rw [hsw1]
    refine ⟨_, rfl, ?_⟩
    constructor
    · exact hcc
    · exact hrc
    · exact hrs
    · show rm3.limitReportCount = _
      rw [h4, hlim2]
    · exact h2
    · show rm3.reportIds = _
      rw [h3]
      simp
    · intro x hx
      rcases List.mem_append.1 hx with hx | hx
      · exact hshort x hx
      · rw [List.mem_singleton.1 hx]; exact hlen
    · exact fun _ => hz
    · show ReportManager.RegInv rm3 _
      have e : regsBy (h ++ [⟨lit, i, id, single, sm, quiet⟩]) = regsBy h ++ [(id, ⟨single, i⟩)] := by simp [regsBy]
      rw [e]
      constructor
      · intro k; rw [h5, g4]; exact hr2.first k
      · exact hr2.agree
      · rw [h7, g5]; exact hr2.exhaust
    · refine ⟨seen2, ?_, by simpa using hseen2, ?_⟩
      · show ReportManager.KeyInv rm3 _
        unfold ReportManager.KeyInv at hkey2 ⊢
        rw [h6]; exact hkey2
      · intro k
        rw [hkeys2, hkeys]
        simp only [List.mem_append, List.mem_singleton]
        constructor
        · rintro (⟨x, hx, h1, h2⟩ | ⟨h1, h2⟩)
          · exact ⟨x, .inl hx, h1, h2⟩
          · exact ⟨_, .inr rfl, h1, h2⟩
        · rintro ⟨x, hx | rfl, h1, h2⟩
          · exact .inl ⟨x, hx, h1, h2⟩
          · exact .inr ⟨h1, h2⟩
    · show (Depth.min ng.minWidth ⟨lit.s.length⟩).val = _
      rw [depth_min, hwidth, List.foldl_append]
      rfl
    · rw [List.map_append]; exact hsw'

/-- The literals taken after one more call. -/
theorem taken_append (g : Grey) (ops ops' : List NgOp) : taken g (ops ++ ops') = taken g ops ++ taken g ops' := by
  unfold taken; rw [List.filterMap_append]

theorem taken_length (g : Grey) (ops : List NgOp) : (taken g ops).length ≤ ops.length :=
  List.length_filterMap_le _ _

theorem mixed_iff (l : Ue2Literal) : mixedSensitivity l.iter = true ↔ Mixed l := by
  unfold Mixed
  rw [mixedSensitivity_eq, Bool.and_eq_true, List.any_eq_true, List.any_eq_true]
  simp

/-- Before anything else `add_literal` looks whether it wants the literal. -/
theorem addLiteral_declined (p : Profile) (ng : Ng) (c : LitCall)
    (hne : p = .debug → c.literal.s ≠ []) (hg : ¬ (ng.cc.grey.shortcutLiterals = true ∧ ¬ Mixed c.literal)) :
    ng.addLiteral p c.literal c.index c.report c.highlander c.som c.quiet = .ok (ng, false) := by
  have : rdebugAssert (ε := CompileError) p (!c.literal.isEmpty) "assertion failed: !literal.is_empty()" = .ok () := by
    cases p with
    | release => rfl
    | debug =>
      have := hne rfl
      cases hs : c.literal.s with
      | nil => exact absurd hs this
      | cons a b => simp [Ue2Literal.isEmpty, hs, rdebugAssert, rassert]
  unfold Ng.addLiteral
  rw [this]
  show (if _ then _ else _) = _
  by_cases h1 : ng.cc.grey.shortcutLiterals = true
  · rw [if_neg (by simp [h1])]
    have h2 : mixedSensitivity c.literal.iter = true := by
      rw [mixed_iff]
      exact Classical.byContradiction (fun h => hg ⟨h1, h⟩)
    rw [if_pos h2]; rfl
  · rw [if_pos (by simpa using h1)]; rfl

theorem addLiteral_empty (ng : Ng) (c : LitCall) (hne : c.literal.s = []) :
    ng.addLiteral .debug c.literal c.index c.report c.highlander c.som c.quiet
      = .panic "assertion failed: !literal.is_empty()" := by
  unfold Ng.addLiteral
  simp [Ue2Literal.isEmpty, hne, rdebugAssert, rassert]
  rfl

theorem conflict_cases (h : List LitCall) (id : Nat) (b : Bool) :
    (∃ old, firstFor (regsBy h) id = some old ∧ old.highlander ≠ b) ∨
    (∀ old, firstFor (regsBy h) id = some old → old.highlander = b) := by
  cases firstFor (regsBy h) id with
  | none => exact .inr (fun old h => by cases h)
  | some o =>
    by_cases hb : o.highlander = b
    · exact .inr (fun old h => by cases h; exact hb)
    · exact .inl ⟨o, rfl, hb⟩

theorem ngHas_graph {cc : CompileContext} {np : Nat} {h : List LitCall} {som : Prop} {ng : Ng}
    (hok : NgHas cc np h som ng) (e : ExpressionInfo) (g : NgHolder) :
    NgHas cc np h (som ∨ e.som ≠ .none) (ng.addGraph e g) := by
  unfold Ng.addGraph
  by_cases hs : e.som ≠ .none
  · rw [if_pos hs]
    exact { hok with roseSom := by simp [hs] }
  · rw [if_neg hs]
    exact { hok with roseSom := by rw [hok.roseSom]; simp [hs] }

theorem ngHas_congr {cc : CompileContext} {np : Nat} {h h' : List LitCall} {som som' : Prop} {ng : Ng}
    (hok : NgHas cc np h som ng) (e : h = h') (e' : som ↔ som') : NgHas cc np h' som' ng := by
  subst e; exact { hok with roseSom := hok.roseSom.trans e' }

theorem runOps_has (p : Profile) (cc : CompileContext) (np : Nat)
    (hl2 : cc.grey.smallWriteLargestBuffer < 2 ^ 31) :
    ∀ (ops : List NgOp) (h : List LitCall) (som : Prop) (ng ng' : Ng), NgHas cc np h som ng →
      h.length + ops.length ≤ 2 ^ 32 → runOps p ops ng = .ok ng' →
      NgHas cc np (h ++ taken cc.grey ops)
        (som ∨ SomGraph ops ∨ ∃ c ∈ taken cc.grey ops, c.som ≠ .none) ng' := by
  intro ops
  induction ops with
  | nil =>
    intro h som ng ng' hok _ hrun
    cases hrun
    exact ngHas_congr hok (by simp [taken]) (by simp [taken, SomGraph])
  | cons o ops ih =>
    intro h som ng ng' hok hlen hrun
    rw [List.length_cons] at hlen
    obtain ⟨ng1, h1, h2⟩ := bind_eq_ok hrun
    cases o with
    | graph e g =>
      cases h1
      refine ngHas_congr (ih _ _ _ _ (ngHas_graph hok e g) (by omega) h2) (by simp [taken]) ?_
      have e1 : SomGraph (.graph e g :: ops) ↔ e.som ≠ .none ∨ SomGraph ops := by
        unfold SomGraph
        constructor
        · rintro ⟨e', g', hm, hs⟩
          rcases List.mem_cons.1 hm with hm | hm
          · cases hm; exact .inl hs
          · exact .inr ⟨e', g', hm, hs⟩
        · rintro (hs | ⟨e', g', hm, hs⟩)
          · exact ⟨e, g, by simp, hs⟩
          · exact ⟨e', g', by simp [hm], hs⟩
      have e2 : taken cc.grey (.graph e g :: ops) = taken cc.grey ops := by simp [taken]
      rw [e1, e2]
      constructor
      · rintro ((a | a) | a | a)
        · exact .inl a
        · exact .inr (.inl (.inl a))
        · exact .inr (.inl (.inr a))
        · exact .inr (.inr a)
      · rintro (a | (a | a) | a)
        · exact .inl (.inl a)
        · exact .inl (.inr a)
        · exact .inr (.inl a)
        · exact .inr (.inr a)
    | literal c =>
      have e1 : SomGraph (.literal c :: ops) ↔ SomGraph ops := by
        unfold SomGraph
        constructor
        · rintro ⟨e', g', hm, hs⟩
          rcases List.mem_cons.1 hm with hm | hm
          · cases hm
          · exact ⟨e', g', hm, hs⟩
        · rintro ⟨e', g', hm, hs⟩
          exact ⟨e', g', by simp [hm], hs⟩
      obtain ⟨⟨ng2, b⟩, h3, h4⟩ := bind_eq_ok h1
      cases h4
      have hne : p = .debug → c.literal.s ≠ [] := by
        rintro rfl he
        rw [addLiteral_empty ng c he] at h3
        cases h3
      by_cases hw : cc.grey.shortcutLiterals = true ∧ ¬ Mixed c.literal
      · have e2 : taken cc.grey (.literal c :: ops) = c :: taken cc.grey ops := by
          simp [taken, hw]
        have hmix : mixedSensitivity c.literal.iter = false := by
          cases hm : mixedSensitivity c.literal.iter with
          | false => rfl
          | true => exact absurd ((mixed_iff _).1 hm) hw.2
        obtain ⟨a1, a2⟩ := addLiteral_any p hl2 hok c (by omega) hne hw.1 hmix
        rcases conflict_cases h c.report c.highlander with ⟨old, c1, c2⟩ | hc
        · rw [a1 old c1 c2] at h3; cases h3
        obtain ⟨a3, a4⟩ := a2 hc
        by_cases hd : p = .debug ∧ c.som ≠ .none ∧ c.highlander = true
        · rw [a3 hd] at h3; cases h3
        obtain ⟨a5, a6, a7⟩ := a4 hd
        by_cases hz : cc.grey.limitReportCount = 0
        · rw [a5 hz] at h3; cases h3
        by_cases hlong : c.literal.s.length > 2 ^ 31 - 2
        · rw [a6 hz hlong] at h3; cases h3
        obtain ⟨ng3, a8, a9⟩ := a7 hz (by omega)
        rw [a8] at h3
        cases h3
        refine ngHas_congr (ih _ _ _ _ a9 (by simp; omega) h2) (by rw [e2]; simp) ?_
        rw [e1, e2]
        simp only [List.mem_cons, exists_eq_or_imp]
        constructor
        · rintro ((a | a) | a | a)
          · exact .inl a
          · exact .inr (.inr (.inl a))
          · exact .inr (.inl a)
          · exact .inr (.inr (.inr a))
        · rintro (a | a | a | a)
          · exact .inl (.inl a)
          · exact .inr (.inl a)
          · exact .inl (.inr a)
          · exact .inr (.inr a)
      · have e2 : taken cc.grey (.literal c :: ops) = taken cc.grey ops := by
          simp only [taken, List.filterMap_cons]
          rw [if_neg hw]
        rw [addLiteral_declined p ng c hne (by rw [hok.context]; exact hw)] at h3
        cases h3
        exact ngHas_congr (ih _ _ _ _ hok (by omega) h2) (by rw [e2]) (by rw [e1, e2])

theorem foldl_min (h : List LitCall) : ∀ m : Nat,
    h.foldl (fun m x => min m x.literal.s.length) m ≤ m ∧
    (∀ x ∈ h, h.foldl (fun m x => min m x.literal.s.length) m ≤ x.literal.s.length) ∧
    (h.foldl (fun m x => min m x.literal.s.length) m = m ∨
      ∃ x ∈ h, h.foldl (fun m x => min m x.literal.s.length) m = x.literal.s.length) := by
  induction h with
  | nil => intro m; simp
  | cons y h ih =>
    intro m
    rw [List.foldl_cons]
    obtain ⟨h1, h2, h3⟩ := ih (min m y.literal.s.length)
    refine ⟨by omega, ?_, ?_⟩
    · intro x hx
      rcases List.mem_cons.1 hx with rfl | hx
      · omega
      · exact h2 x hx
    · rcases h3 with h3 | ⟨x, hx, h3⟩
      · by_cases hm : m ≤ y.literal.s.length
        · left; omega
        · right; exact ⟨y, by simp, by omega⟩
      · exact .inr ⟨x, by simp [hx], h3⟩

/-- The context of the examples. -/
def exampleContext : CompileContext := ⟨false, false, Grey.default⟩

/-- The calls of the examples: a caseless "AB" with a start of match, a mixed literal, "CDE" as a single match, a graph. -/
def exampleOps : List NgOp :=
  [.literal ⟨⟨[0x41#8, 0x42#8], [true, true]⟩, 0, 7, false, .left, false⟩,
   .literal ⟨⟨[0x41#8, 0x42#8], [true, false]⟩, 1, 7, true, .none, false⟩,
   .literal ⟨⟨[0x43#8, 0x44#8, 0x45#8], [false, false, false]⟩, 2, 9, true, .none, true⟩,
   .graph ⟨3, 0, false, false, false, false, .none, false⟩ GlushkovBuildState.freshGraph]

/-- C95: the state after any sequence of calls on a new build state that did not fail.  A start of match is noted iff
some added graph or taken literal has one; there is at most one report, of minimum length 0; the small-write builder was
given the taken literals in order, each with report 0; the minimum width is the length of the shortest of them, or
infinity. -/
theorem C95_state (p : Profile) (cc : CompileContext) (np sp : Nat)
    (hl2 : cc.grey.smallWriteLargestBuffer < 2 ^ 31)
    (ops : List NgOp) (hlen : ops.length ≤ 2 ^ 32) (ng : Ng)
    (hrun : runOps p ops (Ng.new cc np sp) = .ok ng) :
    ng.cc = cc ∧ ng.rose.cc = cc ∧
    (ng.rose.hasSom = true ↔ SomGraph ops ∨ ∃ c ∈ taken cc.grey ops, c.som ≠ .none) ∧
    (taken cc.grey ops = [] → ng.rm.reportIds = [] ∧ ng.minWidth.val = 2 ^ 31 - 1) ∧
    (taken cc.grey ops ≠ [] → ng.rm.reportIds = [⟨0⟩] ∧
      (∃ c ∈ taken cc.grey ops, ng.minWidth.val = c.literal.s.length) ∧
      ∀ c ∈ taken cc.grey ops, ng.minWidth.val ≤ c.literal.s.length) ∧
    addLiterals (ε := CompileError) ((taken cc.grey ops).map (fun c => (c.literal, 0)))
      (SmallWriteBuild.new np cc.grey) = .ok ng.smwr := by
  have h := runOps_has p cc np hl2 ops [] False _ ng (ngHas_new cc np sp) (by simpa using hlen) hrun
  rw [List.nil_append, false_or] at h
  obtain ⟨f1, f2, f3⟩ := foldl_min (taken cc.grey ops) (2 ^ 31 - 1)
  refine ⟨h.context, h.roseCc, h.roseSom, fun he => ?_, fun hne => ⟨?_, ?_, ?_⟩, h.smwr⟩
  · exact ⟨by rw [h.ids, he]; rfl, by rw [h.width, he]; rfl⟩
  · rw [h.ids, if_neg (by simpa using hne)]
  · rw [h.width]
    rcases f3 with f3 | f3
    · obtain ⟨x, hx⟩ := List.exists_mem_of_ne_nil _ hne
      have := h.short x hx
      have := f2 x hx
      omega
    · exact f3
  · rw [h.width]; exact f2

/-- A run that takes two literals of three, with start of match, under limits as small as the theorem asks for. -/
example : exampleContext.grey.smallWriteLargestBuffer < 2 ^ 31 ∧
    exampleOps.length ≤ 2 ^ 32 ∧ ∃ ng, runOps .debug exampleOps (Ng.new exampleContext 4 0) = .ok ng ∧
    ng.rose.hasSom = true := by
  refine ⟨by decide, by decide, _, rfl, ?_⟩; decide +kernel

/-- C95: what the report manager knows after any sequence of calls that did not fail.  Each external id is registered as
by the first taken literal with that id, and all of them agree on single matches; the state is globally exhaustible iff
all taken literals are single matches; exhaustion keys were given to the ids of the single matches without start of match,
a different key to each. -/
theorem C95_registered (p : Profile) (cc : CompileContext) (np sp : Nat)
    (hl2 : cc.grey.smallWriteLargestBuffer < 2 ^ 31)
    (ops : List NgOp) (hlen : ops.length ≤ 2 ^ 32) (ng : Ng)
    (hrun : runOps p ops (Ng.new cc np sp) = .ok ng) :
    (∀ id, alookup ng.rm.externalIdMap id
      = ((taken cc.grey ops).find? (fun c => c.report == id)).map (fun c => ⟨c.highlander, c.index⟩)) ∧
    (∀ c ∈ taken cc.grey ops, ∀ c' ∈ taken cc.grey ops, c.report = c'.report → c.highlander = c'.highlander) ∧
    (ng.rm.globalExhaust = true ↔ ∀ c ∈ taken cc.grey ops, c.highlander = true) ∧
    (∀ id : Nat, (∃ k, alookup ng.rm.toExhaustibleKeyMap (id : Int) = some k) ↔
      ∃ c ∈ taken cc.grey ops, c.som = .none ∧ c.highlander = true ∧ c.report = id) ∧
    (∀ (id id' k : Nat), alookup ng.rm.toExhaustibleKeyMap (id : Int) = some k →
      alookup ng.rm.toExhaustibleKeyMap (id' : Int) = some k → id = id') := by
  have h := runOps_has p cc np hl2 ops [] False _ ng (ngHas_new cc np sp) (by simpa using hlen) hrun
  rw [List.nil_append, false_or] at h
  generalize taken cc.grey ops = t at h
  have hff : ∀ id, firstFor (regsBy t) id
      = (t.find? (fun c => c.report == id)).map (fun c => ⟨c.highlander, c.index⟩) := by
    intro id
    unfold firstFor regsBy
    rw [List.find?_map, Option.map_map]
    rfl
  have hag : ∀ c ∈ t, ∃ o, firstFor (regsBy t) c.report = some o ∧ o.highlander = c.highlander := by
    intro c hc
    have hm : (c.report, (⟨c.highlander, c.index⟩ : ExternalReportInfo)) ∈ regsBy t := List.mem_map.2 ⟨c, hc, rfl⟩
    cases hf : firstFor (regsBy t) c.report with
    | none => exact absurd rfl (ReportManager.firstFor_none hf _ hm)
    | some o => exact ⟨o, rfl, h.reg.agree _ hm o hf⟩
  obtain ⟨seen, hk, _, hseen⟩ := h.keys
  refine ⟨fun id => by rw [h.reg.first, hff], ?_, ?_, ?_, ?_⟩
  · intro c hc c' hc' he
    obtain ⟨o, o1, o2⟩ := hag c hc
    obtain ⟨o', o3, o4⟩ := hag c' hc'
    rw [← he, o1] at o3
    cases o3
    exact o2.symm.trans o4
  · rw [h.reg.exhaust]
    simp [regsBy]
  · intro id
    rw [hk.2.2 id, ← hseen]
    by_cases hm : id ∈ seen <;> simp [hm]
  · intro id id' k h1 h2
    rw [hk.2.2] at h1 h2
    by_cases hm : id ∈ seen
    · by_cases hm' : id' ∈ seen
      · rw [if_pos hm] at h1
        rw [if_pos hm'] at h2
        injection h1 with h1
        injection h2 with h2
        have e1 := List.getElem_idxOf (List.idxOf_lt_length_of_mem hm)
        have e2 := List.getElem_idxOf (List.idxOf_lt_length_of_mem hm')
        rw [← e1, ← e2]
        congr 1
        omega
      · rw [if_neg hm'] at h2; cases h2
    · rw [if_neg hm] at h1; cases h1

example : ∃ ng, runOps .debug exampleOps (Ng.new exampleContext 4 0) = .ok ng ∧
    (alookup ng.rm.externalIdMap 9).isSome = true ∧ (alookup ng.rm.externalIdMap 7).isSome = true := by
  refine ⟨_, rfl, ?_⟩; decide +kernel

/-- C95: what `add_literal` answers after any sequence of calls that did not fail, for every start-of-match setting and
in the order in which the checks are made: an empty literal panics in debug builds; an unwanted literal is declined and
changes nothing; a clash on single matches with the first taken literal of that external id is reported, naming both; a
single match with start of match panics in debug builds; no room for a report, then a literal of more than 2³¹-2 bytes,
are reported; anything else is added. -/
theorem C95_answer (p : Profile) (cc : CompileContext) (np sp : Nat)
    (hl2 : cc.grey.smallWriteLargestBuffer < 2 ^ 31)
    (ops : List NgOp) (hlen : ops.length < 2 ^ 32) (ng : Ng)
    (hrun : runOps p ops (Ng.new cc np sp) = .ok ng) (c : LitCall) :
    let r := ng.addLiteral p c.literal c.index c.report c.highlander c.som c.quiet
    let first := (taken cc.grey ops).find? (fun x => x.report == c.report)
    (p = .debug ∧ c.literal.s = [] → r = .panic "assertion failed: !literal.is_empty()") ∧
    (¬ (p = .debug ∧ c.literal.s = []) →
      (¬ (cc.grey.shortcutLiterals = true ∧ ¬ Mixed c.literal) → r = .ok (ng, false)) ∧
      (cc.grey.shortcutLiterals = true ∧ ¬ Mixed c.literal →
        (∀ old, first = some old → old.highlander ≠ c.highlander →
          r = .err (CompileError.withIndex c.index
            ("Expression (index " ++ toString c.index ++ ") with match ID " ++ toString c.report
              ++ (if c.highlander then " specified  SINGLEMATCH whereas previous expression (index "
                  else " did not sepcify  SINGLEMATCH whereas previous expression (index ")
              ++ toString old.index ++ ") with the same match ID did"
              ++ (if c.highlander then "." else " not.")))) ∧
        ((∀ old, first = some old → old.highlander = c.highlander) →
          (p = .debug ∧ c.som ≠ .none ∧ c.highlander = true → r = .panic "assertion failed: !highlander") ∧
          (¬ (p = .debug ∧ c.som ≠ .none ∧ c.highlander = true) →
            (cc.grey.limitReportCount = 0 → r = .err ⟨.resourceLimit, "Resource limit exceeded.", none⟩) ∧
            (cc.grey.limitReportCount ≠ 0 →
              (c.literal.s.length > 2 ^ 31 - 2 → r = .err ⟨.other, "depth overflow", none⟩) ∧
              (c.literal.s.length ≤ 2 ^ 31 - 2 → ∃ ng', r = .ok (ng', true))))))) := by
  intro r first
  have h := runOps_has p cc np hl2 ops [] False _ ng (ngHas_new cc np sp) (by simp; omega) hrun
  rw [List.nil_append, false_or] at h
  have hff : ∀ id, firstFor (regsBy (taken cc.grey ops)) id
      = ((taken cc.grey ops).find? (fun c => c.report == id)).map (fun c => ⟨c.highlander, c.index⟩) := by
    intro id
    unfold firstFor regsBy
    rw [List.find?_map, Option.map_map]
    rfl
  refine ⟨fun ⟨hp, he⟩ => ?_, fun hne => ⟨fun hw => ?_, fun hw => ?_⟩⟩
  · subst hp; exact addLiteral_empty ng c he
  · exact addLiteral_declined p ng c (fun hp he => hne ⟨hp, he⟩) (by rw [h.context]; exact hw)
  have hmix : mixedSensitivity c.literal.iter = false := by
    cases hm : mixedSensitivity c.literal.iter with
    | false => rfl
    | true => exact absurd ((mixed_iff _).1 hm) hw.2
  have := taken_length cc.grey ops
  obtain ⟨a1, a2⟩ := addLiteral_any p hl2 h c (by omega) (fun hp he => hne ⟨hp, he⟩) hw.1 hmix
  refine ⟨fun old ho hc => ?_, fun hc => ?_⟩
  · have hf : firstFor (regsBy (taken cc.grey ops)) c.report = some ⟨old.highlander, old.index⟩ := by
      rw [hff]; show first.map _ = _; rw [ho]; rfl
    show Ng.addLiteral _ _ _ _ _ _ _ _ = _
    rw [a1 _ hf hc]
    congr 2
    unfold ReportManager.conflictMessage
    simp only
    have : old.highlander = !c.highlander := by
      cases h1 : old.highlander <;> cases h2 : c.highlander <;> simp_all
    rw [this]
    cases c.highlander <;> simp [String.append_assoc]
  · obtain ⟨a3, a4⟩ := a2 (by
      intro old ho
      rw [hff] at ho
      cases hx : first with
      | none => rw [show List.find? _ _ = first from rfl, hx] at ho; cases ho
      | some y =>
        rw [show List.find? _ _ = first from rfl, hx] at ho
        cases ho
        exact hc y hx)
    refine ⟨a3, fun hd => ⟨(a4 hd).1, fun hz => ⟨(a4 hd).2.1 hz, fun hl => ?_⟩⟩⟩
    obtain ⟨ng', h1, _⟩ := (a4 hd).2.2 hz hl
    exact ⟨ng', h1⟩

/-- A run that takes two literals of three, with start of match. -/
example : ∃ ng, runOps .debug exampleOps (Ng.new exampleContext 4 0) = .ok ng ∧
    ng.rose.hasSom = true ∧ ng.minWidth.val = 2 ∧ ng.rm.reportIds = [⟨0⟩] ∧
    alookup ng.rm.toExhaustibleKeyMap 9 = some 0 ∧ alookup ng.rm.toExhaustibleKeyMap 7 = none := by
  refine ⟨_, rfl, ?_⟩; decide +kernel

/-- Each of the answers occurs. -/
example : ∃ ng, runOps .debug exampleOps (Ng.new exampleContext 4 0) = .ok ng ∧
    (ng.addLiteral .debug ⟨[], []⟩ 5 5 false .none false).isOk = false ∧
    (ng.addLiteral .debug ⟨[0x41#8, 0x42#8], [true, false]⟩ 5 5 false .none false).isOk = true ∧
    (ng.addLiteral .debug ⟨[0x41#8], [true]⟩ 5 7 true .none false).isOk = false ∧
    (ng.addLiteral .debug ⟨[0x41#8], [true]⟩ 5 8 true .left false).isOk = false ∧
    (ng.addLiteral .release ⟨[0x41#8], [true]⟩ 5 8 true .left false).isOk = true := by
  refine ⟨_, rfl, ?_⟩; decide +kernel

end Rescan
