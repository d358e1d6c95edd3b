import Verif.Proofs.WorkParse
/-! # Work: literals, expressions, compiling -/
namespace Rescan.Work
open Spec

variable {ε α β σ : Type}

/-- The steps of a run that goes on. -/
theorem bind_snd {m : W ε α} {f : α → W ε β} {a : α} (h : m.1 = .ok a) : (W.bind m f).2 = m.2 + (f a).2 := by
  obtain ⟨r, n⟩ := m
  dsimp only at h
  subst h; rfl

theorem iter_length (l : Ue2Literal) : (l.iter.map (fun e => e.c)).length ≤ l.len := by
  simp only [Ue2Literal.iter, Ue2Literal.len, List.length_map, List.length_zipWith]; omega

theorem setInsert_length {α : Type} [DecidableEq α] (s : List α) (a : α) : (setInsert s a).length ≤ s.length + 1 := by
  unfold setInsert
  split <;> simp

theorem sum_modify (r : Nat) : ∀ (ns : List LitTrieVertexProps) (u : Nat),
    ((ns.modify u (fun v => { v with reports := setInsert v.reports r })).map (fun v => v.reports.length)).sum
      ≤ (ns.map (fun v => v.reports.length)).sum + 1
  | [], u => by simp
  | n :: ns, 0 => by
    have := setInsert_length n.reports r
    simp; omega
  | n :: ns, u + 1 => by
    have := sum_modify r ns u
    simp at this ⊢; omega

theorem addToTrie_steps (lit : Ue2Literal) (r : Nat) (t : LitTrie) (h : Fan t) :
    AtMost (ε := ε) (addToTrie lit r t) (Rescan.addToTrie lit r t) (257 * lit.len) ∧
      ∀ t' b, Rescan.addToTrie (ε := ε) lit r t = .ok (t', b) → Fan t' ∧ dropTrie t' ≤ dropTrie t + 2 * lit.len + 1 := by
  have hi := iter_length lit
  obtain ⟨h1, h2⟩ := descendAll_steps (ε := ε) (lit.iter.map (fun e => e.c)) (t, t.root) h
  constructor
  · refine AtMost.mono (AtMost.bind (j := 0) h1 ?_) (by omega)
    rintro ⟨t1, u⟩ _
    dsimp only
    by_cases hu : u < t1.inner.nodes.length
    · rw [if_pos hu, if_pos hu]; exact AtMost.ret _ _
    · rw [if_neg hu, if_neg hu]; exact AtMost.ret _ _
  · intro t' b ht
    obtain ⟨⟨t1, u⟩, hd, ht⟩ := bind_eq_ok ht
    obtain ⟨f1, f2, _⟩ := h2 _ hd
    dsimp only at ht f1 f2
    split at ht
    · cases ht
      refine ⟨⟨fun e he => ?_, fun w => ?_⟩, ?_⟩
      · have := f1.target e he
        simpa using this
      · have hb : byteAt ⟨⟨t1.inner.nodes.modify u (fun v => { v with reports := setInsert v.reports r }),
            t1.inner.edges⟩, t1.root⟩ = byteAt t1 := by
          funext v
          unfold byteAt
          rw [List.getElem?_modify]
          cases t1.inner.nodes[v]? with
          | none => rfl
          | some x => by_cases hv : u = v <;> simp [hv]
        rw [hb]; exact f1.differ w
      · have := sum_modify r t1.inner.nodes u
        simp only [dropTrie, dropGraph, List.length_modify] at f2 ⊢
        omega
    · cases ht

/-- Both tries of the small-write builder. -/
structure Fans (sw : SmallWriteBuild) : Prop where
  plain : Fan sw.litTrie
  nocase : Fan sw.litTrieNocase

theorem fans_new (n : Nat) (g : Grey) : Fans (SmallWriteBuild.new n g) := ⟨fan_default, fan_default⟩

/-- The steps of dropping both tries. -/
def dropTries (sw : SmallWriteBuild) : Nat := dropTrie sw.litTrie + dropTrie sw.litTrieNocase

theorem smallAddLiteral_steps (sw : SmallWriteBuild) (lit : Ue2Literal) (r : Nat) (h : Fans sw) :
    AtMost (ε := ε) (smallAddLiteral sw lit r) (sw.addLiteral lit r) (258 * lit.len) ∧
      ∀ sw', sw.addLiteral (ε := ε) lit r = .ok sw' → Fans sw' ∧ dropTries sw' ≤ dropTries sw + 2 * lit.len + 1 := by
  unfold smallAddLiteral SmallWriteBuild.addLiteral
  by_cases h1 : sw.poisoned = true
  · rw [if_pos h1, if_pos h1]
    exact ⟨AtMost.ret _ _, fun sw' hs => by cases hs; exact ⟨h, by omega⟩⟩
  · rw [if_neg h1, if_neg h1]
    by_cases h2 : lit.len > sw.grey.smallWriteLargestBuffer
    · rw [if_pos h2, if_pos h2]
      exact ⟨AtMost.ret _ _, fun sw' hs => by cases hs; exact ⟨h, by omega⟩⟩
    · rw [if_neg h2, if_neg h2]
      dsimp only
      by_cases h3 : sw.numLiterals + 1 > sw.grey.smallWriteMaxLiterals
      · rw [if_pos h3, if_pos h3]
        exact ⟨AtMost.ret _ _, fun sw' hs => by cases hs; exact ⟨⟨h.plain, h.nocase⟩, by simp [dropTries]; omega⟩⟩
      · rw [if_neg h3, if_neg h3]
        by_cases h4 : lit.anyNocase = true
        · rw [if_pos h4, if_pos h4]
          obtain ⟨a1, a2⟩ := addToTrie_steps (ε := ε) lit r sw.litTrieNocase h.nocase
          refine ⟨AtMost.mono (AtMost.steps _ (AtMost.bind (j := 0) a1 fun x _ => AtMost.ret _ _)) (by omega), ?_⟩
          intro sw' hs
          obtain ⟨⟨t, b⟩, ht, hs⟩ := bind_eq_ok hs
          cases hs
          obtain ⟨b1, b2⟩ := a2 _ _ ht
          exact ⟨⟨h.plain, b1⟩, by simp only [dropTries] at b2 ⊢; omega⟩
        · rw [if_neg h4, if_neg h4]
          obtain ⟨a1, a2⟩ := addToTrie_steps (ε := ε) lit r sw.litTrie h.plain
          refine ⟨AtMost.mono (AtMost.steps _ (AtMost.bind (j := 0) a1 fun x _ => AtMost.ret _ _)) (by omega), ?_⟩
          intro sw' hs
          obtain ⟨⟨t, b⟩, ht, hs⟩ := bind_eq_ok hs
          cases hs
          obtain ⟨b1, b2⟩ := a2 _ _ ht
          exact ⟨⟨b1, h.nocase⟩, by simp only [dropTries] at b2 ⊢; omega⟩

/-! ## The report manager -/

/-- The steps of dropping the report manager. -/
def dropRm (rm : ReportManager) : Nat :=
  rm.reportIds.length + rm.reportIdToInternalMap.length + rm.externalIdMap.length + rm.toExhaustibleKeyMap.length

theorem register_drop (rm : ReportManager) (id : Nat) (ext : ExternalReportInfo) :
    dropRm (rm.registerExtReport id ext).1 ≤ dropRm rm + 1 := by
  unfold ReportManager.registerExtReport
  simp only
  split
  · split
    · exact Nat.le_add_right _ _
    · cases ext.highlander <;> simp [dropRm]
  · cases ext.highlander <;> simp [dropRm] <;> omega

theorem exhaustible_drop {rm rm' : ReportManager} {a k : Nat} (h : rm.getExhaustibleKey (ε := ε) a = .ok (rm', k)) :
    dropRm rm' ≤ dropRm rm + 1 := by
  unfold ReportManager.getExhaustibleKey at h
  obtain ⟨_, _, h⟩ := bind_eq_ok h
  split at h
  · cases h; omega
  · cases h; simp [dropRm]; omega

theorem internal_drop {rm rm' : ReportManager} {ir : Report} {x : Except CompileError Nat}
    (h : Ng.lift (rm.getInternalId ir) = .ok (rm', x)) : dropRm rm' ≤ dropRm rm + 2 := by
  unfold ReportManager.getInternalId at h
  split at h
  · cases h; omega
  · split at h
    · cases h; omega
    · unfold ReportManager.toU32 at h
      split at h
      · cases h; simp [dropRm]; omega
      · cases h

theorem dropNg_eq (ng : Ng) : dropNg ng = dropRm ng.rm + dropTries ng.smwr := by
  simp only [dropNg, dropRm, dropTries]; omega

theorem ngAddLiteral_most (p : Profile) (ng : Ng) (lit : Ue2Literal) (i r : Nat) (hl : Bool) (som : SomType) (q : Bool)
    (h : Fans ng.smwr) :
    AtMost (ngAddLiteral p ng lit i r hl som q) (ng.addLiteral p lit i r hl som q) (259 * lit.len) := by
  refine AtMost.mono (AtMost.bind (k := 0) (j := 259 * lit.len) (AtMost.ret _ _) fun _ _ => ?_) (by omega)
  by_cases h1 : (!ng.cc.grey.shortcutLiterals) = true
  · rw [if_pos h1, if_pos h1]; exact AtMost.ret _ _
  · rw [if_neg h1, if_neg h1]
    refine AtMost.mono (AtMost.steps (k := 258 * lit.len) _ ?_) (by omega)
    by_cases h2 : mixedSensitivity lit.iter = true
    · rw [if_pos h2, if_pos h2]; exact AtMost.ret _ _
    · rw [if_neg h2, if_neg h2]
      rcases ng.rm.registerExtReport r ⟨hl, i⟩ with ⟨rm, x⟩
      cases x with
      | error e => exact AtMost.ret _ _
      | ok _ =>
        refine AtMost.mono (AtMost.bind (k := 0) (j := 258 * lit.len) (AtMost.ret _ _) ?_) (by omega)
        rintro ⟨rm, rose, id⟩ _
        dsimp only
        cases id with
        | error e => exact AtMost.ret _ _
        | ok id =>
          dsimp only
          cases Depth.tryFrom lit.len with
          | none => exact AtMost.ret _ _
          | some d => exact AtMost.mono (AtMost.bind (j := 0) (smallAddLiteral_steps ng.smwr lit id h).1 fun _ _ => AtMost.ret _ _) (by omega)

theorem ngAddLiteral_grow {p : Profile} {ng ng' : Ng} {lit : Ue2Literal} {i r : Nat} {hl : Bool} {som : SomType} {q b : Bool}
    (h : Fans ng.smwr) (hr : ng.addLiteral p lit i r hl som q = .ok (ng', b)) :
    Fans ng'.smwr ∧ dropNg ng' ≤ dropNg ng + 2 * lit.len + 5 ∧
      (b = false → ng' = ng ∧ (ngAddLiteral p ng lit i r hl som q).2 ≤ lit.len) ∧
      (b = true → ∃ id, (ngAddLiteral p ng lit i r hl som q).2 = lit.len + (smallAddLiteral (ε := CompileError) ng.smwr lit id).2) := by
  rw [dropNg_eq, dropNg_eq]
  unfold ngAddLiteral
  unfold Ng.addLiteral at hr
  obtain ⟨u, ha, hr⟩ := bind_eq_ok hr
  rw [ha]
  show _ ∧ _ ∧ (_ → _ ∧ 0 + _ ≤ _) ∧ (_ → ∃ id, 0 + _ = _)
  by_cases h1 : (!ng.cc.grey.shortcutLiterals) = true
  · rw [if_pos h1] at hr ⊢
    cases hr
    exact ⟨h, by omega, fun _ => ⟨rfl, Nat.zero_le _⟩, fun hb => by cases hb⟩
  · rw [if_neg h1] at hr ⊢
    by_cases h2 : mixedSensitivity lit.iter = true
    · rw [if_pos h2] at hr ⊢
      cases hr
      exact ⟨h, by omega, fun _ => ⟨rfl, by show 0 + (0 + lit.len) ≤ _; omega⟩, fun hb => by cases hb⟩
    · rw [if_neg h2] at hr ⊢
      have hreg := register_drop ng.rm r ⟨hl, i⟩
      generalize ng.rm.registerExtReport r ⟨hl, i⟩ = y at hreg hr ⊢
      obtain ⟨rm, x⟩ := y
      have hreg : dropRm rm ≤ dropRm ng.rm + 1 := hreg
      cases x with
      | error e => cases hr
      | ok _ =>
        obtain ⟨⟨rm2, rose, id⟩, hx, hr⟩ := bind_eq_ok hr
        have hrm : dropRm rm2 ≤ dropRm rm + 3 := by
          cases som with
          | none =>
            obtain ⟨⟨rm1, ek⟩, h3, hx⟩ := bind_eq_ok hx
            obtain ⟨⟨rm3, id3⟩, h4, hx⟩ := bind_eq_ok hx
            cases hx
            have h5 := internal_drop h4
            have h6 : dropRm rm1 ≤ dropRm rm + 1 := by
              cases hl with
              | true =>
                obtain ⟨⟨rm4, k⟩, h7, h8⟩ := bind_eq_ok h3
                cases h8; exact exhaustible_drop h7
              | false => cases h3; omega
            omega
          | left =>
            obtain ⟨_, _, hx⟩ := bind_eq_ok hx
            obtain ⟨⟨rm3, id3⟩, h4, hx⟩ := bind_eq_ok hx
            cases hx
            have h5 := internal_drop h4
            omega
        dsimp only at hr
        cases id with
        | error e => cases hr
        | ok id =>
          dsimp only at hr
          cases hd : Depth.tryFrom lit.len with
          | none => rw [hd] at hr; cases hr
          | some d =>
            rw [hd] at hr
            obtain ⟨sw, hsw, hr⟩ := bind_eq_ok hr
            cases hr
            obtain ⟨g1, g2⟩ := (smallAddLiteral_steps (ε := CompileError) ng.smwr lit id h).2 _ hsw
            refine ⟨g1, by dsimp only; omega, fun hb => absurd hb (by simp), fun _ => ?_⟩
            refine ⟨id, ?_⟩
            obtain ⟨t1, t2⟩ := smallAddLiteral_steps (ε := CompileError) ng.smwr lit id h
            have hx' := hx
            refine (congrArg (fun k => 0 + (k + lit.len)) (a₂ := (smallAddLiteral (ε := CompileError) ng.smwr lit id).2)
              ((bind_snd (m := ret _) hx').trans ?_)).trans ?_
            · show 0 + _ = _
              rw [Nat.zero_add]
              exact (bind_snd (t1.out.trans hsw)).trans (Nat.add_zero _)
            · omega

/-! ## Graphs -/

theorem noteClass_grow {bs bs' : GlushkovBuildState} {a : AsciiComponentClass} (h : bs.noteClass (ε := ε) a = .ok bs') :
    bs'.builder.graph.inner.nodes.length = bs.builder.graph.inner.nodes.length + 1 ∧
      bs'.builder.graph.inner.edges = bs.builder.graph.inner.edges := by
  by_cases hn : bs.numNodes = 2 ^ 32 - 1
  · have := GlushkovBuildState.noteClass_full (ε := ε) bs a hn
    rw [h] at this; cases this
  · unfold GlushkovBuildState.noteClass NfaBuilder.makePosition NgHolder.addVertex Graph.addNode at h
    have hn' : ¬ bs.builder.graph.inner.nodes.length = 2 ^ 32 - 1 := hn
    rw [if_neg hn'] at h
    obtain ⟨⟨b, v⟩, h1, h⟩ := bind_eq_ok h
    cases h1
    obtain ⟨b2, h2, h⟩ := bind_eq_ok h
    cases h
    unfold NfaBuilder.addCharReach NgHolder.modifyReach at h2
    rw [if_pos (by simp)] at h2
    cases h2
    exact ⟨by simp, rfl⟩

mutual
theorem noteComponent_grow : ∀ (c : Component) (bs bs' : GlushkovBuildState), bs.noteComponent (ε := ε) c = .ok bs' →
    bs'.builder.graph.inner.nodes.length = bs.builder.graph.inner.nodes.length + (leaves c).length ∧
      bs'.builder.graph.inner.edges = bs.builder.graph.inner.edges
  | .alternation (.mk ss), bs, bs', h => by
    rw [GlushkovBuildState.noteComponent] at h; rw [leaves]; exact noteSequences_grow ss bs bs' h
  | .cls (.ascii a), bs, bs', h => by
    rw [GlushkovBuildState.noteComponent] at h; rw [leaves]; exact noteClass_grow h
  | .sequence s, bs, bs', h => by
    rw [GlushkovBuildState.noteComponent] at h; rw [leaves]; exact noteSequence_grow s bs bs' h
theorem noteSequence_grow : ∀ (s : ComponentSequence) (bs bs' : GlushkovBuildState), bs.noteSequence (ε := ε) s = .ok bs' →
    bs'.builder.graph.inner.nodes.length = bs.builder.graph.inner.nodes.length + (leavesSeq s).length ∧
      bs'.builder.graph.inner.edges = bs.builder.graph.inner.edges
  | .mk cs _ _ _, bs, bs', h => by
    rw [GlushkovBuildState.noteSequence] at h; rw [leavesSeq]; exact noteComponents_grow cs bs bs' h
theorem noteSequences_grow : ∀ (ss : List ComponentSequence) (bs bs' : GlushkovBuildState),
    bs.noteSequences (ε := ε) ss = .ok bs' →
    bs'.builder.graph.inner.nodes.length = bs.builder.graph.inner.nodes.length + (leavesSeqs ss).length ∧
      bs'.builder.graph.inner.edges = bs.builder.graph.inner.edges
  | [], bs, bs', h => by
    rw [GlushkovBuildState.noteSequences] at h; cases h; rw [leavesSeqs]; exact ⟨rfl, rfl⟩
  | s :: ss, bs, bs', h => by
    rw [GlushkovBuildState.noteSequences] at h
    obtain ⟨b1, h1, h2⟩ := bind_eq_ok h
    have i1 := noteSequence_grow s bs b1 h1
    have i2 := noteSequences_grow ss b1 bs' h2
    rw [leavesSeqs, List.length_append]
    exact ⟨by omega, i2.2.trans i1.2⟩
theorem noteComponents_grow : ∀ (cs : List Component) (bs bs' : GlushkovBuildState),
    bs.noteComponents (ε := ε) cs = .ok bs' →
    bs'.builder.graph.inner.nodes.length = bs.builder.graph.inner.nodes.length + (leavesAll cs).length ∧
      bs'.builder.graph.inner.edges = bs.builder.graph.inner.edges
  | [], bs, bs', h => by
    rw [GlushkovBuildState.noteComponents] at h; cases h; rw [leavesAll]; exact ⟨rfl, rfl⟩
  | c :: cs, bs, bs', h => by
    rw [GlushkovBuildState.noteComponents] at h
    obtain ⟨b1, h1, h2⟩ := bind_eq_ok h
    have i1 := noteComponent_grow c bs b1 h1
    have i2 := noteComponents_grow cs b1 bs' h2
    rw [leavesAll, List.length_append]
    exact ⟨by omega, i2.2.trans i1.2⟩
end

theorem buildGraph_costs (p : Profile) (pe : ParsedExpression) (hf : Finalized pe.component) :
    Costs (ε := ε) (buildGraph p pe) (Rescan.buildGraph p pe) (calls 3 pe.component) := by
  show Costs (W.bind (ret (NfaBuilder.new pe.expr)) fun b => W.bind (ret (GlushkovBuildState.new p b)) fun bs =>
      W.bind (noteComponent bs pe.component) fun bs => ret (.ok bs.builder))
    ((NfaBuilder.new pe.expr).bind fun b => (GlushkovBuildState.new p b).bind fun bs =>
      (bs.noteComponent pe.component).bind fun bs => .ok bs.builder) _
  exact Costs.mono (Costs.bind (j := 0 + (calls 3 pe.component + 0)) (Costs.ret _) fun b =>
    Costs.bind (Costs.ret _) fun bs => Costs.bind (noteComponent_costs pe.component bs hf) fun _ => Costs.ret _) (by omega)

theorem buildGraph_size {p : Profile} {pe : ParsedExpression} {b : NfaBuilder} (h : Rescan.buildGraph (ε := ε) p pe = .ok b) :
    dropGraph b.graph.inner = (leaves pe.component).length + 7 := by
  unfold Rescan.buildGraph at h
  rw [GlushkovBuildState.builder_new] at h
  obtain ⟨succ, hs⟩ := GlushkovBuildState.state_new (ε := ε) p pe.expr
  obtain ⟨b0, h0, h⟩ := bind_eq_ok h
  cases h0
  rw [hs] at h
  obtain ⟨b1, h1, h⟩ := bind_eq_ok h
  cases h1
  obtain ⟨b2, h2, h⟩ := bind_eq_ok h
  cases h
  obtain ⟨g1, g2⟩ := noteComponent_grow _ _ _ h2
  rw [dropGraph, g1, g2]
  simp [GlushkovBuildState.freshGraph]; omega

/-! ## Expressions -/

theorem AtMost.bind' {m : W ε α} {o : Outcome ε α} {k : Nat} {f : α → W ε β} {g : α → Outcome ε β} (h : AtMost m o k)
    (hf : ∀ a, o = .ok a → (f a).1 = g a ∧ m.2 + (f a).2 ≤ k) : AtMost (W.bind m f) (o.bind g) k := by
  obtain ⟨r, n⟩ := m
  obtain ⟨rfl, h2⟩ := h
  cases r with
  | ok a => exact ⟨(hf a rfl).1, (hf a rfl).2⟩
  | err e => exact ⟨rfl, h2⟩
  | panic e => exact ⟨rfl, h2⟩
  | timeout => exact ⟨rfl, h2⟩

theorem literal_len {pr p : Profile} {e : Str} {mode m : ParseMode} {c : Component} {lit : Ue2Literal}
    (h : Rescan.parse pr e mode = .ok (c, m))
    (hw : Rescan.walkComponent p constructLiteralVisitor Ue2Literal.default c = .ok lit) : lit.len ≤ e.length := by
  obtain ⟨a, _, hb, _, _⟩ := parse_tree h
  rw [parse_walkLit h hb, litResult] at hw
  split at hw
  · cases hw
  · cases hw
    obtain ⟨pre, hp, _⟩ := isBody_len hb
    have h1 := congrArg List.length hp
    have h2 : (litElems mode.caseless a.print).length ≤ a.print.length := by
      rw [litElems, List.length_map]; exact List.length_filter_le _ _
    have h3 : (Ue2Literal.default.app (litElems mode.caseless a.print)).len = (litElems mode.caseless a.print).length := by
      simp [Ue2Literal.app, Ue2Literal.len, Ue2Literal.default]
    rw [h3]
    rw [List.length_append] at h1
    omega

theorem shortcutLiteral_steps (p : Profile) (ng : Ng) (pe : ParsedExpression) (n : Nat) (hf : Finalized pe.component)
    (hn : ∀ lit, Rescan.walkComponent p constructLiteralVisitor Ue2Literal.default pe.component = .ok lit → lit.len ≤ n)
    (h : Fans ng.smwr) :
    AtMost (shortcutLiteral p ng pe) (Rescan.shortcutLiteral p ng pe) (calls 3 pe.component + 259 * n) ∧
      ∀ ng' b, Rescan.shortcutLiteral p ng pe = .ok (ng', b) →
        Fans ng'.smwr ∧ dropNg ng' ≤ dropNg ng + 2 * n + 5 ∧
          (b = false → ng' = ng ∧ (shortcutLiteral p ng pe).2 ≤ calls 3 pe.component + n) := by
  obtain ⟨w1, w2, w3⟩ := walkComponent_costs p constructLiteralVisitor pe.component Ue2Literal.default hf
  unfold shortcutLiteral Rescan.shortcutLiteral
  by_cases ha : (!ng.cc.grey.allowLiteral) = true
  · rw [if_pos ha, if_pos ha]
    exact ⟨AtMost.ret _ _, fun ng' b hr => by cases hr; exact ⟨h, by omega, fun _ => ⟨rfl, Nat.zero_le _⟩⟩⟩
  · rw [if_neg ha, if_neg ha]
    unfold thenDo
    rw [w1]
    cases hw : Rescan.walkComponent p constructLiteralVisitor Ue2Literal.default pe.component with
    | err x =>
      exact ⟨⟨rfl, by show _ + 0 ≤ _; omega⟩, fun ng' b hr => by
        cases hr; exact ⟨h, by omega, fun _ => ⟨rfl, by show _ + 0 ≤ _; omega⟩⟩⟩
    | panic x => exact ⟨⟨rfl, by show _ + 0 ≤ _; omega⟩, fun ng' b hr => by cases hr⟩
    | timeout => exact ⟨⟨rfl, by show _ + 0 ≤ _; omega⟩, fun ng' b hr => by cases hr⟩
    | ok lit =>
      have hlit := hn lit hw
      dsimp only
      by_cases he : lit.isEmpty = true
      · rw [if_pos he, if_pos he]
        exact ⟨⟨rfl, by show _ + 0 ≤ _; omega⟩, fun ng' b hr => by
          cases hr; exact ⟨h, by omega, fun _ => ⟨rfl, by show _ + 0 ≤ _; omega⟩⟩⟩
      · rw [if_neg he, if_neg he]
        have hm : ∀ i, AtMost (ngAddLiteral p ng lit i pe.expr.report pe.expr.highlander pe.expr.som pe.expr.quiet)
            (ng.addLiteral p lit i pe.expr.report pe.expr.highlander pe.expr.som pe.expr.quiet) (259 * lit.len) :=
          fun i => ngAddLiteral_most p ng lit i _ _ _ _ h
        have hA := AtMost.bind (AtMost.ret (ε := CompileError) (ReportManager.toU32 pe.expr.index
          "called `Result::unwrap()` on an `Err` value: TryFromIntError(())") 0) fun i _ => hm i
        refine ⟨⟨hA.out, ?_⟩, ?_⟩
        · have := hA.most
          exact Nat.le_trans (Nat.add_le_add w2 this) (by omega)
        · intro ng' b hr
          obtain ⟨i, hi, hr⟩ := bind_eq_ok hr
          obtain ⟨g1, g2, g3, _⟩ := ngAddLiteral_grow h hr
          refine ⟨g1, by omega, fun hb => ⟨(g3 hb).1, ?_⟩⟩
          have : (W.bind (ret (ReportManager.toU32 (ε := CompileError) pe.expr.index
              "called `Result::unwrap()` on an `Err` value: TryFromIntError(())")) fun i =>
              ngAddLiteral p ng lit i pe.expr.report pe.expr.highlander pe.expr.som pe.expr.quiet).2 ≤ lit.len := by
            rw [hi]
            have := (g3 hb).2
            show 0 + (ngAddLiteral p ng lit i pe.expr.report pe.expr.highlander pe.expr.som pe.expr.quiet).2 ≤ _
            omega
          exact Nat.le_trans (Nat.add_le_add w2 this) (by omega)

theorem parsedNew_steps (p : Profile) (i : Nat) (e : Str) (f : Flags) (id : Nat) :
    AtMost (parsedNew p i e f id) (ParsedExpression.new p i e f id) (5 * e.length + 19) ∧
      ∀ pe, ParsedExpression.new p i e f id = .ok pe →
        (parsedNew p i e f id).2 = (parse p e (ParseMode.new (f.and Flags.QUIET.not))).2 := by
  unfold parsedNew ParsedExpression.new
  dsimp only
  by_cases hq : f.contains (Flags.QUIET.or .SOM_LEFTMOST) = true
  · rw [if_pos hq, if_pos hq]; exact ⟨AtMost.ret _ _, fun pe h => by cases h⟩
  · rw [if_neg hq, if_neg hq]
    obtain ⟨p1, p2, p3⟩ := parse_steps p e (ParseMode.new (f.and Flags.QUIET.not))
    refine ⟨AtMost.mono (AtMost.bind (j := 0) ⟨p1, p2⟩ fun a _ => AtMost.ret _ _) (by omega), fun pe h => ?_⟩
    obtain ⟨a, ha, _⟩ := bind_eq_ok h
    refine (bind_snd (p1.trans ha)).trans ?_
    exact Nat.add_zero _

/-- Reading an accepted pattern takes a step for every character, at least. -/
theorem parse_least {pr : Profile} {e : Str} {mode m : ParseMode} {c : Component}
    (h : Rescan.parse pr e mode = .ok (c, m)) : e.length + 15 ≤ (parse pr e mode).2 := by
  obtain ⟨⟨rest, hr, hc⟩, _⟩ := (parse_steps pr e mode).2.2 c m h
  rw [hc]
  rcases readControlVerbs_rest hr with ⟨h1, _⟩ | h1
  · rw [h1]; omega
  · omega

theorem addExpression_steps (p : Profile) (ng : Ng) (i : Nat) (e : Str) (f : Flags) (id : Nat) (h : Fans ng.smwr) :
    AtMost (addExpression p ng i e f id) (Rescan.addExpression p ng i e f id) (270 * e.length + 38) ∧
      ∀ ng', Rescan.addExpression p ng i e f id = .ok ng' →
        Fans ng'.smwr ∧ dropNg ng' ≤ dropNg ng + 2 * e.length + 5 ∧ e.length + 15 ≤ (addExpression p ng i e f id).2 := by
  unfold addExpression Rescan.addExpression
  by_cases hl : utf8Len e > ng.cc.grey.limitPatternLength
  · rw [if_pos hl, if_pos hl]; exact ⟨AtMost.ret _ _, fun ng' h => by cases h⟩
  · rw [if_neg hl, if_neg hl]
    obtain ⟨n1, n2⟩ := parsedNew_steps p i e f id
    have key : ∀ pe, ParsedExpression.new p i e f id = .ok pe →
        AtMost (steps (dropComponent pe.component) (W.bind (shortcutLiteral p ng pe) fun x =>
          if x.2 = true then ret (.ok x.1) else W.bind (buildGraph p pe) fun built =>
            steps (dropGraph built.graph.inner) (ret (.ok (x.1.addGraph built.expr built.graph)))))
          ((Rescan.shortcutLiteral p ng pe).bind fun x => if x.2 = true then .ok x.1 else
            (Rescan.buildGraph p pe).bind fun built => .ok (x.1.addGraph built.expr built.graph))
          (265 * e.length + 19) ∧
        (∀ ng', ((Rescan.shortcutLiteral p ng pe).bind fun x => if x.2 = true then .ok x.1 else
            (Rescan.buildGraph p pe).bind fun built => .ok (x.1.addGraph built.expr built.graph)) = .ok ng' →
          Fans ng'.smwr ∧ dropNg ng' ≤ dropNg ng + 2 * e.length + 5 ∧ e.length + 15 ≤ (parsedNew p i e f id).2) := by
      intro pe hpe
      obtain ⟨m, hm, _⟩ := parsedExpression_ok hpe
      have hfin := parse_finalized hm
      have hc := ((parse_steps p e _).2.2 _ _ hm).2
      have hc1 := hc 1 (by omega)
      have hc3 := hc 3 (by omega)
      have hleaf := CallStack.leaves_le hm
      have hleast := parse_least hm
      rw [← n2 pe hpe] at hleast
      obtain ⟨s1, s2⟩ := shortcutLiteral_steps p ng pe e.length hfin (fun lit hw => literal_len hm hw) h
      constructor
      · refine AtMost.mono (AtMost.steps (k := 262 * e.length + 15) _ ?_) (by rw [dropComponent_calls]; omega)
        refine AtMost.bind' (s1.mono (by omega)) ?_
        rintro ⟨ng1, b⟩ hs
        dsimp only
        cases b with
        | true =>
          refine ⟨rfl, ?_⟩
          have := s1.most
          show _ + 0 ≤ _
          omega
        | false =>
          obtain ⟨q1, q2, q3⟩ := s2 _ _ hs
          obtain ⟨r1, r2⟩ := q3 rfl
          rw [if_neg (by simp), if_neg (by simp)]
          obtain ⟨b1, b2, _⟩ := buildGraph_costs (ε := CompileError) p pe hfin
          have : AtMost (W.bind (buildGraph p pe) fun built =>
              steps (dropGraph built.graph.inner) (ret (ε := CompileError) (.ok (ng1.addGraph built.expr built.graph))))
              ((Rescan.buildGraph p pe).bind fun built => .ok (ng1.addGraph built.expr built.graph))
              (calls 3 pe.component + (e.length + 7)) := by
            refine AtMost.bind ⟨b1, b2⟩ fun b hb => ?_
            refine ⟨rfl, ?_⟩
            show 0 + dropGraph b.graph.inner ≤ _
            rw [buildGraph_size hb]; omega
          refine ⟨this.out, ?_⟩
          have := this.most
          omega
      · intro ng' hr
        obtain ⟨⟨ng1, b⟩, hs, hr⟩ := bind_eq_ok hr
        obtain ⟨q1, q2, q3⟩ := s2 _ _ hs
        cases b with
        | true => cases hr; exact ⟨q1, q2, hleast⟩
        | false =>
          obtain ⟨b, hb, hr⟩ := bind_eq_ok hr
          cases hr
          have hg : (ng1.addGraph b.expr b.graph).smwr = ng1.smwr ∧ (ng1.addGraph b.expr b.graph).rm = ng1.rm := by
            unfold Ng.addGraph; split <;> exact ⟨rfl, rfl⟩
          rw [dropNg_eq, hg.1, hg.2, ← dropNg_eq]
          exact ⟨q1, q2, hleast⟩
    constructor
    · refine AtMost.mono (AtMost.bind n1 (j := 265 * e.length + 19) fun pe hpe => ?_) (by omega)
      rw [CallStack.prefilter_id]
      exact (key pe hpe).1
    · intro ng' hr
      obtain ⟨pe, hpe, hr⟩ := bind_eq_ok hr
      rw [CallStack.prefilter_id] at hr
      obtain ⟨k1, k2, k3⟩ := (key pe hpe).2 ng' hr
      refine ⟨k1, k2, Nat.le_trans k3 ?_⟩
      refine Nat.le_trans (Nat.le_add_right _ _) (Nat.le_of_eq (bind_snd (n1.out.trans hpe)).symm)

end Rescan.Work
