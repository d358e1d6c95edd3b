import Verif.Props.Compiled
/-! # C40, C42, C51, C66 (continued), C73-C75: expression records, flags, limits -/
namespace Rescan
open Spec GlushkovBuildState

/-! ## C40, C42: what the graph builder starts with -/

/-- C40: the edges of the graph built for an expression are the three of an empty graph: start to
start-dotstar, start-dotstar to itself and accept to accept-eod.  (No edge is added for the expression,
see C41.) -/
theorem C40_edges {ε : Type} (p : Profile) (pe : ParsedExpression) (b : NfaBuilder)
    (hlen : (leaves pe.component).length < 2 ^ 32 - 4) (hb : buildGraph (ε := ε) p pe = .ok b) (x y : Nat) :
    (x, y) ∈ b.graph.inner.edges ↔ (x, y) = (0, 1) ∨ (x, y) = (1, 1) ∨ (x, y) = (2, 3) := by
  obtain ⟨b', h1, _, h3⟩ := buildGraph_eq (ε := ε) p pe (by omega)
  rw [hb] at h1
  injection h1 with h1
  subst h1
  rw [h3]
  simp only [freshGraph, List.mem_cons, List.not_mem_nil, or_false]
  constructor
  · rintro (h | h | h)
    · exact .inr (.inr h)
    · exact .inr (.inl h)
    · exact .inl h
  · rintro (h | h | h)
    · exact .inr (.inr h)
    · exact .inr (.inl h)
    · exact .inl h

example : (match ParsedExpression.new .release 0 "(a|b)c".toList Flags.CASELESS 7 with
    | .ok pe => (leaves pe.component).length
    | _ => 0) = 3 := by decide +kernel

/-- C42: the build state of a new builder has the four special vertices of its graph, and its recorded
successors say that start and start-dotstar, and nothing else, lead to start-dotstar. -/
theorem C42_initial {ε : Type} (p : Profile) (expr : ExpressionInfo) :
    ∃ b bs, NfaBuilder.new (ε := ε) expr = .ok b ∧ GlushkovBuildState.new (ε := ε) p b = .ok bs ∧
      (bs.startState, bs.startDotStarState, bs.acceptState, bs.acceptEodState)
        = (b.graph.start, b.graph.startDs, b.graph.accept, b.graph.acceptEod) ∧
      ∀ q e, e ∈ successorsOf bs q ↔
        (q = b.graph.start ∨ q = b.graph.startDs) ∧ e = ⟨b.graph.startDs, PosFlags.default⟩ := by
  have hne : ∀ n, n < 4 → n ≠ posEpsilon := by intro n hn; unfold posEpsilon; omega
  refine ⟨⟨freshGraph, expr⟩, ⟨0, 1, 2, 3, ⟨freshGraph, expr⟩,
    [(0, [⟨1, PosFlags.default⟩]), (1, [⟨1, PosFlags.default⟩])]⟩, rfl, ?_, rfl, ?_⟩
  · unfold GlushkovBuildState.new connectRegions
    simp only [List.foldlM_cons, List.foldlM_nil]
    show (connectSuccessors p _ (PositionInfo.ofPos 0) _).bind _ = _
    rw [connectSuccessors_plain p _ (PositionInfo.ofPos 0) _ ⟨CharReach.default.setAll, [], PosFlags.default⟩
      (.inr (hne 0 (by omega))) rfl (by
        intro e he _; rw [List.mem_singleton] at he; subst he; exact (by decide : (1 : Nat) ≠ 2))]
    show (connectSuccessors p _ (PositionInfo.ofPos 1) _).bind _ = _
    rw [connectSuccessors_plain p _ (PositionInfo.ofPos 1) _ ⟨CharReach.default.setAll, [], PosFlags.default⟩
      (.inr (hne 1 (by omega))) rfl (by
        intro e he _; rw [List.mem_singleton] at he; subst he; exact (by decide : (1 : Nat) ≠ 2))]
    rfl
  · intro q e
    show _ ↔ (q = 0 ∨ q = 1) ∧ e = ⟨1, PosFlags.default⟩
    unfold successorsOf
    by_cases h0 : q = 0
    · subst h0; simp
    · by_cases h1 : q = 1
      · subst h1; simp
      · have e0 : (0 == q) = false := by simpa using fun h => h0 h.symm
        have e1 : (1 == q) = false := by simpa using fun h => h1 h.symm
        simp [e0, e1, h0, h1]

/-! ## C51: the limits in force -/

/-- C51: `compile_multi` takes at most 8000000 expressions, of at most 16000 bytes. -/
theorem C51_defaults (p : Profile) (es : List Str) (fs : List Flags) (ids : List Nat) (mode : Mode) :
    (compileMulti p es fs ids mode = .err ⟨.other, "Number of patterns too large", none⟩ ↔
      es.length > 8000000) ∧
    (∀ e ∈ given es fs ids, utf8Len e.1 > 16000 → (compileMulti p es fs ids mode).isOk = false) ∧
    (∀ (e : Str) (f : Flags), utf8Len e > 16000 →
      compile p e f mode = .err ⟨.other, "Pattern length exceeds limit.", some 0⟩) := by
  refine ⟨?_, ?_, ?_⟩
  · have := (C51_counts p es fs ids mode Grey.default sane_default).2
    unfold compileMulti
    rw [this]
    constructor
    · exact fun h => h.2
    · intro h
      refine ⟨?_, h⟩
      rintro rfl
      exact absurd h (by decide)
  · intro e he hl
    unfold compileMulti
    obtain ⟨j, hj⟩ := List.mem_iff_getElem?.1 he
    by_cases hn : es.length ≤ Grey.default.limitPatternCount
    · exact (C51_length p es fs ids mode Grey.default sane_default hn j).2 e hj hl
    · rw [(C51_counts p es fs ids mode Grey.default sane_default).2.2 ⟨?_, by omega⟩]
      · rfl
      · rintro rfl
        exact absurd (by decide) hn
  · intro e f hl
    unfold compile
    refine (C51_length p [e] [f] [0] mode Grey.default sane_default (by show 1 ≤ 8000000; decide) 0).1.2
      ⟨(e, f, 0), rfl, hl, ?_⟩
    intro k _ hk
    omega

example : utf8Len (List.replicate 16001 'a') > 16000 := by
  have : ∀ n, utf8Len (List.replicate n 'a') = n := by
    intro n
    induction n with
    | zero => rfl
    | succ n ih =>
      have : utf8Len (List.replicate (n + 1) 'a') = 1 + utf8Len (List.replicate n 'a') := by
        simp [utf8Len, List.replicate_succ]; rfl
      omega
  rw [this]; decide

/-! ## C66: start of match -/

/-- C66: no compiled set of expressions ever needs start-of-match information, whatever its flags. -/
theorem C66_no_som (p : Profile) (es : List Str) (fs : List Flags) (ids : List Nat) (mode : Mode)
    (g : Grey) (hs : Sane g) (ng : Ng) (h : compileNg p es fs ids mode g = .ok ng) :
    ng.rose.hasSom = false := by
  have := (compileNg_ok hs h).2.2.2.rose
  rw [this]

example : (compileNg .release ["a".toList] [Flags.SOM_LEFTMOST] [0] .block Grey.default).isOk = true := by
  decide +kernel

/-! ## C73: the record of an expression -/

theorem contains_quiet_not (f a : Flags) (h : a.bits &&& Flags.QUIET.bits = 0#16) (ha : a.bits &&& Flags.all.bits = a.bits) :
    (f.and Flags.QUIET.not).contains a = f.contains a := by
  unfold Flags.and Flags.contains Flags.not
  simp only
  have : f.bits &&& (~~~Flags.QUIET.bits &&& Flags.all.bits) &&& a.bits = f.bits &&& a.bits := by
    apply BitVec.eq_of_getLsbD_eq
    intro i hi
    have h1 := congrArg (fun v => v.getLsbD i) h
    have h2 := congrArg (fun v => v.getLsbD i) ha
    simp only [BitVec.getLsbD_and, BitVec.getLsbD_zero, BitVec.getLsbD_not] at h1 h2 ⊢
    cases hx : a.bits.getLsbD i <;> rw [hx] at h1 h2 <;> simp at h1 h2 ⊢
    rw [h1, h2]; simp [hi]
  rw [this]

/-- **C73.** The record made for an expression: its position and id are those given; SINGLEMATCH,
PREFILTER and QUIET are taken from the flags; it is UTF-8 iff the UTF8 flag is given or the text starts with
one of the verbs `(*UTF8)` and `(*UTF)`; it never allows empty matches or asks for start of match. -/
theorem C73_record (p : Profile) (index : Nat) (text : Str) (flags : Flags) (id : Nat) (pe : ParsedExpression)
    (h : ParsedExpression.new p index text flags id = .ok pe) :
    pe.expr.index = index ∧ pe.expr.report = id ∧
    pe.expr.highlander = flags.contains .SINGLEMATCH ∧ pe.expr.prefilter = flags.contains .PREFILTER ∧
    pe.expr.quiet = flags.contains .QUIET ∧
    (pe.expr.utf8 = true ↔ flags.contains .UTF8 = true ∨
      ∃ rest, HasVerb text "UTF8".toList rest ∨ HasVerb text "UTF".toList rest) ∧
    pe.expr.allowVacuous = false ∧ pe.expr.som = .none := by
  obtain ⟨m, hp, _, he⟩ := parsedExpression_ok h
  rw [he]
  refine ⟨rfl, rfl, rfl, rfl, rfl, ?_, rfl, rfl⟩
  show m.utf8 = true ↔ _
  obtain ⟨body, hb, _, _⟩ := C29_accepted_is_balanced p text _ (by rw [hp]; rfl)
  obtain ⟨m', _, hr, hp'⟩ := parse_isBody hb p (ParseMode.new (flags.and Flags.QUIET.not))
  rw [hp] at hp'
  obtain ⟨s, _, h2⟩ := bind_eq_ok hp'.symm
  injection h2 with h2
  injection h2 with _ h2
  subst h2
  have hu : (ParseMode.new (flags.and Flags.QUIET.not)).utf8 = flags.contains .UTF8 :=
    contains_quiet_not flags .UTF8 (by decide) (by decide)
  rcases C28_control_verb_effects _ _ _ _ _ hr with ⟨hn, _, rfl⟩ | ⟨hv, rfl⟩ | ⟨hv, rfl⟩
  · rw [hu]
    constructor
    · exact .inl
    · rintro (h | ⟨rest, h | h⟩)
      · exact h
      · exact absurd h (hn _ _)
      · exact absurd h (hn _ _)
  · show (ParseMode.new (flags.and Flags.QUIET.not)).utf8 = true ↔ _
    rw [hu]
    constructor
    · exact .inl
    · rintro (h | ⟨rest, h | h⟩)
      · exact h
      · exact absurd (hasVerb_unique hv h).1 (by decide)
      · exact absurd (hasVerb_unique hv h).1 (by decide)
  · constructor
    · exact fun _ => .inr ⟨_, hv⟩
    · exact fun _ => rfl

example : (match ParsedExpression.new .release 3 "(*UTF)ab".toList (Flags.QUIET.or .PREFILTER) 9 with
    | .ok pe => some (pe.expr.index, pe.expr.report, pe.expr.highlander, pe.expr.prefilter, pe.expr.quiet,
        pe.expr.utf8)
    | _ => none) = some (3, 9, false, true, true, true) := by decide +kernel

/-! ## C74: graphs in the small-write builder -/

theorem mem_reports (h : NgHolder) (r : Nat) : ∀ (vs : List Nat) (s : List Nat),
    r ∈ vs.foldl (fun u v => setExtend u (h.reportsAt v)) s ↔ r ∈ s ∨ ∃ v ∈ vs, r ∈ h.reportsAt v := by
  intro vs
  induction vs with
  | nil => intro s; simp
  | cons v vs ih =>
    intro s
    rw [List.foldl_cons, ih, mem_setExtend]
    simp [or_assoc]

/-- **C74.** `all_reports` of a graph: exactly the reports of vertices with an edge to accept or
accept-eod. -/
theorem C74_all_reports (h : NgHolder) (r : Nat) : r ∈ h.allReports ↔ ReportedBy h r := by
  unfold NgHolder.allReports ReportedBy
  simp only [mem_reports, Graph.incoming]
  simp only [List.mem_map, List.mem_filter, NgHolder.reportsAt]
  constructor
  · rintro ((h1 | ⟨v, ⟨⟨x, y⟩, ⟨h1, h2⟩, rfl⟩, h3⟩) | ⟨v, ⟨⟨x, y⟩, ⟨h1, h2⟩, rfl⟩, h3⟩)
    · cases h1
    all_goals
      simp only [beq_iff_eq] at h2
      subst h2
      cases hn : h.inner.nodes[x]? with
      | none => simp only [hn] at h3; cases h3
      | some w =>
        simp only [hn] at h3
        first
        | exact ⟨x, w, .inl h1, hn, h3⟩
        | exact ⟨x, w, .inr h1, hn, h3⟩
  · rintro ⟨v, w, h1 | h1, h2, h3⟩
    · exact .inl (.inr ⟨v, ⟨_, ⟨h1, by simp⟩, rfl⟩, by simp only [h2]; exact h3⟩)
    · exact .inr ⟨v, ⟨_, ⟨h1, by simp⟩, rfl⟩, by simp only [h2]; exact h3⟩

/-- C74: a graph is vacuous iff an edge leads from a start vertex straight to an accepting one. -/
theorem C74_vacuous (h : NgHolder) : h.isVacuous = true ↔ VacuousGraph h := by
  unfold NgHolder.isVacuous VacuousGraph Graph.hasEdge
  have : ∀ a b, (h.inner.edges.any (fun e => e.1 == a && e.2 == b)) = true ↔ (a, b) ∈ h.inner.edges := by
    intro a b
    rw [List.any_eq_true]
    constructor
    · rintro ⟨⟨x, y⟩, h1, h2⟩
      simp only [Bool.and_eq_true, beq_iff_eq] at h2
      obtain ⟨rfl, rfl⟩ := h2
      exact h1
    · intro h; exact ⟨_, h, by simp⟩
  simp only [Bool.or_eq_true, this, or_assoc]

theorem anyMinLength_eq {ε : Type} (rm : ReportManager) (rs : List Nat)
    (hr : ∀ r ∈ rs, r < rm.reportIds.length) :
    ∃ b, SmallWriteBuild.anyMinLength (ε := ε) rm rs = .ok b ∧
      (b = true ↔ ∃ r ∈ rs, ∃ x, rm.reportIds[r]? = some x ∧ 0 < x.minLength) := by
  induction rs with
  | nil => exact ⟨false, rfl, by simp⟩
  | cons r rs ih =>
    obtain ⟨b, h1, h2⟩ := ih (fun r hm => hr r (List.mem_cons_of_mem _ hm))
    have hlt := hr r List.mem_cons_self
    have hx := List.getElem?_eq_getElem hlt
    unfold SmallWriteBuild.anyMinLength ReportManager.getReport
    rw [hx]
    show ∃ b, (if rm.reportIds[r].minLength > 0 then Outcome.ok true else SmallWriteBuild.anyMinLength rm rs) = _ ∧ _
    by_cases hm : rm.reportIds[r].minLength > 0
    · rw [if_pos hm]
      exact ⟨true, rfl, ⟨fun _ => ⟨r, List.mem_cons_self, _, hx, hm⟩, fun _ => rfl⟩⟩
    · rw [if_neg hm]
      refine ⟨b, h1, ?_⟩
      rw [h2]
      constructor
      · rintro ⟨r', h3, h4⟩; exact ⟨r', List.mem_cons_of_mem _ h3, h4⟩
      · rintro ⟨r', h3, x, h4, h5⟩
        rcases List.mem_cons.1 h3 with rfl | h3
        · rw [hx] at h4; injection h4 with h4; subst h4; exact absurd h5 hm
        · exact ⟨r', h3, x, h4, h5⟩

/-- **C74, full statement:** offering a graph whose reports are all known to the small-write builder
succeeds. -/
def GraphsOffered : Prop :=
  ∀ (sw : SmallWriteBuild) (rm : ReportManager) (g : NgHolder) (expr : ExpressionInfo),
    (∀ r, ReportedBy g r → r < rm.reportIds.length) →
    (sw.addExpression (ε := Empty) rm g expr).isOk = true

/-- C74, what holds (missing: the conversion of the graph is not written yet): a poisoned builder is left
alone; graphs with start of match, vacuous graphs and graphs with a report of positive minimum length poison
the builder, changing nothing else; any other graph panics. -/
theorem C74_add_expression_partial {ε : Type} (sw : SmallWriteBuild) (rm : ReportManager) (g : NgHolder)
    (expr : ExpressionInfo) (hr : ∀ r, ReportedBy g r → r < rm.reportIds.length) :
    (sw.poisoned = true → sw.addExpression (ε := ε) rm g expr = .ok sw) ∧
    (sw.poisoned = false → (expr.som ≠ .none ∨ VacuousGraph g ∨
        ∃ r x, ReportedBy g r ∧ rm.reportIds[r]? = some x ∧ 0 < x.minLength) →
      sw.addExpression (ε := ε) rm g expr = .ok { sw with poisoned := true }) ∧
    (sw.poisoned = false → ¬ (expr.som ≠ .none ∨ VacuousGraph g ∨
        ∃ r x, ReportedBy g r ∧ rm.reportIds[r]? = some x ∧ 0 < x.minLength) →
      sw.addExpression (ε := ε) rm g expr = .panic "not implemented") := by
  obtain ⟨b, h1, h2⟩ := anyMinLength_eq (ε := ε) rm g.allReports
    (fun r hm => hr r ((C74_all_reports g r).1 hm))
  have hb : b = true ↔ ∃ r x, ReportedBy g r ∧ rm.reportIds[r]? = some x ∧ 0 < x.minLength := by
    rw [h2]
    constructor
    · rintro ⟨r, h3, x, h4⟩; exact ⟨r, x, (C74_all_reports g r).1 h3, h4⟩
    · rintro ⟨r, x, h3, h4⟩; exact ⟨r, (C74_all_reports g r).2 h3, x, h4⟩
  unfold SmallWriteBuild.addExpression
  rw [← hb, ← C74_vacuous, h1]
  refine ⟨fun h => by rw [if_pos h], fun h h3 => ?_, fun h h3 => ?_⟩
  · rw [if_neg (by simp [h])]
    split
    · rfl
    · split
      · rfl
      · rename_i h4 h5
        rcases h3 with h3 | h3 | h3
        · exact absurd h3 h4
        · exact absurd h3 h5
        · subst h3; rfl
  · simp only [not_or] at h3
    rw [if_neg (by simp [h]), if_neg h3.1, if_neg h3.2.1]
    have : b = false := by simpa using h3.2.2
    subst this; rfl

/-- A graph with an edge from start to a vertex with report 0 which leads to accept. -/
example : ∃ (g : NgHolder) (rm : ReportManager), (∀ r, ReportedBy g r → r < rm.reportIds.length) ∧
    ReportedBy g 0 ∧ ¬ VacuousGraph g ∧ (∃ x, rm.reportIds[0]? = some x ∧ 0 < x.minLength) := by
  refine ⟨⟨⟨[NfaGraphVertexProps.default, NfaGraphVertexProps.default, NfaGraphVertexProps.default,
      NfaGraphVertexProps.default, ⟨CharReach.default, [0], PosFlags.default⟩], [(0, 4), (4, 2)]⟩, 0, 1, 2, 3⟩,
    { ReportManager.new Grey.default with reportIds := [⟨5⟩] }, ?_,
    ⟨4, ⟨CharReach.default, [0], PosFlags.default⟩, .inl (by simp), rfl, by simp⟩,
    by unfold VacuousGraph; decide, ⟨⟨5⟩, rfl, by decide⟩⟩
  rintro r ⟨v, w, h1, h2, h3⟩
  simp only [List.mem_cons, List.not_mem_nil, or_false] at h1
  have hv : v = 4 := by
    rcases h1 with (h | h) | (h | h) <;> simp at h
    exact h
  subst hv
  simp at h2
  subst h2
  simp at h3
  subst h3
  exact Nat.one_pos

/-- C74 is false: the graph of a fresh builder panics. -/
theorem C74_false : ¬ GraphsOffered := by
  intro h
  have := h (SmallWriteBuild.new 1 Grey.default) (ReportManager.new Grey.default) freshGraph
    ⟨0, 0, false, false, false, false, .none, false⟩ (by
      rintro r ⟨v, w, h1, h2, h3⟩
      simp only [freshGraph, List.mem_cons, List.not_mem_nil, or_false] at h1 h2
      have hv : v = 2 := by
        rcases h1 with (h | h | h) | (h | h | h) <;> simp at h
        exact h
      subst hv
      simp at h2
      subst h2
      cases h3)
  revert this
  decide +kernel

/-- C74: a `HashSet` gives its members in no particular order.  If all ids are known to the report manager,
the search for a positive minimum length has the same outcome in every order (and with members repeated). -/
theorem C74_any_order {ε : Type} (rm : ReportManager) (ids ids' : List Nat) (h : ∀ r, r ∈ ids ↔ r ∈ ids')
    (hr : ∀ r ∈ ids, r < rm.reportIds.length) :
    SmallWriteBuild.anyMinLength (ε := ε) rm ids = SmallWriteBuild.anyMinLength rm ids' := by
  obtain ⟨b, h1, h2⟩ := anyMinLength_eq (ε := ε) rm ids hr
  obtain ⟨b', h1', h2'⟩ := anyMinLength_eq (ε := ε) rm ids' (fun r hm => hr r ((h r).2 hm))
  have : b = b' := by
    rw [Bool.eq_iff_iff, h2, h2']
    simp only [h]
  rw [h1, h1', this]

/-- The hypothesis on the ids is needed: with an unknown id the order decides between a result and a panic. -/
example : (SmallWriteBuild.anyMinLength (ε := Empty) { ReportManager.new Grey.default with reportIds := [⟨3⟩] } [0, 1]).isOk
      = true ∧
    (SmallWriteBuild.anyMinLength (ε := Empty) { ReportManager.new Grey.default with reportIds := [⟨3⟩] } [1, 0]).isPanic
      = true ∧
    SmallWriteBuild.anyMinLength (ε := Empty) { ReportManager.new Grey.default with reportIds := [⟨0⟩, ⟨3⟩] } [0, 1]
      = .ok true := ⟨rfl, rfl, rfl⟩

/-! ## C75: flags -/

/-- **C75.** The eleven flags are the first eleven bits, in the order of Hyperscan's constants; sets of flags
behave as sets of bits, and complements are taken within the eleven. -/
theorem C75_flags :
    ([Flags.CASELESS, .DOTALL, .MULTILINE, .SINGLEMATCH, .ALLOWEMPTY, .UTF8, .UCP, .PREFILTER, .SOM_LEFTMOST,
        .COMBINATION, .QUIET].map (fun f => f.bits.toNat) = (List.range 11).map (fun i => 2 ^ i)) ∧
    (∀ i, Flags.all.bits.getLsbD i = decide (i < 11)) ∧ (∀ i, Flags.empty.bits.getLsbD i = false) ∧
    (∀ (a b : Flags), a.contains b = true ↔ ∀ i, b.bits.getLsbD i = true → a.bits.getLsbD i = true) ∧
    (∀ (a b : Flags) (i : Nat), (a.or b).bits.getLsbD i = (a.bits.getLsbD i || b.bits.getLsbD i)) ∧
    (∀ (a b : Flags) (i : Nat), (a.and b).bits.getLsbD i = (a.bits.getLsbD i && b.bits.getLsbD i)) ∧
    (∀ (a : Flags) (i : Nat), a.not.bits.getLsbD i = (decide (i < 11) && !a.bits.getLsbD i)) := by
  have hall : ∀ i, Flags.all.bits.getLsbD i = decide (i < 11) := by
    intro i
    by_cases hi : i < 16
    · have : ∀ k : Fin 16, Flags.all.bits.getLsbD k.val = decide (k.val < 11) := by decide
      exact this ⟨i, hi⟩
    · rw [BitVec.getLsbD_of_ge _ _ (by omega)]
      simp; omega
  refine ⟨by decide, hall, fun i => BitVec.getLsbD_zero, ?_, ?_, ?_, ?_⟩
  · intro a b
    unfold Flags.contains
    rw [beq_iff_eq]
    exact and_eq_right_iff _ _
  · intro a b i; exact BitVec.getLsbD_or
  · intro a b i; exact BitVec.getLsbD_and
  · intro a i
    show (~~~a.bits &&& Flags.all.bits).getLsbD i = _
    rw [BitVec.getLsbD_and, BitVec.getLsbD_not, hall]
    by_cases hi : i < 11
    · have : i < 16 := by omega
      simp [hi, this]
    · simp [hi]

/-- C75: setting one flag sets no other. -/
theorem C75_independent (f a b : Flags) (ha : a ∈ [Flags.CASELESS, .DOTALL, .MULTILINE, .SINGLEMATCH,
      .ALLOWEMPTY, .UTF8, .UCP, .PREFILTER, .SOM_LEFTMOST, .COMBINATION, .QUIET])
    (hb : b ∈ [Flags.CASELESS, .DOTALL, .MULTILINE, .SINGLEMATCH, .ALLOWEMPTY, .UTF8, .UCP, .PREFILTER,
      .SOM_LEFTMOST, .COMBINATION, .QUIET]) (hab : a ≠ b) :
    (f.or a).contains a = true ∧ (f.or a).contains b = f.contains b ∧
    (f.and a.not).contains a = false ∧ (f.and a.not).contains b = f.contains b := by
  have hk : ∀ a ∈ [Flags.CASELESS, .DOTALL, .MULTILINE, .SINGLEMATCH, .ALLOWEMPTY, .UTF8, .UCP, .PREFILTER,
      .SOM_LEFTMOST, .COMBINATION, .QUIET], ∀ b ∈ [Flags.CASELESS, .DOTALL, .MULTILINE, .SINGLEMATCH,
      .ALLOWEMPTY, .UTF8, .UCP, .PREFILTER, .SOM_LEFTMOST, .COMBINATION, .QUIET],
      a ≠ b → a.bits &&& b.bits = 0#16 := by decide
  have hz : ∀ a ∈ [Flags.CASELESS, .DOTALL, .MULTILINE, .SINGLEMATCH, .ALLOWEMPTY, .UTF8, .UCP, .PREFILTER,
      .SOM_LEFTMOST, .COMBINATION, .QUIET], a.bits ≠ 0#16 ∧ a.bits &&& Flags.all.bits = a.bits := by decide
  have hd := hk a ha b hb hab
  refine ⟨?_, or_contains f a b hd, ?_, ?_⟩
  · rw [C75_flags.2.2.2.1]
    intro i hi
    rw [C75_flags.2.2.2.2.1, hi]; simp
  · rw [Bool.eq_false_iff]
    intro h
    rw [C75_flags.2.2.2.1] at h
    apply (hz a ha).1
    apply BitVec.eq_of_getLsbD_eq
    intro i _
    rw [BitVec.getLsbD_zero]
    cases hi : a.bits.getLsbD i with
    | false => rfl
    | true =>
      have := h i hi
      rw [C75_flags.2.2.2.2.2.1, C75_flags.2.2.2.2.2.2, hi] at this
      simp at this
  · rw [Bool.eq_iff_iff, C75_flags.2.2.2.1, C75_flags.2.2.2.1]
    have key : ∀ i, b.bits.getLsbD i = true → a.not.bits.getLsbD i = true := by
      intro i hi
      have h1 := congrArg (fun v => v.getLsbD i) hd
      have h2 := congrArg (fun v => v.getLsbD i) (hz b hb).2
      simp only [BitVec.getLsbD_and, BitVec.getLsbD_zero, hi, C75_flags.2.1] at h1 h2
      rw [C75_flags.2.2.2.2.2.2]
      simp at h1 h2
      simp [h1, h2]
    constructor
    · intro h i hi
      have := h i hi
      rw [C75_flags.2.2.2.2.2.1] at this
      simp at this
      exact this.1
    · intro h i hi
      rw [C75_flags.2.2.2.2.2.1, h i hi, key i hi]; rfl

example : (Flags.CASELESS.or .UTF8).contains .UTF8 = true ∧ (Flags.CASELESS.or .UTF8).contains .UCP = false := by
  decide

/-- C75: the parse mode made from flags takes each of its fields from its own bit and from nothing else;
ignoring white space is never on; the default mode is that of no flags. -/
theorem C75_parse_mode (f : Flags) :
    ParseMode.new f = { caseless := f.bits.getLsbD 0, dotall := f.bits.getLsbD 1, ignoreSpace := false,
                        multiline := f.bits.getLsbD 2, ucp := f.bits.getLsbD 6, utf8 := f.bits.getLsbD 5 } ∧
    ParseMode.default = ParseMode.new .empty := by
  have hb : ∀ (a : Flags) (k : Nat), (∀ i, a.bits.getLsbD i = decide (i = k)) →
      f.contains a = f.bits.getLsbD k := by
    intro a k ha
    rw [Bool.eq_iff_iff, C75_flags.2.2.2.1]
    constructor
    · intro h; exact h k (by rw [ha]; simp)
    · intro h i hi
      rw [ha] at hi
      rw [of_decide_eq_true hi]; exact h
  have bit : ∀ (a : Flags) (k : Nat), (∀ j : Fin 16, a.bits.getLsbD j.val = decide (j.val = k)) → k < 16 →
      ∀ i, a.bits.getLsbD i = decide (i = k) := by
    intro a k h hk i
    by_cases hi : i < 16
    · exact h ⟨i, hi⟩
    · rw [BitVec.getLsbD_of_ge _ _ (by omega)]
      simp; omega
  refine ⟨?_, by decide⟩
  unfold ParseMode.new
  rw [hb .CASELESS 0 (bit _ _ (by decide) (by omega)), hb .DOTALL 1 (bit _ _ (by decide) (by omega)),
    hb .MULTILINE 2 (bit _ _ (by decide) (by omega)), hb .UCP 6 (bit _ _ (by decide) (by omega)),
    hb .UTF8 5 (bit _ _ (by decide) (by omega))]

example : ParseMode.new (Flags.DOTALL.or (Flags.UCP.or .QUIET))
    = { ParseMode.default with dotall := true, ucp := true } := by decide

end Rescan
