import Verif.Proofs.TreeLit
import Verif.Spec.Graph
/-! # Helper lemmas about graph building -/
namespace Rescan
open Spec
namespace GlushkovBuildState

variable {ε : Type}

theorem modify_last {α : Type} (l : List α) (x : α) (f : α → α) :
    (l ++ [x]).modify l.length f = l ++ [f x] := by
  induction l with
  | nil => rfl
  | cons a l ih => simp [ih]

/-- The build state with vertices added for the given classes. -/
def withLeaves (bs : GlushkovBuildState) (ls : List AsciiComponentClass) : GlushkovBuildState :=
  { bs with builder := { bs.builder with graph := { bs.builder.graph with inner :=
    ⟨bs.builder.graph.inner.nodes ++
        ls.map (fun a => ⟨CharReach.default.orAssign a.cr, [], PosFlags.default⟩),
      bs.builder.graph.inner.edges⟩ } } }

/-- The number of vertices. -/
def numNodes (bs : GlushkovBuildState) : Nat := bs.builder.graph.inner.nodes.length

theorem withLeaves_nil (bs : GlushkovBuildState) : bs.withLeaves [] = bs := by
  simp [withLeaves]

theorem withLeaves_append (bs : GlushkovBuildState) (l1 l2 : List AsciiComponentClass) :
    bs.withLeaves (l1 ++ l2) = (bs.withLeaves l1).withLeaves l2 := by
  simp [withLeaves]

theorem numNodes_withLeaves (bs : GlushkovBuildState) (ls : List AsciiComponentClass) :
    (bs.withLeaves ls).numNodes = bs.numNodes + ls.length := by
  simp [withLeaves, numNodes]

theorem noteClass_eq (bs : GlushkovBuildState) (a : AsciiComponentClass)
    (h : bs.numNodes + 1 < 2 ^ 32) : noteClass (ε := ε) bs a = .ok (bs.withLeaves [a]) := by
  have h1 : bs.builder.graph.inner.nodes.length ≠ 2 ^ 32 - 1 := by unfold numNodes at h; omega
  unfold noteClass NfaBuilder.makePosition NgHolder.addVertex Graph.addNode
  rw [if_neg h1]
  show (NfaBuilder.addCharReach _ _ _).bind _ = _
  unfold NfaBuilder.addCharReach NgHolder.modifyReach
  rw [if_pos (by simp)]
  show Outcome.ok _ = _
  congr 1
  unfold withLeaves
  simp only [GlushkovBuildState.mk.injEq, true_and, NfaBuilder.mk.injEq, NgHolder.mk.injEq, and_true,
    Graph.mk.injEq]
  rw [modify_last]; rfl

/-- Adding vertices fails once there is no room. -/
theorem noteClass_full (bs : GlushkovBuildState) (a : AsciiComponentClass)
    (h : bs.numNodes = 2 ^ 32 - 1) : (noteClass (ε := ε) bs a).isPanic = true := by
  unfold noteClass NfaBuilder.makePosition NgHolder.addVertex Graph.addNode
  unfold numNodes at h
  rw [if_pos h]; rfl

mutual
theorem noteComponent_eq : ∀ (c : Component) (bs : GlushkovBuildState),
    bs.numNodes + (leaves c).length < 2 ^ 32 →
    noteComponent (ε := ε) bs c = .ok (bs.withLeaves (leaves c))
  | .alternation (.mk cs), bs, h => by
    rw [noteComponent, leaves]; exact noteSequences_eq cs bs (by rw [leaves] at h; exact h)
  | .cls (.ascii a), bs, h => by
    rw [noteComponent, leaves]; exact noteClass_eq bs a (by rw [leaves] at h; exact h)
  | .sequence s, bs, h => by
    rw [noteComponent, leaves]; exact noteSequence_eq s bs (by rw [leaves] at h; exact h)
theorem noteSequence_eq : ∀ (s : ComponentSequence) (bs : GlushkovBuildState),
    bs.numNodes + (leavesSeq s).length < 2 ^ 32 →
    noteSequence (ε := ε) bs s = .ok (bs.withLeaves (leavesSeq s))
  | .mk cs _ _ _, bs, h => by
    rw [noteSequence, leavesSeq]; exact noteComponents_eq cs bs (by rw [leavesSeq] at h; exact h)
theorem noteSequences_eq : ∀ (ss : List ComponentSequence) (bs : GlushkovBuildState),
    bs.numNodes + (leavesSeqs ss).length < 2 ^ 32 →
    noteSequences (ε := ε) bs ss = .ok (bs.withLeaves (leavesSeqs ss))
  | [], bs, h => by rw [noteSequences, leavesSeqs, withLeaves_nil]
  | s :: ss, bs, h => by
    rw [leavesSeqs, List.length_append] at h
    rw [noteSequences, leavesSeqs, withLeaves_append, noteSequence_eq s bs (by omega)]
    exact noteSequences_eq ss _ (by rw [numNodes_withLeaves]; omega)
theorem noteComponents_eq : ∀ (cs : List Component) (bs : GlushkovBuildState),
    bs.numNodes + (leavesAll cs).length < 2 ^ 32 →
    noteComponents (ε := ε) bs cs = .ok (bs.withLeaves (leavesAll cs))
  | [], bs, h => by rw [noteComponents, leavesAll, withLeaves_nil]
  | c :: cs, bs, h => by
    rw [leavesAll, List.length_append] at h
    rw [noteComponents, leavesAll, withLeaves_append, noteComponent_eq c bs (by omega)]
    exact noteComponents_eq cs _ (by rw [numNodes_withLeaves]; omega)
end

/-! ## Wiring -/

theorem contains_or (f a b : PosFlags) :
    f.contains (a.or b) = (f.contains a && f.contains b) := by
  rw [Bool.eq_iff_iff, Bool.and_eq_true]
  unfold PosFlags.contains PosFlags.or
  simp only [beq_iff_eq]
  constructor
  · intro h
    constructor
    · apply BitVec.eq_of_getLsbD_eq
      intro i hi
      have := congrArg (fun w => BitVec.getLsbD w i) h
      simp only [BitVec.getLsbD_and, BitVec.getLsbD_or] at this ⊢
      revert this
      cases f.bits.getLsbD i <;> cases a.bits.getLsbD i <;> cases b.bits.getLsbD i <;> simp
    · apply BitVec.eq_of_getLsbD_eq
      intro i hi
      have := congrArg (fun w => BitVec.getLsbD w i) h
      simp only [BitVec.getLsbD_and, BitVec.getLsbD_or] at this ⊢
      revert this
      cases f.bits.getLsbD i <;> cases a.bits.getLsbD i <;> cases b.bits.getLsbD i <;> simp
  · rintro ⟨h1, h2⟩
    apply BitVec.eq_of_getLsbD_eq
    intro i hi
    have h1 := congrArg (fun w => BitVec.getLsbD w i) h1
    have h2 := congrArg (fun w => BitVec.getLsbD w i) h2
    simp only [BitVec.getLsbD_and, BitVec.getLsbD_or] at h1 h2 ⊢
    revert h1 h2
    cases f.bits.getLsbD i <;> cases a.bits.getLsbD i <;> cases b.bits.getLsbD i <;> simp

theorem filterEdges_eq (bs : GlushkovBuildState) (from_ : PositionInfo) (tolist : List PositionInfo)
    (w : NfaGraphVertexProps) (hw : bs.builder.graph.inner.nodes[from_.pos]? = some w) :
    filterEdges (ε := ε) bs from_ tolist
      = .ok (tolist.filter (fun e => decide (Survives bs posEpsilon w.assertFlags from_ e))) := by
  unfold filterEdges NfaBuilder.getAssertFlag Graph.weight
  rw [hw]
  show Outcome.ok _ = Outcome.ok _
  congr 1
  have key : ∀ (l : List PositionInfo) (q : PositionInfo → Bool),
      (∀ e, decide (Survives bs posEpsilon w.assertFlags from_ e)
        = (q e && !(w.assertFlags.contains .MULTILINE_START && e.pos == bs.acceptEodState))) →
      l = tolist.filter q →
      (if w.assertFlags.contains .MULTILINE_START then l.filter (fun e => e.pos != bs.acceptEodState) else l)
        = tolist.filter (fun e => decide (Survives bs posEpsilon w.assertFlags from_ e)) := by
    intro l q h1 h2
    rw [h2, List.filter_congr (fun e _ => h1 e)]
    split
    · rename_i h; rw [List.filter_filter]; apply List.filter_congr; intro e _
      simp [h, Bool.and_comm]; rfl
    · rename_i h; apply List.filter_congr; intro e _; simp [h]
  by_cases hd : from_.pos = bs.startDotStarState
  · simp only [if_pos hd]
    apply key _ (fun e => !e.flags.contains .NOFLOAT && !from_.flags.contains .NOFLOAT)
    · intro e
      rw [Bool.eq_iff_iff, decide_eq_true_iff]
      unfold Survives
      simp only [hd, ne_eq, not_true_eq_false, false_implies, implies_true, true_implies, true_and]
      cases e.flags.contains .NOFLOAT <;> cases from_.flags.contains .NOFLOAT <;>
        cases w.assertFlags.contains .MULTILINE_START <;> simp
    · cases from_.flags.contains .NOFLOAT <;> simp
  · simp only [if_neg hd]
    by_cases hs : from_.pos = bs.startState
    · simp only [if_pos hs]
      apply key _ (fun e => (e.pos != posEpsilon || e.flags.isEmpty) &&
        !e.flags.contains (PosFlags.MUST_FLOAT.or .NOFLOAT))
      · intro e
        rw [Bool.eq_iff_iff, decide_eq_true_iff, contains_or]
        unfold Survives
        by_cases he : e.pos = posEpsilon <;>
        cases e.flags.isEmpty <;> cases e.flags.contains .NOFLOAT <;>
          cases e.flags.contains .MUST_FLOAT <;>
          cases w.assertFlags.contains .MULTILINE_START <;> simp [hd, hs, he] <;>
          (try (rw [hs] at hd; simp [hd]))
      · rw [List.filter_filter]
        apply List.filter_congr; intro e _; rw [Bool.and_comm]
    · simp only [if_neg hs]
      apply key _ (fun _ => true)
      · intro e
        rw [Bool.eq_iff_iff, decide_eq_true_iff]
        unfold Survives
        cases w.assertFlags.contains .MULTILINE_START <;> simp [hd, hs]
      · exact (List.filter_eq_self.2 (by simp)).symm

theorem mem_setInsert {α : Type} [DecidableEq α] (s : List α) (a x : α) :
    x ∈ setInsert s a ↔ x ∈ s ∨ x = a := by
  unfold setInsert
  split
  · rename_i h
    constructor
    · exact .inl
    · rintro (h' | rfl)
      · exact h'
      · exact h
  · simp

theorem mem_setExtend {α : Type} [DecidableEq α] (t s : List α) (x : α) :
    x ∈ setExtend s t ↔ x ∈ s ∨ x ∈ t := by
  unfold setExtend
  induction t generalizing s with
  | nil => simp
  | cons a t ih =>
    rw [List.foldl_cons, ih, mem_setInsert]
    simp [or_assoc]

/-- `successorsOf` on the map alone. -/
def succOf (m : List (Nat × List PositionInfo)) (q : Nat) : List PositionInfo :=
  ((m.find? (fun e => e.1 == q)).map Prod.snd).getD []

theorem addSuccessors_same (m : List (Nat × List PositionInfo)) (pos : Nat) (l : List PositionInfo)
    (x : PositionInfo) : x ∈ succOf (addSuccessors m pos l) pos ↔ x ∈ succOf m pos ∨ x ∈ l := by
  induction m with
  | nil => simp [addSuccessors, succOf, mem_setExtend]
  | cons e m ih =>
    obtain ⟨k, v⟩ := e
    rw [addSuccessors]
    split
    · rename_i h; subst h; simp [succOf, mem_setExtend]
    · rename_i h
      have h' : (k == pos) = false := by simpa using h
      simp only [succOf, List.find?_cons, h'] at ih ⊢
      exact ih

theorem addSuccessors_other (m : List (Nat × List PositionInfo)) (pos q : Nat) (l : List PositionInfo)
    (h : q ≠ pos) : succOf (addSuccessors m pos l) q = succOf m q := by
  induction m with
  | nil =>
    have h' : (pos == q) = false := by simpa using fun e => h e.symm
    simp [addSuccessors, succOf, h']
  | cons e m ih =>
    obtain ⟨k, v⟩ := e
    rw [addSuccessors]
    split
    · rename_i hk; subst hk
      have h' : (k == q) = false := by simpa using fun e => h e.symm
      simp [succOf, h']
    · simp only [succOf, List.find?_cons] at ih ⊢
      split
      · rfl
      · exact ih

theorem replaceFirst_append (l1 l2 : List PositionInfo) (e new : PositionInfo) (accept : Nat)
    (h1 : ∀ x ∈ l1, x.pos ≠ accept) (h2 : e.pos = accept) :
    replaceFirst (l1 ++ e :: l2) accept new = l1 ++ new :: l2 := by
  induction l1 with
  | nil => simp [replaceFirst, h2]
  | cons a l1 ih =>
    simp only [List.cons_append, replaceFirst]
    rw [if_neg (h1 a (by simp)), ih (fun x hx => h1 x (by simp [hx]))]

/-- Wiring when no surviving edge leads to accept. -/
theorem connectSuccessors_plain (p : Profile) (bs : GlushkovBuildState) (from_ : PositionInfo)
    (tolist : List PositionInfo) (w : NfaGraphVertexProps) (hp : p = .release ∨ from_.pos ≠ posEpsilon)
    (hw : bs.builder.graph.inner.nodes[from_.pos]? = some w)
    (hna : ∀ e ∈ tolist, Survives bs posEpsilon w.assertFlags from_ e → e.pos ≠ bs.acceptState) :
    connectSuccessors (ε := ε) p bs from_ tolist = .ok { bs with
      successors := addSuccessors bs.successors from_.pos
        (tolist.filter (fun e => decide (Survives bs posEpsilon w.assertFlags from_ e))) } := by
  have h0 : rdebugAssert (ε := ε) p (decide (from_.pos ≠ posEpsilon))
      "assertion failed: from.pos != pos_epsilon()" = .ok () := by
    rcases hp with rfl | h
    · exact rdebugAssert_release _ _
    · rw [decide_eq_true h]; exact rdebugAssert_true _ _
  unfold connectSuccessors
  rw [h0]
  show (filterEdges bs from_ tolist).bind _ = _
  rw [filterEdges_eq bs from_ tolist w hw]
  simp only [Outcome.bind]
  rw [if_neg]
  · rfl
  · simp only [List.any_eq_true, List.mem_filter, decide_eq_true_eq, not_exists, not_and, and_imp,
      beq_iff_eq]
    exact fun e h1 h2 => hna e h1 h2

/-- Wiring when a surviving edge leads to accept. -/
theorem connectSuccessors_accept (p : Profile) (bs : GlushkovBuildState) (from_ : PositionInfo)
    (tolist l1 l2 : List PositionInfo) (e : PositionInfo) (w : NfaGraphVertexProps)
    (hp : p = .release ∨ from_.pos ≠ posEpsilon)
    (hw : bs.builder.graph.inner.nodes[from_.pos]? = some w)
    (hs : tolist.filter (fun e => decide (Survives bs posEpsilon w.assertFlags from_ e)) = l1 ++ e :: l2)
    (h1 : ∀ x ∈ l1, x.pos ≠ bs.acceptState) (h2 : e.pos = bs.acceptState)
    (hroom : bs.numNodes + 1 < 2 ^ 32) :
    connectSuccessors (ε := ε) p bs from_ tolist = .ok { bs with
      builder := { bs.builder with graph := { bs.builder.graph with inner :=
        ⟨bs.builder.graph.inner.nodes ++ [NfaGraphVertexProps.default], bs.builder.graph.inner.edges⟩ } }
      successors := addSuccessors bs.successors from_.pos
        (l1 ++ ⟨bs.numNodes, PosFlags.default⟩ :: l2) } := by
  have h0 : rdebugAssert (ε := ε) p (decide (from_.pos ≠ posEpsilon))
      "assertion failed: from.pos != pos_epsilon()" = .ok () := by
    rcases hp with rfl | h
    · exact rdebugAssert_release _ _
    · rw [decide_eq_true h]; exact rdebugAssert_true _ _
  have hlen : bs.builder.graph.inner.nodes.length ≠ 2 ^ 32 - 1 := by unfold numNodes at hroom; omega
  unfold connectSuccessors
  rw [h0]
  show (filterEdges bs from_ tolist).bind _ = _
  rw [filterEdges_eq bs from_ tolist w hw, hs]
  simp only [Outcome.bind]
  rw [if_pos]
  · unfold NfaBuilder.makePosition NgHolder.addVertex Graph.addNode
    rw [if_neg hlen]
    show Outcome.ok _ = Outcome.ok _
    rw [replaceFirst_append l1 l2 e _ _ h1 h2]
    rfl
  · simp [h2]

/-- The graph of a fresh builder. -/
def freshGraph : NgHolder where
  inner := ⟨[⟨CharReach.default.setAll, [], PosFlags.default⟩,
             ⟨CharReach.default.setAll, [], PosFlags.default⟩,
             NfaGraphVertexProps.default, NfaGraphVertexProps.default], [(2, 3), (1, 1), (0, 1)]⟩
  start := 0
  startDs := 1
  accept := 2
  acceptEod := 3

theorem ngHolder_new : NgHolder.new (ε := ε) = .ok freshGraph := rfl

theorem builder_new (e : ExpressionInfo) : NfaBuilder.new (ε := ε) e = .ok ⟨freshGraph, e⟩ := rfl

/-- The build state of a fresh builder. -/
theorem state_new (p : Profile) (e : ExpressionInfo) :
    ∃ succ, GlushkovBuildState.new (ε := ε) p ⟨freshGraph, e⟩ = .ok ⟨0, 1, 2, 3, ⟨freshGraph, e⟩, succ⟩ := by
  have hne : ∀ n, n < 4 → n ≠ posEpsilon := by intro n hn; unfold posEpsilon; omega
  unfold GlushkovBuildState.new connectRegions
  simp only [List.foldlM_cons, List.foldlM_nil]
  show ∃ succ, (connectSuccessors p _ (PositionInfo.ofPos 0) _).bind _ = _
  rw [connectSuccessors_plain p _ (PositionInfo.ofPos 0) _ ⟨CharReach.default.setAll, [], PosFlags.default⟩
    (.inr (hne 0 (by omega))) rfl (by
      intro e he _; rw [List.mem_singleton] at he; subst he; exact (by decide : (1 : Nat) ≠ 2))]
  show ∃ succ, (connectSuccessors p _ (PositionInfo.ofPos 1) _).bind _ = _
  rw [connectSuccessors_plain p _ (PositionInfo.ofPos 1) _ ⟨CharReach.default.setAll, [], PosFlags.default⟩
    (.inr (hne 1 (by omega))) rfl (by
      intro e he _; rw [List.mem_singleton] at he; subst he; exact (by decide : (1 : Nat) ≠ 2))]
  exact ⟨_, rfl⟩

end GlushkovBuildState

open GlushkovBuildState in
theorem buildGraph_eq {ε : Type} (p : Profile) (pe : ParsedExpression)
    (h : 4 + (leaves pe.component).length < 2 ^ 32) :
    ∃ b, buildGraph (ε := ε) p pe = .ok b ∧ b.expr = pe.expr ∧
      b.graph = { freshGraph with inner := ⟨freshGraph.inner.nodes ++ (leaves pe.component).map
        (fun a => ⟨CharReach.default.orAssign a.cr, [], PosFlags.default⟩), freshGraph.inner.edges⟩ } := by
  obtain ⟨succ, hs⟩ := state_new (ε := ε) p pe.expr
  unfold buildGraph
  rw [builder_new]
  have hn := noteComponent_eq (ε := ε) pe.component ⟨0, 1, 2, 3, ⟨freshGraph, pe.expr⟩, succ⟩ h
  refine ⟨((⟨0, 1, 2, 3, ⟨freshGraph, pe.expr⟩, succ⟩ : GlushkovBuildState).withLeaves
    (leaves pe.component)).builder, ?_, rfl, rfl⟩
  show (GlushkovBuildState.new p ⟨freshGraph, pe.expr⟩).bind _ = _
  rw [hs]
  show (noteComponent _ pe.component).bind _ = _
  rw [hn]; rfl

/-! ## Leaves of grammar trees -/

/-- The literal characters of a text. -/
def litChars (s : Str) : Str := s.filter (fun c => !decide (special c))

theorem litChars_append (s t : Str) : litChars (s ++ t) = litChars s ++ litChars t := by
  simp [litChars]

/-- The byte class inside a component class. -/
def asciiOf : ComponentClass → AsciiComponentClass
  | .ascii a => a

mutual
theorem Item.leaves_eq (cls : Char → ComponentClass) : ∀ (i : Item) (k : Nat), i.Wf →
    leaves (i.build cls k).1 = (litChars i.print).map (fun c => asciiOf (cls c))
  | .lit c, k, h => by
    have : litChars (Item.lit c).print = [c] := by
      have h' : ¬ special c := h
      simp [litChars, Item.print, h']
    rw [this, Item.build]
    cases hc : cls c; simp [leaves, asciiOf, hc]
  | .group a, k, h => by
    have : litChars (Item.group a).print = litChars a.print := by
      rw [Item.print, litChars, List.filter_append]
      have e1 : special '(' := .inl rfl
      have e2 : special ')' := .inr (.inl rfl)
      simp [litChars, e1, e2]
    rw [this, Item.build, leaves, leavesSeq]
    exact Alts.leaves_eq cls a (k + 1) h
theorem Seq.leaves_eq (cls : Char → ComponentClass) : ∀ (s : Seq) (k : Nat), s.Wf →
    leavesAll (s.build cls k).1 = (litChars s.print).map (fun c => asciiOf (cls c))
  | .nil, k, h => rfl
  | .cons i s, k, h => by
    rw [Seq.build, leavesAll, Seq.print, litChars_append, List.map_append,
      Item.leaves_eq cls i k h.1, Seq.leaves_eq cls s _ h.2]
theorem Alts.leaves_eq (cls : Char → ComponentClass) : ∀ (a : Alts) (k : Nat), a.Wf →
    leavesAll (a.build cls k).1 = (litChars a.print).map (fun c => asciiOf (cls c))
  | .one s, k, h => Seq.leaves_eq cls s k h
  | .more s a, k, h => by
    have e : litChars ('|' :: a.print) = litChars a.print := by
      have e1 : special '|' := .inr (.inr rfl)
      simp [litChars, e1]
    rw [Alts.build, leavesAll, leaves, leavesSeqs, leavesSeq, Alts.print, litChars_append, List.map_append,
      Seq.leaves_eq cls s k h.1, e, Alts.leavesB_eq cls a _ h.2, leavesAll, List.append_nil]
theorem Alts.leavesB_eq (cls : Char → ComponentClass) : ∀ (a : Alts) (k : Nat), a.Wf →
    leavesSeqs (a.branches cls k).1 = (litChars a.print).map (fun c => asciiOf (cls c))
  | .one s, k, h => by
    rw [Alts.branches, leavesSeqs, leavesSeq, leavesSeqs, List.append_nil]
    exact Seq.leaves_eq cls s k h
  | .more s a, k, h => by
    have e : litChars ('|' :: a.print) = litChars a.print := by
      have e1 : special '|' := .inr (.inr rfl)
      simp [litChars, e1]
    rw [Alts.branches, leavesSeqs, leavesSeq, Alts.print, litChars_append, List.map_append,
      Seq.leaves_eq cls s k h.1, e, Alts.leavesB_eq cls a _ h.2]
end

end Rescan
