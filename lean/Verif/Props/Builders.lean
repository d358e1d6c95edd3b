import Verif.Spec.Builders
import Verif.Spec.Grammar
import Verif.Props.Graph
import Verif.Props.ByteClass
import Verif.Props.Report
/-! # C114: the builders of sequences and graphs, used in any way -/
namespace Rescan
open Spec

/-- Makes the calls on a sequence. -/
def ComponentSequence.runCalls : ComponentSequence → List SeqCall → ComponentSequence
  | s, [] => s
  | s, .component c :: rest => (s.addComponent c).runCalls rest
  | s, .bar :: rest => s.addAlternation.runCalls rest

/-- Makes the calls on a graph builder and collects the positions made. -/
def NfaBuilder.runCalls {ε : Type} : NfaBuilder → List GraphCall → Outcome ε (NfaBuilder × List Nat)
  | b, [] => .ok (b, [])
  | b, .make :: rest =>
    b.makePosition.bind fun x => (x.1.runCalls rest).bind fun y => .ok (y.1, x.2 :: y.2)
  | b, .reach pos cr :: rest => (b.addCharReach pos cr).bind fun b => b.runCalls rest

theorem pieces_cons (calls : List SeqCall) : ∃ cs ps, pieces calls = cs :: ps := by
  cases calls with
  | nil => exact ⟨_, _, rfl⟩
  | cons c rest =>
    cases c with
    | bar => exact ⟨_, _, rfl⟩
    | component c =>
      unfold pieces
      split
      · exact ⟨_, _, rfl⟩
      · exact ⟨_, _, rfl⟩

/-- The sequence under construction after some calls. -/
theorem runCalls_eq : ∀ (calls : List SeqCall) (cs0 : List Component) (a : Option ComponentAlternation)
    (i : Option Nat) (n : Option String) (cs : List Component) (ps : List (List Component)),
    pieces calls = cs :: ps →
    ((ComponentSequence.mk cs0 a i n).runCalls calls).finalize =
      match a, ps with
      | none, [] => .mk (cs0 ++ cs) none i n
      | _, _ => .mk [.alternation (.mk ((match a with | none => [] | some a => a.children) ++
          ((cs0 ++ cs) :: ps).map (fun cs => .mk cs none none none)))] none i n := by
  intro calls
  induction calls with
  | nil =>
    intro cs0 a i n cs ps h
    injection h with h1 h2
    subst h1 h2
    cases a with
    | none => simp [ComponentSequence.runCalls, ComponentSequence.finalize, ComponentSequence.alternation]
    | some a =>
      simp [ComponentSequence.runCalls, ComponentSequence.finalize, ComponentSequence.alternation,
        ComponentSequence.addAlternation, ComponentSequence.children, ComponentSequence.captureIndex,
        ComponentSequence.captureName]
  | cons c rest ih =>
    intro cs0 a i n cs ps h
    obtain ⟨cs', ps', hr⟩ := pieces_cons rest
    cases c with
    | component c =>
      unfold pieces at h
      rw [hr] at h
      injection h with h1 h2
      subst h1 h2
      have := ih (cs0 ++ [c]) a i n cs' ps' hr
      show ((ComponentSequence.mk (cs0 ++ [c]) a i n).runCalls rest).finalize = _
      rw [this]
      simp
    | bar =>
      unfold pieces at h
      rw [hr] at h
      injection h with h1 h2
      subst h1 h2
      have := ih [] (some (.mk ((match a with | none => [] | some a => a.children) ++ [.mk cs0 none none none]))) i n
        cs' ps' hr
      show ((ComponentSequence.mk [] _ i n).runCalls rest).finalize = _
      simp only [ComponentSequence.alternation, ComponentSequence.children]
      cases a with
      | none =>
        simp only at this ⊢
        rw [this]
        simp [ComponentAlternation.children]
      | some a =>
        simp only at this ⊢
        rw [this]
        simp [ComponentAlternation.children]

/-- C114: components added to an empty sequence, with bars between them in any way, give after `finalize` one child
for each if there was no bar, else one alternation with one sequence for each piece between the bars. Number and name
of the group are kept, the pieces have none, and no alternative is pending. -/
theorem C114_sequence (calls : List SeqCall) (i : Option Nat) (n : Option String) :
    ((ComponentSequence.mk [] none i n).runCalls calls).finalize =
      match pieces calls with
      | [cs] => .mk cs none i n
      | ps => .mk [.alternation (.mk (ps.map (fun cs => .mk cs none none none)))] none i n := by
  obtain ⟨cs, ps, h⟩ := pieces_cons calls
  rw [runCalls_eq calls [] none i n cs ps h, h]
  cases ps with
  | nil => rfl
  | cons p ps => rfl

theorem langAny_map (w : List U8) : ∀ ps : List (List Component),
    LangAny (ps.map (fun cs => .mk cs none none none)) w ↔ ∃ cs ∈ ps, LangAll cs w := by
  intro ps
  induction ps with
  | nil => simp [LangAny]
  | cons p ps ih =>
    simp only [List.map_cons, LangAny, LangSeq, ih, List.mem_cons]
    constructor
    · rintro (h | ⟨cs, h1, h2⟩)
      · exact ⟨p, .inl rfl, h⟩
      · exact ⟨cs, .inr h1, h2⟩
    · rintro ⟨cs, rfl | h1, h2⟩
      · exact .inl h2
      · exact .inr ⟨cs, h1, h2⟩

/-- C114: what such a sequence matches is what one of the pieces matches. -/
theorem C114_sequence_language (calls : List SeqCall) (i : Option Nat) (n : Option String) (w : List U8) :
    LangSeq ((ComponentSequence.mk [] none i n).runCalls calls).finalize w ↔
      ∃ cs ∈ pieces calls, LangAll cs w := by
  rw [C114_sequence]
  split
  · rename_i cs h
    rw [h]
    simp [LangSeq]
  · rename_i ps h
    simp only [LangSeq, LangAll]
    constructor
    · rintro ⟨w1, w2, rfl, h1, rfl⟩
      rw [List.append_nil]
      exact (langAny_map w1 _).1 h1
    · intro h1
      exact ⟨w, [], by simp, (langAny_map w _).2 h1, rfl⟩

/-- C114: finishing twice is finishing once, in any state, and the assertion of `finalize` that ending an alternative
leaves no children holds in any state. -/
theorem C114_finalize (s : ComponentSequence) :
    s.finalize.finalize = s.finalize ∧ s.finalize.alternation = none ∧ s.addAlternation.children = [] := by
  obtain ⟨cs, a, i, n⟩ := s
  cases a with
  | none => exact ⟨rfl, rfl, rfl⟩
  | some a => exact ⟨rfl, rfl, rfl⟩

/-! ## Graph builders -/

theorem makes_cons_make (calls : List GraphCall) : makes (.make :: calls) = makes calls + 1 := rfl

theorem makes_cons_reach (pos : Nat) (cr : CharReach) (calls : List GraphCall) :
    makes (.reach pos cr :: calls) = makes calls := rfl

theorem inRange_make (n : Nat) (calls : List GraphCall) :
    InRange n (.make :: calls) ↔ InRange (n + 1) calls := by
  unfold InRange
  rw [makes_cons_make]
  constructor
  · rintro ⟨h1, h2⟩
    refine ⟨by omega, fun i pos cr h => ?_⟩
    have := h2 (i + 1) pos cr h
    rw [List.take_succ_cons, makes_cons_make] at this
    omega
  · rintro ⟨h1, h2⟩
    refine ⟨by omega, fun i pos cr h => ?_⟩
    cases i with
    | zero => cases h
    | succ i =>
      have := h2 i pos cr h
      rw [List.take_succ_cons, makes_cons_make]
      omega

theorem inRange_reach (n pos : Nat) (cr : CharReach) (calls : List GraphCall) :
    InRange n (.reach pos cr :: calls) ↔ pos < n ∧ InRange n calls := by
  unfold InRange
  rw [makes_cons_reach]
  constructor
  · rintro ⟨h1, h2⟩
    refine ⟨by have := h2 0 pos cr rfl; simpa [makes] using this, h1, fun i pos' cr' h => ?_⟩
    have := h2 (i + 1) pos' cr' h
    rw [List.take_succ_cons, makes_cons_reach] at this
    exact this
  · rintro ⟨h0, h1, h2⟩
    refine ⟨h1, fun i pos' cr' h => ?_⟩
    cases i with
    | zero =>
      injection h with h
      injection h with h3 h4
      subst h3
      simpa [makes] using h0
    | succ i =>
      have := h2 i pos' cr' h
      rw [List.take_succ_cons, makes_cons_reach]
      exact this

/-- C114: positions are made and given bytes in any way. It fails, by a panic, exactly if bytes are given to a
position that was not made before or there are too many positions. Otherwise the positions returned are the next
numbers, the edges, the special vertices and the record of the expression stay as they were, and so do reports and
assertion flags of the old vertices, the new ones having none; and a vertex accepts the bytes it did and those given
to it, a new one only the latter. -/
theorem C114_graph_builder {ε : Type} : ∀ (calls : List GraphCall) (b : NfaBuilder),
    b.graph.inner.nodes.length ≤ 2 ^ 32 - 1 →
    (¬ InRange b.graph.inner.nodes.length calls → (b.runCalls (ε := ε) calls).isPanic = true) ∧
    (InRange b.graph.inner.nodes.length calls → ∃ b', b.runCalls (ε := ε) calls
        = .ok (b', (List.range (makes calls)).map (b.graph.inner.nodes.length + ·)) ∧
      b'.graph.inner.nodes.length = b.graph.inner.nodes.length + makes calls ∧
      b'.graph.inner.edges = b.graph.inner.edges ∧ b'.graph.start = b.graph.start ∧
      b'.graph.startDs = b.graph.startDs ∧ b'.graph.accept = b.graph.accept ∧
      b'.graph.acceptEod = b.graph.acceptEod ∧ b'.expr = b.expr ∧
      ∀ v w', b'.graph.inner.nodes[v]? = some w' →
        w'.reports = (match b.graph.inner.nodes[v]? with | some w => w.reports | none => []) ∧
        w'.assertFlags.bits = (match b.graph.inner.nodes[v]? with | some w => w.assertFlags.bits | none => 0#32) ∧
        ∀ x, w'.charReach.test x = true ↔
          (∃ w, b.graph.inner.nodes[v]? = some w ∧ w.charReach.test x = true) ∨
          ∃ cr, GraphCall.reach v cr ∈ calls ∧ cr.test x = true) := by
  intro calls
  induction calls with
  | nil =>
    intro b hb
    refine ⟨fun h => absurd ⟨hb, fun i pos cr h => by simp at h⟩ h, fun _ => ⟨b, rfl, rfl, rfl, rfl, rfl, rfl, rfl, rfl, ?_⟩⟩
    intro v w' h
    rw [h]
    exact ⟨rfl, rfl, fun x => by simp⟩
  | cons c rest ih =>
    intro b hb
    cases c with
    | make =>
      rw [inRange_make]
      by_cases hfull : b.graph.inner.nodes.length = 2 ^ 32 - 1
      · constructor
        · intro _
          have : b.makePosition (ε := ε) = .panic "assertion failed: NodeIndex::end() != node_idx" := by
            unfold NfaBuilder.makePosition NgHolder.addVertex Graph.addNode
            rw [if_pos hfull]; rfl
          unfold NfaBuilder.runCalls
          rw [this]; rfl
        · intro h
          have := h.1
          omega
      · have hm : b.makePosition (ε := ε) = .ok ({ b with graph := { b.graph with inner :=
            { b.graph.inner with nodes := b.graph.inner.nodes ++ [NfaGraphVertexProps.default] } } },
            b.graph.inner.nodes.length) := by
          unfold NfaBuilder.makePosition NgHolder.addVertex Graph.addNode
          rw [if_neg hfull]; rfl
        generalize hb1 : ({ b with graph := { b.graph with inner :=
            { b.graph.inner with nodes := b.graph.inner.nodes ++ [NfaGraphVertexProps.default] } } } : NfaBuilder) = b1 at hm
        have hlen : b1.graph.inner.nodes.length = b.graph.inner.nodes.length + 1 := by subst hb1; simp
        obtain ⟨ih1, ih2⟩ := ih b1 (by omega)
        rw [hlen] at ih1 ih2
        unfold NfaBuilder.runCalls
        rw [hm]
        constructor
        · intro h
          have := ih1 h
          show ((b1.runCalls (ε := ε) rest).bind _).isPanic = true
          cases hx : b1.runCalls (ε := ε) rest with
          | ok y => rw [hx] at this; cases this
          | err y => rw [hx] at this; cases this
          | panic y => rfl
          | timeout => rw [hx] at this; cases this
        · intro h
          obtain ⟨b', h1, h2, h3, h4, h5, h6, h7, h8, h9⟩ := ih2 h
          refine ⟨b', ?_, by rw [h2, makes_cons_make]; omega, by rw [h3]; subst hb1; rfl, by rw [h4]; subst hb1; rfl,
            by rw [h5]; subst hb1; rfl, by rw [h6]; subst hb1; rfl, by rw [h7]; subst hb1; rfl,
            by rw [h8]; subst hb1; rfl, ?_⟩
          · show ((b1.runCalls (ε := ε) rest).bind _) = _
            rw [h1]
            show Outcome.ok (b', b.graph.inner.nodes.length :: _) = _
            rw [makes_cons_make, List.range_succ_eq_map]
            simp only [List.map_cons, List.map_map, Nat.add_zero]
            congr 3
            apply List.map_congr_left
            intro k _
            simp only [Function.comp]
            omega
          · intro v w' hv
            obtain ⟨g1, g2, g3⟩ := h9 v w' hv
            have hnode : b1.graph.inner.nodes[v]? = if v = b.graph.inner.nodes.length then some NfaGraphVertexProps.default
                else b.graph.inner.nodes[v]? := by
              subst hb1
              by_cases hlt : v < b.graph.inner.nodes.length
              · rw [if_neg (by omega)]
                exact List.getElem?_append_left hlt
              · by_cases heq : v = b.graph.inner.nodes.length
                · rw [if_pos heq, heq]; simp
                · rw [if_neg heq, List.getElem?_eq_none (by simp; omega), List.getElem?_eq_none (by omega)]
            by_cases heq : v = b.graph.inner.nodes.length
            · rw [if_pos heq] at hnode
              have hnone : b.graph.inner.nodes[v]? = none := List.getElem?_eq_none (by omega)
              rw [hnode] at g1 g2
              rw [hnone]
              refine ⟨g1, g2, fun x => ?_⟩
              rw [g3 x, hnode]
              have hempty : NfaGraphVertexProps.default.charReach.test x = false :=
                (CharReach.C03_class_updates CharReach.default x).2.2.2
              constructor
              · rintro (⟨w, h, h'⟩ | ⟨cr, h, h'⟩)
                · injection h with h; subst h; rw [hempty] at h'; cases h'
                · exact .inr ⟨cr, List.mem_cons_of_mem _ h, h'⟩
              · rintro (⟨w, h, h'⟩ | ⟨cr, h, h'⟩)
                · cases h
                · rcases List.mem_cons.1 h with h | h
                  · cases h
                  · exact .inr ⟨cr, h, h'⟩
            · rw [if_neg heq] at hnode
              rw [hnode] at g1 g2
              refine ⟨g1, g2, fun x => ?_⟩
              rw [g3 x, hnode]
              constructor
              · rintro (h | ⟨cr, h, h'⟩)
                · exact .inl h
                · exact .inr ⟨cr, List.mem_cons_of_mem _ h, h'⟩
              · rintro (h | ⟨cr, h, h'⟩)
                · exact .inl h
                · rcases List.mem_cons.1 h with h | h
                  · cases h
                  · exact .inr ⟨cr, h, h'⟩
    | reach pos cr =>
      rw [inRange_reach]
      by_cases hpos : pos < b.graph.inner.nodes.length
      · have hm : b.addCharReach (ε := ε) pos cr = .ok { b with graph := { b.graph with inner :=
            { b.graph.inner with nodes := (b.graph.inner.nodes.modify pos
              (fun v => { v with charReach := v.charReach.orAssign cr }) : List NfaGraphVertexProps) } } } := by
          unfold NfaBuilder.addCharReach NgHolder.modifyReach
          rw [if_pos hpos]; rfl
        generalize hb1 : ({ b with graph := { b.graph with inner :=
            { b.graph.inner with nodes := (b.graph.inner.nodes.modify pos
              (fun v => { v with charReach := v.charReach.orAssign cr }) : List NfaGraphVertexProps) } } } : NfaBuilder) = b1 at hm
        have hlen : b1.graph.inner.nodes.length = b.graph.inner.nodes.length := by subst hb1; simp
        obtain ⟨ih1, ih2⟩ := ih b1 (by omega)
        rw [hlen] at ih1 ih2
        unfold NfaBuilder.runCalls
        rw [hm]
        constructor
        · intro h
          exact ih1 fun h' => h ⟨hpos, h'⟩
        · rintro ⟨_, h⟩
          obtain ⟨b', h1, h2, h3, h4, h5, h6, h7, h8, h9⟩ := ih2 h
          refine ⟨b', h1, h2, by rw [h3]; subst hb1; rfl, by rw [h4]; subst hb1; rfl,
            by rw [h5]; subst hb1; rfl, by rw [h6]; subst hb1; rfl, by rw [h7]; subst hb1; rfl,
            by rw [h8]; subst hb1; rfl, ?_⟩
          intro v w' hv
          obtain ⟨g1, g2, g3⟩ := h9 v w' hv
          have hnode : b1.graph.inner.nodes[v]? = (b.graph.inner.nodes[v]?).map (fun w =>
              if pos = v then { w with charReach := w.charReach.orAssign cr } else w) := by
            subst hb1
            show (b.graph.inner.nodes.modify pos _)[v]? = _
            rw [List.getElem?_modify]
            cases b.graph.inner.nodes[v]? with
            | none => rfl
            | some w => by_cases hpv : pos = v <;> simp [hpv]
          rw [hnode] at g1 g2 g3
          cases hn : b.graph.inner.nodes[v]? with
          | none =>
            rw [hn] at g1 g2 g3
            have hge : b.graph.inner.nodes.length ≤ v := List.getElem?_eq_none_iff.1 hn
            refine ⟨g1, g2, fun x => ?_⟩
            rw [g3 x]
            simp only [Option.map_none, reduceCtorEq, false_and, exists_false, false_or]
            constructor
            · rintro ⟨cr', h, h'⟩; exact ⟨cr', List.mem_cons_of_mem _ h, h'⟩
            · rintro ⟨cr', h, h'⟩
              rcases List.mem_cons.1 h with h | h
              · injection h with h; omega
              · exact ⟨cr', h, h'⟩
          | some w =>
            rw [hn] at g1 g2 g3
            simp only [Option.map_some] at g1 g2 g3
            by_cases hpv : pos = v
            · rw [if_pos hpv] at g1 g2 g3
              refine ⟨g1, g2, fun x => ?_⟩
              rw [g3 x]
              have hor : (w.charReach.orAssign cr).test x = true ↔ w.charReach.test x = true ∨ cr.test x = true := by
                rw [(CharReach.C09_class_pointwise w.charReach cr x).2.2.2.2.2.1, Bool.or_eq_true]
              constructor
              · rintro (⟨w2, h, h'⟩ | ⟨cr', h, h'⟩)
                · injection h with h; subst h
                  rcases hor.1 h' with h' | h'
                  · exact .inl ⟨w, rfl, h'⟩
                  · exact .inr ⟨cr, by rw [hpv]; exact List.mem_cons_self .., h'⟩
                · exact .inr ⟨cr', List.mem_cons_of_mem _ h, h'⟩
              · rintro (⟨w2, h, h'⟩ | ⟨cr', h, h'⟩)
                · injection h with h; subst h
                  exact .inl ⟨_, rfl, hor.2 (.inl h')⟩
                · rcases List.mem_cons.1 h with h | h
                  · injection h with h h2; subst h2
                    exact .inl ⟨_, rfl, hor.2 (.inr h')⟩
                  · exact .inr ⟨cr', h, h'⟩
            · rw [if_neg hpv] at g1 g2 g3
              refine ⟨g1, g2, fun x => ?_⟩
              rw [g3 x]
              constructor
              · rintro (h | ⟨cr', h, h'⟩)
                · exact .inl h
                · exact .inr ⟨cr', List.mem_cons_of_mem _ h, h'⟩
              · rintro (h | ⟨cr', h, h'⟩)
                · exact .inl h
                · rcases List.mem_cons.1 h with h | h
                  · injection h with h h2; exact absurd h.symm hpv
                  · exact .inr ⟨cr', h, h'⟩
      · constructor
        · intro _
          have : b.addCharReach (ε := ε) pos cr = .panic "invalid index" := by
            unfold NfaBuilder.addCharReach NgHolder.modifyReach
            rw [if_neg hpos]; rfl
          unfold NfaBuilder.runCalls
          rw [this]; rfl
        · rintro ⟨h, _⟩; exact absurd h hpos

/-- Three pieces, the second empty; a position made, given bytes twice, and one that does not exist. -/
example :
    (pieces [.component (.sequence .default), .bar, .bar, .component (.sequence .default)]).map List.length = [1, 0, 1] ∧
    InRange 4 [.make, .reach 4 (CharReach.fromBytes [7#8]), .make, .reach 4 CharReach.default, .reach 2 CharReach.default] ∧
    ¬ InRange 4 [.reach 4 CharReach.default, .make] := by
  refine ⟨rfl, (inRange_make _ _).2 ((inRange_reach _ _ _ _).2 ⟨by decide, (inRange_make _ _).2
    ((inRange_reach _ _ _ _).2 ⟨by decide, (inRange_reach _ _ _ _).2 ⟨by decide, by decide, fun i _ _ h => by simp at h⟩⟩)⟩), ?_⟩
  intro h
  exact absurd ((inRange_reach _ _ _ _).1 h).1 (by decide)

/-- C114: the flags of positions are sets of bits, and the three constants are different single bits. -/
theorem C114_position_flags (a b : PosFlags) :
    (a.contains b = true ↔ ∀ i, b.bits.getLsbD i = true → a.bits.getLsbD i = true) ∧
    (∀ i, (a.or b).bits.getLsbD i = (a.bits.getLsbD i || b.bits.getLsbD i)) ∧
    (a.isEmpty = true ↔ ∀ i, a.bits.getLsbD i = false) ∧ (∀ i, PosFlags.default.bits.getLsbD i = false) ∧
    (∀ i, PosFlags.NOFLOAT.bits.getLsbD i = decide (i = 0)) ∧
    (∀ i, PosFlags.MUST_FLOAT.bits.getLsbD i = decide (i = 4)) ∧
    (∀ i, PosFlags.MULTILINE_START.bits.getLsbD i = decide (i = 8)) := by
  have hbit : ∀ (x : U32) (k : Nat), k < 32 → (∀ i < 32, x.getLsbD i = decide (i = k)) → ∀ i, x.getLsbD i = decide (i = k) := by
    intro x k hk h i
    by_cases hi : i < 32
    · exact h i hi
    · rw [BitVec.getLsbD_of_ge _ _ (by omega)]
      have : i ≠ k := by omega
      simp [this]
  refine ⟨?_, fun i => BitVec.getLsbD_or, ?_, fun i => by simp [PosFlags.default], hbit _ 0 (by omega) (by decide +kernel),
    hbit _ 4 (by omega) (by decide +kernel), hbit _ 8 (by omega) (by decide +kernel)⟩
  · unfold PosFlags.contains
    rw [beq_iff_eq]
    constructor
    · intro h i hi
      rw [← h, BitVec.getLsbD_and, Bool.and_eq_true] at hi
      exact hi.1
    · intro h
      apply BitVec.eq_of_getLsbD_eq
      intro i _
      rw [BitVec.getLsbD_and]
      cases hb : b.bits.getLsbD i with
      | false => simp
      | true => rw [h i hb]; rfl
  · unfold PosFlags.isEmpty
    rw [beq_iff_eq]
    constructor
    · intro h i; rw [h]; simp
    · intro h
      apply BitVec.eq_of_getLsbD_eq
      intro i _
      rw [h i]; simp

/-! ## The report manager -/

/-- Makes the calls on a report manager and collects the answers. -/
def ReportManager.runCalls (rm : ReportManager) : List ReportCall → Outcome Empty (ReportManager × List ReportAnswer)
  | [] => .ok (rm, [])
  | .id r :: cs =>
    (rm.getInternalId r).bind fun x => (x.1.runCalls cs).bind fun y => .ok (y.1, .id x.2 :: y.2)
  | .key a :: cs =>
    (rm.getExhaustibleKey a).bind fun x => (x.1.runCalls cs).bind fun y => .ok (y.1, .key x.2 :: y.2)
  | .register i e :: cs =>
    ((rm.registerExtReport i e).1.runCalls cs).bind fun y => .ok (y.1, .register (rm.registerExtReport i e).2 :: y.2)

namespace ReportManager

theorem getInternalId_part {rm rm1 : ReportManager} (h1 : rm1.limitReportCount = rm.limitReportCount)
    (h2 : rm1.reportIds = rm.reportIds) (h3 : rm1.reportIdToInternalMap = rm.reportIdToInternalMap) (r : Report) :
    rm1.getInternalId r = (rm.getInternalId r).bind fun x =>
      .ok ({ rm1 with reportIds := x.1.reportIds, reportIdToInternalMap := x.1.reportIdToInternalMap }, x.2) := by
  obtain ⟨l, ids, m, ext, km, ge⟩ := rm
  obtain ⟨l1, ids1, m1, ext1, km1, ge1⟩ := rm1
  simp only at h1 h2 h3
  subst h1 h2 h3
  unfold getInternalId
  simp only
  cases alookup m1 r with
  | some id => rfl
  | none =>
    have hn : ∀ (a : List (Nat × ExternalReportInfo)) (b : List (Int × Nat)) (c : Bool),
        (⟨l1, ids1, m1, a, b, c⟩ : ReportManager).numReports = ids1.length := fun _ _ _ => rfl
    by_cases h : ids1.length ≥ l1
    · rw [if_pos (by rw [hn]; exact h), if_pos (by rw [hn]; exact h)]; rfl
    · rw [if_neg (by rw [hn]; exact h), if_neg (by rw [hn]; exact h)]
      unfold toU32
      by_cases h' : ids1.length < 2 ^ 32
      · rw [if_pos h']; rfl
      · rw [if_neg h']; rfl

theorem getExhaustibleKey_part {rm rm1 : ReportManager} (h : rm1.toExhaustibleKeyMap = rm.toExhaustibleKeyMap) (a : Nat) :
    rm1.getExhaustibleKey (ε := Empty) a = (rm.getExhaustibleKey a).bind fun x =>
      .ok ({ rm1 with toExhaustibleKeyMap := x.1.toExhaustibleKeyMap }, x.2) := by
  obtain ⟨l, ids, m, ext, km, ge⟩ := rm
  obtain ⟨l1, ids1, m1, ext1, km1, ge1⟩ := rm1
  simp only at h
  subst h
  unfold getExhaustibleKey toU32
  simp only
  split
  · show Outcome.bind (Outcome.ok _) _ = Outcome.bind (Outcome.bind (Outcome.ok _) _) _
    simp only [Outcome.bind]
    cases alookup km1 (a : Int) <;> rfl
  · rfl

theorem registerExtReport_part {rm rm1 : ReportManager} (h1 : rm1.externalIdMap = rm.externalIdMap)
    (h2 : rm1.globalExhaust = rm.globalExhaust) (i : Nat) (e : ExternalReportInfo) :
    rm1.registerExtReport i e = ({ rm1 with externalIdMap := (rm.registerExtReport i e).1.externalIdMap, globalExhaust := (rm.registerExtReport i e).1.globalExhaust }, (rm.registerExtReport i e).2) := by
  obtain ⟨l, ids, m, ext, km, ge⟩ := rm
  obtain ⟨l1, ids1, m1, ext1, km1, ge1⟩ := rm1
  simp only at h1 h2
  subst h1 h2
  unfold registerExtReport
  simp only
  obtain ⟨hl, fi⟩ := e
  cases alookup ext1 i with
  | none => cases hl <;> rfl
  | some eri =>
    simp only
    split
    · rfl
    · cases hl <;> rfl

theorem runCalls_parts : ∀ (cs : List ReportCall) (rm ri rk rr : ReportManager),
    ri.limitReportCount = rm.limitReportCount → ri.reportIds = rm.reportIds →
    ri.reportIdToInternalMap = rm.reportIdToInternalMap → rk.toExhaustibleKeyMap = rm.toExhaustibleKeyMap →
    rr.externalIdMap = rm.externalIdMap → rr.globalExhaust = rm.globalExhaust →
    ((∃ x, rm.runCalls cs = .ok x) ↔ (∃ x, runIds ri (idCalls cs) = .ok x) ∧ ∃ x, runKeys rk (keyCalls cs) = .ok x) ∧
    ∀ rm' as, rm.runCalls cs = .ok (rm', as) →
      (∃ ri', runIds ri (idCalls cs) = .ok (ri', idAnswers as) ∧ ri'.reportIds = rm'.reportIds ∧
        ri'.reportIdToInternalMap = rm'.reportIdToInternalMap) ∧
      (∃ rk', runKeys rk (keyCalls cs) = .ok (rk', keyAnswers as) ∧ rk'.toExhaustibleKeyMap = rm'.toExhaustibleKeyMap) ∧
      (runReg rr (registerCalls cs)).2 = registerAnswers as ∧
      (runReg rr (registerCalls cs)).1.externalIdMap = rm'.externalIdMap ∧
      (runReg rr (registerCalls cs)).1.globalExhaust = rm'.globalExhaust := by
  intro cs
  induction cs with
  | nil =>
    intro rm ri rk rr h1 h2 h3 h4 h5 h6
    refine ⟨⟨fun _ => ⟨⟨_, rfl⟩, ⟨_, rfl⟩⟩, fun _ => ⟨_, rfl⟩⟩, ?_⟩
    intro rm' as h
    injection h with h
    injection h with ha hb
    subst ha hb
    exact ⟨⟨ri, rfl, h2, h3⟩, ⟨rk, rfl, h4⟩, rfl, h5, h6⟩
  | cons c cs ih =>
    intro rm ri rk rr h1 h2 h3 h4 h5 h6
    cases c with
    | id r =>
      have hp := getInternalId_part h1 h2 h3 r
      have hself := getInternalId_part (rm := rm) (rm1 := rm) rfl rfl rfl r
      have e1 : rm.runCalls (.id r :: cs) = (rm.getInternalId r).bind fun x =>
          (x.1.runCalls cs).bind fun y => .ok (y.1, .id x.2 :: y.2) := rfl
      have e2 : runIds ri (idCalls (.id r :: cs)) = (ri.getInternalId r).bind fun x =>
          (runIds x.1 (idCalls cs)).bind fun y => .ok (y.1, x.2 :: y.2) := rfl
      rw [e1, e2, hp]
      cases hx : rm.getInternalId r with
      | err x => exact x.elim
      | panic m => exact ⟨⟨(fun ⟨_, h⟩ => nomatch h), (fun ⟨⟨_, h⟩, _⟩ => nomatch h)⟩, (fun _ _ h => nomatch h)⟩
      | timeout => exact ⟨⟨(fun ⟨_, h⟩ => nomatch h), (fun ⟨⟨_, h⟩, _⟩ => nomatch h)⟩, (fun _ _ h => nomatch h)⟩
      | ok x =>
        rw [hx] at hself
        injection hself with hself
        have hf := congrArg Prod.fst hself
        simp only at hf
        obtain ⟨ih1, ih2⟩ := ih x.1 { ri with reportIds := x.1.reportIds, reportIdToInternalMap := x.1.reportIdToInternalMap }
          rk rr (by rw [hf]; exact h1) rfl rfl (by rw [hf]; exact h4) (by rw [hf]; exact h5) (by rw [hf]; exact h6)
        simp only [Outcome.bind]
        generalize runIds { ri with reportIds := x.1.reportIds, reportIdToInternalMap := x.1.reportIdToInternalMap }
          (idCalls cs) = ids at ih1 ih2 ⊢
        generalize x.1.runCalls cs = all at ih1 ih2 ⊢
        constructor
        · refine Iff.trans ?_ (ih1.trans ?_)
          · cases all <;> simp
          · cases ids <;> simp [keyCalls]
        · intro rm' as h
          cases all with
          | err y => exact y.elim
          | panic m => cases h
          | timeout => cases h
          | ok y =>
            injection h with h
            injection h with ha hb
            subst ha hb
            obtain ⟨⟨ri', g1, g2, g3⟩, g4, g5⟩ := ih2 y.1 y.2 rfl
            refine ⟨⟨ri', ?_, g2, g3⟩, g4, g5⟩
            rw [g1]; rfl
    | key a =>
      have hp := getExhaustibleKey_part h4 a
      have hself := getExhaustibleKey_part (rm := rm) (rm1 := rm) rfl a
      have e1 : rm.runCalls (.key a :: cs) = (rm.getExhaustibleKey a).bind fun x =>
          (x.1.runCalls cs).bind fun y => .ok (y.1, .key x.2 :: y.2) := rfl
      have e2 : runKeys rk (keyCalls (.key a :: cs)) = (rk.getExhaustibleKey a).bind fun x =>
          (runKeys x.1 (keyCalls cs)).bind fun y => .ok (y.1, x.2 :: y.2) := rfl
      rw [e1, e2, hp]
      cases hx : rm.getExhaustibleKey (ε := Empty) a with
      | err x => exact x.elim
      | panic m => exact ⟨⟨(fun ⟨_, h⟩ => nomatch h), (fun ⟨_, ⟨_, h⟩⟩ => nomatch h)⟩, (fun _ _ h => nomatch h)⟩
      | timeout => exact ⟨⟨(fun ⟨_, h⟩ => nomatch h), (fun ⟨_, ⟨_, h⟩⟩ => nomatch h)⟩, (fun _ _ h => nomatch h)⟩
      | ok x =>
        rw [hx] at hself
        injection hself with hself
        have hf := congrArg Prod.fst hself
        simp only at hf
        obtain ⟨ih1, ih2⟩ := ih x.1 ri { rk with toExhaustibleKeyMap := x.1.toExhaustibleKeyMap }
          rr (by rw [hf]; exact h1) (by rw [hf]; exact h2) (by rw [hf]; exact h3) rfl (by rw [hf]; exact h5)
          (by rw [hf]; exact h6)
        simp only [Outcome.bind]
        generalize runKeys { rk with toExhaustibleKeyMap := x.1.toExhaustibleKeyMap } (keyCalls cs) = keys at ih1 ih2 ⊢
        generalize x.1.runCalls cs = all at ih1 ih2 ⊢
        constructor
        · refine Iff.trans ?_ (ih1.trans ?_)
          · cases all <;> simp
          · cases keys <;> simp [idCalls]
        · intro rm' as h
          cases all with
          | err y => exact y.elim
          | panic m => cases h
          | timeout => cases h
          | ok y =>
            injection h with h
            injection h with ha hb
            subst ha hb
            obtain ⟨g1, ⟨rk', g2, g3⟩, g4⟩ := ih2 y.1 y.2 rfl
            refine ⟨g1, ⟨rk', ?_, g3⟩, g4⟩
            rw [g2]; rfl
    | register i e =>
      have hp := registerExtReport_part h5 h6 i e
      have hself := registerExtReport_part (rm := rm) (rm1 := rm) rfl rfl i e
      have hf := congrArg Prod.fst hself
      simp only at hf
      have e1 : rm.runCalls (.register i e :: cs) = ((rm.registerExtReport i e).1.runCalls cs).bind fun y =>
          .ok (y.1, .register (rm.registerExtReport i e).2 :: y.2) := rfl
      have e2 : runReg rr (registerCalls (.register i e :: cs)) =
          ((runReg (rr.registerExtReport i e).1 (registerCalls cs)).1,
            (rr.registerExtReport i e).2 :: (runReg (rr.registerExtReport i e).1 (registerCalls cs)).2) := rfl
      rw [e1, e2, hp]
      generalize rm.registerExtReport i e = x at hf ⊢
      obtain ⟨ih1, ih2⟩ := ih x.1 ri rk { rr with externalIdMap := x.1.externalIdMap, globalExhaust := x.1.globalExhaust }
        (by rw [hf]; exact h1) (by rw [hf]; exact h2) (by rw [hf]; exact h3) (by rw [hf]; exact h4) rfl rfl
      generalize x.1.runCalls cs = all at ih1 ih2 ⊢
      constructor
      · refine Iff.trans ?_ (ih1.trans ?_)
        · cases all <;> simp [Outcome.bind]
        · simp [idCalls, keyCalls]
      · intro rm' as h
        cases all with
        | err y => exact y.elim
        | panic m => cases h
        | timeout => cases h
        | ok y =>
          injection h with h
          injection h with ha hb
          subst ha hb
          obtain ⟨g1, g2, g3, g4, g5⟩ := ih2 y.1 y.2 rfl
          exact ⟨g1, g2, by simp only [registerAnswers, List.filterMap_cons]; rw [g3]; rfl, g4, g5⟩

/-- C114: calls of the three kinds on one report manager do not disturb each other, however they are mixed and
whatever its state. All succeed iff those for ids and those for keys succeed by themselves; then the answers to each
kind, and the tables each kind uses, are as if there were no other calls. With C23, C24 and C25 this says what mixed
histories do. -/
theorem C114_report_manager (rm : ReportManager) (cs : List ReportCall) :
    ((∃ x, rm.runCalls cs = .ok x) ↔ (∃ x, runIds rm (idCalls cs) = .ok x) ∧ ∃ x, runKeys rm (keyCalls cs) = .ok x) ∧
    ∀ rm' as, rm.runCalls cs = .ok (rm', as) →
      (∃ ri', runIds rm (idCalls cs) = .ok (ri', idAnswers as) ∧ ri'.reportIds = rm'.reportIds ∧
        ri'.reportIdToInternalMap = rm'.reportIdToInternalMap) ∧
      (∃ rk', runKeys rm (keyCalls cs) = .ok (rk', keyAnswers as) ∧ rk'.toExhaustibleKeyMap = rm'.toExhaustibleKeyMap) ∧
      (runReg rm (registerCalls cs)).2 = registerAnswers as ∧
      (runReg rm (registerCalls cs)).1.externalIdMap = rm'.externalIdMap ∧
      (runReg rm (registerCalls cs)).1.globalExhaust = rm'.globalExhaust :=
  runCalls_parts cs rm rm rm rm rfl rfl rfl rfl rfl rfl

/-- Mixed calls on a new manager. -/
example : ((new Grey.default).runCalls [.register 7 ⟨true, 0⟩, .key 7, .id ⟨0⟩, .register 7 ⟨false, 1⟩, .key 9, .id ⟨0⟩, .key 7]).isOk
    = true := by decide +kernel

end ReportManager

end Rescan
