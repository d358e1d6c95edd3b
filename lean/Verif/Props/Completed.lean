import Verif.Proofs.Completed
import Verif.Spec.Witness
/-! # C106: what is missing from graph building

About `Model/Completed.lean`, which is not code that exists but adds to the code's functions the steps that
`build_graph` leaves out. -/
namespace Rescan
open Spec

/-- C106: with the successors of Glushkov's construction recorded by the code's `connect_regions` and turned into
edges, the vertices made by the code's `note_positions` give a graph that accepts exactly the strings ending with
a match of the expression.  (The full statement of C41, and more, about the completed builder.) -/
theorem C106_language {ε : Type} (p : Profile) (pe : ParsedExpression)
    (h : (leaves pe.component).length < 2 ^ 16 - 4) :
    ∃ b, Completed.buildGraph (ε := ε) p pe = .ok b ∧ b.expr = pe.expr ∧
      ∀ w, Spec.Accepts b.graph w ↔ ∃ u v, w = u ++ v ∧ Lang pe.component v := by
  obtain ⟨b, a, h1, h2, h3, h4, h5, h6⟩ := Completed.buildGraph_spec (ε := ε) p pe h
  refine ⟨b, h1, h2, fun w => ?_⟩
  rw [Completed.accepts_iff h3 h4 h5.within h6]
  simp only [h5.lang _ (fun i x hx c => Completed.reach_leaf h4 i x hx c)]

example : ∃ pe, ParsedExpression.new .release 0 "(a|b)c".toList Flags.empty 7 = .ok pe ∧
    (leaves pe.component).length < 2 ^ 16 - 4 := Outcome.exists_ok (by decide +kernel)

/-- C106: only edges are added: the vertices are those of the code's `build_graph`. -/
theorem C106_vertices {ε : Type} (p : Profile) (pe : ParsedExpression)
    (h : (leaves pe.component).length < 2 ^ 16 - 4) :
    ∃ b b', buildGraph (ε := ε) p pe = .ok b ∧ Completed.buildGraph (ε := ε) p pe = .ok b' ∧ b'.expr = b.expr ∧
      (b'.graph.start, b'.graph.startDs, b'.graph.accept, b'.graph.acceptEod)
        = (b.graph.start, b.graph.startDs, b.graph.accept, b.graph.acceptEod) ∧
      b'.graph.inner.nodes = b.graph.inner.nodes ∧ ∀ e ∈ b.graph.inner.edges, e ∈ b'.graph.inner.edges := by
  obtain ⟨b', a, h1, h2, h3, h4, h5, h6⟩ := Completed.buildGraph_spec (ε := ε) p pe h
  obtain ⟨b, g1, g2, g3⟩ := buildGraph_eq (ε := ε) p pe (by omega)
  refine ⟨b, b', g1, h1, h2.trans g2.symm, ?_, ?_, ?_⟩
  · rw [h3, g3]; rfl
  · rw [h4, g3]; rfl
  · intro e he
    rw [g3] at he
    have he' : e ∈ GlushkovBuildState.freshGraph.inner.edges := he
    obtain ⟨x, y⟩ := e
    rw [h6]
    simp only [GlushkovBuildState.freshGraph, List.mem_cons, List.not_mem_nil, or_false] at he'
    rcases he' with h | h | h
    · exact .inl (.inr (.inr h))
    · exact .inl (.inr (.inl h))
    · exact .inl (.inl h)

example : ∃ pe, ParsedExpression.new .release 0 "x(|b)".toList Flags.empty 7 = .ok pe ∧
    (leaves pe.component).length < 2 ^ 16 - 4 := Outcome.exists_ok (by decide +kernel)

/-- C106: the code's test for graphs that match the empty string, which no graph of the code's builder meets, is
right about the completed graph. -/
theorem C106_vacuous {ε : Type} (p : Profile) (pe : ParsedExpression)
    (h : (leaves pe.component).length < 2 ^ 16 - 4) (b : NfaBuilder)
    (hb : Completed.buildGraph (ε := ε) p pe = .ok b) : b.graph.isVacuous = true ↔ Lang pe.component [] := by
  obtain ⟨b', a, h1, h2, h3, h4, h5, h6⟩ := Completed.buildGraph_spec (ε := ε) p pe h
  rw [hb] at h1
  injection h1 with h1
  subst h1
  simp only [Prod.mk.injEq] at h3
  obtain ⟨i1, i2, i3, i4⟩ := h3
  have hn : Lang pe.component [] ↔ a.null := by
    rw [← h5.lang _ (fun i x hx c => Completed.reach_leaf h4 i x hx c)]
    constructor
    · rintro (⟨_, h⟩ | ⟨_, _, _, h, _⟩)
      · exact h
      · cases h
    · intro h; exact .inl ⟨rfl, h⟩
  have hw := h5.within
  have hedge : ∀ x y, b.graph.inner.hasEdge x y = true ↔ Completed.Edge a x y := by
    intro x y
    rw [← h6]
    unfold Graph.hasEdge
    rw [List.any_eq_true]
    constructor
    · rintro ⟨e, he, h⟩
      simp only [Bool.and_eq_true, beq_iff_eq] at h
      have : e = (x, y) := Prod.ext h.1 h.2
      rw [← this]; exact he
    · intro h; exact ⟨_, h, by simp⟩
  unfold NgHolder.isVacuous
  rw [i1, i2, i3, i4, Bool.or_eq_true, Bool.or_eq_true, Bool.or_eq_true, hedge, hedge, hedge, hedge, hn]
  constructor
  · have key : ∀ x y, x < 2 → (y = 2 ∨ y = 3) → Completed.Edge a x y → a.null := by
      intro x y hx hy he
      unfold Completed.Edge at he
      simp only [Prod.mk.injEq] at he
      rcases he with he | he | he | he | he
      · omega
      · have := hw.next _ _ he; omega
      · have := hw.first _ he.2; omega
      · have := hw.last _ he.1; omega
      · exact he.1
    rintro (((h | h) | h) | h)
    · exact key _ _ (by omega) (by omega) h
    · exact key _ _ (by omega) (by omega) h
    · exact key _ _ (by omega) (by omega) h
    · exact key _ _ (by omega) (by omega) h
  · intro h
    exact .inl (.inl (.inl (.inr (.inr (.inr (.inr ⟨h, by omega, rfl⟩))))))

/-- For `(a|b)c` the completed graph has nine edges more than the code's, and so on: a case that meets the
hypotheses. -/
example : (match ParsedExpression.new .release 0 "(a|b)c".toList Flags.empty 7 with
    | .ok pe => match Completed.buildGraph (ε := Empty) .release pe, buildGraph (ε := Empty) .release pe with
      | .ok b, .ok b' => ((leaves pe.component).length, b.graph.inner.edges, b'.graph.inner.edges, b.graph.isVacuous)
      | _, _ => (0, [], [], false)
    | _ => (0, [], [], false)) =
    (3, [(6, 2), (5, 6), (4, 6), (1, 5), (1, 4), (0, 5), (0, 4), (2, 3), (1, 1), (0, 1)], [(2, 3), (1, 1), (0, 1)],
      false) := by decide +kernel

example : (match ParsedExpression.new .release 0 "(|b)".toList Flags.empty 7 with
    | .ok pe => match Completed.buildGraph (ε := Empty) .release pe with
      | .ok b => (b.graph.inner.edges, b.graph.isVacuous)
      | _ => ([], false)
    | _ => ([], false)) =
    ([(1, 2), (0, 2), (4, 2), (1, 4), (0, 4), (2, 3), (1, 1), (0, 1)], true) := by decide +kernel

end Rescan
