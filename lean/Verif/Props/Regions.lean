import Verif.Props.Graph
/-! # C42 in full: connecting regions, accept included -/
namespace Rescan.GlushkovBuildState

open Spec

/-- Does the last `l` have a surviving edge to accept? -/
def toAccept (bs : GlushkovBuildState) (firsts : List PositionInfo) (l : PositionInfo) : Bool :=
  (survivors bs firsts l).any (fun e => e.pos == bs.acceptState)

theorem split_accept (accept : Nat) : ∀ l : List PositionInfo, (∃ e ∈ l, e.pos = accept) →
    ∃ l1 e l2, l = l1 ++ e :: l2 ∧ (∀ x ∈ l1, x.pos ≠ accept) ∧ e.pos = accept
  | [], h => by obtain ⟨e, h, _⟩ := h; cases h
  | a :: l, h => by
    by_cases ha : a.pos = accept
    · exact ⟨[], a, l, rfl, by simp, ha⟩
    · obtain ⟨e, he, he'⟩ := h
      rcases List.mem_cons.1 he with rfl | he
      · exact absurd he' ha
      · obtain ⟨l1, e, l2, rfl, h1, h2⟩ := split_accept accept l ⟨e, he, he'⟩
        refine ⟨a :: l1, e, l2, rfl, ?_, h2⟩
        intro x hx
        rcases List.mem_cons.1 hx with rfl | hx
        · exact ha
        · exact h1 x hx

theorem split_unique (accept : Nat) : ∀ (l1 l1' l2 l2' : List PositionInfo) (e e' : PositionInfo),
    l1 ++ e :: l2 = l1' ++ e' :: l2' → (∀ x ∈ l1, x.pos ≠ accept) → (∀ x ∈ l1', x.pos ≠ accept) →
    e.pos = accept → e'.pos = accept → l1 = l1' ∧ l2 = l2'
  | [], [], l2, l2', e, e', h, _, _, _, _ => by injection h with _ h; exact ⟨rfl, h⟩
  | [], a :: l1', l2, l2', e, e', h, _, h2, h3, _ => by
    injection h with h _; subst h; exact absurd h3 (h2 _ (by simp))
  | a :: l1, [], l2, l2', e, e', h, h1, _, _, h4 => by
    injection h with h _; subst h; exact absurd h4 (h1 _ (by simp))
  | a :: l1, b :: l1', l2, l2', e, e', h, h1, h2, h3, h4 => by
    injection h with h0 h
    obtain ⟨h5, h6⟩ := split_unique accept l1 l1' l2 l2' e e' h (fun x hx => h1 x (by simp [hx]))
      (fun x hx => h2 x (by simp [hx])) h3 h4
    exact ⟨by rw [h0, h5], h6⟩

theorem redirected_unique {accept fresh : Nat} {l out out' : List PositionInfo}
    (h : Redirected accept fresh l out) (h' : Redirected accept fresh l out') : out = out' := by
  rcases h with ⟨h1, rfl⟩ | ⟨l1, e, l2, h1, h2, h3, rfl⟩ <;>
    rcases h' with ⟨h1', rfl⟩ | ⟨l1', e', l2', h1', h2', h3', rfl⟩
  · rfl
  · exact absurd h3' (h1 e' (by rw [h1']; simp))
  · exact absurd h3 (h1' e (by rw [h1]; simp))
  · obtain ⟨rfl, rfl⟩ := split_unique accept _ _ _ _ _ _ (h1.symm.trans h1') h2 h2' h3 h3'
    rfl

/-- One call: the survivors, redirected, become successors; a vertex is added iff one of them is at
accept. -/
theorem connectSuccessors_redirect {ε : Type} (p : Profile) (bs : GlushkovBuildState)
    (firsts : List PositionInfo) (l : PositionInfo) (hp : p = .release ∨ l.pos ≠ 2 ^ 32 - 2)
    (hl : l.pos < bs.builder.graph.inner.nodes.length)
    (hroom : toAccept bs firsts l = true → bs.builder.graph.inner.nodes.length + 1 < 2 ^ 32) :
    ∃ bs' out, connectSuccessors (ε := ε) p bs l firsts = .ok bs' ∧
      (bs'.startState, bs'.startDotStarState, bs'.acceptState, bs'.acceptEodState)
        = (bs.startState, bs.startDotStarState, bs.acceptState, bs.acceptEodState) ∧
      bs'.builder.expr = bs.builder.expr ∧
      bs'.builder.graph.inner.edges = bs.builder.graph.inner.edges ∧
      bs'.builder.graph.inner.nodes = bs.builder.graph.inner.nodes ++
        List.replicate (if toAccept bs firsts l then 1 else 0) NfaGraphVertexProps.default ∧
      bs'.successors = addSuccessors bs.successors l.pos out ∧
      Redirected bs.acceptState bs.builder.graph.inner.nodes.length (survivors bs firsts l) out := by
  obtain ⟨w, hw⟩ : ∃ w, bs.builder.graph.inner.nodes[l.pos]? = some w := ⟨_, List.getElem?_eq_getElem hl⟩
  have haf : flagsAt bs l.pos = w.assertFlags := by unfold flagsAt; rw [hw]; rfl
  have hsv : survivors bs firsts l
      = firsts.filter (fun e => decide (Survives bs posEpsilon w.assertFlags l e)) := by
    unfold survivors; rw [haf]; rfl
  by_cases ha : ∃ e ∈ survivors bs firsts l, e.pos = bs.acceptState
  · have hta : toAccept bs firsts l = true := by
      unfold toAccept
      rw [List.any_eq_true]
      obtain ⟨e, h1, h2⟩ := ha
      exact ⟨e, h1, by rw [beq_iff_eq]; exact h2⟩
    obtain ⟨l1, e, l2, h1, h2, h3⟩ := split_accept bs.acceptState _ ha
    refine ⟨_, l1 ++ ⟨bs.builder.graph.inner.nodes.length, PosFlags.default⟩ :: l2,
      connectSuccessors_accept p bs l firsts l1 l2 e w hp hw (hsv ▸ h1) h2 h3 (hroom hta), rfl, rfl, rfl, ?_,
      rfl, .inr ⟨l1, e, l2, h1, h2, h3, rfl⟩⟩
    rw [hta]; rfl
  · have hta : toAccept bs firsts l = false := by
      unfold toAccept
      rw [List.any_eq_false]
      intro e h1 h2
      exact ha ⟨e, h1, by rw [beq_iff_eq] at h2; exact h2⟩
    refine ⟨_, survivors bs firsts l, connectSuccessors_plain p bs l firsts w hp hw ?_, rfl, rfl, rfl, ?_, ?_,
      .inl ⟨fun e he h => ha ⟨e, he, h⟩, rfl⟩⟩
    · intro e he hs hacc
      exact ha ⟨e, by rw [hsv, List.mem_filter, decide_eq_true_iff]; exact ⟨he, hs⟩, hacc⟩
    · rw [hta]; simp
    · show addSuccessors _ _ _ = _
      rw [hsv]

/-- C42, in full: `connect_regions` connects every last to exactly the surviving firsts.  For each last
with a surviving edge to accept, in order, one vertex is added at the end of the graph, and the first
such edge leads there instead. -/
theorem C42_connect_regions_accept {ε : Type} (p : Profile) (lasts firsts : List PositionInfo)
    (bs : GlushkovBuildState) (hp : p = .release ∨ ∀ l ∈ lasts, l.pos ≠ 2 ^ 32 - 2)
    (hl : ∀ l ∈ lasts, l.pos < bs.builder.graph.inner.nodes.length)
    (hroom : bs.builder.graph.inner.nodes.length + lasts.countP (toAccept bs firsts) < 2 ^ 32) :
    ∃ bs', connectRegions (ε := ε) p bs lasts firsts = .ok bs' ∧
      (bs'.startState, bs'.startDotStarState, bs'.acceptState, bs'.acceptEodState)
        = (bs.startState, bs.startDotStarState, bs.acceptState, bs.acceptEodState) ∧
      bs'.builder.expr = bs.builder.expr ∧
      bs'.builder.graph.inner.edges = bs.builder.graph.inner.edges ∧
      bs'.builder.graph.inner.nodes = bs.builder.graph.inner.nodes ++
        List.replicate (lasts.countP (toAccept bs firsts)) NfaGraphVertexProps.default ∧
      ∀ q x, x ∈ successorsOf bs' q ↔ x ∈ successorsOf bs q ∨
        ∃ (i : Nat) (l : PositionInfo) (out : List PositionInfo), lasts[i]? = some l ∧ l.pos = q ∧
          Redirected bs.acceptState
            (bs.builder.graph.inner.nodes.length + (lasts.take i).countP (toAccept bs firsts))
            (survivors bs firsts l) out ∧ x ∈ out := by
  induction lasts generalizing bs with
  | nil => exact ⟨bs, rfl, rfl, rfl, rfl, by simp, fun q x => by simp⟩
  | cons l lasts ih =>
    rw [List.countP_cons] at hroom
    obtain ⟨b1, out, e1, e2, e3, e4, e5, e6, e7⟩ := connectSuccessors_redirect (ε := ε) p bs firsts l
      (hp.imp id (fun h => h l (by simp))) (hl l (by simp)) (by
        intro h; rw [h] at hroom; simp only [if_true] at hroom; omega)
    simp only [Prod.mk.injEq] at e2
    obtain ⟨e21, e22, e23, e24⟩ := e2
    have hflags : ∀ x : PositionInfo, x.pos < bs.builder.graph.inner.nodes.length →
        flagsAt b1 x.pos = flagsAt bs x.pos := by
      intro x hx
      unfold flagsAt
      rw [e5, List.getElem?_append_left hx]
    have hsurv : ∀ x : PositionInfo, x.pos < bs.builder.graph.inner.nodes.length →
        survivors b1 firsts x = survivors bs firsts x := by
      intro x hx
      unfold survivors
      rw [hflags x hx]
      have hse : ∀ af a b, Survives b1 (2 ^ 32 - 2) af a b ↔ Survives bs (2 ^ 32 - 2) af a b := by
        intro af a b
        unfold Survives
        rw [e21, e22, e24]
      simp only [hse]
    have hta : ∀ x : PositionInfo, x.pos < bs.builder.graph.inner.nodes.length →
        toAccept b1 firsts x = toAccept bs firsts x := by
      intro x hx
      unfold toAccept
      rw [hsurv x hx, e23]
    have hlt : ∀ x ∈ lasts, x.pos < bs.builder.graph.inner.nodes.length := fun x hx => hl x (by simp [hx])
    have hcount : ∀ L : List PositionInfo, (∀ x ∈ L, x ∈ lasts) →
        L.countP (toAccept b1 firsts) = L.countP (toAccept bs firsts) := by
      intro L hL
      apply List.countP_congr
      intro x hx
      rw [hta x (hlt x (hL x hx))]
    have hlen : b1.builder.graph.inner.nodes.length = bs.builder.graph.inner.nodes.length +
        (if toAccept bs firsts l then 1 else 0) := by
      rw [e5, List.length_append, List.length_replicate]
    obtain ⟨b2, f1, f2, f3, f4, f5, f6⟩ := ih b1 (hp.imp id (fun h x hx => h x (by simp [hx])))
      (fun x hx => by have := hlt x hx; omega)
      (by rw [hcount lasts (fun _ h => h), hlen]; omega)
    refine ⟨b2, ?_, ?_, f3.trans e3, f4.trans e4, ?_, fun q x => ?_⟩
    · unfold connectRegions at f1 ⊢
      rw [List.foldlM_cons, e1]
      exact f1
    · rw [f2, e21, e22, e23, e24]
    · rw [f5, e5, List.append_assoc, List.replicate_append_replicate, hcount lasts (fun _ h => h),
        List.countP_cons, Nat.add_comm]
    · rw [f6]
      have hb1 : x ∈ successorsOf b1 q ↔ x ∈ successorsOf bs q ∨ (l.pos = q ∧ x ∈ out) := by
        show x ∈ succOf b1.successors q ↔ _
        rw [e6]
        by_cases hq : q = l.pos
        · subst hq
          rw [addSuccessors_same]
          constructor
          · exact Or.imp id (fun h => ⟨rfl, h⟩)
          · exact Or.imp id (fun h => h.2)
        · rw [addSuccessors_other _ _ _ _ hq]
          constructor
          · exact Or.inl
          · rintro (h | h)
            · exact h
            · exact absurd h.1.symm hq
      rw [hb1]
      have hstep : ∀ (i : Nat) (y : PositionInfo), lasts[i]? = some y →
          (b1.builder.graph.inner.nodes.length + (lasts.take i).countP (toAccept b1 firsts)
            = bs.builder.graph.inner.nodes.length + ((l :: lasts).take (i + 1)).countP (toAccept bs firsts)) ∧
          survivors b1 firsts y = survivors bs firsts y := by
        intro i y hy
        refine ⟨?_, hsurv y (hlt y (List.mem_of_getElem? hy))⟩
        rw [List.take_succ_cons, List.countP_cons, hcount _ (fun z hz => List.mem_of_mem_take hz), hlen]
        omega
      constructor
      · rintro ((h | ⟨h1, h2⟩) | ⟨i, y, o, h1, h2, h3, h4⟩)
        · exact .inl h
        · refine .inr ⟨0, l, out, rfl, h1, ?_, h2⟩
          simpa using e7
        · obtain ⟨g1, g2⟩ := hstep i y h1
          rw [e23, g1, g2] at h3
          exact .inr ⟨i + 1, y, o, h1, h2, h3, h4⟩
      · rintro (h | ⟨i, y, o, h1, h2, h3, h4⟩)
        · exact .inl (.inl h)
        · cases i with
          | zero =>
            rw [List.getElem?_cons_zero] at h1
            injection h1 with h1; subst h1
            have h3' : Redirected bs.acceptState bs.builder.graph.inner.nodes.length
              (survivors bs firsts l) o := by simpa using h3
            exact .inl (.inr ⟨h2, redirected_unique h3' e7 ▸ h4⟩)
          | succ i =>
            rw [List.getElem?_cons_succ] at h1
            obtain ⟨g1, g2⟩ := hstep i y h1
            rw [← g1, ← g2, ← e23] at h3
            exact .inr ⟨i, y, o, h1, h2, h3, h4⟩

/-- Two lasts, both connected to accept: two vertices are added. -/
example : let bs : GlushkovBuildState := ⟨0, 1, 2, 3, ⟨freshGraph, ⟨0, 0, false, false, false, false, .none, false⟩⟩, []⟩
    toAccept bs [PositionInfo.ofPos 2, PositionInfo.ofPos 3] (PositionInfo.ofPos 0) = true ∧
    [PositionInfo.ofPos 0, PositionInfo.ofPos 1].countP
      (toAccept bs [PositionInfo.ofPos 2, PositionInfo.ofPos 3]) = 2 := by decide +kernel

end Rescan.GlushkovBuildState
