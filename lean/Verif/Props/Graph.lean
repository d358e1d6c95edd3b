import Verif.Proofs.Graph
import Verif.Props.Tree
/-! # C40-C42: the graph of an expression -/
namespace Rescan
open Spec GlushkovBuildState

/-! ## C40 -/

/-- C40: building the graph of a parsed expression succeeds (unless there are about 2^32 literal
characters).  Vertices 0 to 3 are start, start-dotstar, accept and accept-eod; the first two can read
any byte, the other two none.  After them comes one vertex per literal character of the body, in order,
that can read exactly the bytes the character stands for. -/
theorem C40_positions {ε : Type} (p : Profile) (index : Nat) (expr body : Str) (flags : Flags) (id : Nat)
    (pe : ParsedExpression) (hpe : ParsedExpression.new p index expr flags id = .ok pe)
    (hb : IsBody expr body) (hlen : body.length < 2 ^ 32 - 4) :
    ∃ b, buildGraph (ε := ε) p pe = .ok b ∧ b.expr = pe.expr ∧
      (b.graph.start, b.graph.startDs, b.graph.accept, b.graph.acceptEod) = (0, 1, 2, 3) ∧
      b.graph.inner.nodes.length = 4 + (body.filter (fun c => !decide (special c))).length ∧
      (∀ i, i < 2 → ∃ v, b.graph.inner.nodes[i]? = some v ∧ ∀ x, v.charReach.test x = true) ∧
      (∀ i, 2 ≤ i → i < 4 → ∃ v, b.graph.inner.nodes[i]? = some v ∧ ∀ x, v.charReach.test x = false) ∧
      ∀ (i : Nat) c, (body.filter (fun c => !decide (special c)))[i]? = some c →
        ∃ v, b.graph.inner.nodes[4 + i]? = some v ∧ v.reports = [] ∧
          ∀ x : U8, v.charReach.test x = true ↔
            x.toNat = c.toNat ∨ (flags.contains .CASELESS = true ∧ casePair x (BitVec.ofNat 8 c.toNat)) := by
  obtain ⟨m, hparse, _, _⟩ := parsedExpression_ok hpe
  have hcl := C37_caseless_flag flags
  obtain ⟨a, hw, hb', ha, hc⟩ := parse_tree hparse
  have := isBody_unique hb hb'
  subst this
  rw [hcl] at hc
  have hleaves : leaves pe.component = (litChars a.print).map
      (fun c => asciiOf (litClass (flags.contains .CASELESS) c)) := by
    rw [hc, Alts.root, leaves, leavesSeq]
    exact Alts.leaves_eq _ a 1 hw
  have hll : (leaves pe.component).length ≤ a.print.length := by
    rw [hleaves, List.length_map]; exact List.length_filter_le _ _
  obtain ⟨b, h1, h2, h3⟩ := buildGraph_eq (ε := ε) p pe (by omega)
  refine ⟨b, h1, h2, ?_, ?_, ?_, ?_, ?_⟩
  · rw [h3]; rfl
  · rw [h3, hleaves]; simp [freshGraph, litChars]; omega
  · intro i hi
    rw [h3]
    have : i = 0 ∨ i = 1 := by omega
    rcases this with rfl | rfl <;> exact ⟨_, rfl, fun x => BitField256.setAll_test BitField256.default x⟩
  · intro i h4 h5
    rw [h3]
    have : i = 2 ∨ i = 3 := by omega
    rcases this with rfl | rfl <;> exact ⟨_, rfl, fun x => BitField256.default_test x⟩
  · intro i c hic
    rw [h3, hleaves]
    refine ⟨⟨CharReach.default.orAssign (asciiOf (litClass (flags.contains .CASELESS) c)).cr, [],
      PosFlags.default⟩, ?_, rfl, ?_⟩
    · show (freshGraph.inner.nodes ++ _)[4 + i]? = _
      rw [List.getElem?_append_right (by simp [freshGraph])]
      have : 4 + i - freshGraph.inner.nodes.length = i := by simp [freshGraph]
      rw [this, List.map_map, List.getElem?_map]
      unfold litChars
      rw [hic]; rfl
    · intro x
      have hca : c.toNat < 128 := ha c (List.mem_filter.1 (List.mem_of_getElem? hic)).1
      have hsp := litClass_spec (flags.contains .CASELESS) c (by omega)
      have : (CharReach.default.orAssign (asciiOf (litClass (flags.contains .CASELESS) c)).cr).test x
          = (asciiOf (litClass (flags.contains .CASELESS) c)).cr.test x := by
        show (BitField256.orAssign BitField256.default _).test x = _
        rw [BitField256.orAssign_test, BitField256.default_test]
        simp; rfl
      rw [this]
      cases hcls : litClass (flags.contains .CASELESS) c with
      | ascii a' => rw [hcls] at hsp; exact hsp.2 x

example : (match ParsedExpression.new .release 0 "(a|b)c".toList Flags.CASELESS 7 with
    | .ok pe => (match buildGraph (ε := Empty) .debug pe with
      | .ok b => b.graph.inner.nodes.length
      | _ => 0)
    | _ => 0) = 7 := by decide +kernel

/-! ## C41 -/

/-- C41 is false: the graph of the pattern `a` does not accept `a`. -/
theorem C41_false : ¬ ∀ (p : Profile) (index : Nat) (expr : Str) (flags : Flags) (id : Nat)
    (pe : ParsedExpression) (b : NfaBuilder), ParsedExpression.new p index expr flags id = .ok pe →
    buildGraph (ε := Empty) p pe = .ok b → ∀ w, Lang pe.component w → Accepts b.graph w := by
  intro h
  obtain ⟨cc, h1, _, h2⟩ := C34_literal_class .release 'a' (ParseMode.new (Flags.empty.and Flags.QUIET.not))
    (by decide) (by decide)
  have hpe : ParsedExpression.new .release 0 ['a'] Flags.empty 0 = .ok
      ⟨{ index := 0, report := 0, allowVacuous := false,
         highlander := false, utf8 := false, prefilter := false, som := .none, quiet := false },
       .sequence (.mk [.cls cc] none (some 0) none)⟩ := by
    unfold ParsedExpression.new
    simp only
    rw [if_neg (by decide), h2]
    rfl
  obtain ⟨b, hb, _, hg⟩ := buildGraph_eq (ε := Empty) .release
    ⟨{ index := 0, report := 0, allowVacuous := false,
         highlander := false, utf8 := false, prefilter := false, som := .none, quiet := false },
       .sequence (.mk [.cls cc] none (some 0) none)⟩ (by cases cc; exact (by decide : 5 < 2 ^ 32))
  have hl : Lang (.sequence (.mk [.cls cc] none (some 0) none)) [97#8] := by
    cases cc with
    | ascii a =>
      refine ⟨[97#8], [], rfl, ⟨97#8, rfl, ?_⟩, rfl⟩
      rw [h1.2]; exact .inl rfl
  have hacc := h .release 0 ['a'] Flags.empty 0 _ b hpe hb _ hl
  have hno : ∀ v w, v < 2 → ¬ Reads b.graph v w := by
    intro v w hv hr
    induction hr with
    | stop v h => 
      rw [hg] at h
      simp [freshGraph] at h
      omega
    | step v u props b w h _ _ _ ih =>
      rw [hg] at h
      simp [freshGraph] at h
      exact ih (by omega)
  rcases hacc with h | h
  · exact hno _ _ (by rw [hg]; exact (by decide : (0 : Nat) < 2)) h
  · exact hno _ _ (by rw [hg]; exact (by decide : (1 : Nat) < 2)) h

/-- C41, what holds instead (missing: everything): the graph built for an expression accepts
nothing. -/
theorem C41_accepts_nothing_partial (p : Profile) (pe : ParsedExpression) (b : NfaBuilder)
    (hlen : (leaves pe.component).length < 2 ^ 32 - 4) (hb : buildGraph (ε := Empty) p pe = .ok b)
    (w : List U8) : ¬ Accepts b.graph w := by
  obtain ⟨b', hb', _, hg⟩ := buildGraph_eq (ε := Empty) p pe (by omega)
  rw [hb'] at hb
  injection hb with hb
  subst hb
  have hno : ∀ v w, v < 2 → ¬ Reads b'.graph v w := by
    intro v w hv hr
    induction hr with
    | stop v h => 
      rw [hg] at h
      simp [freshGraph] at h
      omega
    | step v u props b w h _ _ _ ih =>
      rw [hg] at h
      simp [freshGraph] at h
      exact ih (by omega)
  rintro (h | h)
  · exact hno _ _ (by rw [hg]; exact (by decide : (0 : Nat) < 2)) h
  · exact hno _ _ (by rw [hg]; exact (by decide : (1 : Nat) < 2)) h

example : Reads ⟨⟨[NfaGraphVertexProps.default, ⟨CharReach.fromChar 97#8, [], PosFlags.default⟩],
    [(0, 1), (1, 2)]⟩, 0, 5, 2, 3⟩ 0 [97#8] :=
  .step 0 1 _ _ _ (by simp) rfl (by decide +kernel) (.stop 1 (.inl (by simp)))

/-! ## C42 -/

/-- C42: `connect_successors` adds to the successors of `from` exactly the edges that survive
filtering; the first of them leading to accept is replaced by one leading to a fresh vertex. -/
theorem C42_connect_successors {ε : Type} (p : Profile) (bs : GlushkovBuildState) (from_ : PositionInfo)
    (tolist : List PositionInfo) (w : NfaGraphVertexProps)
    (hp : p = .release ∨ from_.pos ≠ 2 ^ 32 - 2)
    (hw : bs.builder.graph.inner.nodes[from_.pos]? = some w)
    (hroom : bs.builder.graph.inner.nodes.length + 1 < 2 ^ 32) :
    ∃ bs', connectSuccessors (ε := ε) p bs from_ tolist = .ok bs' ∧
      (bs'.startState, bs'.startDotStarState, bs'.acceptState, bs'.acceptEodState)
        = (bs.startState, bs.startDotStarState, bs.acceptState, bs.acceptEodState) ∧
      (∀ q, q ≠ from_.pos → successorsOf bs' q = successorsOf bs q) ∧
      ((∀ e ∈ tolist, Survives bs (2 ^ 32 - 2) w.assertFlags from_ e → e.pos ≠ bs.acceptState) →
        bs'.builder = bs.builder ∧
        ∀ x, x ∈ successorsOf bs' from_.pos ↔ x ∈ successorsOf bs from_.pos ∨
          (x ∈ tolist ∧ Survives bs (2 ^ 32 - 2) w.assertFlags from_ x)) ∧
      (∀ l1 e l2, tolist.filter (fun e => decide (Survives bs (2 ^ 32 - 2) w.assertFlags from_ e))
            = l1 ++ e :: l2 → (∀ x ∈ l1, x.pos ≠ bs.acceptState) → e.pos = bs.acceptState →
        bs'.builder.graph.inner.nodes
          = bs.builder.graph.inner.nodes ++ [NfaGraphVertexProps.default] ∧
        ∀ x, x ∈ successorsOf bs' from_.pos ↔ x ∈ successorsOf bs from_.pos ∨
          x ∈ l1 ∨ x = ⟨bs.builder.graph.inner.nodes.length, PosFlags.default⟩ ∨ x ∈ l2) := by
  by_cases hna : ∀ e ∈ tolist, Survives bs (2 ^ 32 - 2) w.assertFlags from_ e → e.pos ≠ bs.acceptState
  · refine ⟨_, connectSuccessors_plain p bs from_ tolist w hp hw hna, rfl, ?_, ?_, ?_⟩
    · intro q hq; exact addSuccessors_other _ _ _ _ hq
    · intro _
      refine ⟨rfl, fun x => ?_⟩
      show x ∈ succOf (addSuccessors _ _ _) _ ↔ _
      rw [addSuccessors_same]
      have : ∀ x, x ∈ tolist.filter (fun e => decide (Survives bs posEpsilon w.assertFlags from_ e)) ↔
          (x ∈ tolist ∧ Survives bs (2 ^ 32 - 2) w.assertFlags from_ x) := by
        intro x; rw [List.mem_filter, decide_eq_true_iff]; rfl
      rw [this]; rfl
    · intro l1 e l2 h1 _ h3
      have : e ∈ tolist.filter (fun e => decide (Survives bs (2 ^ 32 - 2) w.assertFlags from_ e)) := by
        rw [h1]; simp
      rw [List.mem_filter, decide_eq_true_iff] at this
      exact absurd h3 (hna e this.1 this.2)
  · have hsplit : ∀ l : List PositionInfo, (∃ e ∈ l, e.pos = bs.acceptState) →
        ∃ l1 e l2, l = l1 ++ e :: l2 ∧ (∀ x ∈ l1, x.pos ≠ bs.acceptState) ∧ e.pos = bs.acceptState := by
      intro l
      induction l with
      | nil => rintro ⟨e, h, _⟩; cases h
      | cons a l ih =>
        intro h
        by_cases ha : a.pos = bs.acceptState
        · exact ⟨[], a, l, rfl, by simp, ha⟩
        · obtain ⟨e, he, he'⟩ := h
          rcases List.mem_cons.1 he with rfl | he
          · exact absurd he' ha
          · obtain ⟨l1, e, l2, rfl, h1, h2⟩ := ih ⟨e, he, he'⟩
            refine ⟨a :: l1, e, l2, rfl, ?_, h2⟩
            intro x hx
            rcases List.mem_cons.1 hx with rfl | hx
            · exact ha
            · exact h1 x hx
    obtain ⟨l1, e, l2, hs, h1, h2⟩ := hsplit
      (tolist.filter (fun e => decide (Survives bs posEpsilon w.assertFlags from_ e))) (by
        apply Classical.byContradiction
        intro h
        apply hna
        intro e he hsv hacc
        exact h ⟨e, by rw [List.mem_filter, decide_eq_true_iff]; exact ⟨he, hsv⟩, hacc⟩)
    refine ⟨_, connectSuccessors_accept p bs from_ tolist l1 l2 e w hp hw hs h1 h2 hroom, rfl, ?_, ?_, ?_⟩
    · intro q hq; exact addSuccessors_other _ _ _ _ hq
    · intro h; exact absurd h hna
    · intro l1' e' l2' hs' h1' h2'
      have heq : l1' = l1 ∧ l2' = l2 := by
        have : l1' ++ e' :: l2' = l1 ++ e :: l2 := by rw [← hs', ← hs]; rfl
        clear hs hs'
        induction l1' generalizing l1 with
        | nil =>
          cases l1 with
          | nil => injection this with h3 h4; exact ⟨rfl, h4⟩
          | cons a l1 =>
            injection this with h3 h4; subst h3
            exact absurd h2' (h1 _ (by simp))
        | cons a' l1' ih =>
          cases l1 with
          | nil =>
            injection this with h3 h4; subst h3
            exact absurd h2 (h1' _ (by simp))
          | cons a l1 =>
            injection this with h3 h4
            obtain ⟨h5, h6⟩ := ih l1 (fun x hx => h1 x (by simp [hx])) (fun x hx => h1' x (by simp [hx])) h4
            rw [h3, h5]; exact ⟨rfl, h6⟩
      obtain ⟨rfl, rfl⟩ := heq
      refine ⟨rfl, fun x => ?_⟩
      show x ∈ succOf (addSuccessors _ _ _) _ ↔ _
      rw [addSuccessors_same]
      simp only [List.mem_append, List.mem_cons]
      rfl

example : ∃ w, freshGraph.inner.nodes[(1 : Nat)]? = some w ∧ (1 : Nat) ≠ 2 ^ 32 - 2 := ⟨_, rfl, by decide⟩

/-- C42: `connect_regions` connects every last to exactly the surviving firsts (firsts other than
accept; for accept see `C42_connect_successors`). -/
theorem C42_connect_regions {ε : Type} (p : Profile) (lasts firsts : List PositionInfo)
    (bs : GlushkovBuildState) (hp : p = .release ∨ ∀ l ∈ lasts, l.pos ≠ 2 ^ 32 - 2)
    (hl : ∀ l ∈ lasts, l.pos < bs.builder.graph.inner.nodes.length)
    (hf : ∀ e ∈ firsts, e.pos ≠ bs.acceptState) :
    ∃ bs', connectRegions (ε := ε) p bs lasts firsts = .ok bs' ∧ bs'.builder = bs.builder ∧
      (bs'.startState, bs'.startDotStarState, bs'.acceptState, bs'.acceptEodState)
        = (bs.startState, bs.startDotStarState, bs.acceptState, bs.acceptEodState) ∧
      ∀ q x, x ∈ successorsOf bs' q ↔ x ∈ successorsOf bs q ∨
        ∃ l ∈ lasts, l.pos = q ∧ x ∈ firsts ∧
          ∃ w, bs.builder.graph.inner.nodes[l.pos]? = some w ∧
            Survives bs (2 ^ 32 - 2) w.assertFlags l x := by
  induction lasts generalizing bs with
  | nil => exact ⟨bs, rfl, rfl, rfl, fun q x => by simp⟩
  | cons l lasts ih =>
    have hlt := hl l (by simp)
    obtain ⟨w, hw⟩ : ∃ w, bs.builder.graph.inner.nodes[l.pos]? = some w :=
      ⟨_, List.getElem?_eq_getElem hlt⟩
    have h1 := connectSuccessors_plain (ε := ε) p bs l firsts w (hp.imp id (fun h => h l (by simp))) hw
      (fun e he _ => hf e he)
    obtain ⟨sv, hsvd⟩ : ∃ sv, sv = firsts.filter
        (fun e => decide (Survives bs posEpsilon w.assertFlags l e)) := ⟨_, rfl⟩
    rw [← hsvd] at h1
    obtain ⟨bs', h2, h3, h4, h5⟩ := ih { bs with successors := addSuccessors bs.successors l.pos sv }
      (hp.imp id (fun h x hx => h x (by simp [hx]))) (fun x hx => hl x (by simp [hx])) hf
    refine ⟨bs', ?_, h3, h4, fun q x => ?_⟩
    · unfold connectRegions at h2 ⊢
      rw [List.foldlM_cons, h1]
      exact h2
    · rw [h5]
      have hsv : ∀ af a b,
          Survives { bs with successors := addSuccessors bs.successors l.pos sv } (2 ^ 32 - 2) af a b
          ↔ Survives bs (2 ^ 32 - 2) af a b := fun _ _ _ => Iff.rfl
      simp only [hsv]
      show (x ∈ succOf (addSuccessors bs.successors l.pos _) q ∨ _) ↔ _
      by_cases hq : q = l.pos
      · subst hq
        rw [addSuccessors_same, hsvd, List.mem_filter, decide_eq_true_iff]
        constructor
        · rintro ((h | ⟨h6, h7⟩) | ⟨l', h6, h7⟩)
          · exact .inl h
          · exact .inr ⟨l, by simp, rfl, h6, w, hw, h7⟩
          · exact .inr ⟨l', by simp [h6], h7⟩
        · rintro (h | ⟨l', h6, h7, h8, w', h9, h10⟩)
          · exact .inl (.inl h)
          · rcases List.mem_cons.1 h6 with rfl | h6
            · rw [hw] at h9; injection h9 with h9; subst h9
              exact .inl (.inr ⟨h8, h10⟩)
            · exact .inr ⟨l', h6, h7, h8, w', h9, h10⟩
      · rw [addSuccessors_other _ _ _ _ hq]
        constructor
        · rintro (h | ⟨l', h6, h7⟩)
          · exact .inl h
          · exact .inr ⟨l', by simp [h6], h7⟩
        · rintro (h | ⟨l', h6, h7, h8⟩)
          · exact .inl h
          · rcases List.mem_cons.1 h6 with rfl | h6
            · exact absurd h7.symm hq
            · exact .inr ⟨l', h6, h7, h8⟩

example : (∀ l ∈ [PositionInfo.ofPos 0, PositionInfo.ofPos 1], l.pos < freshGraph.inner.nodes.length) ∧
    ∀ e ∈ [PositionInfo.ofPos 1], e.pos ≠ freshGraph.accept := by decide

/-- C42 is false for epsilons from start: the code's own comment says that those that are not caret
flavoured (NOFLOAT) must be removed, but a plain one is kept. -/
theorem C42_false : ¬ ∀ (bs : GlushkovBuildState) (from_ : PositionInfo) (tolist out : List PositionInfo),
    from_.pos = bs.startState → from_.pos ≠ bs.startDotStarState →
    filterEdges (ε := Empty) bs from_ tolist = .ok out →
    ∀ e ∈ out, e.pos = 2 ^ 32 - 2 → e.flags.contains .NOFLOAT = true := by
  intro h
  have h1 := filterEdges_eq (ε := Empty) ⟨0, 1, 2, 3, ⟨freshGraph, ⟨0, 0, false, false, false, false, .none,
    false⟩⟩, []⟩ ⟨0, PosFlags.default⟩ [⟨2 ^ 32 - 2, PosFlags.default⟩]
    ⟨CharReach.default.setAll, [], PosFlags.default⟩ rfl
  have h2 := h _ _ _ _ rfl (by decide) h1 ⟨2 ^ 32 - 2, PosFlags.default⟩ (by
    rw [List.mem_filter, decide_eq_true_iff]
    refine ⟨by simp, ?_⟩
    unfold Survives
    refine ⟨(fun h => by cases h), fun _ _ => ⟨fun _ => rfl, by decide⟩, (fun h => by cases h)⟩) rfl
  revert h2
  decide

end Rescan
