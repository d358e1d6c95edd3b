import Verif.Proofs.MemoryCompile
/-! # The memory of building the graph, of an expression and of everything -/
namespace Rescan.Memory

open Rescan.Spec

variable {ε : Type}

/-! ## The graph -/

theorem setInsert_ge {α : Type} [DecidableEq α] (s : List α) (a : α) : s.length ≤ (setInsert s a).length := by
  unfold setInsert; split <;> simp

theorem setExtend_length {α : Type} [DecidableEq α] : ∀ (l s : List α),
    s.length ≤ (setExtend s l).length ∧ (setExtend s l).length ≤ s.length + l.length
  | [], s => ⟨Nat.le_refl _, Nat.le_refl _⟩
  | a :: l, s => by
    have h := setExtend_length l (setInsert s a)
    have h1 := setInsert_ge s a
    have h2 := Work.setInsert_length s a
    have e : setExtend s (a :: l) = setExtend (setInsert s a) l := rfl
    rw [e, List.length_cons]
    omega

theorem addSuccessors_owned (pos : Nat) (l : List PositionInfo) : ∀ m : List (Nat × List PositionInfo),
    ownedSuccessors (GlushkovBuildState.addSuccessors m pos l) = ownedSuccessors m +
      (match alookup m pos with
        | none => 1 + (setExtend [] l).length
        | some v => (setExtend v l).length - v.length)
  | [] => by simp [GlushkovBuildState.addSuccessors, ownedSuccessors, alookup]
  | (k, v) :: rest => by
    unfold GlushkovBuildState.addSuccessors
    split
    · rename_i hk
      have : alookup ((k, v) :: rest) pos = some v := by simp [alookup, hk]
      rw [this]
      have h := setExtend_length l v
      simp only [ownedSuccessors, List.map_cons, List.sum_cons]
      omega
    · rename_i hk
      have : alookup ((k, v) :: rest) pos = alookup rest pos := by simp [alookup, hk]
      rw [this]
      have h := addSuccessors_owned pos l rest
      simp only [ownedSuccessors, List.map_cons, List.sum_cons] at h ⊢
      omega

theorem replaceFirst_length (a : Nat) (n : PositionInfo) : ∀ l, (GlushkovBuildState.replaceFirst l a n).length = l.length
  | [] => rfl
  | e :: es => by
    unfold GlushkovBuildState.replaceFirst
    split
    · rfl
    · rw [List.length_cons, List.length_cons, replaceFirst_length a n es]

theorem filterEdges_length {bs : GlushkovBuildState} {f : PositionInfo} {l l' : List PositionInfo}
    (h : GlushkovBuildState.filterEdges (ε := ε) bs f l = .ok l') : l'.length ≤ l.length := by
  unfold GlushkovBuildState.filterEdges at h
  dsimp only at h
  obtain ⟨af, _, h⟩ := bind_eq_ok h
  have hf : ∀ (q : PositionInfo → Bool) (l : List PositionInfo), (l.filter q).length ≤ l.length := fun q l => List.length_filter_le q l
  generalize hl : (if f.pos = bs.startDotStarState then
      if f.flags.contains .NOFLOAT = true then [] else l.filter (fun e => !e.flags.contains .NOFLOAT)
    else if f.pos = bs.startState then
      (l.filter (fun e => e.pos != GlushkovBuildState.posEpsilon || e.flags.isEmpty)).filter
        (fun e => !e.flags.contains (PosFlags.MUST_FLOAT.or .NOFLOAT))
    else l) = t at h
  have ht : t.length ≤ l.length := by
    rw [← hl]
    split
    · split
      · simp
      · exact hf _ _
    · split
      · exact Nat.le_trans (hf _ _) (hf _ _)
      · exact Nat.le_refl _
  cases h
  split
  · exact Nat.le_trans (hf _ _) ht
  · exact ht

theorem filterEdges_noerr (bs : GlushkovBuildState) (f : PositionInfo) (l : List PositionInfo) (e : ε) :
    GlushkovBuildState.filterEdges bs f l ≠ .err e := by
  unfold GlushkovBuildState.filterEdges NfaBuilder.getAssertFlag Graph.weight Outcome.expect
  intro h
  cases hw : bs.builder.graph.inner.nodes[f.pos]? <;> rw [hw] at h <;> cases h

theorem makePosition_noerr (b : NfaBuilder) (e : ε) : b.makePosition ≠ .err e := by
  unfold NfaBuilder.makePosition NgHolder.addVertex Graph.addNode
  intro h
  split at h <;> cases h

theorem makePosition_owned {b b' : NfaBuilder} {v : Nat} (h : b.makePosition (ε := ε) = .ok (b', v)) :
    ownedHolder b'.graph = ownedHolder b.graph + 1 := by
  unfold NfaBuilder.makePosition NgHolder.addVertex at h
  obtain ⟨x, hx, h⟩ := bind_eq_ok h
  obtain ⟨y, hy, hx⟩ := bind_eq_ok hx
  cases hx
  cases h
  obtain ⟨g, v⟩ := y
  obtain ⟨rfl, rfl⟩ := addNode_ok hy
  exact ownedGraph_addNode _ _ _ rfl

variable [Owned ε]

theorem addSuccessors_uses (m : List (Nat × List PositionInfo)) (pos : Nat) (l : List PositionInfo) (f d k : Nat)
    (hk : ownedSuccessors m + f + 1 + l.length ≤ k) :
    Uses (addSuccessors m pos l : H ε _) (.ok (GlushkovBuildState.addSuccessors m pos l)) (ownedSuccessors m + f)
      (fun x => ownedSuccessors x + f) d k := by
  have h := addSuccessors_owned pos l m
  unfold addSuccessors
  cases ha : alookup m pos with
  | none =>
    rw [ha] at h
    change ownedSuccessors _ = ownedSuccessors m + (1 + (setExtend [] l).length) at h
    have h2 := setExtend_length l ([] : List PositionInfo)
    simp only [List.length_nil] at h2
    refine Uses.then (Uses.alloc (by omega)) (Uses.then (Uses.alloc (by omega)) (Uses.pure ?_))
    omega
  | some v =>
    rw [ha] at h
    change ownedSuccessors _ = ownedSuccessors m + ((setExtend v l).length - v.length) at h
    have h2 := setExtend_length l v
    refine Uses.then (Uses.alloc (by omega)) (Uses.pure ?_)
    omega

theorem connectSuccessors_uses (p : Profile) (bs : GlushkovBuildState) (f : PositionInfo) (l : List PositionInfo) (r k : Nat)
    (hk : ownedState bs + l.length + r + 2 + l.length ≤ k) :
    Uses (connectSuccessors p bs f l : H ε _) (bs.connectSuccessors p f l) (ownedState bs + l.length + r)
      (fun x => ownedState x + r) (ownedState bs + r) k := by
  unfold connectSuccessors GlushkovBuildState.connectSuccessors
  refine Uses.dropAfter ?_
  rw [show ownedState bs + r + l.length = ownedState bs + l.length + r by omega]
  refine Uses.bind (s := fun _ => ownedState bs + l.length + r) (Uses.ret fun e => rdebugAssert_noerr _ _ _ e) fun _ _ => ?_
  refine Uses.bind (s := fun _ => ownedState bs + l.length + r) (Uses.ret fun e => filterEdges_noerr _ _ _ e) fun t ht => ?_
  have hl := filterEdges_length ht
  split
  · refine Uses.bind (s := fun _ => ownedState bs + l.length + r) (Uses.ret fun e => makePosition_noerr _ e) fun x hx => ?_
    have h1 := makePosition_owned hx
    refine Uses.then (Uses.alloc (by omega)) ?_
    have h2 := replaceFirst_length bs.acceptState (PositionInfo.ofPos x.2) t
    refine Uses.then (s := fun _ => ownedState bs + l.length + r + 1) (Uses.pure rfl) ?_
    refine Uses.then (Uses.cast (addSuccessors_uses (ε := ε) bs.successors f.pos
      (GlushkovBuildState.replaceFirst t bs.acceptState (PositionInfo.ofPos x.2)) (ownedHolder x.1.graph + l.length + r)
        _ k (by unfold ownedState at hk; omega)) rfl (by unfold ownedState; omega) (fun _ _ => rfl) (fun _ => rfl)
        (Nat.le_refl _)) ?_
    exact Uses.pure (by unfold ownedState; dsimp only; omega)
  · refine Uses.then (s := fun _ => ownedState bs + l.length + r) (Uses.pure rfl) ?_
    refine Uses.then (Uses.cast (addSuccessors_uses (ε := ε) bs.successors f.pos t (ownedHolder bs.builder.graph + l.length + r)
        _ k (by unfold ownedState at hk; omega)) rfl (by unfold ownedState; omega) (fun _ _ => rfl) (fun _ => rfl)
        (Nat.le_refl _)) ?_
    exact Uses.pure (by unfold ownedState; dsimp only; omega)

omit [Owned ε] in
theorem connectSuccessors_mono {p : Profile} {bs bs' : GlushkovBuildState} {f : PositionInfo} {l : List PositionInfo}
    (h : bs.connectSuccessors (ε := ε) p f l = .ok bs') : ownedState bs ≤ ownedState bs' := by
  unfold GlushkovBuildState.connectSuccessors at h
  obtain ⟨_, _, h⟩ := bind_eq_ok h
  obtain ⟨t, _, h⟩ := bind_eq_ok h
  split at h
  · obtain ⟨x, hx, h⟩ := bind_eq_ok h
    have h1 := makePosition_owned hx
    cases h
    have := addSuccessors_owned f.pos (GlushkovBuildState.replaceFirst t bs.acceptState (PositionInfo.ofPos x.2)) bs.successors
    simp only [ownedState]
    omega
  · cases h
    have := addSuccessors_owned f.pos t bs.successors
    simp only [ownedState]
    omega

/-- One turn of the loop of `connect_regions` adds at most this much. -/
theorem connectSuccessors_grow {p : Profile} {bs bs' : GlushkovBuildState} {f : PositionInfo} {l : List PositionInfo}
    (h : bs.connectSuccessors (ε := ε) p f l = .ok bs') : ownedState bs' ≤ ownedState bs + 2 + 2 * l.length := by
  have := connectSuccessors_uses (ε := ε) p bs f l 0 (ownedState bs + 2 + 2 * l.length) (by omega)
  rw [h] at this
  have h3 := Uses.bound this (tame_connectSuccessors _ _ _ _) (by omega)
  exact h3

theorem connectRegions_uses (p : Profile) (firsts : List PositionInfo) : ∀ (lasts : List PositionInfo) (bs : GlushkovBuildState)
    (r k : Nat), ownedState bs + r + lasts.length * (2 + 2 * firsts.length) ≤ k →
    Uses (connectRegions p firsts lasts bs : H ε _) (bs.connectRegions p lasts firsts) (ownedState bs + r)
      (fun x => ownedState x + r) (ownedState bs + r) k
  | [], bs, r, k, _ => by
    rw [connectRegions, GlushkovBuildState.connectRegions, List.foldlM_nil]
    exact Uses.pure rfl
  | l :: ls, bs, r, k, hk => by
    rw [List.length_cons, Nat.succ_mul] at hk
    rw [connectRegions, GlushkovBuildState.connectRegions, List.foldlM_cons]
    refine Uses.then (Uses.alloc (by omega)) ?_
    refine Uses.bind (s := fun x => ownedState x + r) (Uses.cast (connectSuccessors_uses (ε := ε) p bs l firsts r k (by omega))
      rfl (by omega) (fun _ _ => rfl) (fun _ => rfl) (Nat.le_refl _)) fun bs' h => ?_
    have := connectSuccessors_grow h
    have hm := connectSuccessors_mono h
    exact Uses.onError (Uses.cast (connectRegions_uses p firsts ls bs' r k (by omega)) rfl rfl (fun _ _ => rfl) (fun _ => by omega)
      (Nat.le_refl _))

theorem newState_uses (p : Profile) (b : NfaBuilder) (k : Nat) (hk : ownedHolder b.graph + 11 ≤ k) :
    Uses (newState p b : H ε _) (GlushkovBuildState.new p b) (ownedHolder b.graph) ownedState 0 k := by
  unfold newState GlushkovBuildState.new
  dsimp only
  refine Uses.then (Uses.alloc (by omega)) (Uses.then (Uses.alloc (by omega)) (Uses.dropAfter (Uses.onError ?_)))
  refine Uses.cast (connectRegions_uses (ε := ε) p _ _ _ 3 k ?_) rfl ?_ (fun _ _ => rfl) (fun _ => ?_) (Nat.le_refl _)
  · simp [ownedState, ownedSuccessors]; omega
  · simp [ownedState, ownedSuccessors]
  · simp [ownedState, ownedSuccessors]; omega

omit [Owned ε] in
theorem noteClass_noerr (bs : GlushkovBuildState) (c : AsciiComponentClass) (e : ε) : bs.noteClass c ≠ .err e := by
  unfold GlushkovBuildState.noteClass
  intro h
  cases h1 : bs.builder.makePosition (ε := ε) with
  | err e => exact makePosition_noerr _ e h1
  | panic t => rw [h1] at h; cases h
  | timeout => rw [h1] at h; cases h
  | ok x =>
    rw [h1] at h
    change Outcome.bind (x.1.addCharReach x.2 c.cr) _ = _ at h
    unfold NfaBuilder.addCharReach NgHolder.modifyReach at h
    split at h <;> cases h

omit [Owned ε] in
theorem noteClass_owned {bs bs' : GlushkovBuildState} {c : AsciiComponentClass} (h : bs.noteClass (ε := ε) c = .ok bs') :
    ownedState bs' = ownedState bs + 1 := by
  unfold GlushkovBuildState.noteClass at h
  obtain ⟨x, hx, h⟩ := bind_eq_ok h
  obtain ⟨y, hy, h⟩ := bind_eq_ok h
  cases h
  have h1 := makePosition_owned hx
  unfold NfaBuilder.addCharReach at hy
  obtain ⟨z, hz, hy⟩ := bind_eq_ok hy
  cases hy
  unfold NgHolder.modifyReach at hz
  split at hz
  · cases hz
    have hs : ∀ (ns : List NfaGraphVertexProps) (u : Nat),
        ((ns.modify u (fun v => { v with charReach := v.charReach.orAssign c.cr })).map (fun v => v.reports.length)).sum =
          (ns.map (fun v => v.reports.length)).sum := by
      intro ns
      induction ns with
      | nil => intro u; simp
      | cons n ns ih =>
        intro u
        cases u with
        | zero => simp
        | succ u => simp [ih u]
    simp only [ownedState, ownedHolder, ownedGraph, List.length_modify, hs] at h1 ⊢
    omega
  · cases hz

mutual
theorem noteComponent_mono : ∀ {c : Component} {bs bs' : GlushkovBuildState}, bs.noteComponent (ε := ε) c = .ok bs' →
    ownedState bs ≤ ownedState bs'
  | .alternation (.mk ss), bs, bs', h => by rw [GlushkovBuildState.noteComponent] at h; exact noteSequences_mono ss h
  | .cls (.ascii a), bs, bs', h => by
    rw [GlushkovBuildState.noteComponent] at h
    have := noteClass_owned h
    omega
  | .sequence s, bs, bs', h => by rw [GlushkovBuildState.noteComponent] at h; exact noteSequence_mono h
theorem noteSequence_mono : ∀ {s : ComponentSequence} {bs bs' : GlushkovBuildState}, bs.noteSequence (ε := ε) s = .ok bs' →
    ownedState bs ≤ ownedState bs'
  | .mk cs _ _ _, bs, bs', h => by rw [GlushkovBuildState.noteSequence] at h; exact noteComponents_mono cs h
theorem noteSequences_mono : ∀ (ss : List ComponentSequence) {bs bs' : GlushkovBuildState},
    bs.noteSequences (ε := ε) ss = .ok bs' → ownedState bs ≤ ownedState bs'
  | [], bs, bs', h => by rw [GlushkovBuildState.noteSequences] at h; cases h; exact Nat.le_refl _
  | s :: ss, bs, bs', h => by
    rw [GlushkovBuildState.noteSequences] at h
    obtain ⟨b, h1, h⟩ := bind_eq_ok h
    exact Nat.le_trans (noteSequence_mono h1) (noteSequences_mono ss h)
theorem noteComponents_mono : ∀ (cs : List Component) {bs bs' : GlushkovBuildState},
    bs.noteComponents (ε := ε) cs = .ok bs' → ownedState bs ≤ ownedState bs'
  | [], bs, bs', h => by rw [GlushkovBuildState.noteComponents] at h; cases h; exact Nat.le_refl _
  | c :: cs, bs, bs', h => by
    rw [GlushkovBuildState.noteComponents] at h
    obtain ⟨b, h1, h⟩ := bind_eq_ok h
    exact Nat.le_trans (noteComponent_mono h1) (noteComponents_mono cs h)
end

mutual
theorem noteComponent_uses : ∀ (c : Component) (bs : GlushkovBuildState) (k : Nat), ownedState bs + (leaves c).length ≤ k →
    Uses (noteComponent bs c : H ε _) (bs.noteComponent c) (ownedState bs) ownedState (ownedState bs) k
  | .alternation (.mk ss), bs, k, hk => by
    rw [noteComponent, GlushkovBuildState.noteComponent]
    exact noteSequences_uses ss bs k (by rw [leaves] at hk; exact hk)
  | .cls (.ascii a), bs, k, hk => by
    rw [leaves, List.length_singleton] at hk
    rw [noteComponent, GlushkovBuildState.noteComponent]
    refine Uses.then (Uses.alloc hk) ?_
    refine Uses.onError ?_
    exact Uses.cast (Uses.ret (k := k) (noteClass_noerr bs a)) rfl rfl (fun x h => (noteClass_owned h).symm) (fun _ => rfl)
      (Nat.le_refl _)
  | .sequence s, bs, k, hk => by
    rw [noteComponent, GlushkovBuildState.noteComponent]
    exact noteSequence_uses s bs k (by rw [leaves] at hk; exact hk)
theorem noteSequence_uses : ∀ (s : ComponentSequence) (bs : GlushkovBuildState) (k : Nat),
    ownedState bs + (leavesSeq s).length ≤ k →
    Uses (noteSequence bs s : H ε _) (bs.noteSequence s) (ownedState bs) ownedState (ownedState bs) k
  | .mk cs _ _ _, bs, k, hk => by
    rw [noteSequence, GlushkovBuildState.noteSequence]
    exact noteComponents_uses cs bs k (by rw [leavesSeq] at hk; exact hk)
theorem noteSequences_uses : ∀ (ss : List ComponentSequence) (bs : GlushkovBuildState) (k : Nat),
    ownedState bs + (leavesSeqs ss).length ≤ k →
    Uses (noteSequences bs ss : H ε _) (bs.noteSequences ss) (ownedState bs) ownedState (ownedState bs) k
  | [], bs, k, _ => by
    rw [noteSequences, GlushkovBuildState.noteSequences]
    exact Uses.pure rfl
  | s :: ss, bs, k, hk => by
    rw [leavesSeqs, List.length_append] at hk
    rw [noteSequences, GlushkovBuildState.noteSequences]
    have h1 := noteSequence_uses s bs (ownedState bs + (leavesSeq s).length) (Nat.le_refl _)
    refine Uses.bind (Uses.weaken h1 (by omega)) fun b hb => ?_
    rw [hb] at h1
    have h2 := Uses.bound h1 (tame_noteSequence s bs) (by omega)
    have hm := noteSequence_mono hb
    exact Uses.onError (Uses.cast (noteSequences_uses ss b k (by omega)) rfl rfl (fun _ _ => rfl) (fun _ => by omega) (Nat.le_refl _))
theorem noteComponents_uses : ∀ (cs : List Component) (bs : GlushkovBuildState) (k : Nat),
    ownedState bs + (leavesAll cs).length ≤ k →
    Uses (noteComponents bs cs : H ε _) (bs.noteComponents cs) (ownedState bs) ownedState (ownedState bs) k
  | [], bs, k, _ => by
    rw [noteComponents, GlushkovBuildState.noteComponents]
    exact Uses.pure rfl
  | c :: cs, bs, k, hk => by
    rw [leavesAll, List.length_append] at hk
    rw [noteComponents, GlushkovBuildState.noteComponents]
    have h1 := noteComponent_uses c bs (ownedState bs + (leaves c).length) (Nat.le_refl _)
    refine Uses.bind (Uses.weaken h1 (by omega)) fun b hb => ?_
    rw [hb] at h1
    have h2 := Uses.bound h1 (tame_noteComponent c bs) (by omega)
    have hm := noteComponent_mono hb
    exact Uses.onError (Uses.cast (noteComponents_uses cs b k (by omega)) rfl rfl (fun _ _ => rfl) (fun _ => by omega) (Nat.le_refl _))
end

theorem buildGraph_uses (p : Profile) (pe : ParsedExpression) (k : Nat) (hk : 18 + (leaves pe.component).length ≤ k) :
    Uses (buildGraph p pe : H ε _) (Rescan.buildGraph p pe) 0 (fun x => ownedHolder x.graph) 0 k := by
  unfold buildGraph Rescan.buildGraph
  have hg : ownedHolder GlushkovBuildState.freshGraph = 7 := rfl
  refine Uses.bind (s := fun x => ownedHolder x.graph) ?_ fun b hb => ?_
  · unfold newBuilder
    rw [GlushkovBuildState.builder_new]
    exact Uses.then (Uses.alloc (by omega)) (Uses.then (Uses.alloc (by omega)) (Uses.onError (Uses.ok hg.symm)))
  · rw [GlushkovBuildState.builder_new] at hb
    cases hb
    dsimp only
    have h1 := newState_uses (ε := ε) p ⟨GlushkovBuildState.freshGraph, pe.expr⟩ 18 (by dsimp only; omega)
    refine Uses.bind (Uses.weaken h1 (by omega)) fun bs hbs => ?_
    rw [hbs] at h1
    have h2 := Uses.bound h1 (tame_newState _ _) (by dsimp only; omega)
    refine Uses.bind (s := ownedState) (Uses.onError (Uses.cast (noteComponent_uses pe.component bs k (by omega)) rfl rfl
      (fun _ _ => rfl) (fun _ => (Nat.zero_add _).symm) (Nat.le_refl _))) fun bs' _ => ?_
    refine Uses.then (Uses.free (by unfold ownedState; omega)) (Uses.pure ?_)
    unfold ownedState
    omega

end Rescan.Memory
