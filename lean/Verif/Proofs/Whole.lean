import Verif.Model.Whole
import Verif.Props.Hashed
/-! # Lemmas: the compiler with all its stored forms at once is the compiler on hash tables -/
namespace Rescan.Whole

open Rescan.Petgraph
open Rescan.Spec (encode)
open Rescan.Hashed (Hashing Site)
open Rescan.Stored (Lit IsLit isLit_next isLit_any isLit_default Same Same.bind same_addNode same_addEdge same_modify Agree
  outgoing_lt incoming_lt collect_cases weight_at leaves parse_leaves newParsed newParsed_eq izip_encode izip_mem
  walk_agree Grown)

variable {ε : Type} {H : Hashing}

/-! ## Tries -/

/-- The stored trie `s` is the trie `t`. -/
structure IsTrie (s : Trie H) (t : Hashed.LitTrie H) : Prop where
  inner : Holds s.inner t.inner
  root : s.root = t.root

theorem findNb_eq {s : PGraph (Hashed.LitTrieVertexProps H)} {g : Graph (Hashed.LitTrieVertexProps H)} (h : Holds s g)
    (c : U8) :
    ∀ (fuel : Nat) (it : PGraph.Neighbors) (vs : List Nat), (s.collect it fuel : Outcome ε _) = .ok vs →
      (∀ v ∈ vs, v < s.nodes.length) →
      (findNb s c fuel it : Outcome ε _) = .ok (vs.find? (fun v => match g.nodes[v]? with
        | some w => w.c == c
        | none => false))
  | 0, it, vs, hc, _ => by cases hc
  | fuel + 1, it, vs, hc, hv => by
    unfold findNb
    rcases collect_cases hc with ⟨it', h1, rfl⟩ | ⟨v, it', rest, h1, h2, rfl⟩
    · rw [h1]; rfl
    · have hv0 := hv v (by simp)
      rw [h1]
      show Outcome.bind (index s.nodes v) _ = _
      unfold index
      rw [List.getElem?_eq_getElem hv0]
      simp only [List.find?_cons, weight_at h hv0]
      show (if s.nodes[v].weight.c = c then _ else _) = _
      by_cases he : s.nodes[v].weight.c = c
      · rw [if_pos he, beq_iff_eq.mpr he]; rfl
      · rw [if_neg he, beq_eq_false_iff_ne.mpr he]
        exact findNb_eq h c fuel it' rest h2 (fun v hv' => hv v (by simp [hv']))

theorem findChild_eq {s : Trie H} {t : Hashed.LitTrie H} (h : IsTrie s t) (u : Nat) (c : U8) :
    (findNb s.inner c (s.inner.edges.length + 1) (s.inner.neighborsOut u) : Outcome ε _) = .ok (t.findChild u c) :=
  findNb_eq h.inner c _ _ _
    (holds_neighbors h.inner u _ (by rw [(length_eq h.inner).2]; exact Nat.lt_succ_self _)).1
    (outgoing_lt h.inner u)

theorem trieLoop_same (p : Profile) (site : Site) {v : Lit} {l : Ue2Literal} (hl : IsLit v l) :
    ∀ (fuel k : Nat) (s : Trie H) (t : Hashed.LitTrie H) (u : Nat), IsTrie s t → l.iter.length < fuel + k → fuel ≠ 0 →
      Same (fun x y => IsTrie x.1 y.1 ∧ x.2 = y.2) (trieLoop p site v fuel k s u : Outcome ε _)
        (((l.iter.drop k).map (fun e => e.c)).foldlM (Hashed.LitTrie.descend site) (t, u))
  | 0, _, _, _, _, _, _, h => absurd rfl h
  | fuel + 1, k, s, t, u, ht, h, _ => by
    have hlen : l.iter.length = l.s.length := by
      simp only [Ue2Literal.iter, List.length_zipWith, hl.len, Nat.min_self]
    unfold trieLoop
    rw [isLit_next p hl]
    by_cases hk : k < l.iter.length
    · rw [List.getElem?_eq_getElem hk, if_pos (by omega), List.drop_eq_getElem_cons hk, List.map_cons,
        List.foldlM_cons]
      have hfuel : fuel ≠ 0 := by omega
      have ih : ∀ s' t' u', IsTrie s' t' → _ := fun s' t' u' ht' =>
        trieLoop_same p site hl fuel (k + 1) s' t' u' ht' (by omega) hfuel
      show Same _ (Outcome.bind (findNb _ _ _ _) _) (Outcome.bind (Hashed.LitTrie.descend site (t, u) _) _)
      rw [findChild_eq ht u]
      unfold Hashed.LitTrie.descend
      cases hc : t.findChild u l.iter[k].c with
      | some w => simp only [hc]; exact ih s t w ht
      | none =>
        simp only [hc]
        show Same _ (Outcome.bind (s.inner.addNode _) _)
          (Outcome.bind (Outcome.bind (t.inner.addNode _) _) _)
        rw [(length_eq ht.inner).1]
        generalize H.ids.empty (t.inner.nodes.length :: site) = m
        have hn := same_addNode (ε := ε) ht.inner (⟨l.iter[k].c, m⟩ : Hashed.LitTrieVertexProps H)
        generalize s.inner.addNode (ε := ε) ⟨l.iter[k].c, m⟩ = x at hn
        generalize t.inner.addNode (ε := ε) ⟨l.iter[k].c, m⟩ = y at hn
        cases hn with
        | panic m => exact .panic m
        | @ok a b hab =>
          show Same _ (Outcome.bind (a.1.addEdge u a.2) _)
            (Outcome.bind (Outcome.bind (b.1.addEdge u b.2) _) _)
          have he := same_addEdge (ε := ε) hab.1 u a.2
          rw [← hab.2]
          generalize a.1.addEdge (ε := ε) u a.2 = x at he
          generalize b.1.addEdge (ε := ε) u a.2 = y at he
          cases he with
          | panic m => exact .panic m
          | ok hg => exact ih _ _ _ ⟨hg, ht.root⟩
    · rw [List.getElem?_eq_none (by omega), if_neg (by omega), List.drop_eq_nil_of_le (by omega)]
      exact .ok ⟨ht, rfl⟩

theorem addToTrie_same (p : Profile) (site : Site) {v : Lit} {l : Ue2Literal} (hl : IsLit v l) (r : Nat) {s : Trie H}
    {t : Hashed.LitTrie H}
    (h : IsTrie s t) : Same (fun x y => IsTrie x.1 y.1 ∧ x.2 = y.2) (addToTrie p site v r s : Outcome ε _)
      (Hashed.addToTrie site l r t) := by
  have hlen : l.iter.length = l.s.length := by
    simp only [Ue2Literal.iter, List.length_zipWith, hl.len, Nat.min_self]
  have hloop := trieLoop_same (ε := ε) p site hl (v.s.length + 1) 0 s t t.root h
    (by rw [hl.s, hlen]; omega) (Nat.succ_ne_zero _)
  rw [List.drop_zero] at hloop
  unfold addToTrie Hashed.addToTrie
  rw [h.root]
  refine Same.bind hloop ?_
  rintro ⟨s', u⟩ ⟨t', u'⟩ ⟨h', rfl : u = u'⟩
  have hl' : s'.inner.nodes.length = t'.inner.nodes.length := (length_eq h'.inner).1
  have hm := same_modify (ε := ε) h'.inner u (fun w => { w with reports := H.ids.insert w.reports r () })
  unfold PGraph.modify at hm
  show Same _ (Outcome.bind (index s'.inner.nodes u) _) _
  unfold index
  by_cases hu : u < s'.inner.nodes.length
  · have hu' : u < t'.inner.nodes.length := by omega
    rw [List.getElem?_eq_getElem hu, if_pos hu'] at hm
    rw [List.getElem?_eq_getElem hu]
    simp only [if_pos hu']
    cases hm with
    | ok hm =>
      refine .ok ⟨⟨hm, h'.root⟩, ?_⟩
      simp [hl']
  · rw [List.getElem?_eq_none (by omega)]
    simp only [if_neg (show ¬ u < t'.inner.nodes.length by omega)]
    exact .panic "index out of bounds"

theorem default_trie (site : Site) : ∃ s, (Trie.default site : Outcome ε (Trie H)) = .ok s ∧
    IsTrie s (Hashed.LitTrie.default site) := by
  refine ⟨_, rfl, ?_, rfl⟩
  have := same_addNode (ε := ε) (N := (Hashed.LitTrieVertexProps H)) holds_new ⟨0#8, H.ids.empty (0 :: site)⟩
  cases this with
  | ok h => exact h.1

/-! ## The builder -/

/-- The stored builder `s` is the builder `b`. -/
structure IsBuild (s : Build H) (b : Hashed.SmallWriteBuild H) : Prop where
  grey : s.grey = b.grey
  litTrie : IsTrie s.litTrie b.litTrie
  litTrieNocase : IsTrie s.litTrieNocase b.litTrieNocase
  numLiterals : s.numLiterals = b.numLiterals
  poisoned : s.poisoned = b.poisoned

theorem new_build (n : Nat) (g : Grey) : ∃ s, (Build.new n g : Outcome ε (Build H)) = .ok s ∧
    IsBuild s (Hashed.SmallWriteBuild.new n g) := by
  obtain ⟨t, h1, h2⟩ := default_trie (ε := ε) (H := H) [3]
  obtain ⟨u, h3, h4⟩ := default_trie (ε := ε) (H := H) [4]
  refine ⟨⟨g, t, u, 0, _⟩, ?_, ⟨rfl, h2, h4, rfl, rfl⟩⟩
  unfold Build.new
  rw [h1, h3]; rfl

theorem addLiteral_same (p : Profile) {v : Lit} {l : Ue2Literal} (hl : IsLit v l) (r : Nat) {s : Build H}
    {b : Hashed.SmallWriteBuild H} (h : IsBuild s b) :
    Same IsBuild (s.addLiteral p v r : Outcome ε _) (b.addLiteral l r) := by
  unfold Build.addLiteral Hashed.SmallWriteBuild.addLiteral Ue2Literal.len
  rw [h.poisoned, hl.s, h.grey]
  split
  · exact .ok h
  split
  · exact .ok h
  simp only [h.numLiterals]
  split
  · exact .ok ⟨rfl, h.litTrie, h.litTrieNocase, rfl, rfl⟩
  rw [isLit_any hl]
  split
  · refine Same.bind (addToTrie_same p [4] hl r h.litTrieNocase) ?_
    rintro ⟨x, f⟩ ⟨y, f'⟩ ⟨hx, rfl : f = f'⟩
    exact .ok ⟨rfl, h.litTrie, hx, rfl, rfl⟩
  · refine Same.bind (addToTrie_same p [3] hl r h.litTrie) ?_
    rintro ⟨x, f⟩ ⟨y, f'⟩ ⟨hx, rfl : f = f'⟩
    exact .ok ⟨rfl, hx, h.litTrieNocase, rfl, rfl⟩

/-- The stored `Ng` is the `Ng`. -/
structure IsNg (s : Ng H) (n : Hashed.Ng H) : Prop where
  minWidth : s.minWidth = n.minWidth
  rm : s.rm = n.rm
  cc : s.cc = n.cc
  smwr : IsBuild s.smwr n.smwr
  rose : s.rose = n.rose

theorem ngAddLiteral_agree (p : Profile) {s : Ng H} {n : Hashed.Ng H} (h : IsNg s n) {v : Lit} {l : Ue2Literal}
    (hl : IsLit v l) (i r : Nat) (hi : Bool) (som : SomType) (q : Bool) :
    Agree (fun x y => IsNg x.1 y.1 ∧ x.2 = y.2) (s.addLiteral p v i r hi som q) (n.addLiteral p l i r hi som q) := by
  unfold Ng.addLiteral Hashed.Ng.addLiteral Ue2Literal.isEmpty Ue2Literal.len
  rw [h.cc, h.rm, h.rose, hl.s]
  refine Agree.bind (Agree.refl _) (fun _ _ _ => ?_)
  split
  · exact .ok ⟨h, rfl⟩
  rw [Stored.mixedSensitivity_eq p hl]
  show Agree _ (if Rescan.mixedSensitivity l.iter = true then _ else _) _
  split
  · exact .ok ⟨h, rfl⟩
  generalize n.rm.registerExtReport r ⟨hi, i⟩ = x
  obtain ⟨rm, x⟩ := x
  cases x with
  | error e => exact .err e
  | ok u =>
  refine Agree.bind (Agree.refl _) ?_
  rintro ⟨rm, rose, id⟩ _ rfl
  dsimp only
  cases id with
  | error e => exact .err e
  | ok id =>
  dsimp only
  generalize Depth.tryFrom l.s.length = d
  cases d with
  | none => exact .err _
  | some d =>
  refine Agree.bind (addLiteral_same p hl _ h.smwr).agree (fun a b hab => ?_)
  exact .ok ⟨⟨by rw [h.minWidth], rfl, rfl, hab, rfl⟩, rfl⟩

theorem shortcutLiteral_agree (p : Profile) {s : Ng H} {n : Hashed.Ng H} (h : IsNg s n) (pe : ParsedExpression)
    (hl : leaves pe.component < 2 ^ 64) :
    Agree (fun x y => IsNg x.1 y.1 ∧ x.2 = y.2) (shortcutLiteral p s pe) (Hashed.shortcutLiteral p n pe) := by
  unfold shortcutLiteral Hashed.shortcutLiteral Ue2Literal.isEmpty
  rw [h.cc]
  split
  · exact .ok ⟨h, rfl⟩
  have hw := walk_agree p isLit_default pe.component (by simpa [Ue2Literal.default] using hl)
  generalize walkComponent p (Stored.constructLiteralVisitor p) Lit.default pe.component = x at hw
  generalize walkComponent p Rescan.constructLiteralVisitor Ue2Literal.default pe.component = y at hw
  cases hw with
  | err e => exact .ok ⟨h, rfl⟩
  | panic m => exact .panic m
  | timeout => exact .timeout
  | @ok v l hv =>
    dsimp only
    rw [hv.1.s]
    split
    · exact .ok ⟨h, rfl⟩
    · refine Agree.bind (Agree.refl _) ?_
      rintro i _ rfl
      exact ngAddLiteral_agree p h hv.1 _ _ _ _ _

/-! ## The NFA graph -/

/-- The stored graph is the graph. -/
structure IsHolder (s : Holder H) (h : Hashed.NgHolder H) : Prop where
  inner : Holds s.inner h.inner
  start : s.start = h.start
  startDs : s.startDs = h.startDs
  accept : s.accept = h.accept
  acceptEod : s.acceptEod = h.acceptEod

/-- The stored builder is the builder. -/
structure IsNfa (s : NfaBuilder H) (b : Hashed.NfaBuilder H) : Prop where
  graph : IsHolder s.graph b.graph
  expr : s.expr = b.expr

/-- The stored state is the state. -/
structure IsGbs (s : GlushkovBuildState H) (b : Hashed.GlushkovBuildState H) : Prop where
  startState : s.startState = b.startState
  startDotStarState : s.startDotStarState = b.startDotStarState
  acceptState : s.acceptState = b.acceptState
  acceptEodState : s.acceptEodState = b.acceptEodState
  builder : IsNfa s.builder b.builder
  successors : s.successors = b.successors

theorem newHolder_agree (site : Site) :
    Agree IsHolder (Holder.new site : Outcome ε (Holder H)) (Hashed.NgHolder.new site) := by
  let d : Site → Hashed.NfaGraphVertexProps H := Hashed.NfaGraphVertexProps.default
  let f : Hashed.NfaGraphVertexProps H → Hashed.NfaGraphVertexProps H :=
    fun v => { v with charReach := v.charReach.setAll }
  let ts : List (Step (Hashed.NfaGraphVertexProps H)) :=
    [.node (d (0 :: site)), .node (d (1 :: site)), .node (d (2 :: site)), .node (d (3 :: site)), .edge 0 1, .edge 1 1,
      .edge 2 3, .weight 0 f, .weight 1 f]
  have key : ∃ s h, (Holder.new site : Outcome ε (Holder H)) = .ok s ∧
      (Hashed.NgHolder.new site : Outcome ε (Hashed.NgHolder H)) = .ok h ∧ IsHolder s h :=
    ⟨_, _, rfl, rfl, made_holds (ts := ts) ⟨rfl, rfl⟩, rfl, rfl, rfl, rfl⟩
  obtain ⟨s, h, h1, h2, h3⟩ := key
  rw [h1, h2]
  exact .ok h3

theorem newNfa_agree (e : ExpressionInfo) : 
    Agree IsNfa (NfaBuilder.new e : Outcome ε (NfaBuilder H)) (Hashed.NfaBuilder.new e) := by
  unfold NfaBuilder.new Hashed.NfaBuilder.new
  exact Agree.bind (newHolder_agree _) (fun _ _ h => .ok ⟨h, rfl⟩)

theorem makePosition_agree {s : NfaBuilder H} {b : Hashed.NfaBuilder H} (h : IsNfa s b) :
    Agree (fun x y => IsNfa x.1 y.1 ∧ x.2 = y.2) (s.makePosition : Outcome ε _) b.makePosition := by
  have hd : (Hashed.NfaGraphVertexProps.default (s.graph.inner.nodes.length :: [5, s.expr.index]) :
      Hashed.NfaGraphVertexProps H) = Hashed.NfaGraphVertexProps.default (b.graph.inner.nodes.length :: [5, b.expr.index]) := by
    rw [(length_eq h.graph.inner).1, h.expr]
  unfold NfaBuilder.makePosition Hashed.NfaBuilder.makePosition Hashed.NgHolder.addVertex
  show Agree _ (Outcome.bind (s.graph.inner.addNode (Hashed.NfaGraphVertexProps.default _)) _)
    (Outcome.bind (Outcome.bind (b.graph.inner.addNode _) _) _)
  rw [hd]
  generalize (Hashed.NfaGraphVertexProps.default (b.graph.inner.nodes.length :: [5, b.expr.index]) :
    Hashed.NfaGraphVertexProps H) = d
  have hn := same_addNode (ε := ε) h.graph.inner d
  generalize s.graph.inner.addNode (ε := ε) d = x at hn
  generalize b.graph.inner.addNode (ε := ε) d = y at hn
  cases hn with
  | panic m => exact .panic m
  | ok hab => exact .ok ⟨⟨⟨hab.1, h.graph.start, h.graph.startDs, h.graph.accept, h.graph.acceptEod⟩, h.expr⟩, hab.2⟩

theorem addCharReach_agree {s : NfaBuilder H} {b : Hashed.NfaBuilder H} (h : IsNfa s b) (pos : Nat) (cr : CharReach) :
    Agree IsNfa (s.addCharReach pos cr : Outcome ε _) (b.addCharReach pos cr) :=
  Agree.bind (same_modify (ε := ε) h.graph.inner pos _).agree (fun _ _ hab =>
    .ok ⟨⟨hab, h.graph.start, h.graph.startDs, h.graph.accept, h.graph.acceptEod⟩, h.expr⟩)

theorem getAssertFlag_eq {s : NfaBuilder H} {b : Hashed.NfaBuilder H} (h : IsNfa s b) (pos : Nat) :
    (s.getAssertFlag pos : Outcome ε _) = b.getAssertFlag pos := by
  unfold NfaBuilder.getAssertFlag Hashed.NfaBuilder.getAssertFlag Graph.weight
  rw [← h.graph.inner.nodes, List.getElem?_map]
  cases s.graph.inner.nodes[pos]? <;> rfl

theorem connectSuccessors_agree (p : Profile) {s : GlushkovBuildState H} {b : Hashed.GlushkovBuildState H} (h : IsGbs s b)
    (from_ : PositionInfo) (tolist : List PositionInfo) :
    Agree IsGbs (s.connectSuccessors p from_ tolist : Outcome ε _) (b.connectSuccessors p from_ tolist) := by
  unfold GlushkovBuildState.connectSuccessors Hashed.GlushkovBuildState.connectSuccessors
  have hf : (s.filterEdges from_ tolist : Outcome ε _) = b.filterEdges from_ tolist := by
    unfold GlushkovBuildState.filterEdges Hashed.GlushkovBuildState.filterEdges
    rw [getAssertFlag_eq h.builder, h.startDotStarState, h.startState, h.acceptEodState]
  refine Agree.bind (Agree.refl _) (fun _ _ _ => ?_)
  rw [hf]
  refine Agree.bind (Agree.refl _) ?_
  rintro t _ rfl
  dsimp only
  rw [h.acceptState]
  split
  · refine Agree.bind (makePosition_agree h.builder) ?_
    rintro ⟨s', v⟩ ⟨b', v'⟩ ⟨hb, rfl : v = v'⟩
    exact .ok ⟨h.startState, h.startDotStarState, rfl, h.acceptEodState, hb, by
      have he : s'.expr = b'.expr := hb.expr
      simp only [h.successors, he]⟩
  · exact .ok ⟨h.startState, h.startDotStarState, h.acceptState, h.acceptEodState, h.builder, by
      simp only [h.successors, h.builder.expr]⟩

theorem connectRegions_agree (p : Profile) (firsts : List PositionInfo) : ∀ (lasts : List PositionInfo)
    {s : GlushkovBuildState H} {b : Hashed.GlushkovBuildState H}, IsGbs s b →
    Agree IsGbs (s.connectRegions p lasts firsts : Outcome ε _) (b.connectRegions p lasts firsts)
  | [], s, b, h => .ok h
  | x :: xs, s, b, h => by
    unfold GlushkovBuildState.connectRegions Hashed.GlushkovBuildState.connectRegions
    rw [List.foldlM_cons, List.foldlM_cons]
    exact Agree.bind (connectSuccessors_agree p h x firsts) (fun _ _ h' => connectRegions_agree p firsts xs h')

theorem newGbs_agree (p : Profile) {s : NfaBuilder H} {b : Hashed.NfaBuilder H} (h : IsNfa s b) :
    Agree IsGbs (GlushkovBuildState.new p s : Outcome ε _) (Hashed.GlushkovBuildState.new p b) := by
  unfold GlushkovBuildState.new Hashed.GlushkovBuildState.new
  dsimp only
  rw [h.graph.start, h.graph.startDs, h.graph.accept, h.graph.acceptEod]
  exact connectRegions_agree p _ _ ⟨rfl, rfl, rfl, rfl, h, by simp only [h.expr]⟩

theorem noteClass_agree {s : GlushkovBuildState H} {b : Hashed.GlushkovBuildState H} (h : IsGbs s b)
    (c : AsciiComponentClass) : Agree IsGbs (s.noteClass c : Outcome ε _) (b.noteClass c) := by
  unfold GlushkovBuildState.noteClass Hashed.GlushkovBuildState.noteClass
  refine Agree.bind (makePosition_agree h.builder) ?_
  rintro ⟨s', v⟩ ⟨b', v'⟩ ⟨hb, rfl : v = v'⟩
  refine Agree.bind (addCharReach_agree hb v c.cr) (fun _ _ hab => ?_)
  exact .ok ⟨h.startState, h.startDotStarState, h.acceptState, h.acceptEodState, hab, h.successors⟩

mutual
theorem note_agree : ∀ (c : Component) {s : GlushkovBuildState H} {b : Hashed.GlushkovBuildState H}, IsGbs s b →
    Agree IsGbs (s.noteComponent c : Outcome ε _) (b.noteComponent c)
  | .alternation (.mk cs), s, b, h => by
    unfold GlushkovBuildState.noteComponent Hashed.GlushkovBuildState.noteComponent
    exact noteSeqs_agree cs h
  | .cls (.ascii c), s, b, h => by
    unfold GlushkovBuildState.noteComponent Hashed.GlushkovBuildState.noteComponent
    exact noteClass_agree h c
  | .sequence q, s, b, h => by
    unfold GlushkovBuildState.noteComponent Hashed.GlushkovBuildState.noteComponent
    exact noteSeq_agree q h
theorem noteSeq_agree : ∀ (q : ComponentSequence) {s : GlushkovBuildState H} {b : Hashed.GlushkovBuildState H}, IsGbs s b →
    Agree IsGbs (s.noteSequence q : Outcome ε _) (b.noteSequence q)
  | .mk cs _ _ _, s, b, h => by
    unfold GlushkovBuildState.noteSequence Hashed.GlushkovBuildState.noteSequence
    exact noteAll_agree cs h
theorem noteSeqs_agree : ∀ (qs : List ComponentSequence) {s : GlushkovBuildState H} {b : Hashed.GlushkovBuildState H},
    IsGbs s b → Agree IsGbs (s.noteSequences qs : Outcome ε _) (b.noteSequences qs)
  | [], s, b, h => by
    unfold GlushkovBuildState.noteSequences Hashed.GlushkovBuildState.noteSequences
    exact .ok h
  | q :: qs, s, b, h => by
    unfold GlushkovBuildState.noteSequences Hashed.GlushkovBuildState.noteSequences
    exact Agree.bind (noteSeq_agree q h) (fun _ _ h' => noteSeqs_agree qs h')
theorem noteAll_agree : ∀ (cs : List Component) {s : GlushkovBuildState H} {b : Hashed.GlushkovBuildState H}, IsGbs s b →
    Agree IsGbs (s.noteComponents cs : Outcome ε _) (b.noteComponents cs)
  | [], s, b, h => by
    unfold GlushkovBuildState.noteComponents Hashed.GlushkovBuildState.noteComponents
    exact .ok h
  | c :: cs, s, b, h => by
    unfold GlushkovBuildState.noteComponents Hashed.GlushkovBuildState.noteComponents
    exact Agree.bind (note_agree c h) (fun _ _ h' => noteAll_agree cs h')
end

theorem buildGraph_agree (p : Profile) (pe : ParsedExpression) :
    Agree IsNfa (buildGraph p pe : Outcome ε (NfaBuilder H)) (Hashed.buildGraph p pe) := by
  unfold buildGraph Hashed.buildGraph
  refine Agree.bind (newNfa_agree pe.expr) (fun s b h => ?_)
  refine Agree.bind (newGbs_agree p h) (fun s b h => ?_)
  refine Agree.bind (note_agree pe.component h) (fun s b h => ?_)
  exact .ok h.builder

/-! ## The compiler -/

theorem addExpression_agree (p : Profile) {s : Ng H} {n : Hashed.Ng H} (h : IsNg s n) (i : Nat) (e : Str) (f : Flags)
    (id : Nat) (he : utf8Len e < 2 ^ 64) :
    Agree IsNg (addExpression p s i (encode e) f id) (Hashed.addExpression p n i e f id) := by
  unfold addExpression Hashed.addExpression
  rw [newParsed_eq, (C89_utf8.2.2 e).2, h.cc]
  split
  · exact .err _
  cases hp : ParsedExpression.new p i e f id with
  | err e => exact .err e
  | panic m => exact .panic m
  | timeout => exact .timeout
  | ok pe =>
    obtain ⟨m, hparse, _⟩ := parsedExpression_ok hp
    have hl := parse_leaves hparse
    have hpe : (if pe.expr.prefilter then { pe with component := prefilterTree pe.component } else pe) = pe := by
      split <;> rfl
    simp only [bind, Outcome.bind, hpe]
    refine Agree.bind (shortcutLiteral_agree p h pe (by omega)) ?_
    rintro ⟨s', d⟩ ⟨n', d'⟩ ⟨h', rfl : d = d'⟩
    dsimp only
    split
    · exact .ok h'
    · refine Agree.bind (buildGraph_agree p _) (fun a b hab => ?_)
      refine .ok ?_
      unfold Ng.addGraph Hashed.Ng.addGraph
      rw [hab.expr]
      split
      · exact ⟨h'.minWidth, h'.rm, h'.cc, h'.smwr, by rw [h'.rose]⟩
      · exact h'

theorem addAll_agree (p : Profile) : ∀ (xs : List (Str × Flags × Nat)) (i : Nat) {s : Ng H} {n : Hashed.Ng H}, IsNg s n →
    (∀ x ∈ xs, utf8Len x.1 < 2 ^ 64) →
    Agree IsNg (addAll p i s (xs.map (fun x => (encode x.1, x.2)))) (Hashed.addAll p i n xs)
  | [], i, s, n, h, _ => .ok h
  | (e, f, id) :: xs, i, s, n, h, hx => by
    rw [List.map_cons]
    unfold addAll Hashed.addAll
    have ha := addExpression_agree p h i e f id (hx (e, f, id) (by simp))
    dsimp only
    generalize addExpression p s i (encode e) f id = x at ha
    generalize Hashed.addExpression p n i e f id = y at ha
    cases ha with
    | err e => exact (Agree.refl _).bind (fun a b hab => hab ▸ (Agree.refl _).bind (fun a b hab => hab ▸ .err _))
    | panic m => exact .panic m
    | timeout => exact .timeout
    | ok h' => exact addAll_agree p xs (i + 1) h' (fun x hx' => hx x (by simp [hx']))

theorem compileNg_agree (p : Profile) (es : List Str) (fs : List Flags) (ids : List Nat) (mode : Mode) (g : Grey)
    (he : ∀ e ∈ es, utf8Len e < 2 ^ 64) :
    Agree IsNg (compileNg (H := H) p (es.map encode) fs ids mode g) (Hashed.compileNg p es fs ids mode g) := by
  unfold compileNg Hashed.compileNg
  rw [List.length_map, List.isEmpty_map]
  split
  · exact .err _
  split
  · exact .err _
  obtain ⟨w, h1, h2⟩ := new_build (ε := CompileError) (H := H) es.length g
  rw [izip_encode]
  unfold Ng.new
  show Agree _ (Outcome.bind (Outcome.bind (Build.new es.length g) _) _) _
  rw [h1]
  exact addAll_agree p (Rescan.izip es fs ids) 0 ⟨rfl, rfl, rfl, h2, rfl⟩ (fun x hx => he _ (izip_mem es fs ids x hx))

/-! ## Graphs offered to the small-write builder -/

theorem foldReports_eq {s : PGraph (Hashed.NfaGraphVertexProps H)} {h : Hashed.NgHolder H} (hh : Holds s h.inner) :
    ∀ (fuel : Nat) (it : PGraph.Neighbors) (u : H.ids.M) (vs : List Nat), (s.collect it fuel : Outcome ε _) = .ok vs →
      (∀ v ∈ vs, v < s.nodes.length) →
      (foldReports s fuel it u : Outcome ε _) = .ok (h.foldReports u vs)
  | 0, it, u, vs, hc, _ => by cases hc
  | fuel + 1, it, u, vs, hc, hv => by
    unfold foldReports
    rcases collect_cases hc with ⟨it', h1, rfl⟩ | ⟨v, it', rest, h1, h2, rfl⟩
    · rw [h1]; rfl
    · have hv0 := hv v (by simp)
      rw [h1]
      show Outcome.bind (index s.nodes v) _ = _
      unfold index
      rw [List.getElem?_eq_getElem hv0]
      unfold Hashed.NgHolder.foldReports
      rw [List.foldl_cons, weight_at hh hv0]
      exact foldReports_eq hh fuel it' _ rest h2 (fun v hv' => hv v (by simp [hv']))

theorem allReports_eq {s : Holder H} {h : Hashed.NgHolder H} (hh : IsHolder s h) (site : Site) :
    (s.allReports site : Outcome ε _) = .ok (h.allReports site) := by
  have hl := (length_eq hh.inner).2
  have key : ∀ v u, (foldReports s.inner (s.inner.edges.length + 1) (s.inner.neighborsIn v) u : Outcome ε _)
      = .ok (h.foldReports u (h.inner.incoming v)) := fun v u =>
    foldReports_eq hh.inner _ _ u _
      (holds_neighbors hh.inner v _ (by rw [hl]; exact Nat.lt_succ_self _)).2 (incoming_lt hh.inner v)
  unfold Holder.allReports Hashed.NgHolder.allReports
  rw [hh.accept, hh.acceptEod]
  show Outcome.bind (foldReports _ _ _ _) _ = _
  rw [key]
  exact key _ _

theorem isVacuous_eq {s : Holder H} {h : Hashed.NgHolder H} (hh : IsHolder s h) :
    (s.isVacuous : Outcome ε _) = .ok h.isVacuous := by
  have hf : h.inner.edges.length < s.inner.edges.length + 1 := by
    rw [(length_eq hh.inner).2]; exact Nat.lt_succ_self _
  unfold Holder.isVacuous Hashed.NgHolder.isVacuous
  have key : ∀ a b, ∃ r, (s.inner.findEdge (s.inner.edges.length + 1) a b : Outcome ε _) = .ok r ∧
      r.isSome = h.inner.hasEdge a b := fun a b =>
    let ⟨r, e1, e2, _⟩ := holds_find (ε := ε) hh.inner a b _ hf
    ⟨r, e1, e2⟩
  obtain ⟨a, a1, a2⟩ := key h.start h.accept
  obtain ⟨b, b1, b2⟩ := key h.start h.acceptEod
  obtain ⟨c, c1, c2⟩ := key h.startDs h.accept
  obtain ⟨d, d1, d2⟩ := key h.startDs h.acceptEod
  dsimp only
  rw [hh.start, hh.startDs, hh.accept, hh.acceptEod, a1, b1, c1, d1, ← a2, ← b2, ← c2, ← d2]
  cases a <;> cases b <;> cases c <;> cases d <;> rfl

theorem addGraph_agree {sw : Build H} {b : Hashed.SmallWriteBuild H} (hs : IsBuild sw b) (rm : Hashed.ReportManager H)
    {s : Holder H} {g : Hashed.NgHolder H} (hg : IsHolder s g) (expr : ExpressionInfo) :
    Agree IsBuild (sw.addExpression rm s expr : Outcome ε _) (b.addExpression rm g expr) := by
  unfold Build.addExpression Hashed.SmallWriteBuild.addExpression
  rw [hs.poisoned, isVacuous_eq hg, allReports_eq hg]
  have hpo : IsBuild { sw with poisoned := true } { b with poisoned := true } :=
    ⟨hs.grey, hs.litTrie, hs.litTrieNocase, hs.numLiterals, rfl⟩
  split
  · exact .ok hs
  split
  · exact .ok hpo
  show Agree IsBuild (if g.isVacuous = true then _ else _) _
  split
  · exact .ok hpo
  · show Agree IsBuild (Outcome.bind (Hashed.SmallWriteBuild.anyMinLength rm _) _)
      (Outcome.bind (Hashed.SmallWriteBuild.anyMinLength rm _) _)
    refine Agree.bind (Agree.refl _) ?_
    rintro x _ rfl
    split
    · exact .ok hpo
    · exact .panic _

/-- Agreement is transitive. -/
theorem agree_trans {α β γ : Type} {R : α → β → Prop} {Q : β → γ → Prop} {S : α → γ → Prop} {x : Outcome ε α}
    {y : Outcome ε β} {z : Outcome ε γ} (h : Agree R x y) (k : Agree Q y z) (hs : ∀ a b c, R a b → Q b c → S a c) :
    Agree S x z := by
  cases h with
  | ok h => cases k with | ok k => exact .ok (hs _ _ _ h k)
  | err e => cases k; exact .err e
  | panic m => cases k; exact .panic m
  | timeout => cases k; exact .timeout

end Rescan.Whole
