import Verif.Proofs.Whole
import Verif.Props.Reference
/-! # Property C111: the compiler with all its stored forms at once -/
namespace Rescan.Whole

open Rescan.Petgraph
open Rescan.Spec (encode Utf8)
open Rescan.Hashed (Hashing Site)
open Rescan.Stored (Agree)

variable {ε : Type} {H : Hashing}

/-- What can be seen of a trie: its root, the byte of each vertex, the set of its reports in the order of its table, and,
for any index, the vertices that the links lead to, in their order. -/
structure Sees (s : Trie H) (t : Rescan.LitTrie) : Prop where
  root : s.root = t.root
  bytes : s.inner.nodes.map (·.weight.c) = t.inner.nodes.map (·.c)
  reports : ∀ (i : Nat) a b, s.inner.nodes[i]? = some a → t.inner.nodes[i]? = some b →
    ((H.ids.iter a.weight.reports).map Prod.fst).Perm b.reports
  edges : s.inner.edges.length = t.inner.edges.length
  out : ∀ u, (s.inner.collect (s.inner.neighborsOut u) (s.inner.edges.length + 1) : Outcome Empty _)
    = .ok (t.inner.outgoing u)

theorem sees (h : H.Lawful) {s : Trie H} {m : Hashed.LitTrie H} {t : Rescan.LitTrie} (hs : IsTrie s m)
    (hm : Hashed.TRel m t) : Sees s t := by
  obtain ⟨h1, h2, h3, h4⟩ := Hashed.same_trie h hm
  refine ⟨hs.root.trans h1, ?_, fun i a b ha hb => ?_, ?_, fun u => ?_⟩
  · rw [← h3, ← hs.inner.nodes, List.map_map]; rfl
  · refine h4 i a.weight b ?_ hb
    rw [← hs.inner.nodes, List.getElem?_map, ha]; rfl
  · rw [(length_eq hs.inner).2, h2]
  · rw [(holds_neighbors hs.inner u _ (by rw [(length_eq hs.inner).2]; exact Nat.lt_succ_self _)).1]
    unfold Graph.outgoing
    rw [h2]

/-- **C111.** Compiling any patterns, as the UTF-8 bytes they are, on blocks, linked lists, checked arithmetic and hash
tables of any layout, ends just as on plain lists: with the same failure, or with an `Ng` that has the same minimum
width, settings and reports under the same ids, the same match ids and keys, the same counts and flags of the
small-write builder, and tries that look the same. -/
theorem C111_ng (h : H.Lawful) (p : Profile) (es : List Str) (fs : List Flags) (ids : List Nat) (mode : Mode) (g : Grey)
    (he : ∀ e ∈ es, utf8Len e < 2 ^ 64) :
    Agree (fun (s : Ng H) n => s.minWidth = n.minWidth ∧ s.cc = n.cc ∧ s.rose = n.rose ∧
        s.rm.limitReportCount = n.rm.limitReportCount ∧
        s.rm.reportIds = n.rm.reportIds ∧ s.rm.globalExhaust = n.rm.globalExhaust ∧
        (∀ r, H.reports.get s.rm.reportIdToInternalMap r = alookup n.rm.reportIdToInternalMap r) ∧
        (∀ i, H.external.get s.rm.externalIdMap i = alookup n.rm.externalIdMap i) ∧
        H.external.len s.rm.externalIdMap = n.rm.externalIdMap.length ∧
        (∀ k, H.ekeys.get s.rm.toExhaustibleKeyMap k = alookup n.rm.toExhaustibleKeyMap k) ∧
        H.ekeys.len s.rm.toExhaustibleKeyMap = n.rm.toExhaustibleKeyMap.length ∧
        s.smwr.grey = n.smwr.grey ∧ s.smwr.numLiterals = n.smwr.numLiterals ∧ s.smwr.poisoned = n.smwr.poisoned ∧
        Sees s.smwr.litTrie n.smwr.litTrie ∧ Sees s.smwr.litTrieNocase n.smwr.litTrieNocase)
      (compileNg p (es.map encode) fs ids mode g) (Rescan.compileNg p es fs ids mode g) :=
  agree_trans (compileNg_agree p es fs ids mode g he) (Hashed.compileNg_agree h p es fs ids mode g)
    (fun s m n a r => ⟨a.minWidth.trans r.minWidth, a.cc.trans r.cc, a.rose.trans r.rose, by rw [a.rm, r.rm.limit],
      by rw [a.rm, r.rm.ids], by rw [a.rm, r.rm.exhaust], by rw [a.rm]; exact r.rm.internal.get,
      by rw [a.rm]; exact r.rm.external.get, by rw [a.rm]; exact Hashed.mapRel_len h.external r.rm.external,
      by rw [a.rm]; exact r.rm.keys.get, by rw [a.rm]; exact Hashed.mapRel_len h.ekeys r.rm.keys,
      a.smwr.grey.trans r.smwr.grey, a.smwr.numLiterals.trans r.smwr.numLiterals, a.smwr.poisoned.trans r.smwr.poisoned,
      sees h a.smwr.litTrie r.smwr.litTrie, sees h a.smwr.litTrieNocase r.smwr.litTrieNocase⟩)

example := C111_ng Hashed.someHashing_lawful .release ["ab".toList, "c".toList, "a|b".toList] [⟨0⟩, Flags.CASELESS, ⟨0⟩] [1, 1, 3] .block Grey.default
  (by decide +kernel)

/-- **C111.** In particular the outcome of compilation is the same. -/
theorem C111_compile (h : H.Lawful) (p : Profile) (es : List Str) (fs : List Flags) (ids : List Nat) (mode : Mode)
    (g : Grey) (he : ∀ e ∈ es, utf8Len e < 2 ^ 64) :
    compileMultiInt H p (es.map encode) fs ids mode g = Rescan.compileMultiInt p es fs ids mode g := by
  unfold compileMultiInt Rescan.compileMultiInt Rescan.build
  refine Agree.eq (Agree.bind (C111_ng h p es fs ids mode g he) (fun a b r => ?_))
  rw [r.2.2.1]
  exact Agree.refl _

example := C111_compile Hashed.someHashing_lawful .debug ["ab".toList, "c".toList, "a|b".toList] [⟨0⟩, Flags.CASELESS, ⟨0⟩] [1, 1, 3] .block Grey.default
  (by decide +kernel)

theorem decoded {bs : List (List U8)} (h : ∀ b ∈ bs, Utf8 b ∧ b.length < 2 ^ 63) :
    (bs.map Bytes.decode).map encode = bs ∧ ∀ e ∈ bs.map Bytes.decode, utf8Len e < 2 ^ 64 := by
  have henc : ∀ b ∈ bs, encode (Bytes.decode b) = b := by
    intro b hb
    obtain ⟨s, rfl⟩ := (C89_utf8.1 b).1 (h b hb).1
    rw [(C89_utf8.2.2 s).1]
  constructor
  · rw [List.map_map]
    exact (List.map_congr_left henc).trans (List.map_id bs)
  · intro e he
    obtain ⟨b, hb, rfl⟩ := List.mem_map.1 he
    rw [← (C89_utf8.2.2 (Bytes.decode b)).2, henc b hb]
    have := (h b hb).2
    omega

/-- **C111.** So every `&[&str]` — any well-formed UTF-8, of at most `isize::MAX` bytes each — compiles as the texts it
encodes, whatever the layout of the hash tables. -/
theorem C111_str (h : H.Lawful) (p : Profile) (bs : List (List U8)) (fs : List Flags) (ids : List Nat) (mode : Mode)
    (g : Grey) (hb : ∀ b ∈ bs, Utf8 b ∧ b.length < 2 ^ 63) :
    compileMultiInt H p bs fs ids mode g = Rescan.compileMultiInt p (bs.map Bytes.decode) fs ids mode g := by
  have := C111_compile h p (bs.map Bytes.decode) fs ids mode g (decoded hb).2
  rwa [(decoded hb).1] at this

example := C111_str Hashed.someHashing_lawful .release [encode "a|é".toList] [Flags.CASELESS] [1] .block Grey.default
  (by
    intro b hb
    rw [List.mem_singleton] at hb
    subst hb
    exact ⟨(C89_utf8.1 _).2 ⟨_, rfl⟩, by decide +kernel⟩)

/-- **C111.** And that is what the reference compiler of `Spec/Reference.lean` answers, if the limits are at most those
that `u32` can count. -/
theorem C111_reference (h : H.Lawful) (p : Profile) (bs : List (List U8)) (fs : List Flags) (ids : List Nat) (mode : Mode)
    (g : Grey) (hs : Sane g) (hb : ∀ b ∈ bs, Utf8 b ∧ b.length < 2 ^ 63) :
    compileMultiInt H p bs fs ids mode g =
      (Spec.Reference.compile p (bs.map Bytes.decode) fs ids mode g).bind (fun m => .ok (ofMode m)) := by
  rw [C111_str h p bs fs ids mode g hb, C105_reference p _ fs ids mode g hs]

example := C111_reference Hashed.someHashing_lawful .release [encode "a|é".toList] [Flags.CASELESS] [1] .block Grey.default
  sane_default (by
    intro b hb
    rw [List.mem_singleton] at hb
    subst hb
    exact ⟨(C89_utf8.1 _).2 ⟨_, rfl⟩, by decide +kernel⟩)

/-- **C111.** Building the NFA graph of any tree: the same failure, or the same expression and special vertices, as many
vertices with the same bytes, flags and sets of reports, and, from any index, the same neighbours both ways. -/
theorem C111_graph (h : H.Lawful) (p : Profile) (pe : ParsedExpression) :
    Agree (fun (s : NfaBuilder H) (b : Rescan.NfaBuilder) => s.expr = b.expr ∧
        s.graph.inner.nodes.length = b.graph.inner.nodes.length ∧
        (∀ (i : Nat) u v, s.graph.inner.nodes[i]? = some u → b.graph.inner.nodes[i]? = some v →
          u.weight.charReach = v.charReach ∧ u.weight.assertFlags = v.assertFlags ∧
            ((H.ids.iter u.weight.reports).map Prod.fst).Perm v.reports) ∧
        (∀ v fuel, b.graph.inner.edges.length < fuel →
          (s.graph.inner.collect (s.graph.inner.neighborsOut v) fuel : Outcome ε _) = .ok (b.graph.inner.outgoing v) ∧
          (s.graph.inner.collect (s.graph.inner.neighborsIn v) fuel : Outcome ε _) = .ok (b.graph.inner.incoming v)) ∧
        s.graph.start = b.graph.start ∧ s.graph.startDs = b.graph.startDs ∧ s.graph.accept = b.graph.accept ∧
        s.graph.acceptEod = b.graph.acceptEod)
      (buildGraph p pe : Outcome ε _) (Rescan.buildGraph p pe) :=
  agree_trans (buildGraph_agree p pe) (Hashed.buildGraph_agree h p pe) (fun s m b a r =>
    ⟨a.expr.trans r.expr, (length_eq a.graph.inner).1.trans r.graph.inner.len, fun i u v hu hv => by
      have := r.graph.inner.at_ i u.weight v (by rw [← a.graph.inner.nodes, List.getElem?_map, hu]; rfl) hv
      exact ⟨this.1, this.2.2, Hashed.setRel_iter h.ids this.2.1⟩,
     fun v fuel hf => by
      have hn := holds_neighbors (ε := ε) a.graph.inner v fuel (by rw [r.graph.inner.edges]; exact hf)
      rw [hn.1, hn.2]
      unfold Graph.outgoing Graph.incoming
      rw [r.graph.inner.edges]
      exact ⟨rfl, rfl⟩,
     a.graph.start.trans r.graph.start, a.graph.startDs.trans r.graph.startDs, a.graph.accept.trans r.graph.accept,
     a.graph.acceptEod.trans r.graph.acceptEod⟩)

example (pe : ParsedExpression) := C111_graph (ε := Empty) Hashed.someHashing_lawful .debug pe

/-- **C111.** The state in which that graph is built has the same special states and, at every position, the same set of
successors, or none in both. -/
theorem C111_state (h : H.Lawful) (p : Profile) (pe : ParsedExpression) :
    Agree (fun (s : GlushkovBuildState H) (b : Rescan.GlushkovBuildState) => s.startState = b.startState ∧
        s.startDotStarState = b.startDotStarState ∧ s.acceptState = b.acceptState ∧
        s.acceptEodState = b.acceptEodState ∧
        (∀ k, (H.successors.get s.successors k = none ↔ alookup b.successors k = none) ∧
          ∀ u v, H.successors.get s.successors k = some u → alookup b.successors k = some v →
            ((H.positions.iter u).map Prod.fst).Perm v))
      (do
        let s ← NfaBuilder.new pe.expr
        let s ← GlushkovBuildState.new p s
        s.noteComponent pe.component : Outcome ε _)
      (do
        let b ← Rescan.NfaBuilder.new pe.expr
        let b ← Rescan.GlushkovBuildState.new p b
        b.noteComponent pe.component) := by
  have key : Agree IsGbs
      (do
        let s ← NfaBuilder.new pe.expr
        let s ← GlushkovBuildState.new p s
        s.noteComponent pe.component : Outcome ε (GlushkovBuildState H))
      (do
        let b ← Hashed.NfaBuilder.new pe.expr
        let b ← Hashed.GlushkovBuildState.new p b
        b.noteComponent pe.component) := by
    refine Agree.bind (newNfa_agree pe.expr) (fun s b r => ?_)
    refine Agree.bind (newGbs_agree p r) (fun s b r => ?_)
    exact note_agree pe.component r
  refine agree_trans key (Hashed.C94_state h p pe) (fun s m b a r => ?_)
  obtain ⟨r1, r2, r3, r4, r5, _⟩ := r
  refine ⟨a.startState.trans r1, a.startDotStarState.trans r2, a.acceptState.trans r3, a.acceptEodState.trans r4, ?_⟩
  rw [a.successors]
  exact r5

example (pe : ParsedExpression) := C111_state (ε := Empty) Hashed.someHashing_lawful .debug pe

/-- **C111.** Offering the graph of any tree to the small-write builder that some patterns left behind (the code never
does): the same on all the stored forms as on plain lists. -/
theorem C111_add_expression (h : H.Lawful) (p : Profile) (es : List Str) (fs : List Flags) (ids : List Nat) (mode : Mode)
    (g : Grey) (he : ∀ e ∈ es, utf8Len e < 2 ^ 64) (pe : ParsedExpression)
    (hp : (Spec.leaves pe.component).length < 2 ^ 32 - 4) (expr : ExpressionInfo) :
    Agree (fun (s : Build H) (b : Rescan.SmallWriteBuild) => s.poisoned = b.poisoned ∧ s.numLiterals = b.numLiterals ∧
        Sees s.litTrie b.litTrie ∧ Sees s.litTrieNocase b.litTrieNocase)
      (do
        let ng ← compileNg p (es.map encode) fs ids mode g
        let gr ← buildGraph p pe
        ng.smwr.addExpression ng.rm gr.graph expr)
      (do
        let ng ← Rescan.compileNg p es fs ids mode g
        let gr ← Rescan.buildGraph p pe
        ng.smwr.addExpression ng.rm gr.graph expr) := by
  refine Agree.bind (agree_trans (S := fun (s : Ng H) n => ∃ m, IsNg s m ∧ Hashed.NgRel m n)
    (compileNg_agree p es fs ids mode g he) (Hashed.compileNg_agree h p es fs ids mode g)
    (fun s m n a r => ⟨m, a, r⟩)) ?_
  rintro s n ⟨m, a, r⟩
  obtain ⟨b, h1, _, h3⟩ := Rescan.buildGraph_eq (ε := CompileError) p pe (by omega)
  have hx : b.graph.allReports = [] := by rw [h3]; rfl
  have hb := agree_trans (ε := CompileError) (S := fun (s : NfaBuilder H) n => ∃ m, IsNfa s m ∧ Hashed.NRel m n)
    (buildGraph_agree p pe) (Hashed.buildGraph_agree h p pe) (fun s m n a r => ⟨m, a, r⟩)
  rw [h1] at hb
  show Agree _ (Outcome.bind (buildGraph p pe) _) (Outcome.bind (Rescan.buildGraph p pe) _)
  rw [h1]
  generalize (buildGraph p pe : Res (NfaBuilder H)) = x at hb ⊢
  cases hb with
  | ok hq =>
  obtain ⟨gm, ga, gr⟩ := hq
  show Agree _ (Build.addExpression _ _ _ _) (Rescan.SmallWriteBuild.addExpression _ _ _ _)
  rw [a.rm]
  exact agree_trans (addGraph_agree a.smwr m.rm ga.graph expr)
    (Hashed.C94_add_expression h r.smwr r.rm gr.graph (by rw [hx]; intro id hid; cases hid) expr)
    (fun s m n a r => ⟨a.poisoned.trans r.poisoned, a.numLiterals.trans r.numLiterals, sees h a.litTrie r.litTrie,
      sees h a.litTrieNocase r.litTrieNocase⟩)

/-! ## Concrete cases -/

/-- A literal, a caseless literal with the same id and an alternation compile; a non-ASCII pattern panics. -/
example : (compileMultiInt Hashed.someHashing .release (["ab".toList, "c".toList, "a|b".toList].map encode)
    [⟨0⟩, Flags.CASELESS, ⟨0⟩] [1, 1, 3] .block Grey.default).isOk = true ∧
    (compileMultiInt Hashed.someHashing .release (["é".toList].map encode) [⟨0⟩] [1] .block Grey.default).isPanic = true := by
  rw [C111_compile Hashed.someHashing_lawful _ _ _ _ _ _ (by decide +kernel), C111_compile Hashed.someHashing_lawful _ _ _ _ _ _ (by decide +kernel)]
  decide +kernel

/-- The bytes of `a(b|c)` are well-formed UTF-8 and short. -/
example : ∀ b ∈ [encode "a(b|c)".toList, encode "é".toList], Utf8 b ∧ b.length < 2 ^ 63 := by
  intro b hb
  rcases List.mem_cons.1 hb with rfl | hb
  · exact ⟨(C89_utf8.1 _).2 ⟨_, rfl⟩, by decide +kernel⟩
  · rw [List.mem_singleton] at hb
    subst hb
    exact ⟨(C89_utf8.1 _).2 ⟨_, rfl⟩, by decide +kernel⟩

/-- The graph of `a(b|c)` has three vertices besides the special ones. -/
example : (match ParsedExpression.new .release 0 "a(b|c)".toList ⟨0⟩ 7 with
    | .ok pe => decide ((Spec.leaves pe.component).length < 2 ^ 32 - 4) &&
      (match (Rescan.buildGraph .release pe : Outcome Empty _) with
        | .ok b => b.graph.inner.nodes.length == 7
        | _ => false)
    | _ => false) = true := by decide +kernel

end Rescan.Whole
