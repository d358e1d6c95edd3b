import Verif.Model.Completed
import Verif.Props.Graph
import Verif.Props.Expression
import Verif.Proofs.Glushkov
import Verif.Proofs.Trie
/-! # The completed graph builder -/
namespace Rescan.Completed
open Spec Glushkov GlushkovBuildState

variable {ε : Type}

/-- A build state as it is while positions are noted and wired. -/
structure Good (bs : GlushkovBuildState) : Prop where
  start : bs.startState = 0
  startDs : bs.startDotStarState = 1
  accept : bs.acceptState = 2
  eod : bs.acceptEodState = 3
  flags : ∀ v ∈ bs.builder.graph.inner.nodes, v.assertFlags = PosFlags.default
  room : bs.builder.graph.inner.nodes.length < 2 ^ 32 - 2

/-- `r` is `bs` with exactly the successors `next` added. -/
def Wired (bs : GlushkovBuildState) (r : Outcome ε GlushkovBuildState) (next : Nat → Nat → Prop) : Prop :=
  ∃ bs', r = .ok bs' ∧ bs'.builder = bs.builder ∧
    (bs'.startState, bs'.startDotStarState, bs'.acceptState, bs'.acceptEodState)
      = (bs.startState, bs.startDotStarState, bs.acceptState, bs.acceptEodState) ∧
    ∀ q x, x ∈ successorsOf bs' q ↔ x ∈ successorsOf bs q ∨ (x.flags = PosFlags.default ∧ next q x.pos)

theorem Good.same {bs bs' : GlushkovBuildState} (h : Good bs) (hb : bs'.builder = bs.builder)
    (hs : (bs'.startState, bs'.startDotStarState, bs'.acceptState, bs'.acceptEodState)
      = (bs.startState, bs.startDotStarState, bs.acceptState, bs.acceptEodState)) : Good bs' := by
  simp only [Prod.mk.injEq] at hs
  obtain ⟨h1, h2, h3, h4⟩ := hs
  exact ⟨h1.trans h.start, h2.trans h.startDs, h3.trans h.accept, h4.trans h.eod, by rw [hb]; exact h.flags,
    by rw [hb]; exact h.room⟩

theorem wired_refl (bs : GlushkovBuildState) : Wired (ε := ε) bs (.ok bs) (fun _ _ => False) :=
  ⟨bs, rfl, rfl, rfl, fun q x => by simp⟩

theorem Wired.bind {bs : GlushkovBuildState} {r : Outcome ε GlushkovBuildState}
    {f : GlushkovBuildState → Outcome ε GlushkovBuildState} {n1 n2 n3 : Nat → Nat → Prop} (hg : Good bs)
    (h1 : Wired bs r n1)
    (h2 : ∀ bs', Good bs' → bs'.builder = bs.builder → Wired bs' (f bs') n2)
    (h3 : ∀ x y, n3 x y ↔ n1 x y ∨ n2 x y) : Wired bs (r.bind f) n3 := by
  obtain ⟨b1, e1, e2, e3, e4⟩ := h1
  obtain ⟨b2, f1, f2, f3, f4⟩ := h2 b1 (hg.same e2 e3) e2
  refine ⟨b2, ?_, f2.trans e2, f3.trans e3, fun q x => ?_⟩
  · rw [e1]; exact f1
  · rw [f4, e4, h3]
    constructor
    · rintro ((h | ⟨h, h'⟩) | ⟨h, h'⟩)
      · exact .inl h
      · exact .inr ⟨h, .inl h'⟩
      · exact .inr ⟨h, .inr h'⟩
    · rintro (h | ⟨h, h' | h'⟩)
      · exact .inl (.inl h)
      · exact .inl (.inr ⟨h, h'⟩)
      · exact .inr ⟨h, h'⟩

/-- The code's `connect_regions` on positions without flags. -/
theorem connect_wired (p : Profile) (bs : GlushkovBuildState) (hg : Good bs) (ls fs : List Nat)
    (hl : ∀ l ∈ ls, l < bs.builder.graph.inner.nodes.length) (hf : ∀ f ∈ fs, f ≠ 2) :
    Wired (ε := ε) bs (bs.connectRegions p (ls.map .ofPos) (fs.map .ofPos)) (fun x y => x ∈ ls ∧ y ∈ fs) := by
  obtain ⟨bs', h1, h2, h3, h4⟩ := C42_connect_regions (ε := ε) p (ls.map .ofPos) (fs.map .ofPos) bs
    (by
      right
      intro l hm
      obtain ⟨x, hx, rfl⟩ := List.mem_map.1 hm
      have := hl x hx
      have := hg.room
      show x ≠ _
      omega)
    (by
      intro l hm
      obtain ⟨x, hx, rfl⟩ := List.mem_map.1 hm
      exact hl x hx)
    (by
      intro e hm
      obtain ⟨x, hx, rfl⟩ := List.mem_map.1 hm
      rw [hg.accept]
      exact hf x hx)
  refine ⟨bs', h1, h2, h3, fun q x => ?_⟩
  rw [h4]
  apply or_congr Iff.rfl
  constructor
  · rintro ⟨l, hl', rfl, hx, _⟩
    obtain ⟨y, hy, rfl⟩ := List.mem_map.1 hl'
    obtain ⟨z, hz, rfl⟩ := List.mem_map.1 hx
    exact ⟨rfl, hy, hz⟩
  · rintro ⟨hd, hq, hx⟩
    have hxe : x = .ofPos x.pos := by
      cases x; simp only at hd; subst hd; rfl
    refine ⟨.ofPos q, List.mem_map.2 ⟨q, hq, rfl⟩, rfl, List.mem_map.2 ⟨x.pos, hx, hxe.symm⟩, ?_⟩
    have hlt := hl q hq
    refine ⟨_, List.getElem?_eq_getElem hlt, ?_⟩
    rw [hg.flags _ (List.getElem_mem hlt)]
    unfold Survives
    rw [hd]
    refine ⟨fun _ => ⟨by decide, (by decide : PosFlags.default.contains .NOFLOAT = false)⟩,
      fun _ _ => ⟨fun _ => by decide, by decide⟩, fun h => ?_⟩
    exact absurd h (by decide)

/-- What is known of a part of the tree: `ls` its classes, `sz` its size, `nl` whether it is nullable, `fs` and
`las` its firsts and lasts, `L` its language, `w` its wiring. -/
structure Facts (n : Nat) (ls : List AsciiComponentClass) (sz : Nat) (nl : Bool) (fs las : List Nat)
    (L : List U8 → Prop) (w : GlushkovBuildState → Outcome ε GlushkovBuildState) (a : Auto) : Prop where
  size : sz = ls.length
  within : Within a n (n + sz)
  up : ∀ x y, a.next x y → x < y
  null : a.null ↔ nl = true
  first : ∀ x, a.first x ↔ x ∈ fs
  last : ∀ x, a.last x ↔ x ∈ las
  lang : ∀ reach : Nat → U8 → Prop,
    (∀ (i : Nat) x, ls[i]? = some x → ∀ b, reach (n + i) b ↔ x.cr.test b = true) → ∀ v, Acc reach a v ↔ L v
  wired : ∀ bs, Good bs → 4 ≤ n → n + sz ≤ bs.builder.graph.inner.nodes.length → Wired bs (w bs) a.next

theorem facts_one (n : Nat) : Facts (ε := ε) n [] 0 true [] [] (fun w => w = []) (fun bs => .ok bs) one where
  size := rfl
  within := within_one n
  up := fun _ _ h => h.elim
  null := by simp [one]
  first := fun x => by simp [one]
  last := fun x => by simp [one]
  lang := fun reach _ v => acc_one v
  wired := fun bs _ _ _ => wired_refl bs

theorem facts_zero (n : Nat) : Facts (ε := ε) n [] 0 false [] [] (fun _ => False) (fun bs => .ok bs) zero where
  size := rfl
  within := within_zero n
  up := fun _ _ h => h.elim
  null := by simp [zero]
  first := fun x => by simp [zero]
  last := fun x => by simp [zero]
  lang := fun reach _ v => ⟨fun h => acc_zero v h, fun h => h.elim⟩
  wired := fun bs _ _ _ => wired_refl bs

theorem facts_at (n : Nat) (c : AsciiComponentClass) :
    Facts (ε := ε) n [c] 1 false [n] [n] (fun w => ∃ b, w = [b] ∧ c.cr.test b = true) (fun bs => .ok bs) (at_ n) where
  size := rfl
  within := within_at n
  up := fun _ _ h => h.elim
  null := by simp [at_]
  first := fun x => by simp [at_]
  last := fun x => by simp [at_]
  lang := fun reach h v => by
    rw [acc_at]
    have := h 0 c rfl
    simp only [Nat.add_zero] at this
    simp only [this]
  wired := fun bs _ _ _ => wired_refl bs

theorem reach_split {reach : Nat → U8 → Prop} {n : Nat} {l1 l2 : List AsciiComponentClass}
    (h : ∀ (i : Nat) x, (l1 ++ l2)[i]? = some x → ∀ b, reach (n + i) b ↔ x.cr.test b = true) :
    (∀ (i : Nat) x, l1[i]? = some x → ∀ b, reach (n + i) b ↔ x.cr.test b = true) ∧
    (∀ (i : Nat) x, l2[i]? = some x → ∀ b, reach (n + l1.length + i) b ↔ x.cr.test b = true) := by
  constructor
  · intro i x hx
    apply h i x
    rw [List.getElem?_append_left]
    · exact hx
    · exact (List.getElem?_eq_some_iff.1 hx).1
  · intro i x hx
    have := h (l1.length + i) x (by rw [List.getElem?_append_right (by omega)]; simpa using hx)
    rw [Nat.add_assoc]; exact this

theorem facts_cat (p : Profile) {n : Nat} {l1 l2 : List AsciiComponentClass} {s1 s2 : Nat} {b1 b2 : Bool}
    {f1 f2 t1 t2 : List Nat} {L1 L2 : List U8 → Prop}
    {w1 w2 : GlushkovBuildState → Outcome ε GlushkovBuildState} {a1 a2 : Auto}
    (h1 : Facts n l1 s1 b1 f1 t1 L1 w1 a1) (h2 : Facts (n + s1) l2 s2 b2 f2 t2 L2 w2 a2) :
    Facts n (l1 ++ l2) (s1 + s2) (b1 && b2) (f1 ++ if b1 then f2 else []) ((if b2 then t1 else []) ++ t2)
      (fun w => ∃ u v, w = u ++ v ∧ L1 u ∧ L2 v)
      (fun bs => (w1 bs).bind fun bs => (w2 bs).bind fun bs => bs.connectRegions p (t1.map .ofPos) (f2.map .ofPos))
      (cat a1 a2) where
  size := by rw [h1.size, h2.size, List.length_append]
  within := by
    rw [← Nat.add_assoc]
    exact within_cat h1.within h2.within (by omega) (by omega)
  up := fun x y h => by
    rcases h with h | h | ⟨h, h'⟩
    · exact h1.up x y h
    · exact h2.up x y h
    · have := (h1.within.last x h).2
      have := (h2.within.first y h').1
      omega
  null := by simp [cat, h1.null, h2.null]
  first := fun x => by
    show a1.first x ∨ (a1.null ∧ a2.first x) ↔ _
    rw [h1.first, h1.null, h2.first, List.mem_append]
    cases b1 <;> simp
  last := fun x => by
    show (a2.null ∧ a1.last x) ∨ a2.last x ↔ _
    rw [h1.last, h2.null, h2.last, List.mem_append]
    cases b2 <;> simp
  lang := fun reach h v => by
    obtain ⟨r1, r2⟩ := reach_split h
    rw [← h1.size] at r2
    rw [acc_cat h1.within h2.within]
    simp only [h1.lang reach r1, h2.lang reach r2]
  wired := fun bs hg h4 hn => by
    refine Wired.bind (n2 := fun x y => a2.next x y ∨ (a1.last x ∧ a2.first y)) hg
      (h1.wired bs hg h4 (by omega)) ?_ (fun x y => Iff.rfl)
    intro bs' hg' hb
    refine Wired.bind (n2 := fun x y => x ∈ t1 ∧ y ∈ f2) hg' (h2.wired bs' hg' (by omega) (by rw [hb]; omega)) ?_
      (fun x y => by rw [h1.last, h2.first])
    intro bs2 hg2 hb2
    refine connect_wired p bs2 hg2 t1 f2 ?_ ?_
    · intro l hl
      have := (h1.within.last l ((h1.last l).2 hl)).2
      rw [hb2, hb]; omega
    · intro f hf
      have := (h2.within.first f ((h2.first f).2 hf)).1
      omega

theorem facts_alt {n : Nat} {l1 l2 : List AsciiComponentClass} {s1 s2 : Nat} {b1 b2 : Bool}
    {f1 f2 t1 t2 : List Nat} {L1 L2 : List U8 → Prop}
    {w1 w2 : GlushkovBuildState → Outcome ε GlushkovBuildState} {a1 a2 : Auto}
    (h1 : Facts n l1 s1 b1 f1 t1 L1 w1 a1) (h2 : Facts (n + s1) l2 s2 b2 f2 t2 L2 w2 a2) :
    Facts n (l1 ++ l2) (s1 + s2) (b1 || b2) (f1 ++ f2) (t1 ++ t2) (fun w => L1 w ∨ L2 w)
      (fun bs => (w1 bs).bind w2) (alt a1 a2) where
  size := by rw [h1.size, h2.size, List.length_append]
  within := by
    rw [← Nat.add_assoc]
    exact within_alt h1.within h2.within (by omega) (by omega)
  up := fun x y h => h.elim (h1.up x y) (h2.up x y)
  null := by simp [alt, h1.null, h2.null]
  first := fun x => by
    show a1.first x ∨ a2.first x ↔ _
    rw [h1.first, h2.first, List.mem_append]
  last := fun x => by
    show a1.last x ∨ a2.last x ↔ _
    rw [h1.last, h2.last, List.mem_append]
  lang := fun reach h v => by
    obtain ⟨r1, r2⟩ := reach_split h
    rw [← h1.size] at r2
    rw [acc_alt h1.within h2.within, h1.lang reach r1, h2.lang reach r2]
  wired := fun bs hg h4 hn =>
    Wired.bind hg (h1.wired bs hg h4 (by omega))
      (fun bs' hg' hb => h2.wired bs' hg' (by omega) (by rw [hb]; omega)) (fun x y => Iff.rfl)

mutual
theorem facts (p : Profile) : ∀ (c : Component) (n : Nat), ∃ a,
    Facts (ε := ε) n (leaves c) (size c) (nullable c) (firsts n c) (lasts n c) (Lang c) (fun bs => wire p bs n c) a
  | .alternation (.mk cs), n => by
    simp only [leaves, size, nullable, firsts, lasts, Lang, wire]
    exact factsAny p cs n
  | .cls (.ascii c), n => by
    simp only [leaves, size, nullable, firsts, lasts, Lang, wire]
    exact ⟨_, facts_at n c⟩
  | .sequence s, n => by
    simp only [leaves, size, nullable, firsts, lasts, Lang, wire]
    exact factsSeq p s n
theorem factsSeq (p : Profile) : ∀ (s : ComponentSequence) (n : Nat), ∃ a,
    Facts (ε := ε) n (leavesSeq s) (sizeSeq s) (nullableSeq s) (firstsSeq n s) (lastsSeq n s) (LangSeq s)
      (fun bs => wireSeq p bs n s) a
  | .mk cs _ _ _, n => by
    simp only [leavesSeq, sizeSeq, nullableSeq, firstsSeq, lastsSeq, LangSeq, wireSeq]
    exact factsAll p cs n
theorem factsAll (p : Profile) : ∀ (cs : List Component) (n : Nat), ∃ a,
    Facts (ε := ε) n (leavesAll cs) (sizeAll cs) (nullableAll cs) (firstsAll n cs) (lastsAll n cs) (LangAll cs)
      (fun bs => wireAll p bs n cs) a
  | [], n => by
    simp only [leavesAll, sizeAll, nullableAll, firstsAll, lastsAll, LangAll, wireAll]
    exact ⟨_, facts_one n⟩
  | c :: cs, n => by
    obtain ⟨a1, h1⟩ := facts p c n
    obtain ⟨a2, h2⟩ := factsAll p cs (n + size c)
    simp only [leavesAll, sizeAll, nullableAll, firstsAll, lastsAll, LangAll, wireAll]
    exact ⟨_, facts_cat p h1 h2⟩
theorem factsAny (p : Profile) : ∀ (cs : List ComponentSequence) (n : Nat), ∃ a,
    Facts (ε := ε) n (leavesSeqs cs) (sizeAny cs) (nullableAny cs) (firstsAny n cs) (lastsAny n cs) (LangAny cs)
      (fun bs => wireAny p bs n cs) a
  | [], n => by
    simp only [leavesSeqs, sizeAny, nullableAny, firstsAny, lastsAny, LangAny, wireAny]
    exact ⟨_, facts_zero n⟩
  | c :: cs, n => by
    obtain ⟨a1, h1⟩ := factsSeq p c n
    obtain ⟨a2, h2⟩ := factsAny p cs (n + sizeSeq c)
    simp only [leavesSeqs, sizeAny, nullableAny, firstsAny, lastsAny, LangAny, wireAny]
    exact ⟨_, facts_alt h1 h2⟩
end

/-! ## Edges -/

/-- All pairs of vertices. -/
def pairs (n : Nat) : List (Nat × Nat) := (List.range n).flatMap fun a => (List.range n).map fun b => (a, b)

theorem pairs_length (n : Nat) : (pairs n).length = n * n := by
  unfold pairs
  rw [List.length_flatMap]
  simp [List.map_const', List.sum_replicate_nat]

theorem mem_pairs (n : Nat) (e : Nat × Nat) : e ∈ pairs n ↔ e.1 < n ∧ e.2 < n := by
  obtain ⟨a, b⟩ := e
  simp [pairs]

/-- Every edge once, between vertices. -/
def Simple {N : Type} (g : Graph N) : Prop :=
  g.edges.Nodup ∧ ∀ e ∈ g.edges, e.1 < g.nodes.length ∧ e.2 < g.nodes.length

theorem addEdges_ok {N : Type} : ∀ (es : List (Nat × Nat)) (g : Graph N), Simple g →
    (∀ e ∈ es, e.1 < g.nodes.length ∧ e.2 < g.nodes.length) → g.nodes.length * g.nodes.length < 2 ^ 32 - 1 →
    ∃ g', es.foldlM (addEdgeOnce (ε := ε)) g = .ok g' ∧ g'.nodes = g.nodes ∧ Simple g' ∧
      ∀ e, e ∈ g'.edges ↔ e ∈ g.edges ∨ e ∈ es := by
  intro es
  induction es with
  | nil => intro g hs _ _; exact ⟨g, rfl, rfl, hs, fun e => by simp⟩
  | cons e es ih =>
    intro g hs he hn
    have hmem : g.hasEdge e.1 e.2 = true ↔ e ∈ g.edges := by
      unfold Graph.hasEdge
      rw [List.any_eq_true]
      constructor
      · rintro ⟨x, hx, h⟩
        simp only [Bool.and_eq_true, beq_iff_eq] at h
        have : x = e := Prod.ext h.1 h.2
        rw [← this]; exact hx
      · intro h; exact ⟨e, h, by simp⟩
    show ∃ g', (addEdgeOnce (ε := ε) g e).bind _ = _ ∧ _
    unfold addEdgeOnce
    by_cases hh : g.hasEdge e.1 e.2 = true
    · rw [if_pos hh]
      obtain ⟨g', h1, h2, h3, h4⟩ := ih g hs (fun x hx => he x (by simp [hx])) hn
      refine ⟨g', h1, h2, h3, fun x => ?_⟩
      rw [h4, List.mem_cons]
      constructor
      · rintro (h | h)
        · exact .inl h
        · exact .inr (.inr h)
      · rintro (h | rfl | h)
        · exact .inl h
        · exact .inl (hmem.1 hh)
        · exact .inr h
    · rw [if_neg hh]
      have hlen : g.edges.length ≤ g.nodes.length * g.nodes.length := by
        rw [← pairs_length]
        exact nodup_subset_length _ _ hs.1 (fun x hx => (mem_pairs _ _).2 (hs.2 x hx))
      unfold Graph.addEdge
      rw [if_neg (by omega), if_pos (he e (by simp))]
      have hs' : Simple ({ g with edges := (e.1, e.2) :: g.edges } : Graph N) := by
        refine ⟨?_, ?_⟩
        · show ((e.1, e.2) :: g.edges).Nodup
          rw [List.nodup_cons]
          exact ⟨fun h => hh (hmem.2 h), hs.1⟩
        · intro x hx
          rcases List.mem_cons.1 hx with rfl | hx
          · exact he e (by simp)
          · exact hs.2 x hx
      obtain ⟨g', h1, h2, h3, h4⟩ := ih _ hs' (fun x hx => he x (by simp [hx])) hn
      refine ⟨g', h1, h2, h3, fun x => ?_⟩
      rw [h4]
      show x ∈ (e.1, e.2) :: g.edges ∨ _ ↔ _
      rw [List.mem_cons, List.mem_cons]
      constructor
      · rintro ((h | h) | h)
        · exact .inr (.inl h)
        · exact .inl h
        · exact .inr (.inr h)
      · rintro (h | h | h)
        · exact .inl (.inr h)
        · exact .inl (.inl h)
        · exact .inr h

/-- The edges of the completed graph. -/
def Edge (a : Auto) (x y : Nat) : Prop :=
  ((x, y) = (0, 1) ∨ (x, y) = (1, 1) ∨ (x, y) = (2, 3)) ∨ a.next x y ∨ (x < 2 ∧ a.first y) ∨
    (a.last x ∧ y = 2) ∨ (a.null ∧ x < 2 ∧ y = 2)

/-- The vertices for the classes of a tree. -/
def vertices (c : Component) : List NfaGraphVertexProps :=
  freshGraph.inner.nodes ++ (leaves c).map (fun a => ⟨CharReach.default.orAssign a.cr, [], PosFlags.default⟩)

/-- The completed builder: vertices and edges. -/
theorem buildGraph_facts (p : Profile) (pe : ParsedExpression) (h : (leaves pe.component).length < 2 ^ 16 - 4) (a : Auto)
    (ha : Facts (ε := ε) 4 (leaves pe.component) (size pe.component) (nullable pe.component) (firsts 4 pe.component)
      (lasts 4 pe.component) (Lang pe.component) (fun bs => wire p bs 4 pe.component) a) :
    ∃ b, buildGraph (ε := ε) p pe = .ok b ∧ b.expr = pe.expr ∧
      (b.graph.start, b.graph.startDs, b.graph.accept, b.graph.acceptEod) = (0, 1, 2, 3) ∧
      b.graph.inner.nodes = vertices pe.component ∧ b.graph.inner.edges.Nodup ∧
      ∀ x y, (x, y) ∈ b.graph.inner.edges ↔ Edge a x y := by
  obtain ⟨succ, hs⟩ := state_new (ε := ε) p pe.expr
  have hinit : ∀ q x, x ∈ successorsOf ⟨0, 1, 2, 3, ⟨freshGraph, pe.expr⟩, succ⟩ q ↔
      (q = 0 ∨ q = 1) ∧ x = ⟨1, PosFlags.default⟩ := by
    obtain ⟨b, bs, h1, h2, _, h4⟩ := C42_initial (ε := ε) p pe.expr
    rw [builder_new] at h1
    injection h1 with h1
    subst h1
    rw [hs] at h2
    injection h2 with h2
    subst h2
    exact h4
  have hsz := ha.size
  let bs1 : GlushkovBuildState :=
    (⟨0, 1, 2, 3, ⟨freshGraph, pe.expr⟩, succ⟩ : GlushkovBuildState).withLeaves (leaves pe.component)
  have hn : noteComponent (ε := ε) ⟨0, 1, 2, 3, ⟨freshGraph, pe.expr⟩, succ⟩ pe.component = .ok bs1 :=
    noteComponent_eq pe.component _ (by show 4 + _ < _; omega)
  have hnodes : bs1.builder.graph.inner.nodes = vertices pe.component := rfl
  have hlen : (vertices pe.component).length = 4 + size pe.component := by
    simp [vertices, freshGraph, hsz]; omega
  have hg1 : Good bs1 := by
    refine ⟨rfl, rfl, rfl, rfl, ?_, by rw [hnodes, hlen]; omega⟩
    rw [hnodes]
    intro v hv
    unfold vertices at hv
    rcases List.mem_append.1 hv with hv | hv
    · simp only [freshGraph, List.mem_cons, List.not_mem_nil, or_false] at hv
      rcases hv with rfl | rfl | rfl | rfl <;> rfl
    · obtain ⟨c, _, rfl⟩ := List.mem_map.1 hv
      rfl
  -- wiring
  have hw : Wired (ε := ε) bs1 ((wire p bs1 4 pe.component).bind fun bs =>
      bs.connectRegions p [.ofPos bs.startState, .ofPos bs.startDotStarState] ((firsts 4 pe.component).map .ofPos))
      (fun x y => a.next x y ∨ (x < 2 ∧ a.first y)) := by
    refine Wired.bind (n2 := fun x y => x ∈ [0, 1] ∧ y ∈ firsts 4 pe.component) hg1
      (ha.wired bs1 hg1 (by omega) (by rw [hnodes, hlen]; omega)) ?_ ?_
    · intro bs' hg' hb
      rw [hg'.start, hg'.startDs]
      refine connect_wired p bs' hg' [0, 1] (firsts 4 pe.component) ?_ ?_
      · intro l hl
        rw [hb, hnodes, hlen]
        simp only [List.mem_cons, List.not_mem_nil, or_false] at hl
        omega
      · intro f hf
        have := (ha.within.first f ((ha.first f).2 hf)).1
        omega
    · intro x y
      rw [ha.first]
      apply or_congr Iff.rfl
      apply and_congr _ Iff.rfl
      simp only [List.mem_cons, List.not_mem_nil, or_false]
      omega
  obtain ⟨bs2, w1, w2, w3, w4⟩ := hw
  have hg2 := hg1.same w2 w3
  have hsucc : ∀ q x, x ∈ successorsOf bs2 q ↔ ((q = 0 ∨ q = 1) ∧ x = ⟨1, PosFlags.default⟩) ∨
      (x.flags = PosFlags.default ∧ (a.next q x.pos ∨ (q < 2 ∧ a.first x.pos))) := by
    intro q x
    rw [w4, ← hinit]
    rfl
  have hwant : ∀ e, e ∈ wanted bs2 4 pe.component ↔
      (∃ x ∈ successorsOf bs2 e.1, e.1 < (vertices pe.component).length ∧ e.2 = x.pos) ∨ (a.last e.1 ∧ e.2 = 2) ∨
        (a.null ∧ e.1 < 2 ∧ e.2 = 2) := by
    rintro ⟨x, y⟩
    unfold wanted
    rw [w2, hnodes, hg2.accept, hg2.start, hg2.startDs, List.mem_append, List.mem_append, or_assoc]
    refine or_congr ?_ (or_congr ?_ ?_)
    · rw [List.mem_flatMap]
      constructor
      · rintro ⟨q, hq, h1⟩
        obtain ⟨z, hz, h2⟩ := List.mem_map.1 h1
        injection h2 with h2 h3
        subst h2
        exact ⟨z, hz, List.mem_range.1 hq, h3.symm⟩
      · rintro ⟨z, hz, h1, h2⟩
        exact ⟨x, List.mem_range.2 h1, List.mem_map.2 ⟨z, hz, by rw [← h2]⟩⟩
    · rw [ha.last, List.mem_map]
      constructor
      · rintro ⟨l, hl, h1⟩
        injection h1 with h1 h2
        subst h1
        exact ⟨hl, h2.symm⟩
      · rintro ⟨hl, h1⟩
        exact ⟨x, hl, by rw [← h1]⟩
    · rw [ha.null]
      cases nullable pe.component with
      | false => simp
      | true =>
        simp only [if_true, List.mem_cons, List.not_mem_nil, or_false, Prod.mk.injEq, true_and]
        omega
  have hfirst := ha.within.first
  have hlast := ha.within.last
  have hnext := ha.within.next
  obtain ⟨g, g1, g2, g3, g4⟩ := addEdges_ok (ε := ε) (wanted bs2 4 pe.component) bs2.builder.graph.inner
    (by
      rw [w2]
      refine ⟨(by decide : freshGraph.inner.edges.Nodup), ?_⟩
      intro e he
      have : e ∈ freshGraph.inner.edges := he
      rw [hnodes, hlen]
      simp only [freshGraph, List.mem_cons, List.not_mem_nil, or_false] at this
      rcases this with rfl | rfl | rfl <;> simp <;> omega)
    (by
      intro e he
      rw [w2, hnodes, hlen]
      rcases (hwant e).1 he with ⟨x, hx, h1, h2⟩ | ⟨h1, h2⟩ | ⟨_, h1, h2⟩
      · refine ⟨by rw [← hlen]; exact h1, ?_⟩
        rw [h2]
        rcases (hsucc _ _).1 hx with ⟨_, h3⟩ | ⟨_, h3 | ⟨_, h3⟩⟩
        · rw [h3]; show 1 < _; omega
        · exact (hnext _ _ h3).2.2
        · exact (hfirst _ h3).2
      · have := hlast _ h1; omega
      · omega)
    (by
      rw [w2, hnodes, hlen]
      have h1 : 4 + size pe.component ≤ 2 ^ 16 - 1 := by omega
      have := Nat.mul_le_mul h1 h1
      omega)
  refine ⟨{ bs2.builder with graph := { bs2.builder.graph with inner := g } }, ?_, ?_, ?_, ?_, g3.1, ?_⟩
  · unfold buildGraph
    rw [builder_new]
    show (GlushkovBuildState.new p ⟨freshGraph, pe.expr⟩).bind _ = _
    rw [hs]
    show (noteComponent _ pe.component).bind _ = _
    rw [hn]
    show (wire p bs1 4 pe.component).bind _ = _
    cases hwr : wire (ε := ε) p bs1 4 pe.component with
    | ok b1 =>
      rw [hwr] at w1
      have w1' : b1.connectRegions (ε := ε) p [.ofPos b1.startState, .ofPos b1.startDotStarState]
        ((firsts 4 pe.component).map .ofPos) = .ok bs2 := w1
      show (b1.connectRegions (ε := ε) p [.ofPos b1.startState, .ofPos b1.startDotStarState]
        ((firsts 4 pe.component).map .ofPos)).bind _ = _
      rw [w1']
      show ((wanted bs2 4 pe.component).foldlM addEdgeOnce bs2.builder.graph.inner).bind _ = _
      rw [g1]
      rfl
    | err e => rw [hwr] at w1; cases w1
    | panic m => rw [hwr] at w1; cases w1
    | timeout => rw [hwr] at w1; cases w1
  · show bs2.builder.expr = _
    rw [w2]; rfl
  · show (bs2.builder.graph.start, _, _, _) = _
    rw [w2]; rfl
  · show g.nodes = _
    rw [g2, w2]; rfl
  · intro x y
    show (x, y) ∈ g.edges ↔ _
    rw [g4, hwant, w2]
    show (x, y) ∈ freshGraph.inner.edges ∨ _ ↔ _
    simp only [freshGraph, List.mem_cons, List.not_mem_nil, or_false]
    unfold Edge
    constructor
    · rintro ((h1 | h1 | h1) | ⟨z, hz, h1, h2⟩ | h1 | h1)
      · exact .inl (.inr (.inr h1))
      · exact .inl (.inr (.inl h1))
      · exact .inl (.inl h1)
      · rcases (hsucc _ _).1 hz with ⟨h3, h4⟩ | ⟨_, h3 | h3⟩
        · subst h4
          simp only at h2 h3
          subst h2
          rcases h3 with rfl | rfl
          · exact .inl (.inl rfl)
          · exact .inl (.inr (.inl rfl))
        · rw [← h2] at h3; exact .inr (.inl h3)
        · rw [← h2] at h3; exact .inr (.inr (.inl h3))
      · exact .inr (.inr (.inr (.inl h1)))
      · exact .inr (.inr (.inr (.inr h1)))
    · rintro ((h1 | h1 | h1) | h1 | h1 | h1 | h1)
      · exact .inl (.inr (.inr h1))
      · exact .inl (.inr (.inl h1))
      · exact .inl (.inl h1)
      · refine .inr (.inl ⟨⟨y, PosFlags.default⟩, (hsucc _ _).2 (.inr ⟨rfl, .inl h1⟩), ?_, rfl⟩)
        rw [hlen]; exact (hnext _ _ h1).1.2
      · refine .inr (.inl ⟨⟨y, PosFlags.default⟩, (hsucc _ _).2 (.inr ⟨rfl, .inr h1⟩), ?_, rfl⟩)
        rw [hlen]; show x < _; omega
      · exact .inr (.inr (.inl h1))
      · exact .inr (.inr (.inr h1))

/-- The same with the automaton of the tree. -/
theorem buildGraph_spec (p : Profile) (pe : ParsedExpression) (h : (leaves pe.component).length < 2 ^ 16 - 4) :
    ∃ b a, buildGraph (ε := ε) p pe = .ok b ∧ b.expr = pe.expr ∧
      (b.graph.start, b.graph.startDs, b.graph.accept, b.graph.acceptEod) = (0, 1, 2, 3) ∧
      b.graph.inner.nodes = vertices pe.component ∧
      Facts (ε := ε) 4 (leaves pe.component) (size pe.component) (nullable pe.component) (firsts 4 pe.component)
        (lasts 4 pe.component) (Lang pe.component) (fun bs => wire p bs 4 pe.component) a ∧
      ∀ x y, (x, y) ∈ b.graph.inner.edges ↔ Edge a x y := by
  obtain ⟨a, ha⟩ := facts (ε := ε) p pe.component 4
  obtain ⟨b, h1, h2, h3, h4, _, h6⟩ := buildGraph_facts p pe h a ha
  exact ⟨b, a, h1, h2, h3, h4, ha, h6⟩

/-! ## Runs of the graph -/

theorem orAssign_default_test (x : CharReach) (b : U8) : (CharReach.default.orAssign x).test b = x.test b := by
  have := CharReach.or_test x CharReach.default b
  rw [CharReach.default_test, Bool.or_false] at this
  exact this

/-- The bytes vertex `x` lets through. -/
def reachOf (h : NgHolder) (x : Nat) (b : U8) : Prop :=
  ∃ v, h.inner.nodes[x]? = some v ∧ v.charReach.test b = true

section
variable {h : NgHolder} {a : Auto} {c : Component} {hi : Nat}

theorem reach_leaf (hnodes : h.inner.nodes = vertices c) (i : Nat) (x : AsciiComponentClass)
    (hx : (leaves c)[i]? = some x) (b : U8) : reachOf h (4 + i) b ↔ x.cr.test b = true := by
  unfold reachOf
  rw [hnodes]
  have : (vertices c)[4 + i]? = some ⟨CharReach.default.orAssign x.cr, [], PosFlags.default⟩ := by
    unfold vertices
    rw [List.getElem?_append_right (by simp [freshGraph])]
    simp [freshGraph, hx]
  rw [this]
  constructor
  · rintro ⟨v, hv, ht⟩
    injection hv with hv
    subst hv
    rw [← orAssign_default_test]; exact ht
  · intro ht
    exact ⟨_, rfl, by rw [orAssign_default_test]; exact ht⟩

theorem reach_accept (hnodes : h.inner.nodes = vertices c) (b : U8) (i : Nat) (hi : i = 2 ∨ i = 3) :
    ¬ reachOf h i b := by
  rintro ⟨v, hv, ht⟩
  rw [hnodes] at hv
  unfold vertices at hv
  rw [List.getElem?_append_left (by simp [freshGraph]; omega)] at hv
  have : v = NfaGraphVertexProps.default := by
    rcases hi with rfl | rfl <;> · simp [freshGraph] at hv; exact hv.symm
  subst this
  rw [show NfaGraphVertexProps.default.charReach = CharReach.default from rfl, CharReach.default_test] at ht
  cases ht

theorem reach_start (hnodes : h.inner.nodes = vertices c) (b : U8) : reachOf h 1 b := by
  refine ⟨⟨CharReach.default.setAll, [], PosFlags.default⟩, by rw [hnodes]; rfl, ?_⟩
  exact BitField256.setAll_test BitField256.default b

variable (hids : (h.start, h.startDs, h.accept, h.acceptEod) = (0, 1, 2, 3)) (hnodes : h.inner.nodes = vertices c)
  (hw : Within a 4 hi) (hedge : ∀ x y, (x, y) ∈ h.inner.edges ↔ Edge a x y)

include hids hnodes hw hedge

theorem reads_tail {x : Nat} {w : List U8} (hr : Reads h x w) (hx : 4 ≤ x) : Tail (reachOf h) a x w := by
  simp only [Prod.mk.injEq] at hids
  obtain ⟨_, _, i3, i4⟩ := hids
  induction hr with
  | stop v hv =>
    rw [i3, i4, hedge, hedge] at hv
    unfold Edge at hv
    simp only [Prod.mk.injEq] at hv
    rcases hv with (hv | hv | hv | hv | hv) | (hv | hv | hv | hv | hv)
    · omega
    · have := (hw.next _ _ hv).2; omega
    · omega
    · exact .stop v hv.1
    · omega
    · omega
    · have := (hw.next _ _ hv).2; omega
    · omega
    · omega
    · omega
  | step v u props b w h1 h2 h3 _ ih =>
    rw [hedge] at h1
    unfold Edge at h1
    simp only [Prod.mk.injEq] at h1
    rcases h1 with h1 | h1 | h1 | h1 | h1
    · omega
    · exact .step v u b w h1 ⟨props, h2, h3⟩ (ih (hw.next _ _ h1).2.1)
    · omega
    · exact absurd ⟨props, h2, h3⟩ (reach_accept hnodes b u (.inl h1.2))
    · omega

omit hnodes hw in
theorem tail_reads {x : Nat} {w : List U8} (ht : Tail (reachOf h) a x w) : Reads h x w := by
  simp only [Prod.mk.injEq] at hids
  obtain ⟨_, _, i3, i4⟩ := hids
  induction ht with
  | stop x hx => exact .stop x (.inl (by rw [i3, hedge]; exact .inr (.inr (.inr (.inl ⟨hx, rfl⟩)))))
  | step x y b w h1 h2 _ ih =>
    obtain ⟨v, hv, hb⟩ := h2
    exact .step x y v b w ((hedge _ _).2 (.inr (.inl h1))) hv hb ih

theorem reads_start {x : Nat} {w : List U8} (hr : Reads h x w) (hx : x < 2) :
    ∃ u v, w = u ++ v ∧ Acc (reachOf h) a v := by
  have hids' := hids
  simp only [Prod.mk.injEq] at hids
  obtain ⟨_, _, i3, i4⟩ := hids
  induction hr with
  | stop v hv =>
    rw [i3, i4, hedge, hedge] at hv
    unfold Edge at hv
    simp only [Prod.mk.injEq] at hv
    rcases hv with (hv | hv | hv | hv | hv) | (hv | hv | hv | hv | hv)
    · omega
    · have := (hw.next _ _ hv).2; omega
    · have := hw.first _ hv.2; omega
    · have := hw.last _ hv.1; omega
    · exact ⟨[], [], rfl, .inl ⟨rfl, hv.1⟩⟩
    · omega
    · have := (hw.next _ _ hv).2; omega
    · have := hw.first _ hv.2; omega
    · omega
    · omega
  | step v u props b w h1 h2 h3 h4 ih =>
    rw [hedge] at h1
    unfold Edge at h1
    simp only [Prod.mk.injEq] at h1
    rcases h1 with h1 | h1 | h1 | h1 | h1
    · obtain ⟨u', v', rfl, h5⟩ := ih (by omega)
      exact ⟨b :: u', v', rfl, h5⟩
    · have := (hw.next _ _ h1).1; omega
    · exact ⟨[], b :: w, rfl, .inr ⟨u, b, w, rfl, h1.2, ⟨props, h2, h3⟩,
        reads_tail hids' hnodes hw hedge h4 (hw.first _ h1.2).1⟩⟩
    · exact absurd ⟨props, h2, h3⟩ (reach_accept hnodes b u (.inl h1.2))
    · exact absurd ⟨props, h2, h3⟩ (reach_accept hnodes b u (.inl h1.2.2))

theorem acc_reads {v : List U8} (hv : Acc (reachOf h) a v) (u : List U8) : Reads h 1 (u ++ v) := by
  have hids' := hids
  simp only [Prod.mk.injEq] at hids
  obtain ⟨_, _, i3, i4⟩ := hids
  induction u with
  | nil =>
    rcases hv with ⟨rfl, hn⟩ | ⟨x, b, w, rfl, h1, ⟨q, h2, h3⟩, h4⟩
    · exact .stop 1 (.inl (by rw [i3, hedge]; exact .inr (.inr (.inr (.inr ⟨hn, by omega, rfl⟩)))))
    · exact .step 1 x q b w ((hedge _ _).2 (.inr (.inr (.inl ⟨by omega, h1⟩)))) h2 h3
        (tail_reads hids' hedge h4)
  | cons b u ih =>
    obtain ⟨q, h2, h3⟩ := reach_start (h := h) hnodes b
    exact .step 1 1 q b _ ((hedge _ _).2 (.inl (.inr (.inl rfl)))) h2 h3 ih

/-- The graph accepts whatever ends with something the automaton accepts. -/
theorem accepts_iff (w : List U8) : Spec.Accepts h w ↔ ∃ u v, w = u ++ v ∧ Acc (reachOf h) a v := by
  have i1 : h.start = 0 := congrArg Prod.fst hids
  have i2 : h.startDs = 1 := congrArg (fun x => x.2.1) hids
  unfold Spec.Accepts
  rw [i1, i2]
  constructor
  · rintro (hr | hr)
    · exact reads_start hids hnodes hw hedge hr (by omega)
    · exact reads_start hids hnodes hw hedge hr (by omega)
  · rintro ⟨u, v, rfl, hv⟩
    exact .inr (acc_reads hids hnodes hw hedge hv u)
end

end Rescan.Completed
