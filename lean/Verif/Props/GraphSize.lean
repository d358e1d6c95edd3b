import Verif.Props.Completed
import Verif.Props.Parser
import Verif.Spec.Witness
/-! # C123: the shape and size of completed graphs -/
namespace Rescan
open Spec Glushkov

namespace Completed

/-- All edges a completed graph with `n` positions can have. -/
def possible (n : Nat) : List (Nat × Nat) :=
  [(0, 1), (1, 1), (2, 3), (0, 2), (1, 2)] ++ (List.range n).map (fun i => (0, 4 + i)) ++
    (List.range n).map (fun i => (1, 4 + i)) ++ (List.range n).map (fun i => (4 + i, 2)) ++
    (List.range n).flatMap (fun y => (List.range y).map (fun x => (4 + x, 4 + y)))

theorem sum_range (n : Nat) : 2 * ((List.range n).map (fun y => y)).sum + n = n * n := by
  induction n with
  | zero => rfl
  | succ n ih =>
    rw [List.range_succ, List.map_append, List.sum_append]
    simp only [List.map_cons, List.map_nil, List.sum_cons, List.sum_nil]
    have h : (n + 1) * (n + 1) = n * n + n + (n + 1) := by rw [Nat.mul_succ, Nat.succ_mul]
    omega

theorem possible_length (n : Nat) : 2 * (possible n).length = n * n + 5 * n + 10 := by
  unfold possible
  simp only [List.length_append, List.length_map, List.length_range, List.length_flatMap, List.length_cons, List.length_nil]
  have := sum_range n
  omega

theorem mem_possible (n : Nat) (x y : Nat) : (x, y) ∈ possible n ↔
    ((x, y) = (0, 1) ∨ (x, y) = (1, 1) ∨ (x, y) = (2, 3) ∨ (x < 2 ∧ y = 2)) ∨
    (x < 2 ∧ 4 ≤ y ∧ y < 4 + n) ∨ (4 ≤ x ∧ x < 4 + n ∧ y = 2) ∨ (4 ≤ x ∧ x < y ∧ y < 4 + n) := by
  unfold possible
  simp only [List.mem_append, List.mem_cons, List.not_mem_nil, or_false, List.mem_map, List.mem_range, List.mem_flatMap,
    Prod.mk.injEq]
  constructor
  · rintro ((((h | ⟨i, h1, h2, h3⟩) | ⟨i, h1, h2, h3⟩) | ⟨i, h1, h2, h3⟩) | ⟨j, h1, i, h2, h3, h4⟩) <;> omega
  · rintro (h | h | h | h)
    · left; left; left; left; omega
    · by_cases h0 : x = 0
      · exact .inl (.inl (.inl (.inr ⟨y - 4, by omega, by omega, by omega⟩)))
      · exact .inl (.inl (.inr ⟨y - 4, by omega, by omega, by omega⟩))
    · exact .inl (.inr ⟨x - 4, by omega, by omega, by omega⟩)
    · exact .inr ⟨y - 4, by omega, x - 4, by omega, by omega, by omega⟩

theorem possible_nodup (n : Nat) : (possible n).Nodup := by
  have inj : ∀ f : Nat → Nat × Nat, (∀ a b, f a = f b → a = b) → ∀ m, ((List.range m).map f).Nodup := by
    intro f hf m
    rw [List.nodup_iff_pairwise_ne, List.pairwise_map]
    exact (List.nodup_iff_pairwise_ne.1 List.nodup_range).imp (fun h e => h (hf _ _ e))
  have h5 : ((List.range n).flatMap (fun y => (List.range y).map (fun x => (4 + x, 4 + y)))).Nodup := by
    rw [List.nodup_iff_pairwise_ne, List.pairwise_flatMap]
    refine ⟨fun y _ => List.nodup_iff_pairwise_ne.1 (inj _ (fun a b e => by injection e; omega) y), ?_⟩
    refine (List.nodup_iff_pairwise_ne.1 List.nodup_range).imp ?_
    intro a b hab u hu v hv e
    obtain ⟨i, _, rfl⟩ := List.mem_map.1 hu
    obtain ⟨j, _, rfl⟩ := List.mem_map.1 hv
    injection e with _ e
    omega
  unfold possible
  rw [List.nodup_append, List.nodup_append, List.nodup_append, List.nodup_append]
  refine ⟨⟨⟨⟨by decide, inj _ (fun a b e => by injection e; omega) n, ?_⟩, inj _ (fun a b e => by injection e; omega) n, ?_⟩,
    inj _ (fun a b e => by injection e; omega) n, ?_⟩, h5, ?_⟩
  all_goals
    rintro ⟨x, y⟩ hx ⟨x', y'⟩ hy e
    injection e with e1 e2
    subst e1 e2
    simp only [List.mem_append, List.mem_cons, List.not_mem_nil, or_false, List.mem_map, List.mem_range, List.mem_flatMap,
      Prod.mk.injEq] at hx hy
  · obtain ⟨i, h1, h2, h3⟩ := hy
    omega
  · obtain ⟨i, h1, h2, h3⟩ := hy
    rcases hx with hx | ⟨j, _, _, _⟩ <;> omega
  · obtain ⟨i, h1, h2, h3⟩ := hy
    rcases hx with (hx | ⟨j, _, _, _⟩) | ⟨j, _, _, _⟩ <;> omega
  · obtain ⟨j, h1, i, h2, h3, h4⟩ := hy
    rcases hx with ((hx | ⟨j, _, _, _⟩) | ⟨j, _, _, _⟩) | ⟨j, _, _, _⟩ <;> omega

variable {ε : Type}

theorem edge_possible {ls : List AsciiComponentClass} {sz : Nat} {nl : Bool} {fs las : List Nat}
    {L : List U8 → Prop} {w : GlushkovBuildState → Outcome ε GlushkovBuildState} {a : Auto}
    (ha : Facts (ε := ε) 4 ls sz nl fs las L w a) (x y : Nat) (h : Edge a x y) : (x, y) ∈ possible ls.length := by
  rw [mem_possible, ← ha.size]
  rcases h with (h | h | h) | h | ⟨h1, h2⟩ | ⟨h1, h2⟩ | ⟨_, h1, h2⟩
  · exact .inl (.inl h)
  · exact .inl (.inr (.inl h))
  · exact .inl (.inr (.inr (.inl h)))
  · have := ha.within.next x y h
    have := ha.up x y h
    omega
  · have := ha.within.first y h2
    omega
  · have := ha.within.last x h1
    omega
  · omega

/-- Components of one position that can be passed by. -/
structure Optional (c : Component) : Prop where
  leaf : ∃ x, leaves c = [x]
  null : nullable c = true
  first : ∀ n, firsts n c = [n]
  last : ∀ n, lasts n c = [n]
  size : size c = 1

theorem optional_all (p : Profile) : ∀ (cs : List Component), (∀ c ∈ cs, Optional c) → ∀ n,
    nullableAll cs = true ∧ sizeAll cs = cs.length ∧ (leavesAll cs).length = cs.length ∧
    (∀ y, y ∈ firstsAll n cs ↔ n ≤ y ∧ y < n + cs.length) ∧ (∀ y, y ∈ lastsAll n cs ↔ n ≤ y ∧ y < n + cs.length) ∧
    ∃ a, Facts (ε := ε) n (leavesAll cs) (sizeAll cs) (nullableAll cs) (firstsAll n cs) (lastsAll n cs) (LangAll cs)
      (fun bs => wireAll p bs n cs) a ∧ ∀ x y, n ≤ x → x < y → y < n + cs.length → a.next x y := by
  intro cs
  induction cs with
  | nil =>
    intro _ n
    refine ⟨rfl, rfl, rfl, fun y => ?_, fun y => ?_, ?_⟩
    · simp only [firstsAll, List.not_mem_nil, List.length_nil, false_iff]; omega
    · simp only [lastsAll, List.not_mem_nil, List.length_nil, false_iff]; omega
    · simp only [leavesAll, sizeAll, nullableAll, firstsAll, lastsAll, LangAll, wireAll]
      exact ⟨_, facts_one n, fun x y h1 h2 h3 => by simp only [List.length_nil] at h3; omega⟩
  | cons c cs ih =>
    intro hall n
    have hc := hall c (by simp)
    obtain ⟨i1, i2, i3, i4, i5, a2, i6, i7⟩ := ih (fun x hx => hall x (by simp [hx])) (n + size c)
    obtain ⟨x0, hx0⟩ := hc.leaf
    obtain ⟨a1, h1⟩ := facts (ε := ε) p c n
    rw [hc.size] at i4 i5 i7
    simp only [List.length_cons]
    refine ⟨?_, ?_, ?_, ?_, ?_, ?_⟩
    · rw [nullableAll, hc.null, i1]; rfl
    · rw [sizeAll, hc.size, i2]; omega
    · rw [leavesAll, List.length_append, hx0, i3, List.length_singleton]; omega
    · intro y
      rw [firstsAll, if_pos hc.null, hc.first, hc.size, List.mem_append, List.mem_singleton, i4]
      omega
    · intro y
      rw [lastsAll, if_pos i1, hc.last, hc.size, List.mem_append, List.mem_singleton, i5]
      omega
    · simp only [leavesAll, sizeAll, nullableAll, firstsAll, lastsAll, LangAll, wireAll]
      refine ⟨_, facts_cat p h1 i6, ?_⟩
      intro x y hx hxy hy
      by_cases hn : x = n
      · refine .inr (.inr ⟨(h1.last x).2 (by rw [hc.last, hn]; simp), (i6.first y).2 ?_⟩)
        rw [hc.size, i4]
        omega
      · exact .inr (.inl (i7 x y (by omega) hxy (by omega)))

/-- `(a|)` written `n` times. -/
def optSeq : Nat → Seq
  | 0 => .nil
  | n + 1 => .cons (.group (.more (.cons (.lit 'a') .nil) (.one .nil))) (optSeq n)

/-- The same as text. -/
def optText : Nat → Str
  | 0 => []
  | n + 1 => '(' :: 'a' :: '|' :: ')' :: optText n

theorem optSeq_print : ∀ n, (optSeq n).print = optText n
  | 0 => rfl
  | n + 1 => by
    rw [optSeq, Seq.print, optSeq_print n, optText]
    rfl

theorem optSeq_wf : ∀ n, (optSeq n).Wf
  | 0 => trivial
  | n + 1 => ⟨⟨⟨show ¬ special 'a' by decide, trivial⟩, trivial⟩, optSeq_wf n⟩

theorem optText_ascii : ∀ n, IsAscii (optText n)
  | 0 => by intro c hc; cases hc
  | n + 1 => by
    intro c hc
    simp only [optText, List.mem_cons] at hc
    rcases hc with rfl | rfl | rfl | rfl | hc
    · decide
    · decide
    · decide
    · decide
    · exact optText_ascii n c hc

theorem optText_length : ∀ n, (optText n).length = 4 * n
  | 0 => rfl
  | n + 1 => by simp only [optText, List.length_cons, optText_length n]; omega

theorem optSeq_build (cls : Char → ComponentClass) : ∀ n k,
    ((optSeq n).build cls k).1.length = n ∧ ∀ c ∈ ((optSeq n).build cls k).1, Optional c
  | 0, _ => ⟨rfl, fun c hc => by cases hc⟩
  | n + 1, k => by
    rw [optSeq, Seq.build]
    obtain ⟨h1, h2⟩ := optSeq_build cls n (Item.build cls k (.group (.more (.cons (.lit 'a') .nil) (.one .nil)))).2
    refine ⟨by simp only [List.length_cons, h1], ?_⟩
    intro c hc
    rcases List.mem_cons.1 hc with rfl | hc
    · cases hx : cls 'a' with
      | ascii x =>
        simp only [Item.build, Alts.build, Seq.build, Alts.branches, hx]
        constructor
        · exact ⟨x, rfl⟩
        · rfl
        · intro n; rfl
        · intro n; rfl
        · rfl
    · exact h2 c hc

end Completed
open Completed

/-- C123: the only loop in a completed graph is that of the floating start: all other edges lead upwards in some
numbering of the vertices. -/
theorem C123_order {ε : Type} (p : Profile) (pe : ParsedExpression)
    (h : (leaves pe.component).length < 2 ^ 16 - 4) (b : NfaBuilder) (hb : Completed.buildGraph (ε := ε) p pe = .ok b) :
    (b.graph.startDs, b.graph.startDs) ∈ b.graph.inner.edges ∧
    ∃ rank : Nat → Nat, ∀ e ∈ b.graph.inner.edges,
      e = (b.graph.startDs, b.graph.startDs) ∨ rank e.1 < rank e.2 := by
  obtain ⟨b', a, h1, _, h3, _, h5, h6⟩ := Completed.buildGraph_spec (ε := ε) p pe h
  rw [hb] at h1
  injection h1 with h1
  subst h1
  simp only [Prod.mk.injEq] at h3
  obtain ⟨_, e2, _, _⟩ := h3
  rw [e2]
  refine ⟨(h6 1 1).2 (.inl (.inr (.inl rfl))), ?_⟩
  refine ⟨fun v => if v = 2 then 2 ^ 16 else if v = 3 then 2 ^ 16 + 1 else v, ?_⟩
  rintro ⟨x, y⟩ he
  have := (mem_possible _ x y).1 (edge_possible h5 x y ((h6 x y).1 he))
  simp only [Prod.mk.injEq] at this ⊢
  by_cases hxy : x = 1 ∧ y = 1
  · exact .inl hxy
  · right
    split <;> split <;> (try split) <;> (try split) <;> omega

/-- C123: a completed graph has every edge once and at most `5 + 3n + n(n-1)/2` edges, `n` being the number of classes. -/
theorem C123_edges {ε : Type} (p : Profile) (pe : ParsedExpression)
    (h : (leaves pe.component).length < 2 ^ 16 - 4) (b : NfaBuilder) (hb : Completed.buildGraph (ε := ε) p pe = .ok b) :
    b.graph.inner.edges.Nodup ∧ 2 * b.graph.inner.edges.length ≤
      (leaves pe.component).length * (leaves pe.component).length + 5 * (leaves pe.component).length + 10 := by
  obtain ⟨a, ha⟩ := Completed.facts (ε := ε) p pe.component 4
  obtain ⟨b', h1, _, _, _, h5, h6⟩ := Completed.buildGraph_facts p pe h a ha
  rw [hb] at h1
  injection h1 with h1
  subst h1
  refine ⟨h5, ?_⟩
  rw [← possible_length]
  have := nodup_subset_length b.graph.inner.edges (possible (leaves pe.component).length) h5
    (fun e he => edge_possible ha e.1 e.2 ((h6 e.1 e.2).1 he))
  omega

/-- C123: that many there may be: the pattern `(a|)(a|)…(a|)` with `n` groups has `n` classes, and its completed graph has all
the possible edges. -/
theorem C123_worst {ε : Type} (n : Nat) (hn : n < 2 ^ 16 - 4) : ∃ s c m, s.length = 4 * n ∧
    parse .release s ParseMode.default = .ok (c, m) ∧ (leaves c).length = n ∧
    ∀ p e, ∃ b, Completed.buildGraph (ε := ε) p ⟨e, c⟩ = .ok b ∧
      2 * b.graph.inner.edges.length = n * n + 5 * n + 10 := by
  have hcls : ∀ c : Char, c.toNat < 128 → IsLitClass ParseMode.default.caseless c (litClass ParseMode.default.caseless c) :=
    fun c hc => litClass_spec _ c (by omega)
  have hbody : IsBody (optText n) (Alts.one (optSeq n)).print := by
    rw [Alts.print, optSeq_print]
    refine .inl ⟨?_, rfl⟩
    rintro v rest ⟨h1, _⟩
    cases n with
    | zero => cases h1
    | succ n =>
      simp only [optText, List.cons_append] at h1
      injection h1 with _ h1
      injection h1 with h1 _
      revert h1
      decide
  obtain ⟨m, hm⟩ := C30_parse_print (optText n) ParseMode.default (.one (optSeq n)) (litClass ParseMode.default.caseless)
    hcls (optSeq_wf n) (by rw [Alts.print, optSeq_print]; exact optText_ascii n) hbody
  obtain ⟨h1, h2⟩ := optSeq_build (litClass ParseMode.default.caseless) n 1
  have hroot : (Alts.one (optSeq n)).root (litClass ParseMode.default.caseless) =
      .sequence (.mk ((optSeq n).build (litClass ParseMode.default.caseless) 1).1 none (some 0) none) := rfl
  rw [hroot] at hm
  generalize ((optSeq n).build (litClass ParseMode.default.caseless) 1).1 = cs at h1 h2 hm
  have hlv : (leaves (.sequence (.mk cs none (some 0) none))).length = n := by
    rw [leaves, leavesSeq, (optional_all (ε := ε) .release cs h2 4).2.2.1, h1]
  refine ⟨optText n, _, m, optText_length n, hm, hlv, ?_⟩
  intro p e
  obtain ⟨i1, i2, i3, i4, i5, a, i6, i7⟩ := optional_all (ε := ε) p cs h2 4
  rw [h1] at i4 i5 i7
  have ha : Facts (ε := ε) 4 (leaves (.sequence (.mk cs none (some 0) none))) (Completed.size (.sequence (.mk cs none (some 0) none)))
      (nullable (.sequence (.mk cs none (some 0) none))) (firsts 4 (.sequence (.mk cs none (some 0) none)))
      (lasts 4 (.sequence (.mk cs none (some 0) none))) (Lang (.sequence (.mk cs none (some 0) none)))
      (fun bs => wire p bs 4 (.sequence (.mk cs none (some 0) none))) a := by
    simp only [leaves, Completed.size, nullable, firsts, lasts, Lang, wire, leavesSeq, Completed.sizeSeq, nullableSeq, firstsSeq, lastsSeq, LangSeq,
      wireSeq]
    exact i6
  obtain ⟨b, g1, _, _, _, g5, g6⟩ := Completed.buildGraph_facts p ⟨e, _⟩ (by rw [hlv]; exact hn) a ha
  refine ⟨b, g1, ?_⟩
  have hle := nodup_subset_length b.graph.inner.edges (possible n) g5 (fun e he => by
    have := edge_possible ha e.1 e.2 ((g6 e.1 e.2).1 he)
    rw [hlv] at this
    exact this)
  have hge := nodup_subset_length (possible n) b.graph.inner.edges (possible_nodup n) (by
    rintro ⟨x, y⟩ he
    rw [g6]
    have hnull : a.null := (i6.null).2 i1
    rcases (mem_possible n x y).1 he with (h | h | h | ⟨h, h'⟩) | ⟨h, h'⟩ | ⟨h, h', h''⟩ | ⟨h, h', h''⟩
    · exact .inl (.inl h)
    · exact .inl (.inr (.inl h))
    · exact .inl (.inr (.inr h))
    · exact .inr (.inr (.inr (.inr ⟨hnull, h, h'⟩)))
    · exact .inr (.inr (.inl ⟨h, (i6.first y).2 ((i4 y).2 h')⟩))
    · exact .inr (.inr (.inr (.inl ⟨(i6.last x).2 ((i5 x).2 ⟨h, h'⟩), h''⟩)))
    · exact .inr (.inl (i7 x y h h' h'')))
  have := possible_length n
  omega

/-- `(a|)(a|)` is such a pattern: it meets the hypotheses of the first two theorems and has 12 edges. -/
example : ∃ pe, ParsedExpression.new .release 0 "(a|)(a|)".toList Flags.empty 7 = .ok pe ∧
    (leaves pe.component).length = 2 ∧
    (match Completed.buildGraph (ε := Empty) .release pe with | .ok b => b.graph.inner.edges.length | _ => 0) = 12 :=
  Outcome.exists_ok (q := fun pe => (leaves pe.component).length = 2 ∧
    (match Completed.buildGraph (ε := Empty) .release pe with | .ok b => b.graph.inner.edges.length | _ => 0) = 12)
    (by decide +kernel)
/-- A pattern of 16000 characters, the most allowed, may need over eight million edges. -/
example : ∃ s c m, s.length = 16000 ∧ parse .release s ParseMode.default = .ok (c, m) ∧
    ∀ p e, ∃ b, Completed.buildGraph (ε := Empty) p ⟨e, c⟩ = .ok b ∧ b.graph.inner.edges.length = 8010005 := by
  obtain ⟨s, c, m, h1, h2, _, h4⟩ := C123_worst (ε := Empty) 4000 (by decide)
  refine ⟨s, c, m, h1, h2, fun p e => ?_⟩
  obtain ⟨b, hb, he⟩ := h4 p e
  exact ⟨b, hb, by omega⟩

end Rescan
