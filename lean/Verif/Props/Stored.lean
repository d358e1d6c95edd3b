import Verif.Model.Stored
import Verif.Proofs.Checked
import Verif.Props.Petgraph
import Verif.Props.BitVecStore
/-! # Property C92: literals, tries and the NFA graph on the stored forms -/
namespace Rescan.Stored

open Rescan.Petgraph

variable {ε : Type}

/-- Both runs succeed with related results, or both panic with the same message. -/
inductive Same {α β : Type} (R : α → β → Prop) : Outcome ε α → Outcome ε β → Prop
  | ok {a : α} {b : β} (h : R a b) : Same R (.ok a) (.ok b)
  | panic (m : String) : Same R (.panic m) (.panic m)

theorem Same.bind {α β α' β' : Type} {R : α → β → Prop} {Q : α' → β' → Prop} {x : Outcome ε α} {y : Outcome ε β}
    {f : α → Outcome ε α'} {g : β → Outcome ε β'} (h : Same R x y) (hf : ∀ a b, R a b → Same Q (f a) (g b)) :
    Same Q (x.bind f) (y.bind g) := by
  cases h with
  | ok h => exact hf _ _ h
  | panic m => exact .panic m

theorem Same.mono {α β : Type} {R Q : α → β → Prop} {x : Outcome ε α} {y : Outcome ε β} (h : Same R x y)
    (hq : ∀ a b, R a b → Q a b) : Same Q x y := by
  cases h with
  | ok h => exact .ok (hq _ _ h)
  | panic m => exact .panic m

theorem same_addNode {N : Type} {s : PGraph N} {g : Graph N} (h : Holds s g) (w : N) :
    Same (fun x y => Holds x.1 y.1 ∧ x.2 = y.2) (s.addNode w : Outcome ε _) (g.addNode w) := by
  rcases holds_addNode (ε := ε) h w with ⟨s', g', h1, h2, h3⟩ | ⟨m, h1, h2⟩
  · rw [h1, h2]; exact .ok ⟨h3, rfl⟩
  · rw [h1, h2]; exact .panic m

theorem same_addEdge {N : Type} {s : PGraph N} {g : Graph N} (h : Holds s g) (a b : Nat) :
    Same Holds (s.addEdge a b : Outcome ε _) (g.addEdge a b) := by
  rcases holds_addEdge (ε := ε) h a b with ⟨s', g', h1, h2, h3⟩ | ⟨m, h1, h2⟩
  · rw [h1, h2]; exact .ok h3
  · rw [h1, h2]; exact .panic m

theorem same_modify {N : Type} {s : PGraph N} {g : Graph N} (h : Holds s g) (i : Nat) (f : N → N) :
    Same Holds (s.modify i f : Outcome ε _)
      (if i < g.nodes.length then .ok { g with nodes := g.nodes.modify i f } else .panic "invalid index") := by
  rcases holds_modify (ε := ε) h i f with ⟨s', g', h1, h2, h3⟩ | ⟨m, h1, h2⟩
  · simp only [Step.run, Step.runG] at h1 h2
    rw [h1, h2]; exact .ok h3
  · simp only [Step.run, Step.runG] at h1 h2
    rw [h1, h2]; exact .panic m

/-! ## Literals -/

/-- The literal with the given bytes and flags pushed one after the other. -/
def pushes (p : Profile) (l : List (U8 × Bool)) : Outcome ε Lit :=
  l.foldlM (fun v x => v.push p x.1 x.2) Lit.default

/-- The same on lists. -/
def pushesM (l : List (U8 × Bool)) : Ue2Literal :=
  l.foldl (fun v x => v.push x.1 x.2) Ue2Literal.default

/-- The stored literal `v` is the literal `l`. -/
structure IsLit (v : Lit) (l : Ue2Literal) : Prop where
  s : v.s = l.s
  nocase : BitStore.Stores v.nocase l.nocase
  len : l.nocase.length = l.s.length

theorem isLit_push (p : Profile) {v : Lit} {l : Ue2Literal} (h : IsLit v l) (c : U8) (nc : Bool)
    (hl : l.s.length + 1 < 2 ^ 64) : ∃ v', (v.push p c nc : Outcome ε _) = .ok v' ∧ IsLit v' (l.push c nc) := by
  obtain ⟨n', h1, h2⟩ := BitStore.stores_push (ε := ε) p h.nocase nc (by rw [h.len]; exact hl)
  unfold Lit.push Ue2Literal.push
  cases nc with
  | true =>
    refine ⟨⟨v.s ++ [Rescan.mytoupper c], n'⟩, ?_, ⟨by simp [h.s], h2, by simp [h.len]⟩⟩
    show Outcome.bind (Checked.mytoupper p c) _ = _
    rw [Checked.mytoupper_eq]
    show Outcome.bind _ _ = _
    rw [h1]; rfl
  | false =>
    refine ⟨⟨v.s ++ [c], n'⟩, ?_, ⟨by simp [h.s], h2, by simp [h.len]⟩⟩
    show Outcome.bind _ _ = _
    rw [h1]; rfl

theorem isLit_pushes (p : Profile) : ∀ (r : List (U8 × Bool)) (v : Lit) (l : Ue2Literal), IsLit v l →
    l.s.length + r.length < 2 ^ 64 →
    ∃ v', (r.foldlM (fun v x => v.push p x.1 x.2) v : Outcome ε _) = .ok v' ∧
      IsLit v' (r.foldl (fun v x => v.push x.1 x.2) l)
  | [], v, l, h, _ => ⟨v, rfl, h⟩
  | x :: r, v, l, h, hl => by
    obtain ⟨v1, h1, h2⟩ := isLit_push (ε := ε) p h x.1 x.2 (by simp at hl; omega)
    obtain ⟨v2, h3, h4⟩ := isLit_pushes p r v1 _ h2 (by simp [Ue2Literal.push] at hl ⊢; omega)
    exact ⟨v2, by rw [List.foldlM_cons, h1]; exact h3, h4⟩

theorem isLit_default : IsLit Lit.default Ue2Literal.default := ⟨rfl, BitStore.stores_new, rfl⟩

theorem isLit_next (p : Profile) {v : Lit} {l : Ue2Literal} (h : IsLit v l) (i : Nat) :
    (v.next p i : Outcome ε _) = .ok (l.iter[i]?, if i < l.s.length then i + 1 else i) := by
  have hlen := h.len
  have hn := BitStore.stores_get (ε := ε) p h.nocase i
  unfold Lit.next Ue2Literal.iter
  rw [h.s]
  by_cases hi : i < l.s.length
  · rw [List.getElem?_eq_getElem hi, if_pos hi]
    rw [List.getElem?_eq_getElem (by omega)] at hn
    simp only [hn, List.getElem?_zipWith, List.getElem?_eq_getElem hi,
      List.getElem?_eq_getElem (show i < l.nocase.length by omega)]
    rfl
  · rw [List.getElem?_eq_none (by omega), if_neg hi,
      List.getElem?_eq_none (by simp only [List.length_zipWith]; omega)]

theorem isLit_any {v : Lit} {l : Ue2Literal} (h : IsLit v l) : v.nocase.any = l.anyNocase :=
  BitStore.stores_any h.nocase

/-! ## Tries -/

/-- The stored trie `s` is the trie `t`. -/
structure IsTrie (s : Trie) (t : LitTrie) : Prop where
  inner : Holds s.inner t.inner
  root : s.root = t.root

theorem outgoing_lt {N : Type} {s : PGraph N} {g : Graph N} (h : Holds s g) (u : Nat) :
    ∀ v ∈ g.outgoing u, v < s.nodes.length := by
  intro v hv
  simp only [Graph.outgoing, List.mem_map, List.mem_filter] at hv
  obtain ⟨e, ⟨he, _⟩, rfl⟩ := hv
  rw [← h.edges] at he
  simp only [List.mem_map, List.mem_reverse] at he
  obtain ⟨e', he', rfl⟩ := he
  exact (h.ends e' he').2

theorem incoming_lt {N : Type} {s : PGraph N} {g : Graph N} (h : Holds s g) (u : Nat) :
    ∀ v ∈ g.incoming u, v < s.nodes.length := by
  intro v hv
  simp only [Graph.incoming, List.mem_map, List.mem_filter] at hv
  obtain ⟨e, ⟨he, _⟩, rfl⟩ := hv
  rw [← h.edges] at he
  simp only [List.mem_map, List.mem_reverse] at he
  obtain ⟨e', he', rfl⟩ := he
  exact (h.ends e' he').1

theorem collect_cases {N : Type} {s : PGraph N} {it : PGraph.Neighbors} {fuel : Nat} {vs : List Nat}
    (h : (s.collect it (fuel + 1) : Outcome ε _) = .ok vs) :
    (∃ it', (s.next (fuel + 1) it : Outcome ε _) = .ok (none, it') ∧ vs = []) ∨
    ∃ v it' rest, (s.next (fuel + 1) it : Outcome ε _) = .ok (some v, it') ∧
      (s.collect it' fuel : Outcome ε _) = .ok rest ∧ vs = v :: rest := by
  unfold PGraph.collect at h
  change Outcome.bind (s.next (fuel + 1) it) _ = _ at h
  cases hn : (s.next (fuel + 1) it : Outcome ε _) with
  | ok x =>
    obtain ⟨v, it'⟩ := x
    rw [hn] at h
    cases v with
    | none => injection h with h; exact .inl ⟨it', rfl, h.symm⟩
    | some v =>
      change Outcome.bind (s.collect it' fuel) _ = _ at h
      cases hc : (s.collect it' fuel : Outcome ε _) with
      | ok rest => rw [hc] at h; injection h with h; exact .inr ⟨v, it', rest, rfl, hc, h.symm⟩
      | err e => rw [hc] at h; cases h
      | panic m => rw [hc] at h; cases h
      | timeout => rw [hc] at h; cases h
  | err e => rw [hn] at h; cases h
  | panic m => rw [hn] at h; cases h
  | timeout => rw [hn] at h; cases h

theorem weight_at {N : Type} {s : PGraph N} {g : Graph N} (h : Holds s g) {v : Nat} (hv : v < s.nodes.length) :
    g.nodes[v]? = some s.nodes[v].weight := by
  rw [← h.nodes, List.getElem?_map, List.getElem?_eq_getElem hv]; rfl

theorem findNb_eq {s : PGraph LitTrieVertexProps} {g : Graph LitTrieVertexProps} (h : Holds s g) (c : U8) :
    ∀ (fuel : Nat) (it : PGraph.Neighbors) (vs : List Nat), (s.collect it fuel : Outcome ε _) = .ok vs →
      (∀ v ∈ vs, v < s.nodes.length) →
      (findNb s c fuel it : Outcome ε _) = .ok (vs.find? (fun v => match g.nodes[v]? with
        | some w => w.c == c
        | none => false))
  | 0, it, vs, hc, _ => by cases hc
  | fuel + 1, it, vs, hc, hv => by
    unfold findNb
    rcases collect_cases hc with ⟨it', h1, rfl⟩ | ⟨v, it', rest, h1, h2, rfl⟩
    · rw [h1]; rfl
    · have hv0 := hv v (by simp)
      rw [h1]
      show Outcome.bind (index s.nodes v) _ = _
      unfold index
      rw [List.getElem?_eq_getElem hv0]
      simp only [List.find?_cons, weight_at h hv0]
      show (if s.nodes[v].weight.c = c then _ else _) = _
      by_cases he : s.nodes[v].weight.c = c
      · rw [if_pos he, beq_iff_eq.mpr he]; rfl
      · rw [if_neg he, beq_eq_false_iff_ne.mpr he]
        exact findNb_eq h c fuel it' rest h2 (fun v hv' => hv v (by simp [hv']))

theorem findChild_eq {s : Trie} {t : LitTrie} (h : IsTrie s t) (u : Nat) (c : U8) :
    (findNb s.inner c (s.inner.edges.length + 1) (s.inner.neighborsOut u) : Outcome ε _) = .ok (t.findChild u c) :=
  findNb_eq h.inner c _ _ _
    (holds_neighbors h.inner u _ (by rw [(length_eq h.inner).2]; exact Nat.lt_succ_self _)).1
    (outgoing_lt h.inner u)

theorem trieLoop_same (p : Profile) {v : Lit} {l : Ue2Literal} (hl : IsLit v l) :
    ∀ (fuel k : Nat) (s : Trie) (t : LitTrie) (u : Nat), IsTrie s t → l.iter.length < fuel + k → fuel ≠ 0 →
      Same (fun x y => IsTrie x.1 y.1 ∧ x.2 = y.2) (trieLoop p v fuel k s u : Outcome ε _)
        (((l.iter.drop k).map (fun e => e.c)).foldlM LitTrie.descend (t, u))
  | 0, _, _, _, _, _, _, h => absurd rfl h
  | fuel + 1, k, s, t, u, ht, h, _ => by
    have hlen : l.iter.length = l.s.length := by
      simp only [Ue2Literal.iter, List.length_zipWith, hl.len, Nat.min_self]
    unfold trieLoop
    rw [isLit_next p hl]
    by_cases hk : k < l.iter.length
    · rw [List.getElem?_eq_getElem hk, if_pos (by omega), List.drop_eq_getElem_cons hk, List.map_cons,
        List.foldlM_cons]
      have hfuel : fuel ≠ 0 := by omega
      have ih : ∀ s' t' u', IsTrie s' t' → _ := fun s' t' u' ht' =>
        trieLoop_same p hl fuel (k + 1) s' t' u' ht' (by omega) hfuel
      show Same _ (Outcome.bind (findNb _ _ _ _) _) (Outcome.bind (LitTrie.descend (t, u) _) _)
      rw [findChild_eq ht u]
      unfold LitTrie.descend
      cases hc : t.findChild u l.iter[k].c with
      | some w => simp only [hc]; exact ih s t w ht
      | none =>
        simp only [hc]
        show Same _ (Outcome.bind (s.inner.addNode _) _)
          (Outcome.bind (Outcome.bind (t.inner.addNode _) _) _)
        have hn := same_addNode (ε := ε) ht.inner (⟨l.iter[k].c, []⟩ : LitTrieVertexProps)
        generalize s.inner.addNode (ε := ε) ⟨l.iter[k].c, []⟩ = x at hn
        generalize t.inner.addNode (ε := ε) ⟨l.iter[k].c, []⟩ = y at hn
        cases hn with
        | panic m => exact .panic m
        | @ok a b hab =>
          show Same _ (Outcome.bind (a.1.addEdge u a.2) _)
            (Outcome.bind (Outcome.bind (b.1.addEdge u b.2) _) _)
          have he := same_addEdge (ε := ε) hab.1 u a.2
          rw [← hab.2]
          generalize a.1.addEdge (ε := ε) u a.2 = x at he
          generalize b.1.addEdge (ε := ε) u a.2 = y at he
          cases he with
          | panic m => exact .panic m
          | ok hg => exact ih _ _ _ ⟨hg, ht.root⟩
    · rw [List.getElem?_eq_none (by omega), if_neg (by omega), List.drop_eq_nil_of_le (by omega)]
      exact .ok ⟨ht, rfl⟩

theorem addToTrie_same (p : Profile) {v : Lit} {l : Ue2Literal} (hl : IsLit v l) (r : Nat) {s : Trie} {t : LitTrie}
    (h : IsTrie s t) : Same (fun x y => IsTrie x.1 y.1 ∧ x.2 = y.2) (addToTrie p v r s : Outcome ε _)
      (Rescan.addToTrie l r t) := by
  have hlen : l.iter.length = l.s.length := by
    simp only [Ue2Literal.iter, List.length_zipWith, hl.len, Nat.min_self]
  have hloop := trieLoop_same (ε := ε) p hl (v.s.length + 1) 0 s t t.root h
    (by rw [hl.s, hlen]; omega) (Nat.succ_ne_zero _)
  rw [List.drop_zero] at hloop
  unfold addToTrie Rescan.addToTrie
  rw [h.root]
  refine Same.bind hloop ?_
  rintro ⟨s', u⟩ ⟨t', u'⟩ ⟨h', rfl : u = u'⟩
  have hl' : s'.inner.nodes.length = t'.inner.nodes.length := (length_eq h'.inner).1
  have hm := same_modify (ε := ε) h'.inner u (fun w => { w with reports := setInsert w.reports r })
  unfold PGraph.modify at hm
  show Same _ (Outcome.bind (index s'.inner.nodes u) _) _
  unfold index
  by_cases hu : u < s'.inner.nodes.length
  · have hu' : u < t'.inner.nodes.length := by omega
    rw [List.getElem?_eq_getElem hu, if_pos hu'] at hm
    rw [List.getElem?_eq_getElem hu]
    simp only [if_pos hu']
    cases hm with
    | ok hm =>
      refine .ok ⟨⟨hm, h'.root⟩, ?_⟩
      simp [hl']
  · rw [List.getElem?_eq_none (by omega)]
    simp only [if_neg (show ¬ u < t'.inner.nodes.length by omega)]
    exact .panic "index out of bounds"

theorem default_trie : ∃ s, (Trie.default : Outcome ε _) = .ok s ∧ IsTrie s LitTrie.default := by
  refine ⟨_, rfl, ?_, rfl⟩
  have := same_addNode (ε := ε) (N := LitTrieVertexProps) holds_new ⟨0#8, []⟩
  cases this with
  | ok h => exact h.1

/-! ## The builder -/

/-- The stored builder `s` is the builder `b`. -/
structure IsBuild (s : Build) (b : SmallWriteBuild) : Prop where
  grey : s.grey = b.grey
  litTrie : IsTrie s.litTrie b.litTrie
  litTrieNocase : IsTrie s.litTrieNocase b.litTrieNocase
  numLiterals : s.numLiterals = b.numLiterals
  poisoned : s.poisoned = b.poisoned

theorem new_build (n : Nat) (g : Grey) : ∃ s, (Build.new n g : Outcome ε _) = .ok s ∧
    IsBuild s (SmallWriteBuild.new n g) := by
  obtain ⟨t, h1, h2⟩ := default_trie (ε := ε)
  refine ⟨⟨g, t, t, 0, _⟩, ?_, ⟨rfl, h2, h2, rfl, rfl⟩⟩
  unfold Build.new
  rw [h1]; rfl

theorem addLiteral_same (p : Profile) {v : Lit} {l : Ue2Literal} (hl : IsLit v l) (r : Nat) {s : Build}
    {b : SmallWriteBuild} (h : IsBuild s b) :
    Same IsBuild (s.addLiteral p v r : Outcome ε _) (b.addLiteral l r) := by
  unfold Build.addLiteral SmallWriteBuild.addLiteral Ue2Literal.len
  rw [h.poisoned, hl.s, h.grey]
  split
  · exact .ok h
  split
  · exact .ok h
  simp only [h.numLiterals, h.grey]
  split
  · exact .ok ⟨rfl, h.litTrie, h.litTrieNocase, rfl, rfl⟩
  rw [isLit_any hl]
  split
  · refine Same.bind (addToTrie_same p hl r h.litTrieNocase) ?_
    rintro ⟨x, f⟩ ⟨y, f'⟩ ⟨hx, rfl : f = f'⟩
    exact .ok ⟨rfl, h.litTrie, hx, rfl, rfl⟩
  · refine Same.bind (addToTrie_same p hl r h.litTrie) ?_
    rintro ⟨x, f⟩ ⟨y, f'⟩ ⟨hx, rfl : f = f'⟩
    exact .ok ⟨rfl, hx, h.litTrieNocase, rfl, rfl⟩

/-- A builder given some literals, each as the bytes and flags pushed onto it, with a report each. -/
def build (p : Profile) (n : Nat) (g : Grey) (ls : List (List (U8 × Bool) × Nat)) : Outcome ε Build := do
  let s ← Build.new n g
  ls.foldlM (fun s x => do s.addLiteral p (← pushes p x.1) x.2) s

/-- The same in the rest of the model. -/
def buildM (n : Nat) (g : Grey) (ls : List (List (U8 × Bool) × Nat)) : Outcome ε SmallWriteBuild :=
  ls.foldlM (fun b x => b.addLiteral (pushesM x.1) x.2) (SmallWriteBuild.new n g)

theorem addLiterals_same (p : Profile) : ∀ (ls : List (List (U8 × Bool) × Nat)) (s : Build) (b : SmallWriteBuild),
    (∀ x ∈ ls, x.1.length < 2 ^ 64) → IsBuild s b →
    Same IsBuild (ls.foldlM (fun s x => do s.addLiteral p (← pushes p x.1) x.2) s : Outcome ε _)
      (ls.foldlM (fun b x => b.addLiteral (pushesM x.1) x.2) b)
  | [], s, b, _, h => .ok h
  | x :: ls, s, b, hx, h => by
    rw [List.foldlM_cons, List.foldlM_cons]
    obtain ⟨v, h1, h2⟩ := isLit_pushes (ε := ε) p x.1 Lit.default Ue2Literal.default isLit_default
      (by simpa [Ue2Literal.default] using hx x (by simp))
    refine Same.bind ?_ (fun s' b' h' => addLiterals_same p ls s' b' (fun y hy => hx y (by simp [hy])) h')
    show Same _ (Outcome.bind (pushes p x.1) _) _
    unfold pushes
    rw [h1]
    exact addLiteral_same p h2 x.2 h

/-- What can be seen of a trie: its root, the byte and the reports of each vertex, and, for any index, the vertices
that the links lead to, in their order. -/
structure Looks (s : Trie) (t : LitTrie) : Prop where
  root : s.root = t.root
  vertices : s.inner.nodes.map Node.weight = t.inner.nodes
  edges : s.inner.edges.length = t.inner.edges.length
  out : ∀ u, (s.inner.collect (s.inner.neighborsOut u) (s.inner.edges.length + 1) : Outcome Empty _)
    = .ok (t.inner.outgoing u)

theorem looks {s : Trie} {t : LitTrie} (h : IsTrie s t) : Looks s t :=
  ⟨h.root, h.inner.nodes, (length_eq h.inner).2, fun u =>
    (holds_neighbors h.inner u _ (by rw [(length_eq h.inner).2]; exact Nat.lt_succ_self _)).1⟩

/-- **C92.** Pushing any bytes and flags never panics in either profile. The stored literal then gives the same
length, the same answer on case flags, and at each index of the iterator the same element. -/
theorem C92_literal (p : Profile) (l : List (U8 × Bool)) (hl : l.length < 2 ^ 64) :
    ∃ v, (pushes p l : Outcome ε _) = .ok v ∧ v.s.length = l.length ∧
      (v.nocase.any = true ↔ ∃ x ∈ l, x.2 = true) ∧
      ∀ i, (v.next p i : Outcome ε _) = .ok (match l[i]? with
        | some x => (some ⟨if x.2 then Rescan.mytoupper x.1 else x.1, x.2⟩, i + 1)
        | none => (none, i)) := by
  obtain ⟨v, h1, h2⟩ := isLit_pushes (ε := ε) p l Lit.default Ue2Literal.default isLit_default
    (by simpa [Ue2Literal.default] using hl)
  have hfold : ∀ (l : List (U8 × Bool)) (m : Ue2Literal), l.foldl (fun v x => v.push x.1 x.2) m =
      ⟨m.s ++ l.map (fun x => if x.2 then Rescan.mytoupper x.1 else x.1), m.nocase ++ l.map Prod.snd⟩ := by
    intro l
    induction l with
    | nil => intro m; simp
    | cons x l ih => intro m; rw [List.foldl_cons, ih]; simp [Ue2Literal.push]
  rw [hfold] at h2
  simp only [Ue2Literal.default, List.nil_append] at h2
  refine ⟨v, h1, by rw [h2.s]; simp, ?_, fun i => ?_⟩
  · rw [isLit_any h2]; simp [Ue2Literal.anyNocase]
  · rw [isLit_next p h2 i]
    simp only [Ue2Literal.iter, List.getElem?_zipWith, List.getElem?_map, List.length_map]
    by_cases hi : i < l.length
    · rw [List.getElem?_eq_getElem hi, if_pos hi]; rfl
    · rw [List.getElem?_eq_none (by omega), if_neg hi]; rfl

example := C92_literal (ε := Empty) .debug [(0x61#8, false), (0x62#8, true)] (by decide)

/-- **C92.** Whatever literals are added to a new builder: on blocks and linked lists and on plain lists the run
ends in the same way, with the same panic or with the same counts and flags and tries that look the same. In
particular no search runs out of its one step per edge. -/
theorem C92_build (p : Profile) (n : Nat) (g : Grey) (ls : List (List (U8 × Bool) × Nat))
    (hl : ∀ x ∈ ls, x.1.length < 2 ^ 64) :
    Same (fun s b => s.grey = b.grey ∧ s.numLiterals = b.numLiterals ∧ s.poisoned = b.poisoned ∧
      Looks s.litTrie b.litTrie ∧ Looks s.litTrieNocase b.litTrieNocase)
      (build p n g ls : Outcome ε _) (buildM n g ls) := by
  obtain ⟨s, h1, h2⟩ := new_build (ε := ε) n g
  unfold build buildM
  show Same _ (Outcome.bind (Build.new n g) _) _
  rw [h1]
  exact Same.mono (addLiterals_same p ls s _ hl h2)
    (fun a b h => ⟨h.grey, h.numLiterals, h.poisoned, looks h.litTrie, looks h.litTrieNocase⟩)

example := C92_build (ε := Empty) .debug 1 Grey.default [([(0x61#8, false), (0x62#8, false)], 3), ([(0x61#8, true)], 6)]
  (by decide)

/-! ## The NFA graph -/

theorem foldReports_eq {s : PGraph NfaGraphVertexProps} {h : NgHolder} (H : Holds s h.inner) :
    ∀ (fuel : Nat) (it : PGraph.Neighbors) (vs acc : List Nat), (s.collect it fuel : Outcome ε _) = .ok vs →
      (∀ v ∈ vs, v < s.nodes.length) →
      (foldReports s fuel it acc : Outcome ε _) = .ok (vs.foldl (fun u v => setExtend u (h.reportsAt v)) acc)
  | 0, it, vs, _, hc, _ => by cases hc
  | fuel + 1, it, vs, acc, hc, hv => by
    unfold foldReports
    rcases collect_cases hc with ⟨it', h1, rfl⟩ | ⟨v, it', rest, h1, h2, rfl⟩
    · rw [h1]; rfl
    · have hv0 := hv v (by simp)
      rw [h1]
      show Outcome.bind (index s.nodes v) _ = _
      unfold index
      rw [List.getElem?_eq_getElem hv0, List.foldl_cons]
      have : h.reportsAt v = s.nodes[v].weight.reports := by
        unfold NgHolder.reportsAt; rw [weight_at H hv0]
      rw [this]
      exact foldReports_eq H fuel it' rest _ h2 (fun v hv' => hv v (by simp [hv']))

/-- **C92.** A new graph can be made without a panic. Its four special vertices and the weights are the same on
linked lists as on the list of edges, and so are the neighbours of any index. -/
theorem C92_new_graph : ∃ s h, (Holder.new : Outcome ε _) = .ok s ∧ (NgHolder.new : Outcome ε _) = .ok h ∧
    s.start = h.start ∧ s.startDs = h.startDs ∧ s.accept = h.accept ∧ s.acceptEod = h.acceptEod ∧
    s.inner.nodes.map Node.weight = h.inner.nodes ∧
    ∀ v, (s.inner.collect (s.inner.neighborsOut v) 4 : Outcome ε _) = .ok (h.inner.outgoing v) ∧
      (s.inner.collect (s.inner.neighborsIn v) 4 : Outcome ε _) = .ok (h.inner.incoming v) := by
  let d := NfaGraphVertexProps.default
  let f : NfaGraphVertexProps → NfaGraphVertexProps := fun v => { v with charReach := v.charReach.setAll }
  let ts : List (Step NfaGraphVertexProps) :=
    [.node d, .node d, .node d, .node d, .edge 0 1, .edge 1 1, .edge 2 3, .weight 0 f, .weight 1 f]
  refine ⟨_, _, rfl, rfl, rfl, rfl, rfl, rfl, rfl, fun v => ?_⟩
  exact C90_neighbors ts _ _ ⟨rfl, rfl⟩ v 4 (by decide)

/-- **C92.** On any graph made by adding vertices and edges and changing weights, with any four vertices as the
special ones: collecting the reports and looking for an edge past all characters never panic or run on, and answer
what they answer on the list of edges. -/
theorem C92_graph (ts : List (Step NfaGraphVertexProps)) (s : Holder) (h : NgHolder) (hm : Made ts s.inner h.inner)
    (h1 : s.start = h.start) (h2 : s.startDs = h.startDs) (h3 : s.accept = h.accept)
    (h4 : s.acceptEod = h.acceptEod) :
    (s.allReports : Outcome ε _) = .ok h.allReports ∧ (s.isVacuous : Outcome ε _) = .ok h.isVacuous := by
  have H := made_holds hm
  have hf : h.inner.edges.length < s.inner.edges.length + 1 := by rw [(length_eq H).2]; exact Nat.lt_succ_self _
  constructor
  · unfold Holder.allReports NgHolder.allReports
    have n1 := (holds_neighbors (ε := ε) H h.accept _ hf).2
    have n2 := (holds_neighbors (ε := ε) H h.acceptEod _ hf).2
    rw [h3, h4]
    show Outcome.bind (foldReports _ _ _ _) _ = _
    rw [foldReports_eq H _ _ _ _ n1 (incoming_lt H _)]
    exact foldReports_eq H _ _ _ _ n2 (incoming_lt H _)
  · unfold Holder.isVacuous NgHolder.isVacuous
    have key : ∀ a b, ∃ r, (s.inner.findEdge (s.inner.edges.length + 1) a b : Outcome ε _) = .ok r ∧
        r.isSome = h.inner.hasEdge a b := fun a b =>
      let ⟨r, e1, e2, _⟩ := holds_find (ε := ε) H a b _ hf
      ⟨r, e1, e2⟩
    obtain ⟨a, a1, a2⟩ := key h.start h.accept
    obtain ⟨b, b1, b2⟩ := key h.start h.acceptEod
    obtain ⟨c, c1, c2⟩ := key h.startDs h.accept
    obtain ⟨d, d1, d2⟩ := key h.startDs h.acceptEod
    dsimp only
    rw [h1, h2, h3, h4, a1, b1, c1, d1, ← a2, ← b2, ← c2, ← d2]
    cases a <;> cases b <;> cases c <;> cases d <;> rfl

/-! Concrete cases: two literals sharing a prefix and one with a case flag; a graph with a report behind `accept`
and an edge from `start`. -/
example : ∃ s, (build .debug 1 Grey.default [([(0x61#8, false), (0x62#8, false)], 3), ([(0x61#8, false)], 4),
    ([(0x61#8, false), (0x63#8, false)], 5), ([(0x61#8, true)], 6)] : Outcome Empty _) = .ok s ∧
    s.litTrie.inner.nodes.map (fun x => (x.weight.c, x.weight.reports)) =
      [(0#8, []), (0x61#8, [4]), (0x62#8, [3]), (0x63#8, [5])] ∧
    s.litTrieNocase.inner.nodes.map (fun x => (x.weight.c, x.weight.reports)) = [(0#8, []), (0x41#8, [6])] ∧
    s.numLiterals = 4 ∧ s.poisoned = false := ⟨_, rfl, by decide +kernel⟩
/-- A builder that stops: a trie whose root does not exist. -/
example : (addToTrie .debug Lit.default 0 ⟨PGraph.new, 0⟩ : Outcome Empty _) = .panic "index out of bounds" := rfl
example : ∃ (ts : _) (s : Holder) (h : NgHolder), Made ts s.inner h.inner ∧ s.start = h.start ∧ s.startDs = h.startDs ∧ s.accept = h.accept ∧
    s.acceptEod = h.acceptEod ∧ (s.allReports : Outcome Empty _) = .ok [7] ∧
    (s.isVacuous : Outcome Empty _) = .ok true :=
  let d := NfaGraphVertexProps.default
  ⟨[.node d, .node d, .node d, .node d, .edge 0 2, .edge 1 3, .weight 1 (fun v => { v with reports := [7] })],
    ⟨_, 0, 1, 2, 3⟩, ⟨_, 0, 1, 2, 3⟩, ⟨rfl, rfl⟩, rfl, rfl, rfl, rfl, by decide +kernel, by decide +kernel⟩

end Rescan.Stored
