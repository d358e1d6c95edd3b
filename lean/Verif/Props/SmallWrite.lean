import Verif.Proofs.Trie
import Verif.Spec.Witness
/-! # Properties C43 - C46: literal tries and the small-write builder -/
namespace Rescan
open Spec LitTrie

/-- A history of `add_to_trie` calls. -/
def insertAll {ε : Type} : List (Ue2Literal × Nat) → LitTrie → Outcome ε LitTrie
  | [], t => .ok t
  | (l, r) :: h, t => (addToTrie l r t).bind fun x => insertAll h x.1

theorem insertAll_stores {ε : Type} : ∀ (h : List (Ue2Literal × Nat)) (t : LitTrie) (strs : List (List U8))
    (hist : List (List U8 × Nat)), Stores t strs hist →
    t.inner.nodes.length + (h.map (fun x => (bytesOf x.1).length)).sum < 2 ^ 32 →
    ∃ t' strs', insertAll (ε := ε) h t = .ok t' ∧ Stores t' strs' (hist ++ histOf h) := by
  intro h
  induction h with
  | nil => intro t strs hist hs _; exact ⟨t, strs, rfl, by simpa [histOf] using hs⟩
  | cons x h ih =>
    obtain ⟨l, r⟩ := x
    intro t strs hist hs hroom
    simp only [List.map_cons, List.sum_cons] at hroom
    obtain ⟨t1, fits, strs1, h1, h2, h3, h4⟩ := hs.add (ε := ε) l r (by omega)
    obtain ⟨t2, strs2, g1, g2⟩ := ih t1 strs1 _ h2 (by omega)
    refine ⟨t2, strs2, ?_, ?_⟩
    · rw [insertAll, h1]; exact g1
    · rw [List.append_assoc] at g2; exact g2

theorem mem_allReports (t : LitTrie) (r : Nat) : r ∈ t.allReports ↔ ∃ n ∈ t.inner.nodes, r ∈ n.reports := by
  have key : ∀ (ns : List LitTrieVertexProps) (s : List Nat),
      r ∈ ns.foldl (fun s v => setExtend s v.reports) s ↔ r ∈ s ∨ ∃ n ∈ ns, r ∈ n.reports := by
    intro ns
    induction ns with
    | nil => intro s; simp
    | cons n ns ih =>
      intro s
      rw [List.foldl_cons, ih, GlushkovBuildState.mem_setExtend]
      simp [or_assoc]
  unfold LitTrie.allReports
  rw [key]; simp

/-- **C43.** Any history of insertions into a new trie whose literals have fewer than 2³² - 1 bytes in
all succeeds.  In the resulting trie the bytes of a string can be followed from the root iff the string
is a prefix of an inserted literal; the vertex reached carries exactly the reports inserted with that
string; and the set of all reports is exactly that of the history. -/
theorem C43_trie_content {ε : Type} (h : List (Ue2Literal × Nat))
    (hroom : 1 + (h.map (fun x => (bytesOf x.1).length)).sum < 2 ^ 32) :
    ∃ t, insertAll (ε := ε) h LitTrie.default = .ok t ∧
      (∀ w, (∃ v, Follows t.inner t.root w v) ↔ IsPrefixOfSome (h.map (fun x => bytesOf x.1)) w) ∧
      (∀ w v, Follows t.inner t.root w v → ∃ props, t.inner.nodes[v]? = some props ∧
        ∀ r, r ∈ props.reports ↔ ∃ l, (l, r) ∈ h ∧ bytesOf l = w) ∧
      (∀ r, r ∈ t.allReports ↔ ∃ l, (l, r) ∈ h) := by
  obtain ⟨t, strs, h1, h2⟩ := insertAll_stores (ε := ε) h LitTrie.default _ _ stores_default hroom
  rw [List.nil_append] at h2
  have hmem : ∀ w r, (w, r) ∈ histOf h ↔ ∃ l, (l, r) ∈ h ∧ bytesOf l = w := by
    intro w r
    unfold histOf
    rw [List.mem_map]
    constructor
    · rintro ⟨⟨l, r'⟩, hm, e⟩
      injection e with e1 e2
      subst e2
      exact ⟨l, hm, e1⟩
    · rintro ⟨l, hm, rfl⟩; exact ⟨(l, r), hm, rfl⟩
  have hfst : (histOf h).map Prod.fst = h.map (fun x => bytesOf x.1) := by
    unfold histOf; rw [List.map_map]; rfl
  refine ⟨t, h1, ?_, ?_, ?_⟩
  · intro w
    rw [← hfst, ← h2.strs_iff]
    constructor
    · rintro ⟨v, hv⟩
      exact List.mem_of_getElem? ((h2.shape.follows_iff w v).1 hv)
    · intro hw
      obtain ⟨v, hv⟩ := List.getElem?_of_mem hw
      exact ⟨v, (h2.shape.follows_iff w v).2 hv⟩
  · intro w v hf
    have hv := (h2.shape.follows_iff w v).1 hf
    have hlt : v < t.inner.nodes.length := by
      rw [← h2.shape.len]; exact (List.getElem?_eq_some_iff.1 hv).1
    refine ⟨t.inner.nodes[v], List.getElem?_eq_getElem hlt, ?_⟩
    intro r
    rw [h2.reports v w _ hv (List.getElem?_eq_getElem hlt), hmem]
  · intro r
    rw [mem_allReports]
    constructor
    · rintro ⟨n, hn, hr⟩
      obtain ⟨v, hv⟩ := List.getElem?_of_mem hn
      have hlt : v < strs.length := by
        rw [h2.shape.len]; exact (List.getElem?_eq_some_iff.1 hv).1
      obtain ⟨l, hl, _⟩ := (hmem _ r).1 ((h2.reports v _ n (List.getElem?_eq_getElem hlt) hv r).1 hr)
      exact ⟨l, hl⟩
    · rintro ⟨l, hl⟩
      have hm : (bytesOf l, r) ∈ histOf h := (hmem _ _).2 ⟨l, hl, rfl⟩
      have hin : bytesOf l ∈ strs := (h2.strs_iff _).2
        (.inr ⟨_, List.mem_map.2 ⟨_, hm, rfl⟩, List.prefix_refl _⟩)
      obtain ⟨v, hv⟩ := List.getElem?_of_mem hin
      have hlt : v < t.inner.nodes.length := by
        rw [← h2.shape.len]; exact (List.getElem?_eq_some_iff.1 hv).1
      refine ⟨t.inner.nodes[v], List.getElem_mem hlt, ?_⟩
      exact (h2.reports v _ _ hv (List.getElem?_eq_getElem hlt) r).2 hm

/-- Literals `ab`, `ac`, `a`. -/
def litAb : Ue2Literal := ⟨[0x61#8, 0x62#8], [false, false]⟩
def litAc : Ue2Literal := ⟨[0x61#8, 0x63#8], [false, false]⟩
def litA : Ue2Literal := ⟨[0x61#8], [false]⟩

/-- C43, C44 are not vacuous: `ab`, `ac` share the vertex of `a`. -/
example : (match insertAll (ε := Empty) [(litAb, 1), (litAc, 2), (litA, 3), (litAb, 4)] LitTrie.default with
    | .ok t => some (t.inner.nodes.map (fun n => (n.c, n.reports)), t.inner.edges)
    | _ => none) = some ([(0#8, []), (0x61#8, [3]), (0x62#8, [1, 4]), (0x63#8, [2])],
      [(1, 3), (1, 2), (0, 1)]) := by decide +kernel

/-- **C44.** After any history of insertions (as in C43): no vertex has two incoming edges, the root has
none, every vertex can be reached from the root by exactly one string, and no two edges from one vertex
carry the same byte — the trie is a tree with distinct sibling bytes; it has one vertex per distinct
prefix; and it is empty iff every inserted literal is empty. -/
theorem C44_trie_shape {ε : Type} (h : List (Ue2Literal × Nat))
    (hroom : 1 + (h.map (fun x => (bytesOf x.1).length)).sum < 2 ^ 32) :
    ∃ t, insertAll (ε := ε) h LitTrie.default = .ok t ∧
      (∀ a b v, (a, v) ∈ t.inner.edges → (b, v) ∈ t.inner.edges → a = b) ∧
      (∀ a, (a, t.root) ∉ t.inner.edges) ∧
      t.inner.edges.length + 1 = t.inner.nodes.length ∧
      (∀ v, v < t.inner.nodes.length ↔ ∃ w, Follows t.inner t.root w v) ∧
      (∀ v w w', Follows t.inner t.root w v → Follows t.inner t.root w' v → w = w') ∧
      (∀ v v' w, Follows t.inner t.root w v → Follows t.inner t.root w v' → v = v') ∧
      (∀ u v v' n n', (u, v) ∈ t.inner.edges → (u, v') ∈ t.inner.edges → t.inner.nodes[v]? = some n →
        t.inner.nodes[v']? = some n' → n.c = n'.c → v = v') ∧
      PrefixCount (h.map (fun x => bytesOf x.1)) t.inner.nodes.length ∧
      (t.isEmpty = true ↔ ∀ x ∈ h, bytesOf x.1 = []) := by
  obtain ⟨t, strs, h1, h2⟩ := insertAll_stores (ε := ε) h LitTrie.default _ _ stores_default hroom
  rw [List.nil_append] at h2
  have hfst : (histOf h).map Prod.fst = h.map (fun x => bytesOf x.1) := by
    unfold histOf; rw [List.map_map]; rfl
  have hs := h2.shape
  refine ⟨t, h1, ?_, ?_, hs.count, ?_, ?_, ?_, ?_, hfst ▸ h2.prefixCount, ?_⟩
  · intro a b v ha hb
    obtain ⟨sa, n, g1, g2, g3⟩ := (hs.edges a v).1 ha
    obtain ⟨sb, n', g4, g5, g6⟩ := (hs.edges b v).1 hb
    rw [g3] at g6
    injection g6 with g6
    have := (List.append_inj' g6 rfl).1
    subst this
    exact hs.inj g1 g4
  · intro a ha
    obtain ⟨sa, n, g1, g2, g3⟩ := (hs.edges a _).1 ha
    rw [hs.root, hs.zero] at g3
    injection g3 with g3
    simp at g3
  · intro v
    rw [← hs.len]
    constructor
    · intro hv
      exact ⟨strs[v], (hs.follows_iff _ v).2 (List.getElem?_eq_getElem hv)⟩
    · rintro ⟨w, hf⟩
      exact (List.getElem?_eq_some_iff.1 ((hs.follows_iff w v).1 hf)).1
  · intro v w w' hf hf'
    have a := (hs.follows_iff w v).1 hf
    have b := (hs.follows_iff w' v).1 hf'
    rw [a] at b
    injection b
  · intro v v' w hf hf'
    exact hs.inj ((hs.follows_iff w v).1 hf) ((hs.follows_iff w v').1 hf')
  · intro u v v' n n' he he' hn hn' hc
    obtain ⟨sa, m, g1, g2, g3⟩ := (hs.edges u v).1 he
    obtain ⟨sb, m', g4, g5, g6⟩ := (hs.edges u v').1 he'
    rw [hn] at g2; injection g2 with g2; subst g2
    rw [hn'] at g5; injection g5 with g5; subst g5
    rw [g1] at g4; injection g4 with g4; subst g4
    rw [hc] at g3
    exact hs.inj g3 g6
  · unfold LitTrie.isEmpty
    rw [beq_iff_eq, ← hs.len]
    constructor
    · intro hl x hx
      have hin : bytesOf x.1 ∈ strs := (h2.strs_iff _).2 (.inr ⟨_, by
        rw [hfst]; exact List.mem_map.2 ⟨x, hx, rfl⟩, List.prefix_refl _⟩)
      obtain ⟨v, hv⟩ := List.getElem?_of_mem hin
      have : v < strs.length := (List.getElem?_eq_some_iff.1 hv).1
      have : v = 0 := by omega
      subst this
      rw [hs.zero] at hv
      injection hv with hv
      exact hv.symm
    · intro hall
      have hle : strs.length ≤ 1 := by
        refine nodup_subset_length strs [[]] hs.nodup ?_
        intro w hw
        rcases (h2.strs_iff w).1 hw with rfl | ⟨x, hx, hp⟩
        · simp
        · rw [hfst, List.mem_map] at hx
          obtain ⟨y, hy, rfl⟩ := hx
          rw [hall y hy, List.prefix_nil] at hp
          simp [hp]
      have : 0 < strs.length := (List.getElem?_eq_some_iff.1 hs.zero).1
      omega

example := C44_trie_shape (ε := Empty) [(litAb, 1), (litAc, 2), (litA, 3), (litAb, 4)] (by decide +kernel)

/-- **C44.** Each insertion tells whether the trie then has at most 8000 vertices, i.e. whether the
inserted literals have at most 8000 distinct prefixes. -/
theorem C44_fits {ε : Type} (h : List (Ue2Literal × Nat)) (l : Ue2Literal) (r : Nat) (t : LitTrie)
    (hroom : 1 + ((h ++ [(l, r)]).map (fun x => (bytesOf x.1).length)).sum < 2 ^ 32)
    (ht : insertAll (ε := ε) h LitTrie.default = .ok t) :
    ∃ t' fits, addToTrie (ε := ε) l r t = .ok (t', fits) ∧
      (fits = true ↔ t'.inner.nodes.length ≤ 8000) ∧
      ∀ n, PrefixCount ((h ++ [(l, r)]).map (fun x => bytesOf x.1)) n → (fits = true ↔ n ≤ 8000) := by
  simp only [List.map_append, List.sum_append, List.map_cons, List.map_nil, List.sum_cons,
    List.sum_nil] at hroom
  obtain ⟨t1, strs, h1, h2⟩ := insertAll_stores (ε := ε) h LitTrie.default _ _ stores_default (by
    show 1 + _ < _; omega)
  rw [ht] at h1
  injection h1 with h1
  subst h1
  have hlen : t.inner.nodes.length ≤ 1 + (h.map (fun x => (bytesOf x.1).length)).sum := by
    have : ∀ (h : List (Ue2Literal × Nat)) (t t' : LitTrie) (strs : List (List U8)) hist,
        Stores t strs hist →
        t.inner.nodes.length + (h.map (fun x => (bytesOf x.1).length)).sum < 2 ^ 32 →
        insertAll (ε := ε) h t = .ok t' →
        t'.inner.nodes.length ≤ t.inner.nodes.length + (h.map (fun x => (bytesOf x.1).length)).sum := by
      intro h
      induction h with
      | nil => intro t t' strs hist _ _ e; injection e with e; subst e; simp
      | cons x h ih =>
        obtain ⟨l, r⟩ := x
        intro t t' strs hist hs hr e
        simp only [List.map_cons, List.sum_cons] at hr ⊢
        obtain ⟨t1, fits, strs1, g1, g2, g3, g4⟩ := hs.add (ε := ε) l r (by omega)
        rw [insertAll, g1] at e
        have := ih t1 t' strs1 _ g2 (by omega) e
        omega
    exact this h _ _ _ _ stores_default (by show 1 + _ < _; omega) ht
  obtain ⟨t', fits, strs', g1, g2, g3, _⟩ := h2.add (ε := ε) l r (by omega)
  refine ⟨t', fits, g1, g3, ?_⟩
  intro n hn
  have hc := g2.prefixCount
  have : ([] ++ histOf h ++ [(bytesOf l, r)]).map Prod.fst
      = (h ++ [(l, r)]).map (fun x => bytesOf x.1) := by
    simp [histOf, List.map_map]
  rw [this] at hc
  rw [g3, prefixCount_unique hc hn]

/-- C44 is not vacuous: `ab`, `ac` have the four prefixes "", a, ab, ac. -/
example : PrefixCount [[0x61#8, 0x62#8], [0x61#8, 0x63#8]] 4 :=
  ⟨[[], [0x61#8], [0x61#8, 0x62#8], [0x61#8, 0x63#8]], by decide, by
    intro w
    unfold IsPrefixOfSome
    constructor
    · intro h
      simp at h
      rcases h with rfl | rfl | rfl | rfl
      · exact .inl rfl
      · exact .inr ⟨[0x61#8, 0x62#8], by simp, by decide⟩
      · exact .inr ⟨[0x61#8, 0x62#8], by simp, by decide⟩
      · exact .inr ⟨[0x61#8, 0x63#8], by simp, by decide⟩
    · rintro (rfl | ⟨x, hx, hp⟩)
      · simp
      · simp at hx
        rcases hx with rfl | rfl
        · match w, hp with
          | [], _ => simp
          | [a], hp => simp at hp; simp [hp]
          | [a, b], hp => simp at hp; simp [hp]
          | a :: b :: c :: w, hp => simp at hp
        · match w, hp with
          | [], _ => simp
          | [a], hp => simp at hp; simp [hp]
          | [a, b], hp => simp at hp; simp [hp]
          | a :: b :: c :: w, hp => simp at hp, rfl⟩

/-! ## The small-write builder -/

/-- A history of `add_literal` calls. -/
def addLiterals {ε : Type} : List (Ue2Literal × Nat) → SmallWriteBuild → Outcome ε SmallWriteBuild
  | [], sw => .ok sw
  | (l, r) :: h, sw => (sw.addLiteral l r).bind fun sw => addLiterals h sw

/-- **C45.** A poisoned builder stays exactly as it is. -/
theorem C45_poisoned_inert {ε : Type} (h : List (Ue2Literal × Nat)) (sw : SmallWriteBuild)
    (hp : sw.poisoned = true) : addLiterals (ε := ε) h sw = .ok sw := by
  induction h with
  | nil => rfl
  | cons x h ih =>
    rw [addLiterals]
    simp only [SmallWriteBuild.addLiteral, hp, if_true]
    exact ih

/-- C45 is not vacuous. -/
example : (SmallWriteBuild.new 10001 Grey.default).poisoned = true := by decide +kernel

/-- **C45.** Literals longer than the buffer limit change nothing. -/
theorem C45_long_skipped {ε : Type} (sw : SmallWriteBuild) (l : Ue2Literal) (r : Nat)
    (hl : l.s.length > sw.grey.smallWriteLargestBuffer) : sw.addLiteral (ε := ε) l r = .ok sw := by
  unfold SmallWriteBuild.addLiteral
  split
  · rfl
  · rw [if_pos (show l.len > _ from hl)]

/-- C45 is not vacuous: a literal of 71 bytes. -/
example : (⟨List.replicate 71 0x61#8, List.replicate 71 false⟩ : Ue2Literal).s.length
    > (SmallWriteBuild.new 1 Grey.default).grey.smallWriteLargestBuffer := by decide +kernel

theorem anyNocase_eq (l : Ue2Literal) : l.anyNocase = l.nocase.contains true := by
  unfold Ue2Literal.anyNocase
  induction l.nocase with
  | nil => rfl
  | cons b bs ih => rw [List.any_cons, ih]; cases b <;> simp

theorem bytesOf_length_le (l : Ue2Literal) : (bytesOf l).length ≤ l.s.length := by
  simp [bytesOf]; omega

/-- The state of a builder that was not poisoned by the history `h`. -/
structure SwOk (g : Grey) (h : List (Ue2Literal × Nat)) (sw : SmallWriteBuild) : Prop where
  grey : sw.grey = g
  unpoisoned : sw.poisoned = false
  count : sw.numLiterals = (shortOnes g.smallWriteLargestBuffer h).length
  max : sw.numLiterals ≤ g.smallWriteMaxLiterals
  trie : ∃ strs, Stores sw.litTrie strs (histOf (sensitiveOnes (shortOnes g.smallWriteLargestBuffer h)))
  trieN : ∃ strs, Stores sw.litTrieNocase strs
    (histOf (caselessOnes (shortOnes g.smallWriteLargestBuffer h)))
  fits : sw.litTrie.inner.nodes.length ≤ 8000
  fitsN : sw.litTrieNocase.inner.nodes.length ≤ 8000

/-- The strings of a history. -/
def strings (h : List (Ue2Literal × Nat)) : List (List U8) := h.map (fun x => bytesOf x.1)

theorem histOf_fst (h : List (Ue2Literal × Nat)) : (histOf h).map Prod.fst = strings h := by
  unfold histOf strings; rw [List.map_map]; rfl

/-- The history exceeds one of the limits. -/
def Exceeds (g : Grey) (h : List (Ue2Literal × Nat)) : Prop :=
  (shortOnes g.smallWriteLargestBuffer h).length > g.smallWriteMaxLiterals ∨
  (∀ n, PrefixCount (strings (sensitiveOnes (shortOnes g.smallWriteLargestBuffer h))) n → n > 8000) ∨
  (∀ n, PrefixCount (strings (caselessOnes (shortOnes g.smallWriteLargestBuffer h))) n → n > 8000)

theorem exceeds_append (g : Grey) (h h' : List (Ue2Literal × Nat)) (he : Exceeds g h) :
    Exceeds g (h ++ h') := by
  have hsub : ∀ (f : List (Ue2Literal × Nat) → List (Ue2Literal × Nat)),
      (∀ a b, f (a ++ b) = f a ++ f b) →
      (∀ n, PrefixCount (strings (f (shortOnes g.smallWriteLargestBuffer h))) n → n > 8000) →
      (∀ n, PrefixCount (strings (f (shortOnes g.smallWriteLargestBuffer (h ++ h')))) n → n > 8000) := by
    intro f hf hall n hn
    obtain ⟨m, hm⟩ := prefixCount_exists (strings (f (shortOnes g.smallWriteLargestBuffer h)))
    have := hall m hm
    have := prefixCount_mono hm hn (by
      intro x hx
      unfold shortOnes
      rw [List.filter_append, hf]
      unfold strings
      rw [List.map_append, List.mem_append]
      exact .inl hx)
    omega
  rcases he with he | he | he
  · left
    unfold shortOnes at he ⊢
    rw [List.filter_append, List.length_append]; omega
  · exact .inr (.inl (hsub sensitiveOnes (fun a b => by simp [sensitiveOnes]) he))
  · exact .inr (.inr (hsub caselessOnes (fun a b => by simp [caselessOnes]) he))

theorem swOk_step {ε : Type} {g : Grey} {h : List (Ue2Literal × Nat)} {sw : SmallWriteBuild}
    (hL : g.smallWriteLargestBuffer < 2 ^ 31) (hs : SwOk g h sw) (l : Ue2Literal) (r : Nat) :
    ∃ sw', sw.addLiteral (ε := ε) l r = .ok sw' ∧
      (SwOk g (h ++ [(l, r)]) sw' ∨ (sw'.poisoned = true ∧ Exceeds g (h ++ [(l, r)]))) := by
  obtain ⟨hgrey, hpois, hcount, hmax, ⟨strs, ht⟩, ⟨strsN, htN⟩, hfit, hfitN⟩ := hs
  unfold SmallWriteBuild.addLiteral
  rw [hpois, if_neg (by simp)]
  by_cases hlen : l.len > sw.grey.smallWriteLargestBuffer
  · rw [if_pos hlen]
    refine ⟨sw, rfl, .inl ?_⟩
    have hsh : shortOnes g.smallWriteLargestBuffer (h ++ [(l, r)])
        = shortOnes g.smallWriteLargestBuffer h := by
      have : ¬ l.s.length ≤ g.smallWriteLargestBuffer := by rw [← hgrey]; exact Nat.not_le.2 hlen
      unfold shortOnes
      simp [List.filter_append, this]
    constructor
    · exact hgrey
    · exact hpois
    · rw [hsh]; exact hcount
    · exact hmax
    · rw [hsh]; exact ⟨strs, ht⟩
    · rw [hsh]; exact ⟨strsN, htN⟩
    · exact hfit
    · exact hfitN
  · rw [if_neg hlen]
    have hlen' : l.s.length ≤ g.smallWriteLargestBuffer := by rw [← hgrey]; exact Nat.not_lt.1 hlen
    have hsh : shortOnes g.smallWriteLargestBuffer (h ++ [(l, r)])
        = shortOnes g.smallWriteLargestBuffer h ++ [(l, r)] := by
      unfold shortOnes
      simp [List.filter_append, hlen']
    by_cases hm : sw.numLiterals + 1 > sw.grey.smallWriteMaxLiterals
    · simp only
      rw [if_pos hm]
      refine ⟨_, rfl, .inr ⟨rfl, .inl ?_⟩⟩
      rw [hsh, List.length_append, ← hcount, ← hgrey]
      exact hm
    · simp only
      rw [if_neg hm, hgrey] at *
      by_cases hn : l.anyNocase = true
      · have hc : l.nocase.contains true = true := by rw [← anyNocase_eq]; exact hn
        have hsens : sensitiveOnes (shortOnes g.smallWriteLargestBuffer h ++ [(l, r)])
            = sensitiveOnes (shortOnes g.smallWriteLargestBuffer h) := by
          unfold sensitiveOnes
          rw [List.filter_append]
          simp only [List.filter_cons, hc]
          simp
        have hcase : caselessOnes (shortOnes g.smallWriteLargestBuffer h ++ [(l, r)])
            = caselessOnes (shortOnes g.smallWriteLargestBuffer h) ++ [(l, r)] := by
          unfold caselessOnes
          rw [List.filter_append]
          simp only [List.filter_cons, hc]
          simp
        rw [if_pos hn]
        obtain ⟨t', fits, strs', g1, g2, g3, g4⟩ := htN.add (ε := ε) l r (by
          have := bytesOf_length_le l
          omega)
        rw [g1]
        have hh : histOf (caselessOnes (shortOnes g.smallWriteLargestBuffer h)) ++ [(bytesOf l, r)]
            = histOf (caselessOnes (shortOnes g.smallWriteLargestBuffer (h ++ [(l, r)]))) := by
          rw [hsh, hcase]; simp [histOf]
        rw [hh] at g2
        refine ⟨_, rfl, ?_⟩
        by_cases hf : fits = true
        · left
          constructor
          · exact hgrey
          · show (!fits) = false
            simp [hf]
          · rw [hsh, List.length_append, ← hcount]; rfl
          · exact Nat.not_lt.1 hm
          · rw [hsh, hsens]; exact ⟨strs, ht⟩
          · exact ⟨strs', g2⟩
          · exact hfit
          · exact g3.1 hf
        · right
          refine ⟨by show (!fits) = true; simpa using hf, .inr (.inr ?_)⟩
          intro n hpc
          have := g2.prefixCount
          rw [histOf_fst] at this
          have := prefixCount_unique this hpc
          rw [← this]
          have := mt g3.2 hf
          omega
      · have hc : l.nocase.contains true = false := by
          rw [← anyNocase_eq]; simpa using hn
        have hsens : sensitiveOnes (shortOnes g.smallWriteLargestBuffer h ++ [(l, r)])
            = sensitiveOnes (shortOnes g.smallWriteLargestBuffer h) ++ [(l, r)] := by
          unfold sensitiveOnes
          rw [List.filter_append]
          simp only [List.filter_cons, hc]
          simp
        have hcase : caselessOnes (shortOnes g.smallWriteLargestBuffer h ++ [(l, r)])
            = caselessOnes (shortOnes g.smallWriteLargestBuffer h) := by
          unfold caselessOnes
          rw [List.filter_append]
          simp only [List.filter_cons, hc]
          simp
        rw [if_neg hn]
        obtain ⟨t', fits, strs', g1, g2, g3, g4⟩ := ht.add (ε := ε) l r (by
          have := bytesOf_length_le l
          omega)
        rw [g1]
        have hh : histOf (sensitiveOnes (shortOnes g.smallWriteLargestBuffer h)) ++ [(bytesOf l, r)]
            = histOf (sensitiveOnes (shortOnes g.smallWriteLargestBuffer (h ++ [(l, r)]))) := by
          rw [hsh, hsens]; simp [histOf]
        rw [hh] at g2
        refine ⟨_, rfl, ?_⟩
        by_cases hf : fits = true
        · left
          constructor
          · exact hgrey
          · show (!fits) = false
            simp [hf]
          · rw [hsh, List.length_append, ← hcount]; rfl
          · exact Nat.not_lt.1 hm
          · exact ⟨strs', g2⟩
          · rw [hsh, hcase]; exact ⟨strsN, htN⟩
          · exact g3.1 hf
          · exact hfitN
        · right
          refine ⟨by show (!fits) = true; simpa using hf, .inr (.inl ?_)⟩
          intro n hpc
          have := g2.prefixCount
          rw [histOf_fst] at this
          have := prefixCount_unique this hpc
          rw [← this]
          have := mt g3.2 hf
          omega

theorem swOk_history {ε : Type} {g : Grey} (hL : g.smallWriteLargestBuffer < 2 ^ 31) :
    ∀ (h' h : List (Ue2Literal × Nat)) (sw : SmallWriteBuild), SwOk g h sw →
    ∃ sw', addLiterals (ε := ε) h' sw = .ok sw' ∧
      (SwOk g (h ++ h') sw' ∨ (sw'.poisoned = true ∧ Exceeds g (h ++ h'))) := by
  intro h'
  induction h' with
  | nil => intro h sw hs; exact ⟨sw, rfl, .inl (by simpa using hs)⟩
  | cons x h' ih =>
    obtain ⟨l, r⟩ := x
    intro h sw hs
    obtain ⟨sw1, h1, h2⟩ := swOk_step (ε := ε) hL hs l r
    rw [addLiterals, h1]
    have happ : h ++ (l, r) :: h' = (h ++ [(l, r)]) ++ h' := by simp
    rcases h2 with h2 | ⟨h2, h3⟩
    · obtain ⟨sw2, g1, g2⟩ := ih _ _ h2
      rw [happ]
      exact ⟨sw2, g1, g2⟩
    · refine ⟨sw1, C45_poisoned_inert h' sw1 h2, .inr ⟨h2, ?_⟩⟩
      rw [happ]
      exact exceeds_append g _ _ h3

theorem swOk_new (np : Nat) (g : Grey) (h0 : (SmallWriteBuild.new np g).poisoned = false) :
    SwOk g [] (SmallWriteBuild.new np g) where
  grey := rfl
  unpoisoned := h0
  count := rfl
  max := Nat.zero_le _
  trie := ⟨[[]], stores_default⟩
  trieN := ⟨[[]], stores_default⟩
  fits := by show 1 ≤ 8000; omega
  fitsN := by show 1 ≤ 8000; omega

theorem SwOk.not_exceeds {g : Grey} {h : List (Ue2Literal × Nat)} {sw : SmallWriteBuild}
    (hs : SwOk g h sw) : ¬ Exceeds g h := by
  obtain ⟨hgrey, hpois, hcount, hmax, ⟨strs, ht⟩, ⟨strsN, htN⟩, hfit, hfitN⟩ := hs
  rintro (he | he | he)
  · omega
  · have := ht.prefixCount
    rw [histOf_fst] at this
    have := he _ this
    omega
  · have := htN.prefixCount
    rw [histOf_fst] at this
    have := he _ this
    omega

/-- **C45.** Adding any list of literals to a new builder never fails (the buffer limit being less than
2³¹).  The builder is poisoned in the end iff small-write is disabled, or there are too many patterns, or
more literals within the buffer limit than allowed, or these have more than 8000 distinct prefixes,
counting the caseless and the other ones separately. -/
theorem C45_poisoned_iff {ε : Type} (np : Nat) (g : Grey) (h : List (Ue2Literal × Nat))
    (hL : g.smallWriteLargestBuffer < 2 ^ 31) (n m : Nat)
    (hn : PrefixCount (strings (sensitiveOnes (shortOnes g.smallWriteLargestBuffer h))) n)
    (hm : PrefixCount (strings (caselessOnes (shortOnes g.smallWriteLargestBuffer h))) m) :
    ∃ sw, addLiterals (ε := ε) h (SmallWriteBuild.new np g) = .ok sw ∧
      (sw.poisoned = true ↔ g.allowSmallWrite = false ∨ np > g.smallWriteMaxPatterns ∨
        (shortOnes g.smallWriteLargestBuffer h).length > g.smallWriteMaxLiterals ∨ n > 8000 ∨ m > 8000) := by
  have hnew : (SmallWriteBuild.new np g).poisoned = true ↔
      g.allowSmallWrite = false ∨ np > g.smallWriteMaxPatterns := by
    show (!g.allowSmallWrite || decide (np > g.smallWriteMaxPatterns)) = true ↔ _
    simp
  have hex : Exceeds g h ↔
      (shortOnes g.smallWriteLargestBuffer h).length > g.smallWriteMaxLiterals ∨ n > 8000 ∨ m > 8000 := by
    unfold Exceeds
    constructor
    · rintro (he | he | he)
      · exact .inl he
      · exact .inr (.inl (he n hn))
      · exact .inr (.inr (he m hm))
    · rintro (he | he | he)
      · exact .inl he
      · exact .inr (.inl (fun k hk => prefixCount_unique hn hk ▸ he))
      · exact .inr (.inr (fun k hk => prefixCount_unique hm hk ▸ he))
  by_cases h0 : (SmallWriteBuild.new np g).poisoned = true
  · refine ⟨_, C45_poisoned_inert h _ h0, ?_⟩
    rw [← hex, ← or_assoc, ← hnew]
    exact ⟨.inl, fun _ => h0⟩
  · have h0' : (SmallWriteBuild.new np g).poisoned = false := by simpa using h0
    obtain ⟨sw, h1, h2⟩ := swOk_history (ε := ε) hL h [] _ (swOk_new np g h0')
    refine ⟨sw, h1, ?_⟩
    rw [List.nil_append] at h2
    rw [← hex, ← or_assoc, ← hnew]
    rcases h2 with h2 | ⟨h2, h3⟩
    · have := h2.not_exceeds
      constructor
      · intro hp; rw [h2.unpoisoned] at hp; cases hp
      · rintro (hp | hp)
        · exact absurd hp h0
        · exact absurd hp this
    · exact ⟨fun _ => .inr h3, fun _ => h2⟩

example : ∃ (n m : Nat) (sw : SmallWriteBuild), addLiterals (ε := Empty) [(litAb, 1), (⟨[0x41#8], [true]⟩, 2)]
      (SmallWriteBuild.new 2 { Grey.default with smallWriteMaxLiterals := 1 }) = .ok sw ∧ sw.poisoned = true ∧
    PrefixCount (strings (sensitiveOnes [(litAb, 1), (⟨[0x41#8], [true]⟩, 2)])) n ∧
    PrefixCount (strings (caselessOnes [(litAb, 1), (⟨[0x41#8], [true]⟩, 2)])) m := by
  obtain ⟨n, hn⟩ := prefixCount_exists (strings (sensitiveOnes [(litAb, 1), (⟨[0x41#8], [true]⟩, 2)]))
  obtain ⟨m, hm⟩ := prefixCount_exists (strings (caselessOnes [(litAb, 1), (⟨[0x41#8], [true]⟩, 2)]))
  obtain ⟨sw, h1, h2⟩ := C45_poisoned_iff (ε := Empty) 2 { Grey.default with smallWriteMaxLiterals := 1 }
    [(litAb, 1), (⟨[0x41#8], [true]⟩, 2)] (by decide) n m hn hm
  exact ⟨n, m, sw, h1, h2.2 (.inr (.inr (.inl (by decide)))), hn, hm⟩

/-- C45 with the default limits: at most 10000 patterns, 10000 literals of at most 70 bytes, and 8000 prefixes of each
kind. -/
theorem C45_defaults {ε : Type} (np : Nat) (h : List (Ue2Literal × Nat)) (n m : Nat)
    (hn : PrefixCount (strings (sensitiveOnes (shortOnes 70 h))) n)
    (hm : PrefixCount (strings (caselessOnes (shortOnes 70 h))) m) :
    ∃ sw, addLiterals (ε := ε) h (SmallWriteBuild.new np Grey.default) = .ok sw ∧
      (sw.poisoned = true ↔ np > 10000 ∨ (shortOnes 70 h).length > 10000 ∨ n > 8000 ∨ m > 8000) := by
  obtain ⟨sw, h1, h2⟩ := C45_poisoned_iff (ε := ε) np Grey.default h (by decide) n m hn hm
  refine ⟨sw, h1, h2.trans ?_⟩
  constructor
  · rintro (h | h)
    · cases h
    · exact h
  · exact .inr

/-- C45 is not vacuous: the counts exist for every history. -/
example (h : List (Ue2Literal × Nat)) : ∃ n m,
    PrefixCount (strings (sensitiveOnes (shortOnes Grey.default.smallWriteLargestBuffer h))) n ∧
    PrefixCount (strings (caselessOnes (shortOnes Grey.default.smallWriteLargestBuffer h))) m := by
  obtain ⟨n, hn⟩ := prefixCount_exists
    (strings (sensitiveOnes (shortOnes Grey.default.smallWriteLargestBuffer h)))
  obtain ⟨m, hm⟩ := prefixCount_exists
    (strings (caselessOnes (shortOnes Grey.default.smallWriteLargestBuffer h)))
  exact ⟨n, m, hn, hm⟩
example : Grey.default.smallWriteLargestBuffer < 2 ^ 31 := by decide

/-- **C45, C46.** As long as the builder is not poisoned it has counted exactly the literals within the
buffer limit, its caseless trie holds exactly those of them with a caseless byte and its other trie
exactly the rest. -/
theorem C46_tries_hold {ε : Type} (np : Nat) (g : Grey) (h : List (Ue2Literal × Nat))
    (hL : g.smallWriteLargestBuffer < 2 ^ 31) (sw : SmallWriteBuild)
    (hsw : addLiterals (ε := ε) h (SmallWriteBuild.new np g) = .ok sw) (hp : sw.poisoned = false) :
    sw.numLiterals = (shortOnes g.smallWriteLargestBuffer h).length ∧
    Holds sw.litTrieNocase (histOf (caselessOnes (shortOnes g.smallWriteLargestBuffer h))) ∧
    Holds sw.litTrie (histOf (sensitiveOnes (shortOnes g.smallWriteLargestBuffer h))) := by
  by_cases h0 : (SmallWriteBuild.new np g).poisoned = true
  · rw [C45_poisoned_inert h _ h0] at hsw
    injection hsw with hsw
    subst hsw
    rw [h0] at hp
    cases hp
  · have h0' : (SmallWriteBuild.new np g).poisoned = false := by simpa using h0
    obtain ⟨sw', h1, h2⟩ := swOk_history (ε := ε) hL h [] _ (swOk_new np g h0')
    rw [hsw] at h1
    injection h1 with h1
    subst h1
    rw [List.nil_append] at h2
    rcases h2 with h2 | ⟨h2, _⟩
    · obtain ⟨hgrey, hpois, hcount, hmax, ⟨strs, ht⟩, ⟨strsN, htN⟩, hfit, hfitN⟩ := h2
      exact ⟨hcount, htN.holds, ht.holds⟩
    · rw [hp] at h2; cases h2

/-- C46 is not vacuous. -/
example : (match addLiterals (ε := Empty) [(litAb, 1), (⟨[0x41#8], [true]⟩, 2)]
      (SmallWriteBuild.new 2 Grey.default) with
    | .ok sw => some (sw.poisoned, sw.litTrie.allReports, sw.litTrieNocase.allReports)
    | _ => none) = some (false, [1], [2]) := by decide +kernel

/-- **C46.** One call on any builder: the caseless trie changes only for literals with a caseless byte,
the other trie only for the rest; whichever changes, changes by that one insertion; the settings are kept; and
within the limits the insertion does happen. -/
theorem C46_case_separation {ε : Type} (sw sw' : SmallWriteBuild) (l : Ue2Literal) (r : Nat)
    (h : sw.addLiteral (ε := ε) l r = .ok sw') :
    sw'.grey = sw.grey ∧
    (l.nocase.contains true = true → sw'.litTrie = sw.litTrie ∧
      (sw'.litTrieNocase = sw.litTrieNocase ∨
        insertAll (ε := ε) [(l, r)] sw.litTrieNocase = .ok sw'.litTrieNocase)) ∧
    (l.nocase.contains true = false → sw'.litTrieNocase = sw.litTrieNocase ∧
      (sw'.litTrie = sw.litTrie ∨ insertAll (ε := ε) [(l, r)] sw.litTrie = .ok sw'.litTrie)) ∧
    (sw.poisoned = false → l.s.length ≤ sw.grey.smallWriteLargestBuffer →
      sw.numLiterals < sw.grey.smallWriteMaxLiterals →
      insertAll (ε := ε) [(l, r)] (if l.nocase.contains true then sw.litTrieNocase else sw.litTrie)
        = .ok (if l.nocase.contains true then sw'.litTrieNocase else sw'.litTrie)) := by
  unfold SmallWriteBuild.addLiteral at h
  by_cases hp : sw.poisoned = true
  · rw [if_pos hp] at h
    injection h with h
    subst h
    exact ⟨rfl, fun _ => ⟨rfl, .inl rfl⟩, fun _ => ⟨rfl, .inl rfl⟩,
      fun hp' => by rw [hp] at hp'; cases hp'⟩
  rw [if_neg hp] at h
  by_cases hlen : l.len > sw.grey.smallWriteLargestBuffer
  · rw [if_pos hlen] at h
    injection h with h
    subst h
    exact ⟨rfl, fun _ => ⟨rfl, .inl rfl⟩, fun _ => ⟨rfl, .inl rfl⟩,
      fun _ hl => absurd hl (Nat.not_le.2 hlen)⟩
  rw [if_neg hlen] at h
  simp only at h
  by_cases hm : sw.numLiterals + 1 > sw.grey.smallWriteMaxLiterals
  · rw [if_pos hm] at h
    injection h with h
    subst h
    exact ⟨rfl, fun _ => ⟨rfl, .inl rfl⟩, fun _ => ⟨rfl, .inl rfl⟩,
      fun _ _ hl => absurd hm (by omega)⟩
  rw [if_neg hm] at h
  rw [← anyNocase_eq]
  by_cases hn : l.anyNocase = true
  · rw [if_pos hn] at h
    simp only [hn, if_true]
    cases ha : addToTrie (ε := ε) l r sw.litTrieNocase with
    | ok x =>
      obtain ⟨t, fits⟩ := x
      rw [ha] at h
      injection h with h
      subst h
      have hi : insertAll (ε := ε) [(l, r)] sw.litTrieNocase = .ok t := by
        rw [insertAll, ha]; rfl
      exact ⟨rfl, fun _ => ⟨rfl, .inr hi⟩, (fun h => by cases h), fun _ _ _ => hi⟩
    | err e => rw [ha] at h; cases h
    | panic e => rw [ha] at h; cases h
    | timeout => rw [ha] at h; cases h
  · rw [if_neg hn] at h
    have hn' : l.anyNocase = false := by simpa using hn
    simp only [hn', Bool.false_eq_true, if_false]
    cases ha : addToTrie (ε := ε) l r sw.litTrie with
    | ok x =>
      obtain ⟨t, fits⟩ := x
      rw [ha] at h
      injection h with h
      subst h
      have hi : insertAll (ε := ε) [(l, r)] sw.litTrie = .ok t := by
        rw [insertAll, ha]; rfl
      exact ⟨rfl, (fun h => by cases h), fun _ => ⟨rfl, .inr hi⟩, fun _ _ _ => hi⟩
    | err e => rw [ha] at h; cases h
    | panic e => rw [ha] at h; cases h
    | timeout => rw [ha] at h; cases h

example : ∃ sw, (SmallWriteBuild.new 2 Grey.default).addLiteral (ε := Empty) ⟨[0x41#8, 0x31#8], [true, false]⟩ 2 = .ok sw ∧
    (SmallWriteBuild.new 2 Grey.default).poisoned = false ∧ sw.litTrieNocase.allReports = [2] :=
  Outcome.exists_ok (by decide +kernel)

end Rescan
