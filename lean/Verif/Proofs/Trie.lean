import Verif.Proofs.Graph
import Verif.Spec.Trie
/-! # Helper lemmas about literal tries -/
namespace Rescan
open Spec

theorem nodup_subset_length {α : Type} [DecidableEq α] : ∀ (l1 l2 : List α), l1.Nodup → (∀ x ∈ l1, x ∈ l2) →
    l1.length ≤ l2.length := by
  intro l1
  induction l1 with
  | nil => intro l2 _ _; simp
  | cons a l1 ih =>
    intro l2 hn hs
    have ha : a ∈ l2 := hs a (by simp)
    rw [List.nodup_cons] at hn
    have := ih (l2.erase a) hn.2 (fun x hx => by
      have hne : x ≠ a := fun e => hn.1 (e ▸ hx)
      exact (List.mem_erase_of_ne hne).2 (hs x (by simp [hx])))
    rw [List.length_erase_of_mem ha] at this
    have h0 : 0 < l2.length := List.length_pos_of_mem ha
    simp; omega

theorem prefixCount_unique {ws : List (List U8)} {m n : Nat} (h1 : PrefixCount ws m)
    (h2 : PrefixCount ws n) : m = n := by
  obtain ⟨p1, hn1, hm1, rfl⟩ := h1
  obtain ⟨p2, hn2, hm2, rfl⟩ := h2
  have h1 := nodup_subset_length p1 p2 hn1 (fun x hx => (hm2 x).2 ((hm1 x).1 hx))
  have h2 := nodup_subset_length p2 p1 hn2 (fun x hx => (hm1 x).2 ((hm2 x).1 hx))
  omega

theorem prefixCount_mono {ws ws' : List (List U8)} {m n : Nat} (h1 : PrefixCount ws m)
    (h2 : PrefixCount ws' n) (h : ∀ x ∈ ws, x ∈ ws') : m ≤ n := by
  obtain ⟨p1, hn1, hm1, rfl⟩ := h1
  obtain ⟨p2, hn2, hm2, rfl⟩ := h2
  refine nodup_subset_length p1 p2 hn1 (fun x hx => (hm2 x).2 ?_)
  rcases (hm1 x).1 hx with h' | ⟨y, hy, h'⟩
  · exact .inl h'
  · exact .inr ⟨y, h y hy, h'⟩

namespace LitTrie

/-- The shape of a trie: `strs[i]` is the string leading from the root to vertex `i`. -/
structure Shape (t : LitTrie) (strs : List (List U8)) : Prop where
  root : t.root = 0
  len : strs.length = t.inner.nodes.length
  zero : strs[0]? = some []
  nodup : strs.Nodup
  parent : ∀ (i : Nat) s, strs[i]? = some s → i ≠ 0 →
    ∃ (j : Nat) (s' : List U8) (n : LitTrieVertexProps), strs[j]? = some s' ∧ t.inner.nodes[i]? = some n ∧ s = s' ++ [n.c]
  edges : ∀ a b, (a, b) ∈ t.inner.edges ↔
    ∃ sa n, strs[a]? = some sa ∧ t.inner.nodes[b]? = some n ∧ strs[b]? = some (sa ++ [n.c])
  count : t.inner.edges.length + 1 = t.inner.nodes.length

theorem shape_default : Shape default [[]] where
  root := rfl
  len := rfl
  zero := rfl
  nodup := by simp
  parent := by
    intro i s h hi
    have : i < 1 := (List.getElem?_eq_some_iff.1 h).1
    omega
  edges := by
    intro a b
    constructor
    · intro h; cases h
    · rintro ⟨sa, n, h1, h2, h3⟩
      have : b < 1 := (List.getElem?_eq_some_iff.1 h3).1
      have : b = 0 := by omega
      subst this
      simp at h3
  count := rfl

variable {t : LitTrie} {strs : List (List U8)}

theorem Shape.inj (h : Shape t strs) {i j : Nat} {s : List U8} (h1 : strs[i]? = some s)
    (h2 : strs[j]? = some s) : i = j := by
  obtain ⟨hi, h1⟩ := List.getElem?_eq_some_iff.1 h1
  obtain ⟨hj, h2⟩ := List.getElem?_eq_some_iff.1 h2
  exact (List.getElem_inj h.nodup).1 (h1.trans h2.symm)

theorem mem_outgoing (g : Graph LitTrieVertexProps) (u v : Nat) : v ∈ g.outgoing u ↔ (u, v) ∈ g.edges := by
  unfold Graph.outgoing
  rw [List.mem_map]
  constructor
  · rintro ⟨⟨a, b⟩, h, rfl⟩
    rw [List.mem_filter] at h
    obtain ⟨h1, h2⟩ := h
    simp at h2
    subst h2
    exact h1
  · intro h
    exact ⟨(u, v), by rw [List.mem_filter]; exact ⟨h, by simp⟩, rfl⟩

theorem Shape.findChild_some (h : Shape t strs) {u v : Nat} {c : U8} {su : List U8}
    (hu : strs[u]? = some su) (hf : t.findChild u c = some v) : strs[v]? = some (su ++ [c]) := by
  unfold findChild at hf
  have h1 := List.find?_some hf
  have h2 := (mem_outgoing _ _ _).1 (List.mem_of_find?_eq_some hf)
  obtain ⟨sa, n, h3, h4, h5⟩ := (h.edges u v).1 h2
  rw [hu] at h3
  injection h3 with h3
  subst h3
  rw [h4] at h1
  simp only [beq_iff_eq] at h1
  rw [← h1]; exact h5

theorem Shape.findChild_none (h : Shape t strs) {u : Nat} {c : U8} {su : List U8}
    (hu : strs[u]? = some su) (hf : t.findChild u c = none) : su ++ [c] ∉ strs := by
  intro hm
  obtain ⟨v, hv⟩ := List.getElem?_of_mem hm
  have hv0 : v ≠ 0 := by
    rintro rfl
    rw [h.zero] at hv
    injection hv with hv
    simp at hv
  obtain ⟨j, s', n, h1, h2, h3⟩ := h.parent v _ hv hv0
  have h4 := List.append_inj' h3 rfl
  obtain ⟨h5, h6⟩ := h4
  injection h6 with h6
  subst h6
  have he : (u, v) ∈ t.inner.edges := (h.edges u v).2 ⟨su, n, hu, h2, hv⟩
  unfold findChild at hf
  have := List.find?_eq_none.1 hf v ((mem_outgoing _ _ _).2 he)
  rw [h2] at this
  simp at this

theorem Shape.descend (h : Shape t strs) {ε : Type} {u : Nat} {c : U8} {su : List U8}
    (hu : strs[u]? = some su) (hroom : t.inner.nodes.length + 1 < 2 ^ 32) :
    ∃ t' v new, descend (ε := ε) (t, u) c = .ok (t', v) ∧ Shape t' (strs ++ new) ∧
      (strs ++ new)[v]? = some (su ++ [c]) ∧ (∀ x ∈ new, x = su ++ [c]) ∧ new.length ≤ 1 ∧
      t'.inner.nodes = t.inner.nodes ++ new.map (fun _ => ⟨c, []⟩) := by
  cases hf : t.findChild u c with
  | some v =>
    refine ⟨t, v, [], by simp only [LitTrie.descend, hf], by simpa using h, ?_, by simp, by simp, by simp⟩
    simpa using h.findChild_some hu hf
  | none =>
    have hnm := h.findChild_none hu hf
    have hul : u < t.inner.nodes.length := by
      rw [← h.len]; exact (List.getElem?_eq_some_iff.1 hu).1
    have h1 : t.inner.nodes.length ≠ 2 ^ 32 - 1 := by omega
    have h2 : t.inner.edges.length ≠ 2 ^ 32 - 1 := by have := h.count; omega
    refine ⟨⟨⟨t.inner.nodes ++ [⟨c, []⟩], (u, t.inner.nodes.length) :: t.inner.edges⟩, t.root⟩,
      t.inner.nodes.length, [su ++ [c]], ?_, ?_, ?_, by simp, by simp, by simp⟩
    · simp only [LitTrie.descend, hf, Graph.addNode, if_neg h1]
      show (Graph.addEdge _ u _).bind _ = _
      simp only [Graph.addEdge]
      rw [if_neg h2, if_pos ⟨by simp; omega, by simp⟩]
      rfl
    · have hlen := h.len
      have hu' : (strs ++ [su ++ [c]])[u]? = some su := by
        rw [List.getElem?_append_left (by omega)]; exact hu
      have hnew : (strs ++ [su ++ [c]])[t.inner.nodes.length]? = some (su ++ [c]) := by
        rw [← hlen]; simp
      have hnewn : (t.inner.nodes ++ [(⟨c, []⟩ : LitTrieVertexProps)])[t.inner.nodes.length]?
          = some ⟨c, []⟩ := by simp
      constructor
      · exact h.root
      · simp [hlen]
      · have hpos : 0 < strs.length := (List.getElem?_eq_some_iff.1 h.zero).1
        rw [List.getElem?_append_left hpos]; exact h.zero
      · rw [List.nodup_append]
        refine ⟨h.nodup, by simp, ?_⟩
        intro a ha b hb
        rw [List.mem_singleton] at hb
        subst hb
        exact fun e => hnm (e ▸ ha)
      · intro i s hi hi0
        rcases Nat.lt_or_ge i strs.length with hlt | hge
        · rw [List.getElem?_append_left hlt] at hi
          obtain ⟨j, s', n, h3, h4, h5⟩ := h.parent i s hi hi0
          refine ⟨j, s', n, ?_, ?_, h5⟩
          · rw [List.getElem?_append_left (List.getElem?_eq_some_iff.1 h3).1]; exact h3
          · show (t.inner.nodes ++ _)[i]? = _
            rw [List.getElem?_append_left (by omega)]; exact h4
        · have hlt := (List.getElem?_eq_some_iff.1 hi).1
          simp at hlt
          have : i = t.inner.nodes.length := by omega
          subst this
          rw [hnew] at hi
          injection hi with hi
          exact ⟨u, su, ⟨c, []⟩, hu', hnewn, hi.symm⟩
      · intro a b
        show (a, b) ∈ (u, t.inner.nodes.length) :: t.inner.edges ↔ _
        rw [List.mem_cons]
        constructor
        · rintro (h3 | h3)
          · injection h3 with h3 h4
            subst h3 h4
            exact ⟨su, ⟨c, []⟩, hu', hnewn, hnew⟩
          · obtain ⟨sa, n, h4, h5, h6⟩ := (h.edges a b).1 h3
            refine ⟨sa, n, ?_, ?_, ?_⟩
            · rw [List.getElem?_append_left (List.getElem?_eq_some_iff.1 h4).1]; exact h4
            · show (t.inner.nodes ++ _)[b]? = _
              rw [List.getElem?_append_left (List.getElem?_eq_some_iff.1 h5).1]; exact h5
            · rw [List.getElem?_append_left (List.getElem?_eq_some_iff.1 h6).1]; exact h6
        · rintro ⟨sa, n, h4, h5, h6⟩
          rcases Nat.lt_or_ge b strs.length with hlt | hge
          · right
            rw [List.getElem?_append_left hlt] at h6
            replace h5 : (t.inner.nodes ++ [_])[b]? = some n := h5
            rw [List.getElem?_append_left (by omega)] at h5
            rcases Nat.lt_or_ge a strs.length with hla | hga
            · rw [List.getElem?_append_left hla] at h4
              exact (h.edges a b).2 ⟨sa, n, h4, h5, h6⟩
            · -- the new string has no extension among the old ones
              have hla := (List.getElem?_eq_some_iff.1 h4).1
              simp at hla
              have : a = t.inner.nodes.length := by omega
              subst this
              rw [hnew] at h4
              injection h4 with h4
              subst h4
              exfalso
              have hb0 : b ≠ 0 := by
                rintro rfl
                rw [h.zero] at h6
                injection h6 with h6
                simp at h6
              obtain ⟨j, s', n', h7, _, h8⟩ := h.parent b _ h6 hb0
              have := List.append_inj' h8 rfl
              exact hnm (this.1 ▸ List.mem_of_getElem? h7)
          · left
            have hlt := (List.getElem?_eq_some_iff.1 h6).1
            simp at hlt
            have : b = t.inner.nodes.length := by omega
            subst this
            rw [hnew] at h6
            injection h6 with h6
            have h7 := List.append_inj' h6 rfl
            rw [← h7.1] at h4
            have hau : a = u := by
              rcases Nat.lt_or_ge a strs.length with hla | hga
              · rw [List.getElem?_append_left hla] at h4
                exact h.inj h4 hu
              · have hla := (List.getElem?_eq_some_iff.1 h4).1
                simp at hla
                have : a = t.inner.nodes.length := by omega
                subst this
                rw [hnew] at h4
                injection h4 with h4
                have := congrArg List.length h4
                simp at this
            rw [hau]
      · show _ + 1 + 1 = _
        simp [h.count]
    · rw [← h.len]; simp

/-- Following a whole string from vertex `u`. -/
theorem Shape.descendAll {ε : Type} : ∀ (w : List U8) (t : LitTrie) (strs : List (List U8)) (u : Nat)
    (su : List U8), Shape t strs → strs[u]? = some su → t.inner.nodes.length + w.length < 2 ^ 32 →
    ∃ t' v new newn, w.foldlM (LitTrie.descend (ε := ε)) (t, u) = .ok (t', v) ∧
      Shape t' (strs ++ new) ∧
      (strs ++ new)[v]? = some (su ++ w) ∧
      (∀ x ∈ new, ∃ y, y <+: w ∧ x = su ++ y) ∧ (∀ y, y <+: w → su ++ y ∈ strs ++ new) ∧
      t'.inner.nodes = t.inner.nodes ++ newn ∧ (∀ n ∈ newn, n.reports = []) ∧
      new.length ≤ w.length := by
  intro w
  induction w with
  | nil =>
    intro t strs u su h hu _
    refine ⟨t, u, [], [], rfl, by simpa using h, by simpa using hu, by simp, ?_, by simp, by simp, by simp⟩
    intro y hy
    rw [List.prefix_nil] at hy
    subst hy
    simpa using List.mem_of_getElem? hu
  | cons c w ih =>
    intro t strs u su h hu hroom
    simp only [List.length_cons] at hroom
    obtain ⟨t1, v1, new1, h1, h2, h3, h4, h5, h6⟩ := h.descend (ε := ε) (c := c) hu (by omega)
    obtain ⟨t2, v2, new2, newn, g1, g2, g3, g4, g5, g6, g7, g8⟩ := ih t1 (strs ++ new1) v1 (su ++ [c]) h2 h3
      (by rw [h6]; simp; omega)
    refine ⟨t2, v2, new1 ++ new2, new1.map (fun _ => ⟨c, []⟩) ++ newn, ?_, ?_, ?_, ?_, ?_, ?_, ?_, ?_⟩
    · rw [List.foldlM_cons, h1]; exact g1
    · rw [← List.append_assoc]; exact g2
    · rw [← List.append_assoc, g3]; simp
    · intro x hx
      rcases List.mem_append.1 hx with hx | hx
      · refine ⟨[c], ?_, h4 x hx⟩
        exact ⟨w, rfl⟩
      · obtain ⟨y, ⟨z, hz⟩, rfl⟩ := g4 x hx
        refine ⟨c :: y, ⟨z, by rw [← hz]; rfl⟩, by simp⟩
    · intro y hy
      rw [← List.append_assoc]
      cases y with
      | nil =>
        simp only [List.append_nil]
        exact List.mem_append.2 (.inl (List.mem_append.2 (.inl (List.mem_of_getElem? hu))))
      | cons d y =>
        obtain ⟨rfl, hy'⟩ := List.cons_prefix_cons.1 hy
        have := g5 y hy'
        simpa using this
    · rw [g6, h6]; simp
    · intro n hn
      rcases List.mem_append.1 hn with hn | hn
      · obtain ⟨_, _, rfl⟩ := List.mem_map.1 hn; rfl
      · exact g7 n hn
    · simp; omega

/-- What a trie stores: the strings `strs` of its vertices are the prefixes of the strings of the
history, and the reports of each are those inserted with it. -/
structure Stores (t : LitTrie) (strs : List (List U8)) (hist : List (List U8 × Nat)) : Prop where
  shape : Shape t strs
  strs_iff : ∀ w, w ∈ strs ↔ IsPrefixOfSome (hist.map Prod.fst) w
  reports : ∀ (i : Nat) s n, strs[i]? = some s → t.inner.nodes[i]? = some n →
    ∀ r, r ∈ n.reports ↔ (s, r) ∈ hist

theorem stores_default : Stores default [[]] [] where
  shape := shape_default
  strs_iff := by intro w; simp [IsPrefixOfSome]
  reports := by
    intro i s n h1 h2 r
    have : i < 1 := (List.getElem?_eq_some_iff.1 h1).1
    have : i = 0 := by omega
    subst this
    injection h2 with h2
    subst h2
    simp

theorem iter_bytes (l : Ue2Literal) : l.iter.map (fun e => e.c) = bytesOf l := by
  unfold Ue2Literal.iter bytesOf
  rw [List.zip, List.map_zipWith, List.map_zipWith]

/-- One insertion. -/
theorem Stores.add {ε : Type} {hist : List (List U8 × Nat)} (h : Stores t strs hist) (l : Ue2Literal) (r : Nat)
    (hroom : t.inner.nodes.length + (bytesOf l).length < 2 ^ 32) :
    ∃ t' fits strs', addToTrie (ε := ε) l r t = .ok (t', fits) ∧ Stores t' strs' (hist ++ [(bytesOf l, r)]) ∧
      (fits = true ↔ t'.inner.nodes.length ≤ 8000) ∧
      t'.inner.nodes.length ≤ t.inner.nodes.length + (bytesOf l).length := by
  have hz : strs[t.root]? = some [] := by rw [h.shape.root]; exact h.shape.zero
  obtain ⟨t1, v, new, newn, h1, h2, h3, h4, h5, h6, h7, h8⟩ :=
    Shape.descendAll (ε := ε) (bytesOf l) t strs t.root [] h.shape hz hroom
  have hv : v < t1.inner.nodes.length := by
    rw [← h2.len]; exact (List.getElem?_eq_some_iff.1 h3).1
  rw [List.nil_append] at h3
  unfold addToTrie
  rw [iter_bytes, h1]
  refine ⟨⟨⟨t1.inner.nodes.modify v (fun x => { x with reports := setInsert x.reports r }), t1.inner.edges⟩,
    t1.root⟩, decide ((t1.inner.nodes.modify v (fun x => { x with reports := setInsert x.reports r })).length
      ≤ maxTrieVertices), strs ++ new, ?_, ?_, ?_, ?_⟩
  · show (Outcome.bind _ _) = _
    simp only [Outcome.bind]
    rw [if_pos hv]
    rfl
  · constructor
    · -- the shape does not depend on the reports
      have hc : ∀ i : Nat, (t1.inner.nodes.modify v (fun x => { x with reports := setInsert x.reports r }))[i]?.map
          LitTrieVertexProps.c = t1.inner.nodes[i]?.map LitTrieVertexProps.c := by
        intro i
        rw [List.getElem?_modify]
        cases t1.inner.nodes[i]? with
        | none => rfl
        | some n => by_cases e : v = i <;> simp [e]
      have hc1 : ∀ (i : Nat) n, (t1.inner.nodes.modify v (fun x => { x with reports := setInsert x.reports r }))[i]?
          = some n → ∃ n', t1.inner.nodes[i]? = some n' ∧ n'.c = n.c := by
        intro i n hn
        have := hc i
        rw [hn] at this
        cases hn' : t1.inner.nodes[i]? with
        | none => rw [hn'] at this; cases this
        | some n' => rw [hn'] at this; injection this with this; exact ⟨n', rfl, this.symm⟩
      have hc2 : ∀ (i : Nat) n, t1.inner.nodes[i]? = some n →
          ∃ n', (t1.inner.nodes.modify v (fun x => { x with reports := setInsert x.reports r }))[i]?
            = some n' ∧ n'.c = n.c := by
        intro i n hn
        have := hc i
        rw [hn] at this
        cases hn' : (t1.inner.nodes.modify v (fun x => { x with reports := setInsert x.reports r }))[i]? with
        | none => rw [hn'] at this; cases this
        | some n' => rw [hn'] at this; injection this with this; exact ⟨n', rfl, this⟩
      constructor
      · exact h2.root
      · show _ = (List.modify _ _ _).length
        rw [List.length_modify]; exact h2.len
      · exact h2.zero
      · exact h2.nodup
      · intro i s hi hi0
        obtain ⟨j, s', n, g1, g2, g3⟩ := h2.parent i s hi hi0
        obtain ⟨n', g4, g5⟩ := hc2 i n g2
        exact ⟨j, s', n', g1, g4, by rw [g5]; exact g3⟩
      · intro a b
        show (a, b) ∈ t1.inner.edges ↔ _
        rw [h2.edges]
        constructor
        · rintro ⟨sa, n, g1, g2, g3⟩
          obtain ⟨n', g4, g5⟩ := hc2 b n g2
          exact ⟨sa, n', g1, g4, by rw [g5]; exact g3⟩
        · rintro ⟨sa, n, g1, g2, g3⟩
          obtain ⟨n', g4, g5⟩ := hc1 b n g2
          exact ⟨sa, n', g1, g4, by rw [g5]; exact g3⟩
      · show _ = (List.modify _ _ _).length
        rw [List.length_modify]; exact h2.count
    · intro w
      rw [List.map_append, List.map_cons, List.map_nil, List.mem_append, h.strs_iff]
      unfold IsPrefixOfSome
      constructor
      · rintro ((rfl | ⟨x, hx, hp⟩) | hw)
        · exact .inl rfl
        · exact .inr ⟨x, by simp [hx], hp⟩
        · obtain ⟨y, hy, rfl⟩ := h4 w hw
          exact .inr ⟨bytesOf l, by simp, hy⟩
      · rintro (rfl | ⟨x, hx, hp⟩)
        · exact .inl (.inl rfl)
        · rcases List.mem_append.1 hx with hx | hx
          · exact .inl (.inr ⟨x, hx, hp⟩)
          · rw [List.mem_singleton] at hx
            subst hx
            have := h5 w hp
            rw [List.nil_append] at this
            rcases List.mem_append.1 this with h' | h'
            · exact .inl ((h.strs_iff w).1 h')
            · exact .inr h'
    · intro i s n hi hn r'
      replace hn : (t1.inner.nodes.modify v (fun x => { x with reports := setInsert x.reports r }))[i]?
        = some n := hn
      rw [List.getElem?_modify] at hn
      rw [List.mem_append]
      -- the reports before the insertion
      have hold : ∀ n', t1.inner.nodes[i]? = some n' → (r' ∈ n'.reports ↔ (s, r') ∈ hist) := by
        intro n' hn'
        rw [h6] at hn'
        rcases Nat.lt_or_ge i t.inner.nodes.length with hlt | hge
        · rw [List.getElem?_append_left hlt] at hn'
          rw [List.getElem?_append_left (by rw [h.shape.len]; exact hlt)] at hi
          exact h.reports i s n' hi hn' r'
        · rw [List.getElem?_append_right hge] at hn'
          rw [h7 n' (List.mem_of_getElem? hn')]
          rw [List.getElem?_append_right (by rw [h.shape.len]; exact hge)] at hi
          constructor
          · intro h; cases h
          · intro hm
            exfalso
            have hin : s ∈ strs := (h.strs_iff s).2 (.inr ⟨s, List.mem_map.2 ⟨(s, r'), hm, rfl⟩,
              List.prefix_refl s⟩)
            have := (List.nodup_append.1 h2.nodup).2.2 s hin s (List.mem_of_getElem? hi)
            exact this rfl
      cases hn' : t1.inner.nodes[i]? with
      | none => rw [hn'] at hn; cases hn
      | some n' =>
        rw [hn'] at hn
        by_cases e : v = i
        · subst e
          simp at hn
          subst hn
          rw [h3] at hi
          injection hi with hi
          subst hi
          show r' ∈ setInsert n'.reports r ↔ _
          rw [GlushkovBuildState.mem_setInsert, hold n' hn']
          simp
        · simp [e] at hn
          subst hn
          rw [hold n' hn']
          constructor
          · exact .inl
          · rintro (h' | h')
            · exact h'
            · exfalso
              rw [List.mem_singleton] at h'
              injection h' with h' _
              subst h'
              exact e (h2.inj h3 hi)
  · show decide _ = true ↔ _
    rw [decide_eq_true_iff]; rfl
  · show (List.modify _ _ _).length ≤ _
    rw [List.length_modify, ← h2.len, List.length_append, h.shape.len]; omega

/-! ## Following strings -/

theorem Follows.append {g : Graph LitTrieVertexProps} {u v x : Nat} {w1 w2 : List U8}
    (h1 : Follows g u w1 v) (h2 : Follows g v w2 x) : Follows g u (w1 ++ w2) x := by
  induction h1 with
  | nil u => exact h2
  | cons u v' x' props w he hn _ ih => exact .cons u v' x props _ he hn (ih h2)

theorem Shape.follows_iff (h : Shape t strs) (w : List U8) (v : Nat) :
    Follows t.inner t.root w v ↔ strs[v]? = some w := by
  have hfwd : ∀ u w v, Follows t.inner u w v → ∀ su, strs[u]? = some su → strs[v]? = some (su ++ w) := by
    intro u w v hf
    induction hf with
    | nil u => intro su hu; simpa using hu
    | cons u v x props w he hn _ ih =>
      intro su hu
      obtain ⟨sa, n, h1, h2, h3⟩ := (h.edges u v).1 he
      rw [hu] at h1
      injection h1 with h1
      subst h1
      rw [hn] at h2
      injection h2 with h2
      subst h2
      have := ih _ h3
      simpa using this
  constructor
  · intro hf
    have := hfwd _ _ _ hf [] (by rw [h.root]; exact h.zero)
    simpa using this
  · -- by the length of `w`
    have hbwd : ∀ n (w : List U8) v, w.length = n → strs[v]? = some w → Follows t.inner t.root w v := by
      intro n
      induction n with
      | zero =>
        intro w v hw hv
        have : w = [] := List.length_eq_zero_iff.1 hw
        subst this
        have : v = t.root := by rw [h.root]; exact h.inj hv h.zero
        subst this
        exact .nil _
      | succ n ih =>
        intro w v hw hv
        have hv0 : v ≠ 0 := by
          rintro rfl
          rw [h.zero] at hv
          injection hv with hv
          subst hv
          cases hw
        obtain ⟨j, s', nn, h1, h2, h3⟩ := h.parent v w hv hv0
        subst h3
        have hf := ih s' j (by simpa using hw) h1
        exact Follows.append hf (.cons j v v nn [] ((h.edges j v).2 ⟨s', nn, h1, h2, hv⟩) h2 (.nil v))
    intro hv
    exact hbwd _ w v rfl hv

theorem Stores.prefixCount {hist : List (List U8 × Nat)} (h : Stores t strs hist) :
    PrefixCount (hist.map Prod.fst) t.inner.nodes.length :=
  ⟨strs, h.shape.nodup, h.strs_iff, h.shape.len⟩

theorem Stores.holds {hist : List (List U8 × Nat)} (h : Stores t strs hist) : Holds t hist where
  follows := by
    intro w
    rw [← h.strs_iff]
    constructor
    · rintro ⟨v, hv⟩
      exact List.mem_of_getElem? ((h.shape.follows_iff w v).1 hv)
    · intro hw
      obtain ⟨v, hv⟩ := List.getElem?_of_mem hw
      exact ⟨v, (h.shape.follows_iff w v).2 hv⟩
  reports := by
    intro w v hf
    have hv := (h.shape.follows_iff w v).1 hf
    have hlt : v < t.inner.nodes.length := by
      rw [← h.shape.len]; exact (List.getElem?_eq_some_iff.1 hv).1
    exact ⟨t.inner.nodes[v], List.getElem?_eq_getElem hlt,
      h.reports v w _ hv (List.getElem?_eq_getElem hlt)⟩

end LitTrie

theorem prefixCount_exists (ws : List (List U8)) : ∃ n, PrefixCount ws n := by
  induction ws with
  | nil => exact ⟨1, [[]], by simp, by intro w; simp [IsPrefixOfSome], rfl⟩
  | cons x ws ih =>
    obtain ⟨_, ps, h1, h2, _⟩ := ih
    let q := ((List.range (x.length + 1)).map (fun k => x.take k)).filter (fun y => decide (y ∉ ps))
    refine ⟨(ps ++ q).length, ps ++ q, ?_, ?_, rfl⟩
    · rw [List.nodup_append]
      refine ⟨h1, ?_, ?_⟩
      · refine List.Pairwise.filter _ ?_
        show List.Pairwise _ _
        rw [List.pairwise_map]
        refine List.Pairwise.imp_of_mem ?_ (List.pairwise_lt_range (n := x.length + 1))
        intro a b ha hb hab e
        have := congrArg List.length e
        rw [List.mem_range] at ha hb
        simp only [List.length_take] at this
        omega
      · intro a ha b hb e
        have := (List.mem_filter.1 hb).2
        simp at this
        exact this (e ▸ ha)
    · intro w
      rw [List.mem_append, h2]
      constructor
      · rintro ((rfl | ⟨y, hy, hp⟩) | h)
        · exact .inl rfl
        · exact .inr ⟨y, by simp [hy], hp⟩
        · obtain ⟨k, _, rfl⟩ := List.mem_map.1 (List.mem_filter.1 h).1
          exact .inr ⟨x, by simp, List.take_prefix k x⟩
      · rintro (rfl | ⟨y, hy, hp⟩)
        · exact .inl (.inl rfl)
        · rcases List.mem_cons.1 hy with rfl | hy
          · by_cases hm : w ∈ ps
            · exact .inl ((h2 w).1 hm)
            · right
              refine List.mem_filter.2 ⟨List.mem_map.2 ⟨w.length, ?_, ?_⟩, by simpa using hm⟩
              · have := hp.length_le
                rw [List.mem_range]; omega
              · exact (List.prefix_iff_eq_take.1 hp).symm
          · exact .inl (.inr ⟨y, hy, hp⟩)

end Rescan
