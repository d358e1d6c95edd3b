import Verif.Model.AhoCorasick
import Verif.Props.Finder
/-! # C122: the tries are fit for the construction of Aho and Corasick -/
namespace Rescan
open Spec LitTrie

namespace AhoCorasick
variable {t : LitTrie} {strs : List (List U8)}

/-- `s` is the longest suffix of `d` among `strs`. -/
def Deepest (strs : List (List U8)) (d s : List U8) : Prop :=
  s <:+ d ∧ s ∈ strs ∧ ∀ s', s' <:+ d → s' ∈ strs → s' <:+ s

theorem prefix_mem (h : Shape t strs) (s : List U8) : ∀ s', s ++ s' ∈ strs → s ∈ strs := by
  have key : ∀ n (s' : List U8), s'.length = n → s ++ s' ∈ strs → s ∈ strs := by
    intro n
    induction n with
    | zero =>
      intro s' hl hm
      rw [List.length_eq_zero_iff.1 hl, List.append_nil] at hm
      exact hm
    | succ n ih =>
      intro s' hl hm
      have hne : s' ≠ [] := by rintro rfl; cases hl
      rw [← List.dropLast_concat_getLast hne, ← List.append_assoc] at hm
      obtain ⟨v, hv⟩ := List.getElem?_of_mem hm
      have hv0 : v ≠ 0 := by
        rintro rfl
        rw [h.zero] at hv
        injection hv with hv
        simp at hv
      obtain ⟨j, x, nn, h1, h2, h3⟩ := h.parent v _ hv hv0
      have := (List.append_inj' h3 rfl).1
      exact ih s'.dropLast (by simp [hl]) (this ▸ List.mem_of_getElem? h1)
  intro s'
  exact key _ s' rfl

theorem depth_lt (h : Shape t strs) {s : List U8} (hs : s ∈ strs) : s.length < t.inner.nodes.length := by
  have hn : ((List.range (s.length + 1)).map (fun i => s.take i)).Nodup := by
    rw [List.nodup_iff_pairwise_ne, List.pairwise_map]
    refine List.Pairwise.imp_of_mem ?_ (List.nodup_iff_pairwise_ne.1 List.nodup_range)
    intro a b ha hb hab e
    rw [List.mem_range] at ha hb
    have := congrArg List.length e
    rw [List.length_take, List.length_take] at this
    omega
  have := nodup_subset_length _ strs hn (by
    intro x hx
    obtain ⟨i, _, rfl⟩ := List.mem_map.1 hx
    exact prefix_mem h _ (s.drop i) (by rw [List.take_append_drop]; exact hs))
  rw [List.length_map, List.length_range, h.len] at this
  omega

theorem lookup_iff (h : Shape t strs) : ∀ (w : List U8) (u : Nat) (su : List U8), strs[u]? = some su → ∀ v,
    lookup t u w = some v ↔ strs[v]? = some (su ++ w) := by
  intro w
  induction w with
  | nil =>
    intro u su hu v
    rw [lookup, List.append_nil]
    constructor
    · intro e
      injection e with e
      rw [← e]; exact hu
    · intro hv
      rw [h.inj hu hv]
  | cons c w ih =>
    intro u su hu v
    rw [lookup]
    cases hf : t.findChild u c with
    | some x =>
      simp only
      rw [ih x _ (h.findChild_some hu hf), List.append_assoc]
      rfl
    | none =>
      simp only
      constructor
      · intro e; cases e
      · intro hv
        refine absurd ?_ (h.findChild_none hu hf)
        refine prefix_mem h _ w ?_
        rw [List.append_assoc]
        exact List.mem_of_getElem? hv

theorem longest_spec (h : Shape t strs) : ∀ (d : List U8), ∃ s, strs[longest t d]? = some s ∧ Deepest strs d s := by
  intro d
  induction d with
  | nil =>
    refine ⟨[], by rw [longest, h.root]; exact h.zero, List.suffix_refl _, List.mem_of_getElem? h.zero, ?_⟩
    intro s' hs' _
    exact hs'
  | cons c d ih =>
    have hroot : strs[t.root]? = some [] := by rw [h.root]; exact h.zero
    rw [longest]
    cases hl : lookup t t.root (c :: d) with
    | some v =>
      have := (lookup_iff h _ _ _ hroot v).1 hl
      rw [List.nil_append] at this
      exact ⟨_, this, List.suffix_refl _, List.mem_of_getElem? this, fun s' hs' _ => hs'⟩
    | none =>
      obtain ⟨s, h1, h2, h3, h4⟩ := ih
      refine ⟨s, h1, h2.trans (List.suffix_cons _ _), h3, ?_⟩
      intro s' hs' hm
      rcases List.suffix_cons_iff.1 hs' with rfl | hs'
      · obtain ⟨v, hv⟩ := List.getElem?_of_mem hm
        have := (lookup_iff h _ _ _ hroot v).2 (by rw [List.nil_append]; exact hv)
        rw [hl] at this
        cases this
      · exact h4 s' hs' hm

theorem spell_eq (h : Shape t strs) : ∀ (n u : Nat) (s : List U8), strs[u]? = some s → s.length ≤ n →
    spell t n u = s := by
  intro n
  induction n with
  | zero =>
    intro u s _ hl
    rw [List.length_eq_zero_iff.1 (Nat.le_zero.1 hl)]
    rfl
  | succ n ih =>
    intro u s hu hl
    have hinc : ∀ p, p ∈ t.inner.incoming u ↔ (p, u) ∈ t.inner.edges := by
      intro p
      unfold Graph.incoming
      simp only [List.mem_map, List.mem_filter, beq_iff_eq]
      constructor
      · rintro ⟨⟨a, b⟩, ⟨h1, rfl⟩, rfl⟩
        exact h1
      · intro h
        exact ⟨_, ⟨h, rfl⟩, rfl⟩
    rw [spell]
    by_cases h0 : u = 0
    · subst h0
      rw [h.zero] at hu
      injection hu with hu
      subst hu
      split
      · rename_i p ps w hp hw
        obtain ⟨sa, nn, _, _, h3⟩ := (h.edges p 0).1 ((hinc p).1 (by rw [hp]; exact List.mem_cons_self))
        rw [h.zero] at h3
        injection h3 with h3
        simp at h3
      · rfl
    · obtain ⟨j, s', nn, h1, h2, rfl⟩ := h.parent u s hu h0
      have hj : j ∈ t.inner.incoming u := (hinc j).2 ((h.edges j u).2 ⟨s', nn, h1, h2, hu⟩)
      rw [h2]
      cases hi : t.inner.incoming u with
      | nil => rw [hi] at hj; cases hj
      | cons p ps =>
        simp only
        obtain ⟨sa, n2, g1, g2, g3⟩ := (h.edges p u).1 ((hinc p).1 (by rw [hi]; exact List.mem_cons_self))
        rw [hu] at g3
        injection g3 with g3
        have g3 := (List.append_inj' g3 rfl).1
        subst g3
        rw [ih p _ g1 (by simp at hl; exact hl)]

theorem fail_spec (h : Shape t strs) {u : Nat} {a : U8} {s : List U8} (hu : strs[u]? = some (a :: s)) :
    ∃ f, strs[fail t u]? = some f ∧ Deepest strs s f := by
  unfold fail
  rw [spell_eq h _ u _ hu (Nat.le_of_lt (depth_lt h (List.mem_of_getElem? hu)))]
  exact longest_spec h s

theorem deepest_snoc (h : Shape t strs) {d s s2 : List U8} {c : U8} (h1 : Deepest strs d s)
    (h2 : Deepest strs (s ++ [c]) s2) : Deepest strs (d ++ [c]) s2 := by
  obtain ⟨a1, a2, a3⟩ := h1
  obtain ⟨b1, b2, b3⟩ := h2
  have hsuf : ∀ {x y : List U8}, x <:+ y → x ++ [c] <:+ y ++ [c] := by
    rintro x y ⟨z, rfl⟩
    exact ⟨z, by simp⟩
  refine ⟨b1.trans (hsuf a1), b2, ?_⟩
  intro s' hs' hm
  rcases List.eq_nil_or_concat s' with rfl | ⟨x, b, rfl⟩
  · exact List.nil_suffix
  · rw [List.concat_eq_append] at hs' hm ⊢
    obtain ⟨z, hz⟩ := hs'
    rw [← List.append_assoc] at hz
    obtain ⟨hz1, hz2⟩ := List.append_inj' hz rfl
    injection hz2 with hz2
    subst hz2
    exact b3 _ (hsuf (a3 x ⟨z, hz1⟩ (prefix_mem h x [b] hm))) hm

theorem go_spec (h : Shape t strs) (c : U8) : ∀ (n u : Nat) (s : List U8), strs[u]? = some s → s.length < n →
    ∃ s2, strs[(go t n u c).1]? = some s2 ∧ Deepest strs (s ++ [c]) s2 ∧
      s2.length + (go t n u c).2 ≤ s.length + 1 := by
  intro n
  induction n with
  | zero => intro u s _ hl; omega
  | succ n ih =>
    intro u s hu hl
    rw [go]
    cases hf : t.findChild u c with
    | some v =>
      have hv := h.findChild_some hu hf
      exact ⟨_, hv, ⟨List.suffix_refl _, List.mem_of_getElem? hv, fun s' hs' _ => hs'⟩, by simp⟩
    | none =>
      have hno := h.findChild_none hu hf
      simp only
      cases s with
      | nil =>
        have hroot : strs[t.root]? = some [] := by rw [h.root]; exact h.zero
        have : u = t.root := h.inj hu hroot
        rw [if_pos this]
        refine ⟨[], hroot, ⟨List.nil_suffix, List.mem_of_getElem? hroot, ?_⟩, by simp⟩
        intro s' hs' hm
        rcases List.suffix_cons_iff.1 hs' with rfl | hs'
        · exact absurd hm hno
        · exact hs'
      | cons a s =>
        have hne : u ≠ t.root := by
          rintro rfl
          rw [h.root, h.zero] at hu
          injection hu with hu
          cases hu
        rw [if_neg hne]
        obtain ⟨f, h1, h2⟩ := fail_spec h hu
        have hfl := h2.1.length_le
        rw [List.length_cons] at hl
        obtain ⟨s2, g1, g2, g3⟩ := ih (fail t u) f h1 (by omega)
        refine ⟨s2, g1, ?_, by simp only [List.length_cons]; omega⟩
        obtain ⟨b1, b2, b3⟩ := deepest_snoc h h2 g2
        refine ⟨b1.trans (List.suffix_cons _ _), b2, ?_⟩
        intro s' hs' hm
        rcases List.suffix_cons_iff.1 hs' with rfl | hs'
        · exact absurd hm hno
        · exact b3 s' hs' hm

theorem run_spec (h : Shape t strs) : ∀ (data : List U8) (u : Nat) (d s : List U8), strs[u]? = some s →
    Deepest strs d s → ∃ s2, strs[run t u data]? = some s2 ∧ Deepest strs (d ++ data) s2 ∧
      s2.length + cost t u data ≤ s.length + data.length := by
  intro data
  induction data with
  | nil =>
    intro u d s hu hd
    exact ⟨s, hu, by rw [List.append_nil]; exact hd, by simp [cost]⟩
  | cons c data ih =>
    intro u d s hu hd
    obtain ⟨s1, h1, h2, h3⟩ := go_spec h c t.inner.nodes.length u s hu (depth_lt h (List.mem_of_getElem? hu))
    obtain ⟨s2, g1, g2, g3⟩ := ih (next t u c) (d ++ [c]) s1 h1 (deepest_snoc h hd h2)
    refine ⟨s2, g1, by rw [List.append_assoc] at g2; exact g2, ?_⟩
    rw [cost, List.length_cons]
    unfold moves
    omega

theorem run_root (h : Shape t strs) (data : List U8) : ∃ s, strs[run t t.root data]? = some s ∧
    Deepest strs data s ∧ s.length + cost t t.root data ≤ data.length := by
  obtain ⟨s, h1, h2, h3⟩ := run_spec h data t.root [] [] (by rw [h.root]; exact h.zero)
    ⟨List.suffix_refl _, List.mem_of_getElem? h.zero, fun _ hs' _ => hs'⟩
  exact ⟨s, h1, h2, by simpa using h3⟩

theorem mem_outputs (h : Shape t strs) (r : Nat) : ∀ (n u : Nat) (s : List U8), strs[u]? = some s → s.length < n →
    (r ∈ outputs t n u ↔ ∃ s', s' <:+ s ∧ Finder.At t r t.root s') := by
  intro n
  induction n with
  | zero => intro u s _ hl; omega
  | succ n ih =>
    intro u s hu hl
    have hself : r ∈ own t u ↔ Finder.At t r t.root s := by
      unfold own
      constructor
      · intro hr
        cases hn : t.inner.nodes[u]? with
        | none => rw [hn] at hr; cases hr
        | some w =>
          rw [hn] at hr
          exact ⟨u, w, (h.follows_iff s u).2 hu, hn, hr⟩
      · rintro ⟨v, props, hf, hn, hr⟩
        have := h.inj hu ((h.follows_iff s v).1 hf)
        subst this
        rw [hn]; exact hr
    rw [outputs, List.mem_append, hself]
    cases s with
    | nil =>
      have : u = t.root := h.inj hu (by rw [h.root]; exact h.zero)
      rw [if_pos this]
      constructor
      · rintro (h1 | h1)
        · exact ⟨[], List.suffix_refl _, h1⟩
        · cases h1
      · rintro ⟨s', hs', h1⟩
        rw [List.suffix_nil.1 hs'] at h1
        exact .inl h1
    | cons a s =>
      have hne : u ≠ t.root := by
        rintro rfl
        rw [h.root, h.zero] at hu
        injection hu with hu
        cases hu
      rw [if_neg hne]
      obtain ⟨f, h1, h2, _, h4⟩ := fail_spec h hu
      rw [List.length_cons] at hl
      have hfl := h2.length_le
      rw [ih (fail t u) f h1 (by omega)]
      constructor
      · rintro (hr | ⟨s', hs', hr⟩)
        · exact ⟨_, List.suffix_refl _, hr⟩
        · exact ⟨s', (hs'.trans h2).trans (List.suffix_cons _ _), hr⟩
      · rintro ⟨s', hs', hr⟩
        rcases List.suffix_cons_iff.1 hs' with rfl | hs'
        · exact .inl hr
        · refine .inr ⟨s', h4 s' hs' ?_, hr⟩
          obtain ⟨v, _, hf, _⟩ := hr
          exact List.mem_of_getElem? ((h.follows_iff s' v).1 hf)

theorem mem_out_run (h : Shape t strs) (r : Nat) (data : List U8) :
    r ∈ out t (run t t.root data) ↔ ∃ s, s <:+ data ∧ Finder.At t r t.root s := by
  obtain ⟨s, h1, ⟨h2, h3, h4⟩, _⟩ := run_root h data
  unfold out
  rw [mem_outputs h r _ _ s h1 (depth_lt h h3)]
  constructor
  · rintro ⟨s', hs', hr⟩
    exact ⟨s', hs'.trans h2, hr⟩
  · rintro ⟨s', hs', hr⟩
    refine ⟨s', h4 s' hs' ?_, hr⟩
    obtain ⟨v, _, hf, _⟩ := hr
    exact List.mem_of_getElem? ((h.follows_iff s' v).1 hf)

theorem endsAt_iff (data : List U8) (j : Nat) (w : List U8) :
    EndsAt data j w ↔ j ≤ data.length ∧ w <:+ data.take j := by
  constructor
  · rintro ⟨before, after, rfl, rfl⟩
    refine ⟨by simp, before, ?_⟩
    rw [← List.length_append, List.take_left]
  · rintro ⟨hj, before, hb⟩
    refine ⟨before, data.drop j, by rw [hb, List.take_append_drop], ?_⟩
    have := congrArg List.length hb
    simp only [List.length_append, List.length_take] at this
    omega

end AhoCorasick
open AhoCorasick

/-- C122: the states of the automaton are the vertices of the trie.  After any data it is in the vertex of
the longest suffix of the data that leads anywhere in the trie; every vertex is the state after its own string;
and no state is left by a transition to anything but a vertex. -/
theorem C122_state {ε : Type} (h : List (Ue2Literal × Nat))
    (hroom : 1 + (h.map (fun x => (bytesOf x.1).length)).sum < 2 ^ 32) :
    ∃ t, insertAll (ε := ε) h LitTrie.default = .ok t ∧
      (∀ data, ∃ s, s <:+ data ∧ Follows t.inner t.root s (run t t.root data) ∧
        ∀ s' v, s' <:+ data → Follows t.inner t.root s' v → s' <:+ s) ∧
      (∀ s v, Follows t.inner t.root s v → run t t.root s = v) ∧
      (∀ u c, u < t.inner.nodes.length → next t u c < t.inner.nodes.length) := by
  obtain ⟨t, strs, h1, h2⟩ := insertAll_stores (ε := ε) h LitTrie.default _ _ stores_default hroom
  have hsh := h2.shape
  refine ⟨t, h1, ?_, ?_, ?_⟩
  · intro data
    obtain ⟨s, g1, ⟨g2, _, g4⟩, _⟩ := run_root hsh data
    exact ⟨s, g2, (hsh.follows_iff _ _).2 g1,
      fun s' v hs' hf => g4 s' hs' (List.mem_of_getElem? ((hsh.follows_iff _ _).1 hf))⟩
  · intro s v hf
    have hv := (hsh.follows_iff _ _).1 hf
    obtain ⟨s', g1, ⟨g2, _, g4⟩, _⟩ := run_root hsh s
    have := g4 s (List.suffix_refl _) (List.mem_of_getElem? hv)
    have e : s' = s := g2.eq_of_length_le this.length_le
    subst e
    exact hsh.inj g1 hv
  · intro u c hu
    rw [← hsh.len] at hu
    have hs : strs[u]? = some strs[u] := List.getElem?_eq_getElem hu
    obtain ⟨s2, g1, _⟩ := go_spec hsh c _ u _ hs (depth_lt hsh (List.getElem_mem hu))
    have := (List.getElem?_eq_some_iff.1 g1).1
    rw [hsh.len] at this
    exact this

/-- C122: the reports of the state after any data are those of the inserted strings that end there. -/
theorem C122_reports {ε : Type} (h : List (Ue2Literal × Nat))
    (hroom : 1 + (h.map (fun x => (bytesOf x.1).length)).sum < 2 ^ 32) :
    ∃ t, insertAll (ε := ε) h LitTrie.default = .ok t ∧
      ∀ data r, r ∈ out t (run t t.root data) ↔ ∃ l, (l, r) ∈ h ∧ bytesOf l <:+ data := by
  obtain ⟨t, h1, hf, hr, _⟩ := C43_trie_content (ε := ε) h hroom
  obtain ⟨t', strs, h1', h2⟩ := insertAll_stores (ε := ε) h LitTrie.default _ _ stores_default hroom
  rw [h1] at h1'
  injection h1' with h1'
  subst h1'
  refine ⟨t, h1, ?_⟩
  intro data r
  rw [mem_out_run h2.shape]
  constructor
  · rintro ⟨s, hs, v, props, g1, g2, g3⟩
    obtain ⟨props', g4, g5⟩ := hr s v g1
    rw [g2] at g4
    injection g4 with g4
    subst g4
    obtain ⟨l, hl, rfl⟩ := (g5 r).1 g3
    exact ⟨l, hl, hs⟩
  · rintro ⟨l, hl, hs⟩
    obtain ⟨v, hv⟩ := (hf (bytesOf l)).2 (.inr ⟨_, List.mem_map.2 ⟨_, hl, rfl⟩, List.prefix_refl _⟩)
    obtain ⟨props, g4, g5⟩ := hr _ v hv
    exact ⟨_, hs, v, props, hv, g4, (g5 r).2 ⟨l, hl, rfl⟩⟩

/-- C122: over any data the automaton takes at most one failure link per byte. -/
theorem C122_cost {ε : Type} (h : List (Ue2Literal × Nat))
    (hroom : 1 + (h.map (fun x => (bytesOf x.1).length)).sum < 2 ^ 32) :
    ∃ t, insertAll (ε := ε) h LitTrie.default = .ok t ∧ ∀ data, cost t t.root data ≤ data.length := by
  obtain ⟨t, strs, h1, h2⟩ := insertAll_stores (ε := ε) h LitTrie.default _ _ stores_default hroom
  refine ⟨t, h1, ?_⟩
  intro data
  obtain ⟨s, _, _, g⟩ := run_root h2.shape data
  omega

/-- The automaton of `ab`, `ac`, `bab`: after `aab` the state is the vertex of `ab`, after `bac` that of `ac`
(one failure link), and `bab` reports `ab` too. -/
example : ∃ t, insertAll (ε := Empty) [(litAb, 1), (litAc, 2), (⟨[0x62#8, 0x61#8, 0x62#8], [false, false, false]⟩, 3)]
      LitTrie.default = .ok t ∧
    out t (run t t.root [0x61#8, 0x61#8, 0x62#8]) = [1] ∧ out t (run t t.root [0x62#8, 0x61#8, 0x63#8]) = [2] ∧
    out t (run t t.root [0x62#8, 0x61#8, 0x62#8]) = [3, 1] ∧ cost t t.root [0x62#8, 0x61#8, 0x63#8] = 1 ∧
    cost t t.root [0x61#8, 0x61#8, 0x61#8] = 2 :=
  Outcome.exists_ok (by decide +kernel)

/-- C122: if no report is given with two strings, no automaton with fewer states will do: any automaton (of whatever
states) that raises the right reports has different states after the strings of different vertices. -/
theorem C122_minimal {ε : Type} (h : List (Ue2Literal × Nat))
    (hroom : 1 + (h.map (fun x => (bytesOf x.1).length)).sum < 2 ^ 32)
    (hone : ∀ l l' r, (l, r) ∈ h → (l', r) ∈ h → bytesOf l = bytesOf l')
    {σ : Type} (start : σ) (step : σ → U8 → σ) (raised : σ → Nat → Prop)
    (hright : ∀ data r, raised (data.foldl step start) r ↔ ∃ l, (l, r) ∈ h ∧ bytesOf l <:+ data) :
    ∃ t, insertAll (ε := ε) h LitTrie.default = .ok t ∧
      ∃ f : Nat → σ, ∀ u v, u < t.inner.nodes.length → v < t.inner.nodes.length → f u = f v → u = v := by
  obtain ⟨t, strs, h1, h2⟩ := insertAll_stores (ε := ε) h LitTrie.default _ _ stores_default hroom
  rw [List.nil_append] at h2
  have hsh := h2.shape
  refine ⟨t, h1, fun u => ((strs[u]?).getD []).foldl step start, ?_⟩
  -- a string of the trie is a suffix of any other leading to the same state
  have key : ∀ a b, a ∈ strs → a.foldl step start = b.foldl step start → a <:+ b := by
    intro a b ha e
    rcases (h2.strs_iff a).1 ha with rfl | ⟨w, hw, x, rfl⟩
    · exact List.nil_suffix
    · obtain ⟨⟨w', r⟩, hm, hw'⟩ := List.mem_map.1 hw
      obtain ⟨⟨l, r'⟩, hl, e'⟩ := List.mem_map.1 hm
      injection e' with e1 e2
      subst e2
      simp only at hw'
      rw [← e1] at hw'
      have g1 := (hright (a ++ x) r').2 ⟨l, hl, by rw [hw']; exact List.suffix_refl _⟩
      rw [List.foldl_append, e, ← List.foldl_append] at g1
      obtain ⟨l', hl', y, hy⟩ := (hright (b ++ x) r').1 g1
      rw [← hone l l' r' hl hl', hw', ← List.append_assoc] at hy
      exact ⟨y, (List.append_inj' hy rfl).1⟩
  intro u v hu hv e
  rw [← hsh.len] at hu hv
  have gu : strs[u]? = some strs[u] := List.getElem?_eq_getElem hu
  have gv : strs[v]? = some strs[v] := List.getElem?_eq_getElem hv
  simp only [gu, gv, Option.getD_some] at e
  have k1 := key _ _ (List.getElem_mem hu) e
  have k2 := key _ _ (List.getElem_mem hv) e.symm
  rw [k1.eq_of_length_le k2.length_le] at gu
  exact hsh.inj gu gv

example : 1 + ([(litAb, 1), (litAc, 2), (litA, 3), (litAb, 4)].map (fun x => (bytesOf x.1).length)).sum < 2 ^ 32 ∧
    ∀ l l' r, (l, r) ∈ [(litAb, 1), (litAc, 2), (litA, 3), (litAb, 4)] →
      (l', r) ∈ [(litAb, 1), (litAc, 2), (litA, 3), (litAb, 4)] → bytesOf l = bytesOf l' := by
  refine ⟨by decide, ?_⟩
  intro l l' r h1 h2
  simp only [List.mem_cons, Prod.mk.injEq, List.not_mem_nil, or_false] at h1 h2
  rcases h1 with ⟨rfl, rfl⟩ | ⟨rfl, rfl⟩ | ⟨rfl, rfl⟩ | ⟨rfl, rfl⟩ <;>
    rcases h2 with ⟨rfl, h2⟩ | ⟨rfl, h2⟩ | ⟨rfl, h2⟩ | ⟨rfl, h2⟩ <;> first | rfl | cases h2

/-- C122: unless the small-write builder is poisoned, two automata of at most 8000 states each, made from the
tries stored by compiling, are enough to find the ends of the matches of the literal expressions short enough
for the tries. -/
theorem C122_literals (p : Profile) (es : List Str) (fs : List Flags) (ids : List Nat) (mode : Mode)
    (g : Grey) (hs : Sane g) (hon : litsOn g = true) (ng : Ng) (h : compileNg p es fs ids mode g = .ok ng)
    (hp : ng.smwr.poisoned = false) :
    ng.smwr.litTrie.inner.nodes.length ≤ 8000 ∧ ng.smwr.litTrieNocase.inner.nodes.length ≤ 8000 ∧
    (∀ data, run ng.smwr.litTrie ng.smwr.litTrie.root data < ng.smwr.litTrie.inner.nodes.length ∧
      run ng.smwr.litTrieNocase ng.smwr.litTrieNocase.root data < ng.smwr.litTrieNocase.inner.nodes.length) ∧
    ∀ data j, j ≤ data.length →
      ((out ng.smwr.litTrie (run ng.smwr.litTrie ng.smwr.litTrie.root (data.take j)) ≠ [] ∨
        out ng.smwr.litTrieNocase (run ng.smwr.litTrieNocase ng.smwr.litTrieNocase.root
          ((data.take j).map upperOf)) ≠ []) ↔
      ∃ e ∈ given es fs ids, ∃ l c m w, literalOf e = some l ∧ l.length ≤ g.smallWriteLargestBuffer ∧
        parse p e.1 (ParseMode.new e.2.1) = .ok (c, m) ∧ EndsAt data j w ∧ Lang c w) := by
  obtain ⟨_, _, _, hok⟩ := compileNg_ok hs h
  have hsw := hok.smwr
  have h0 : (SmallWriteBuild.new es.length g).poisoned = false := by
    cases h0 : (SmallWriteBuild.new es.length g).poisoned with
    | false => rfl
    | true =>
      rw [C45_poisoned_inert _ _ h0] at hsw
      injection hsw with hsw
      rw [← hsw, h0] at hp
      cases hp
  obtain ⟨sw', g1, g2⟩ := swOk_history (ε := CompileError) hs.buffer _ [] _ (swOk_new es.length g h0)
  rw [hsw] at g1
  injection g1 with g1
  subst g1
  rcases g2 with g2 | ⟨g2, _⟩
  · obtain ⟨strs, ht⟩ := g2.trie
    obtain ⟨strsN, htN⟩ := g2.trieN
    refine ⟨g2.fits, g2.fitsN, ?_, ?_⟩
    · intro data
      obtain ⟨_, a1, _⟩ := run_root ht.shape data
      obtain ⟨_, a2, _⟩ := run_root htN.shape data
      rw [← ht.shape.len, ← htN.shape.len]
      exact ⟨(List.getElem?_eq_some_iff.1 a1).1, (List.getElem?_eq_some_iff.1 a2).1⟩
    · intro data j hj
      rw [← C121_literals p es fs ids mode g hs hon ng h hp data j]
      have hnil : ∀ l : List Nat, l ≠ [] ↔ ∃ r, r ∈ l := fun l =>
        ⟨List.exists_mem_of_ne_nil l, fun ⟨_, hr⟩ => List.ne_nil_of_mem hr⟩
      rw [hnil, hnil]
      constructor
      · rintro (⟨r, hr⟩ | ⟨r, hr⟩)
        · obtain ⟨s, b1, b2⟩ := (mem_out_run ht.shape r _).1 hr
          exact ⟨r, (Finder.mem_scanTries ..).2 ⟨s, (endsAt_iff ..).2 ⟨hj, b1⟩, .inl b2⟩⟩
        · obtain ⟨s, b1, b2⟩ := (mem_out_run htN.shape r _).1 hr
          have b1 : EndsAt (data.map upperOf) j s :=
            (endsAt_iff ..).2 ⟨by simpa using hj, by rw [← List.map_take]; exact b1⟩
          obtain ⟨w, rfl, b3⟩ := (Finder.endsAt_map ..).1 b1
          exact ⟨r, (Finder.mem_scanTries ..).2 ⟨w, b3, .inr b2⟩⟩
      · rintro ⟨r, hr⟩
        obtain ⟨w, b1, b2 | b2⟩ := (Finder.mem_scanTries ..).1 hr
        · exact .inl ⟨r, (mem_out_run ht.shape r _).2 ⟨w, ((endsAt_iff ..).1 b1).2, b2⟩⟩
        · refine .inr ⟨r, (mem_out_run htN.shape r _).2 ⟨_, ?_, b2⟩⟩
          obtain ⟨x, hx⟩ := ((endsAt_iff ..).1 b1).2
          exact ⟨x.map upperOf, by rw [← hx, List.map_append]⟩
  · rw [hp] at g2; cases g2

example : Sane Grey.default ∧ litsOn Grey.default = true ∧ ∃ ng, compileNg .release ["aB".toList, "(b)A".toList]
    [Flags.empty, Flags.CASELESS] [0, 1] .block Grey.default = .ok ng ∧ ng.smwr.poisoned = false ∧
    out ng.smwr.litTrie (run ng.smwr.litTrie 0 [0x61#8, 0x61#8, 0x42#8]) = [0] ∧
    out ng.smwr.litTrieNocase (run ng.smwr.litTrieNocase 0 [0x42#8, 0x42#8, 0x41#8]) = [0] :=
  ⟨sane_default, rfl, Outcome.exists_ok (by decide +kernel)⟩

deriving instance DecidableEq for LitTrieVertexProps, Graph, LitTrie

/-- C122: the condition of `C122_minimal` is not met by what compiling stores: all strings have the same report
(C48), and `ab` and `b` give four vertices where two states would do. -/
theorem C122_not_minimal (p : Profile) : ∃ ng,
    compileNg p ["ab".toList, "b".toList] [Flags.empty, Flags.empty] [1, 2] .block Grey.default = .ok ng ∧
    ng.smwr.litTrie.inner.nodes.length = 4 ∧
    ∀ data r, r ∈ out ng.smwr.litTrie (run ng.smwr.litTrie ng.smwr.litTrie.root data) ↔
      r = 0 ∧ data.foldl (fun _ c => c == 0x62#8) false = true := by
  have hc : ∃ ng, compileNg p ["ab".toList, "b".toList] [Flags.empty, Flags.empty] [1, 2] .block Grey.default = .ok ng ∧
      ng.smwr.litTrie.inner.nodes.length = 4 ∧
      insertAll (ε := Empty) [(⟨[0x61#8, 0x62#8], [false, false]⟩, 0), (⟨[0x62#8], [false]⟩, 0)] LitTrie.default =
        .ok ng.smwr.litTrie := by
    cases p
    · exact Outcome.exists_ok (by decide +kernel)
    · exact Outcome.exists_ok (by decide +kernel)
  obtain ⟨ng, h1, h2, h3⟩ := hc
  refine ⟨ng, h1, h2, ?_⟩
  obtain ⟨t, h4, h5⟩ := C122_reports (ε := Empty)
    [(⟨[0x61#8, 0x62#8], [false, false]⟩, 0), (⟨[0x62#8], [false]⟩, 0)] (by decide)
  rw [h3] at h4
  injection h4 with h4
  subst h4
  intro data r
  rw [h5]
  have hb : ∀ data : List U8, data.foldl (fun _ c => c == 0x62#8) false = true ↔ [0x62#8] <:+ data := by
    intro data
    rcases List.eq_nil_or_concat data with rfl | ⟨d, c, rfl⟩
    · simp
    · rw [List.concat_eq_append, List.foldl_append]
      simp only [List.foldl_cons, List.foldl_nil, beq_iff_eq]
      constructor
      · rintro rfl
        exact List.suffix_append _ _
      · rintro ⟨x, hx⟩
        have := (List.append_inj' hx rfl).2
        injection this with this
        exact this.symm
  rw [hb]
  simp only [List.mem_cons, Prod.mk.injEq, List.not_mem_nil, or_false]
  constructor
  · rintro ⟨l, ⟨rfl, rfl⟩ | ⟨rfl, rfl⟩, hl⟩
    · exact ⟨rfl, List.IsSuffix.trans ⟨[0x61#8], rfl⟩ hl⟩
    · exact ⟨rfl, hl⟩
  · rintro ⟨rfl, hl⟩
    exact ⟨_, .inr ⟨rfl, rfl⟩, hl⟩

end Rescan
