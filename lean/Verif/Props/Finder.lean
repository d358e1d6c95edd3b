import Verif.Model.Finder
import Verif.Spec.Kept
import Verif.Spec.Witness
import Verif.Props.Compiled
import Verif.Props.Mended
import Verif.Props.Express
/-! # C121: scanning with what compiling stores -/
namespace Rescan
open Spec
open Finder

namespace Finder

/-- From vertex `u`, `w` leads to a vertex with the report `r`. -/
def At (t : LitTrie) (r u : Nat) (w : List U8) : Prop :=
  ∃ v props, Follows t.inner u w v ∧ t.inner.nodes[v]? = some props ∧ r ∈ props.reports

theorem mem_outgoing {N : Type} (g : Graph N) (u v : Nat) : v ∈ g.outgoing u ↔ (u, v) ∈ g.edges := by
  unfold Graph.outgoing
  simp only [List.mem_map, List.mem_filter, beq_iff_eq]
  constructor
  · rintro ⟨⟨a, b⟩, ⟨h1, rfl⟩, rfl⟩
    exact h1
  · intro h
    exact ⟨_, ⟨h, rfl⟩, rfl⟩

theorem mem_children (t : LitTrie) (u v : Nat) (c : U8) :
    v ∈ children t u c ↔ (u, v) ∈ t.inner.edges ∧ ∃ props, t.inner.nodes[v]? = some props ∧ props.c = c := by
  unfold children
  rw [List.mem_filter, mem_outgoing]
  cases t.inner.nodes[v]? with
  | none => simp
  | some w => simp

theorem at_cons (t : LitTrie) (r u : Nat) (c : U8) (w : List U8) :
    At t r u (c :: w) ↔ ∃ v ∈ children t u c, At t r v w := by
  constructor
  · rintro ⟨x, props, hf, hn, hr⟩
    cases hf with
    | cons _ v _ props' _ he hv hf => exact ⟨v, (mem_children ..).2 ⟨he, _, hv, rfl⟩, x, props, hf, hn, hr⟩
  · rintro ⟨v, hv, x, props, hf, hn, hr⟩
    obtain ⟨he, props', hp, rfl⟩ := (mem_children ..).1 hv
    exact ⟨x, props, .cons _ v _ _ _ he hp hf, hn, hr⟩

theorem mem_reports (t : LitTrie) (active : List Nat) (r : Nat) :
    r ∈ trieReports t active ↔ ∃ u ∈ active, At t r u [] := by
  unfold trieReports
  rw [List.mem_flatMap]
  constructor
  · rintro ⟨u, hu, h⟩
    split at h
    · rename_i w hw
      exact ⟨u, hu, u, w, .nil _, hw, h⟩
    · cases h
  · rintro ⟨u, hu, x, props, hf, hn, hr⟩
    cases hf
    refine ⟨u, hu, ?_⟩
    rw [hn]
    exact hr

theorem mem_trieScan (t : LitTrie) (r j : Nat) : ∀ (data : List U8) (off : Nat) (active : List Nat),
    (r, j) ∈ trieScan t off active data ↔ ∃ w rest, data = w ++ rest ∧ j = off + w.length ∧
      ((∃ u ∈ active, At t r u w) ∨ ∃ w1 w2, w1 ≠ [] ∧ w = w1 ++ w2 ∧ At t r t.root w2) := by
  have hnow : ∀ (off : Nat) (active : List Nat),
      (r, j) ∈ (trieReports t active).map (fun r => (r, off)) ↔ j = off ∧ ∃ u ∈ active, At t r u [] := by
    intro off active
    rw [List.mem_map]
    constructor
    · rintro ⟨r', h, e⟩
      injection e with e1 e2
      subst e1 e2
      exact ⟨rfl, (mem_reports ..).1 h⟩
    · rintro ⟨rfl, h⟩
      exact ⟨r, (mem_reports ..).2 h, rfl⟩
  intro data
  induction data with
  | nil =>
    intro off active
    rw [trieScan, hnow]
    constructor
    · rintro ⟨rfl, h⟩
      exact ⟨[], [], rfl, rfl, .inl h⟩
    · rintro ⟨w, rest, hd, rfl, h⟩
      obtain ⟨rfl, _⟩ := List.append_eq_nil_iff.1 hd.symm
      refine ⟨rfl, ?_⟩
      rcases h with h | ⟨w1, w2, hne, hw, _⟩
      · exact h
      · exact absurd (List.append_eq_nil_iff.1 hw.symm).1 hne
  | cons c data ih =>
    intro off active
    rw [trieScan, List.mem_append, hnow, ih]
    constructor
    · rintro (⟨rfl, h⟩ | ⟨w, rest, rfl, rfl, h⟩)
      · exact ⟨[], _, rfl, rfl, .inl h⟩
      · refine ⟨c :: w, rest, rfl, by simp; omega, ?_⟩
        rcases h with ⟨u, hu, h⟩ | ⟨w1, w2, hne, rfl, h⟩
        · unfold trieStep at hu
          rw [List.mem_eraseDups, List.mem_cons, List.mem_flatMap] at hu
          rcases hu with rfl | ⟨a, ha, hu⟩
          · exact .inr ⟨[c], w, by simp, rfl, h⟩
          · exact .inl ⟨a, ha, (at_cons ..).2 ⟨u, hu, h⟩⟩
        · exact .inr ⟨c :: w1, w2, by simp, rfl, h⟩
    · rintro ⟨w, rest, hd, rfl, h⟩
      cases w with
      | nil =>
        left
        refine ⟨rfl, ?_⟩
        rcases h with h | ⟨w1, w2, hne, hw, _⟩
        · exact h
        · exact absurd (List.append_eq_nil_iff.1 hw.symm).1 hne
      | cons b w =>
        right
        injection hd with hb hd
        subst hb
        refine ⟨w, rest, hd, by simp; omega, ?_⟩
        rcases h with ⟨a, ha, h⟩ | ⟨w1, w2, hne, hw, h⟩
        · obtain ⟨v, hv, h⟩ := (at_cons ..).1 h
          refine .inl ⟨v, ?_, h⟩
          unfold trieStep
          rw [List.mem_eraseDups, List.mem_cons, List.mem_flatMap]
          exact .inr ⟨a, ha, hv⟩
        · cases w1 with
          | nil => exact absurd rfl hne
          | cons x w1 =>
            injection hw with hx hw
            subst hx
            cases w1 with
            | nil =>
              refine .inl ⟨t.root, ?_, by rw [hw]; exact h⟩
              unfold trieStep
              rw [List.mem_eraseDups]
              exact List.mem_cons_self
            | cons y w1 => exact .inr ⟨y :: w1, w2, by simp, hw, h⟩

theorem mem_trieScan_root (t : LitTrie) (r j : Nat) (data : List U8) :
    (r, j) ∈ trieScan t 0 [t.root] data ↔ ∃ w, EndsAt data j w ∧ At t r t.root w := by
  rw [mem_trieScan]
  constructor
  · rintro ⟨w, rest, rfl, rfl, ⟨u, hu, h⟩ | ⟨w1, w2, _, rfl, h⟩⟩
    · rw [List.mem_singleton.1 hu] at h
      exact ⟨w, ⟨[], rest, rfl, by simp⟩, h⟩
    · exact ⟨w2, ⟨w1, rest, rfl, by simp⟩, h⟩
  · rintro ⟨w, ⟨before, after, rfl, rfl⟩, h⟩
    refine ⟨before ++ w, after, rfl, by simp, ?_⟩
    cases before with
    | nil => exact .inl ⟨_, List.mem_singleton.2 rfl, h⟩
    | cons b before => exact .inr ⟨b :: before, w, by simp, rfl, h⟩

theorem endsAt_map (f : U8 → U8) (data : List U8) (j : Nat) (w : List U8) :
    EndsAt (data.map f) j w ↔ ∃ w', w = w'.map f ∧ EndsAt data j w' := by
  constructor
  · rintro ⟨before, after, h, rfl⟩
    obtain ⟨x, a, rfl, hx, rfl⟩ := List.map_eq_append_iff.1 h
    obtain ⟨b, w', rfl, rfl, rfl⟩ := List.map_eq_append_iff.1 hx
    exact ⟨w', rfl, b, a, rfl, by simp⟩
  · rintro ⟨w', rfl, before, after, rfl, rfl⟩
    exact ⟨before.map f, after.map f, by simp, by simp⟩

theorem mem_scanTries (sw : SmallWriteBuild) (r j : Nat) (data : List U8) :
    (r, j) ∈ scanTries sw data ↔ ∃ w, EndsAt data j w ∧
      (At sw.litTrie r sw.litTrie.root w ∨ At sw.litTrieNocase r sw.litTrieNocase.root (w.map upperOf)) := by
  have hup : data.map mytoupper = data.map upperOf := List.map_congr_left (fun b _ => (upperOf_eq b).symm)
  unfold scanTries
  rw [List.mem_append, mem_trieScan_root, mem_trieScan_root, hup]
  constructor
  · rintro (⟨w, h1, h2⟩ | ⟨w, h1, h2⟩)
    · exact ⟨w, h1, .inl h2⟩
    · obtain ⟨w', rfl, h3⟩ := (endsAt_map ..).1 h1
      exact ⟨w', h3, .inr h2⟩
  · rintro ⟨w, h1, h2 | h2⟩
    · exact .inl ⟨w, h1, h2⟩
    · exact .inr ⟨_, (endsAt_map ..).2 ⟨w, rfl, h1⟩, h2⟩

theorem exists_at (t : LitTrie) (w : List U8) : (∃ r, At t r t.root w) ↔ Accepts t w := by
  constructor
  · rintro ⟨r, v, props, h1, h2, h3⟩
    exact ⟨v, props, h1, h2, List.ne_nil_of_mem h3⟩
  · rintro ⟨v, props, h1, h2, h3⟩
    obtain ⟨r, hr⟩ := List.exists_mem_of_ne_nil _ h3
    exact ⟨r, v, props, h1, h2, hr⟩

/-! ## Graphs -/

theorem mem_graphStep (h : NgHolder) (active : List Nat) (c : U8) (v : Nat) :
    v ∈ graphStep h active c ↔ ∃ u ∈ active, (u, v) ∈ h.inner.edges ∧
      ∃ props, h.inner.nodes[v]? = some props ∧ props.charReach.test c = true := by
  unfold graphStep
  rw [List.mem_eraseDups, List.mem_flatMap]
  simp only [List.mem_filter, mem_outgoing]
  cases h.inner.nodes[v]? with
  | none => simp
  | some w => simp

theorem graphAccepts_iff (h : NgHolder) (active : List Nat) :
    graphAccepts h active = true ↔ ∃ u ∈ active, Reads h u [] := by
  unfold graphAccepts
  rw [List.any_eq_true]
  simp only [Bool.or_eq_true, List.contains_iff_mem, mem_outgoing]
  constructor
  · rintro ⟨u, hu, h⟩
    exact ⟨u, hu, .stop u h⟩
  · rintro ⟨u, hu, h⟩
    cases h with
    | stop _ h => exact ⟨u, hu, h⟩

theorem mem_graphScan (h : NgHolder) (j : Nat) : ∀ (data : List U8) (off : Nat) (active : List Nat),
    j ∈ graphScan h off active data ↔ ∃ w rest, data = w ++ rest ∧ j = off + w.length ∧ ∃ u ∈ active, Reads h u w := by
  have hnow : ∀ (off : Nat) (active : List Nat), (j ∈ if graphAccepts h active then [off] else []) ↔
      j = off ∧ ∃ u ∈ active, Reads h u [] := by
    intro off active
    rw [← graphAccepts_iff]
    cases graphAccepts h active <;> simp
  intro data
  induction data with
  | nil =>
    intro off active
    rw [graphScan, hnow]
    constructor
    · rintro ⟨rfl, h⟩
      exact ⟨[], [], rfl, rfl, h⟩
    · rintro ⟨w, rest, hd, rfl, h⟩
      obtain ⟨rfl, _⟩ := List.append_eq_nil_iff.1 hd.symm
      exact ⟨rfl, h⟩
  | cons c data ih =>
    intro off active
    rw [graphScan, List.mem_append, hnow, ih]
    constructor
    · rintro (⟨rfl, h⟩ | ⟨w, rest, rfl, rfl, v, hv, hr⟩)
      · exact ⟨[], _, rfl, rfl, h⟩
      · obtain ⟨u, hu, he, props, hp, ht⟩ := (mem_graphStep ..).1 hv
        exact ⟨c :: w, rest, rfl, by simp; omega, u, hu, .step u v props c w he hp ht hr⟩
    · rintro ⟨w, rest, hd, rfl, u, hu, hr⟩
      cases hr with
      | stop _ hs => exact .inl ⟨rfl, u, hu, .stop u hs⟩
      | step _ v props b w he hp ht hr =>
        injection hd with hb hd
        subst hb
        exact .inr ⟨w, rest, hd, by simp; omega, v, (mem_graphStep ..).2 ⟨u, hu, he, props, hp, ht⟩, hr⟩

theorem mem_graphScan_start (h : NgHolder) (j : Nat) (data : List U8) :
    j ∈ graphScan h 0 [h.start, h.startDs] data ↔ ∃ w rest, data = w ++ rest ∧ j = w.length ∧ Spec.Accepts h w := by
  rw [mem_graphScan]
  simp only [List.mem_cons, List.not_mem_nil, or_false, exists_eq_or_imp, exists_eq_left, Nat.zero_add]
  rfl

theorem graphsOf_zip : ∀ {es : List Expr} {gs : List NgHolder}, Mended.GraphsOf es gs → ∀ (id j : Nat) (data : List U8),
    ((id, j) ∈ ((es.map (fun e => e.2.2)).zip gs).flatMap (fun x => (graphScan x.2 0 [x.2.start, x.2.startDs] data).map
      (fun j => (x.1, j))) ↔ ∃ e ∈ es, e.2.2 = id ∧ ∃ w, EndsAt data j w ∧ Mended.Matches e w)
  | [], [], _, id, j, data => by simp
  | [], _ :: _, h, _, _, _ => h.elim
  | _ :: _, [], h, _, _, _ => h.elim
  | e :: es, g :: gs, h, id, j, data => by
    rw [List.map_cons, List.zip_cons_cons, List.flatMap_cons, List.mem_append, graphsOf_zip h.2 id j data]
    have : ((id, j) ∈ (graphScan g 0 [g.start, g.startDs] data).map (fun j => (e.2.2, j))) ↔
        e.2.2 = id ∧ ∃ w, EndsAt data j w ∧ Mended.Matches e w := by
      rw [List.mem_map]
      constructor
      · rintro ⟨j', hj, he⟩
        injection he with he1 he2
        subst he1 he2
        obtain ⟨x, rest, rfl, rfl, hx⟩ := (mem_graphScan_start ..).1 hj
        obtain ⟨u, v, rfl, hm⟩ := (h.1 x).1 hx
        exact ⟨rfl, v, ⟨u, rest, rfl, by simp⟩, hm⟩
      · rintro ⟨rfl, w, ⟨before, after, rfl, rfl⟩, hm⟩
        refine ⟨_, (mem_graphScan_start ..).2 ⟨before ++ w, after, rfl, rfl, (h.1 _).2 ⟨before, w, rfl, hm⟩⟩, by simp⟩
    rw [this]
    simp only [List.mem_cons, exists_eq_or_imp]

end Finder

/-- C121: unless the small-write builder is poisoned, reading the two tries in one pass over the data finds
exactly the offsets at which a match of a compiled literal expression ends (one short enough for the tries). -/
theorem C121_literals (p : Profile) (es : List Str) (fs : List Flags) (ids : List Nat) (mode : Mode)
    (g : Grey) (hs : Sane g) (hon : litsOn g = true) (ng : Ng) (h : compileNg p es fs ids mode g = .ok ng)
    (hp : ng.smwr.poisoned = false) (data : List U8) (j : Nat) :
    (∃ r, (r, j) ∈ scanTries ng.smwr data) ↔ ∃ e ∈ given es fs ids, ∃ l c m w, literalOf e = some l ∧
      l.length ≤ g.smallWriteLargestBuffer ∧ parse p e.1 (ParseMode.new e.2.1) = .ok (c, m) ∧
      EndsAt data j w ∧ Lang c w := by
  have hL := C68_language p es fs ids mode g hs hon ng h hp
  constructor
  · rintro ⟨r, hr⟩
    obtain ⟨w, h1, h2 | h2⟩ := (mem_scanTries ..).1 hr
    · obtain ⟨e, he, l, c, m, a1, a2, _, a4, a5⟩ := (hL w).2.1 ((exists_at ..).1 ⟨r, h2⟩)
      exact ⟨e, he, l, c, m, w, a1, a2, a4, h1, a5⟩
    · obtain ⟨e, he, l, c, m, a1, a2, _, a4, a5⟩ := (hL w).1.1 ((exists_at ..).1 ⟨r, h2⟩)
      exact ⟨e, he, l, c, m, w, a1, a2, a4, h1, a5⟩
  · rintro ⟨e, he, l, c, m, w, a1, a2, a4, h1, a5⟩
    by_cases hc : ∃ y ∈ l, y.2 = true
    · obtain ⟨r, hr⟩ := (exists_at ..).2 ((hL w).1.2 ⟨e, he, l, c, m, a1, a2, hc, a4, a5⟩)
      exact ⟨r, (mem_scanTries ..).2 ⟨w, h1, .inr hr⟩⟩
    · obtain ⟨r, hr⟩ := (exists_at ..).2 ((hL w).2.2 ⟨e, he, l, c, m, a1, a2, (by
        intro y hy
        cases hy2 : y.2 with
        | false => rfl
        | true => exact absurd ⟨y, hy, hy2⟩ hc), a4, a5⟩)
      exact ⟨r, (mem_scanTries ..).2 ⟨w, h1, .inl hr⟩⟩

example : Sane Grey.default ∧ litsOn Grey.default = true ∧ ∃ ng, compileNg .release ["aB".toList, "(b)A".toList]
    [Flags.empty, Flags.CASELESS] [0, 1] .block Grey.default = .ok ng ∧ ng.smwr.poisoned = false ∧
    scanTries ng.smwr [0x61#8, 0x42#8, 0x61#8, 0x62#8, 0x41#8, 0x61#8, 0x42#8] =
      [(0, 2), (0, 7), (0, 3), (0, 5)] :=
  ⟨sane_default, rfl, Outcome.exists_ok (by decide +kernel)⟩

namespace Finder

/-- What a literal expression matches. -/
theorem literal_matches {p : Profile} {e : Expr} {l : List (U8 × Bool)} {c : Component} {m : ParseMode}
    (hl : literalOf e = some l) (hp : parse p e.1 (ParseMode.new e.2.1) = .ok (c, m)) (w : List U8) :
    ((∃ y ∈ l, y.2 = true) → (Lang c w ↔ w.map upperOf = l.map Prod.fst)) ∧
    ((∀ y ∈ l, y.2 = false) → (Lang c w ↔ w = l.map Prod.fst)) := by
  refine ⟨?_, fun h => by rw [literal_lang hl hp, matches_exact l w h]⟩
  rintro ⟨y, hy, hy2⟩
  rw [literal_lang hl hp]
  unfold literalOf at hl
  cases hb : bodyOf e.1 with
  | none => rw [hb] at hl; cases hl
  | some body =>
    rw [hb] at hl
    simp only at hl
    split at hl
    · cases hl
    · injection hl with hl
      cases hc : e.2.1.contains .CASELESS with
      | true =>
        rw [hc] at hl
        subst hl
        exact matches_upper body w
      | false =>
        rw [hc] at hl
        rw [← hl] at hy
        rw [litElems_sensitive body y hy] at hy2
        cases hy2

/-- The reports of the mended compiler found by reading the tries. -/
theorem mem_mended {p : Profile} {es : List Str} {fs : List Flags} {ids : List Nat} {mode : Mode} {g : Grey}
    (hs : Mended.Sane g) {ng : Mended.Ng} (h : Mended.compileNg p es fs ids mode g = .ok ng)
    (hp : ng.smwr.poisoned = false) (w : List U8) (id : Nat) :
    (∃ r rep, ng.reports[r]? = some rep ∧ rep.report = id ∧
      (At ng.smwr.litTrie r ng.smwr.litTrie.root w ∨ At ng.smwr.litTrieNocase r ng.smwr.litTrieNocase.root (w.map upperOf))) ↔
    ∃ e ∈ given es fs ids, e.2.2 = id ∧ litsOn g = true ∧
      (∃ l, literalOf e = some l ∧ l.length ≤ g.smallWriteLargestBuffer) ∧ Mended.Matches e w := by
  obtain ⟨hfine, hok⟩ := mended_ok hs h
  have hparse : ∀ e ∈ given es fs ids, ∃ c m, parse .release e.1 (ParseMode.new e.2.1) = .ok (c, m) := by
    intro e he
    have := (parse_ok_iff .release e.1 (ParseMode.new e.2.1)).2 (hfine.each e he).text
    cases hp : parse .release e.1 (ParseMode.new e.2.1) with
    | ok x => exact ⟨x.1, x.2, rfl⟩
    | err x => rw [hp] at this; cases this
    | panic x => rw [hp] at this; cases this
    | timeout => rw [hp] at this; cases this
  constructor
  · rintro ⟨r, rep, hrep, rfl, ⟨v, props, hf, hn, hr⟩ | ⟨v, props, hf, hn, hr⟩⟩
    · obtain ⟨e, he, l, hon, hl, hw, hb, rep', h1, h2, _⟩ :=
        (C108_reports p es fs ids mode g hs ng h hp false _ rfl w v props hf hn).1 r hr
      rw [hrep] at h1
      injection h1 with h1
      subst h1
      obtain ⟨c, m, hcm⟩ := hparse e he
      refine ⟨e, he, h2.symm, hon, ⟨l, hl, hb.1⟩, c, m, hcm, ((literal_matches hl hcm w).2 ?_).2 hw.symm⟩
      intro y hy
      cases hy2 : y.2 with
      | false => rfl
      | true => cases hb.2.1 ⟨y, hy, hy2⟩
    · obtain ⟨e, he, l, hon, hl, hw, hb, rep', h1, h2, _⟩ :=
        (C108_reports p es fs ids mode g hs ng h hp true _ rfl _ v props hf hn).1 r hr
      rw [hrep] at h1
      injection h1 with h1
      subst h1
      obtain ⟨c, m, hcm⟩ := hparse e he
      exact ⟨e, he, h2.symm, hon, ⟨l, hl, hb.1⟩, c, m, hcm, ((literal_matches hl hcm w).1 (hb.2.2 rfl)).2 hw.symm⟩
  · rintro ⟨e, he, rfl, hon, ⟨l, hl, hlen⟩, c, m, hcm, hw⟩
    obtain ⟨calls, hcalls, hco⟩ := hok.smwr
    obtain ⟨_, t1, t2⟩ := C46_tries_hold es.length g calls hs.base.buffer ng.smwr hcalls hp
    obtain ⟨r, b1, rep, b2, b3, _⟩ := hco.complete e he l (by unfold Mended.isLit; rw [hon, hl]; rfl) hl
    have hcont : (litOf l).nocase.contains true = true ↔ ∃ x ∈ l, x.2 = true := contains_true_iff l
    have hsh : (litOf l).s.length ≤ g.smallWriteLargestBuffer := by simpa [litOf] using hlen
    refine ⟨r, rep, b2, b3, ?_⟩
    have put : ∀ {t : LitTrie} {hist : List (List U8 × Nat)} {w : List U8}, Holds t hist → (w, r) ∈ hist →
        At t r t.root w := by
      intro t hist w ht hm
      obtain ⟨v, hv⟩ := (ht.follows w).2 (.inr ⟨w, List.mem_map.2 ⟨_, hm, rfl⟩, List.prefix_refl _⟩)
      obtain ⟨props, h1, h2⟩ := ht.reports w v hv
      exact ⟨v, props, hv, h1, (h2 r).2 hm⟩
    by_cases hc : ∃ x ∈ l, x.2 = true
    · right
      rw [((literal_matches hl hcm w).1 hc).1 hw]
      refine put t1 (List.mem_map.2 ⟨(litOf l, r), ?_, by rw [bytesOf_litOf]⟩)
      simp only [caselessOnes, shortOnes, List.mem_filter, decide_eq_true_eq]
      exact ⟨⟨b1, hsh⟩, hcont.2 hc⟩
    · left
      have hall : ∀ y ∈ l, y.2 = false := by
        intro y hy
        cases hy2 : y.2 with
        | false => rfl
        | true => exact absurd ⟨y, hy, hy2⟩ hc
      rw [((literal_matches hl hcm w).2 hall).1 hw]
      refine put t2 (List.mem_map.2 ⟨(litOf l, r), ?_, by rw [bytesOf_litOf]⟩)
      simp only [sensitiveOnes, shortOnes, List.mem_filter, decide_eq_true_eq, Bool.not_eq_eq_eq_not, Bool.not_true]
      refine ⟨⟨b1, hsh⟩, ?_⟩
      cases hh : (litOf l).nocase.contains true with
      | false => rfl
      | true => exact absurd (hcont.1 hh) hc

end Finder

/-- C121, mended: the mended compiler keeps enough to find, with their ids, exactly the ends of the matches of
all expressions except the literals too long for the tries. -/
theorem C121_mended (p : Profile) (es : List Str) (fs : List Flags) (ids : List Nat) (mode : Mode) (g : Grey)
    (hs : Mended.Sane g) (ng : Mended.Ng) (h : Mended.compileNg p es fs ids mode g = .ok ng)
    (hp : ng.smwr.poisoned = false) (data : List U8) (id j : Nat) :
    (id, j) ∈ findAll ng (((given es fs ids).filter (fun e => !(litsOn g && (literalOf e).isSome))).map (fun e => e.2.2)) data ↔
      ∃ e ∈ given es fs ids, e.2.2 = id ∧
        (litsOn g = true → ∀ l, literalOf e = some l → l.length ≤ g.smallWriteLargestBuffer) ∧
        ∃ w c m, EndsAt data j w ∧ parse .release e.1 (ParseMode.new e.2.1) = .ok (c, m) ∧ Lang c w := by
  unfold findAll
  rw [List.mem_append, graphsOf_zip (C108_graphs p es fs ids mode g hs ng h)]
  have h1 : ((id, j) ∈ (scanTries ng.smwr data).filterMap
      (fun x => (ng.reports[x.1]?).map (fun rep => (rep.report, x.2)))) ↔
      ∃ w, EndsAt data j w ∧ ∃ e ∈ given es fs ids, e.2.2 = id ∧ litsOn g = true ∧
        (∃ l, literalOf e = some l ∧ l.length ≤ g.smallWriteLargestBuffer) ∧ Mended.Matches e w := by
    simp only [← mem_mended hs h hp]
    rw [List.mem_filterMap]
    constructor
    · rintro ⟨⟨r, j'⟩, hx, hr⟩
      obtain ⟨rep, hrep, he⟩ := Option.map_eq_some_iff.1 hr
      injection he with he1 he2
      subst he1 he2
      obtain ⟨w, a1, a2⟩ := (mem_scanTries ..).1 hx
      exact ⟨w, a1, r, rep, hrep, rfl, a2⟩
    · rintro ⟨w, a1, r, rep, hrep, rfl, a2⟩
      exact ⟨(r, j), (mem_scanTries ..).2 ⟨w, a1, a2⟩, by simp only [hrep]; rfl⟩
  rw [h1]
  constructor
  · rintro (⟨w, a1, e, he, hid, hon, ⟨l, hl, hlen⟩, c, m, a2, a3⟩ | ⟨e, he, hid, w, a1, c, m, a2, a3⟩)
    · refine ⟨e, he, hid, ?_, w, c, m, a1, a2, a3⟩
      intro _ l' hl'
      rw [hl] at hl'
      injection hl' with hl'
      exact hl' ▸ hlen
    · obtain ⟨he, hn⟩ := List.mem_filter.1 he
      refine ⟨e, he, hid, ?_, w, c, m, a1, a2, a3⟩
      intro hon l hl
      rw [hon, hl] at hn
      cases hn
  · rintro ⟨e, he, hid, hsh, w, c, m, a1, a2, a3⟩
    by_cases hon : litsOn g = true
    · cases hl : literalOf e with
      | some l => exact .inl ⟨w, a1, e, he, hid, hon, ⟨l, hl, hsh hon l hl⟩, c, m, a2, a3⟩
      | none => exact .inr ⟨e, List.mem_filter.2 ⟨he, by rw [hl]; simp⟩, hid, w, a1, c, m, a2, a3⟩
    · exact .inr ⟨e, List.mem_filter.2 ⟨he, by simp [hon]⟩, hid, w, a1, c, m, a2, a3⟩

example : Mended.Sane Grey.default ∧ ∃ ng, Mended.compileNg .release ["a".toList, "Ab".toList, "(a|b)b".toList]
    [Flags.empty, Flags.CASELESS, Flags.empty] [1, 2, 3] .block Grey.default = .ok ng ∧ ng.smwr.poisoned = false ∧
    findAll ng [3] [0x61#8, 0x42#8, 0x61#8, 0x62#8, 0x62#8] = [(1, 1), (1, 3), (2, 2), (2, 4), (3, 4), (3, 5)] :=
  ⟨Mended.sane_default, Outcome.exists_ok (by decide +kernel)⟩

theorem Finder.endsAt_length {data : List U8} {j : Nat} {w : List U8} (h : EndsAt data j w) : w.length ≤ data.length := by
  obtain ⟨x, y, rfl, _⟩ := h
  simp only [List.length_append]
  omega

/-- C121: on data that fits into the buffer of the small-write engine nothing is lost by leaving out the literals that
do not: there the stored tries are enough to find the ends of the matches of all literal expressions. -/
theorem C121_small (p : Profile) (es : List Str) (fs : List Flags) (ids : List Nat) (mode : Mode)
    (g : Grey) (hs : Sane g) (hon : litsOn g = true) (ng : Ng) (h : compileNg p es fs ids mode g = .ok ng)
    (hp : ng.smwr.poisoned = false) (data : List U8) (hd : data.length ≤ g.smallWriteLargestBuffer) (j : Nat) :
    (∃ r, (r, j) ∈ scanTries ng.smwr data) ↔ ∃ e ∈ given es fs ids, ∃ l c m w, literalOf e = some l ∧
      parse p e.1 (ParseMode.new e.2.1) = .ok (c, m) ∧ EndsAt data j w ∧ Lang c w := by
  rw [C121_literals p es fs ids mode g hs hon ng h hp data j]
  constructor
  · rintro ⟨e, he, l, c, m, w, a1, _, a3, a4, a5⟩
    exact ⟨e, he, l, c, m, w, a1, a3, a4, a5⟩
  · rintro ⟨e, he, l, c, m, w, a1, a3, a4, a5⟩
    have h1 := matchesElems_length _ _ ((literal_lang a1 a3 w).1 a5)
    have h2 := Finder.endsAt_length a4
    exact ⟨e, he, l, c, m, w, a1, by omega, a3, a4, a5⟩

/-- C121, mended, on such data: all matches of all expressions are found. -/
theorem C121_mended_small (p : Profile) (es : List Str) (fs : List Flags) (ids : List Nat) (mode : Mode) (g : Grey)
    (hs : Mended.Sane g) (ng : Mended.Ng) (h : Mended.compileNg p es fs ids mode g = .ok ng)
    (hp : ng.smwr.poisoned = false) (data : List U8) (hd : data.length ≤ g.smallWriteLargestBuffer) (id j : Nat) :
    (id, j) ∈ findAll ng (((given es fs ids).filter (fun e => !(litsOn g && (literalOf e).isSome))).map (fun e => e.2.2)) data ↔
      ∃ e ∈ given es fs ids, e.2.2 = id ∧
        ∃ w c m, EndsAt data j w ∧ parse .release e.1 (ParseMode.new e.2.1) = .ok (c, m) ∧ Lang c w := by
  rw [C121_mended p es fs ids mode g hs ng h hp data id j]
  constructor
  · rintro ⟨e, he, hid, _, w⟩
    exact ⟨e, he, hid, w⟩
  · rintro ⟨e, he, hid, w, c, m, a1, a2, a3⟩
    refine ⟨e, he, hid, ?_, w, c, m, a1, a2, a3⟩
    intro _ l hl
    have h1 := matchesElems_length _ _ ((literal_lang hl a2 w).1 a3)
    have h2 := Finder.endsAt_length a1
    omega

/-- A literal of 71 bytes is left out of the tries, and cannot occur in data of 70 bytes. -/
example : Sane Grey.default ∧ litsOn Grey.default = true ∧ ∃ ng, compileNg .release [List.replicate 71 'a', "ab".toList]
    [Flags.empty, Flags.empty] [1, 2] .block Grey.default = .ok ng ∧ ng.smwr.poisoned = false ∧
    [0x61#8, 0x61#8, 0x62#8].length ≤ Grey.default.smallWriteLargestBuffer ∧
    scanTries ng.smwr [0x61#8, 0x61#8, 0x62#8] = [(0, 3)] :=
  ⟨sane_default, rfl, Outcome.exists_ok (by decide +kernel)⟩
example : Mended.Sane Grey.default ∧ ∃ ng, Mended.compileNg .release [List.replicate 71 'a', "ab".toList, "b|".toList]
    [Flags.empty, Flags.empty, Flags.ALLOWEMPTY] [1, 2, 3] .block Grey.default = .ok ng ∧ ng.smwr.poisoned = false ∧
    findAll ng [3] [0x61#8, 0x62#8] = [(2, 2), (3, 0), (3, 1), (3, 2)] :=
  ⟨Mended.sane_default, Outcome.exists_ok (by decide +kernel)⟩

namespace Finder

theorem scanTries_new (np : Nat) (g : Grey) (data : List U8) : scanTries (SmallWriteBuild.new np g) data = [] := by
  have hno : ∀ r w, ¬ At LitTrie.default r LitTrie.default.root w := by
    rintro r w ⟨v, props, hf, hn, hr⟩
    obtain ⟨props', hn', hiff⟩ := LitTrie.stores_default.holds.reports w v hf
    rw [hn] at hn'
    injection hn' with hn'
    subst hn'
    cases (hiff r).1 hr
  refine List.eq_nil_iff_forall_not_mem.2 ?_
  rintro ⟨r, j⟩ hm
  obtain ⟨w, _, h | h⟩ := (mem_scanTries ..).1 hm
  · exact hno _ _ h
  · exact hno _ _ h

end Finder

/-- C121, mended, with no shortcut for literals: then the mended compiler keeps enough to find the ends of the matches
of all expressions, literals of any length among them, poisoned or not. -/
theorem C121_complete (p : Profile) (es : List Str) (fs : List Flags) (ids : List Nat) (mode : Mode) (g : Grey)
    (hs : Mended.Sane g) (hoff : litsOn g = false) (ng : Mended.Ng) (h : Mended.compileNg p es fs ids mode g = .ok ng)
    (data : List U8) (id j : Nat) :
    (id, j) ∈ findAll ng ((given es fs ids).map (fun e => e.2.2)) data ↔ ∃ e ∈ given es fs ids, e.2.2 = id ∧
      ∃ w c m, EndsAt data j w ∧ parse .release e.1 (ParseMode.new e.2.1) = .ok (c, m) ∧ Lang c w := by
  obtain ⟨_, hok⟩ := mended_ok hs h
  obtain ⟨calls, hcalls, hco⟩ := hok.smwr
  have hnil : calls = [] := by
    refine List.eq_nil_iff_forall_not_mem.2 ?_
    intro x hx
    obtain ⟨e, _, _, hl, _⟩ := hco.sound x hx
    unfold Mended.isLit at hl
    rw [hoff] at hl
    cases hl
  subst hnil
  injection hcalls with hsw
  have hgr := C108_graphs p es fs ids mode g hs ng h
  rw [List.filter_eq_self.2 (by intro e _; rw [hoff]; rfl)] at hgr
  unfold findAll
  rw [← hsw, scanTries_new, List.filterMap_nil, List.nil_append, graphsOf_zip hgr]
  constructor
  · rintro ⟨e, he, hid, w, a1, c, m, a2, a3⟩
    exact ⟨e, he, hid, w, c, m, a1, a2, a3⟩
  · rintro ⟨e, he, hid, w, c, m, a1, a2, a3⟩
    exact ⟨e, he, hid, w, a1, c, m, a2, a3⟩

example : Mended.Sane { Grey.default with shortcutLiterals := false } ∧
    litsOn { Grey.default with shortcutLiterals := false } = false ∧
    ∃ ng, Mended.compileNg .release ["a".toList, "Ab".toList, "(a|b)b".toList]
      [Flags.empty, Flags.CASELESS, Flags.empty] [1, 2, 3] .block { Grey.default with shortcutLiterals := false } = .ok ng ∧
    findAll ng [1, 2, 3] [0x61#8, 0x42#8, 0x61#8, 0x62#8, 0x62#8] =
      [(1, 1), (1, 3), (2, 2), (2, 4), (3, 4), (3, 5)] :=
  ⟨⟨⟨by decide, by decide, by decide, by decide⟩, by decide, by decide⟩, rfl, Outcome.exists_ok (by decide +kernel)⟩

/-! ## What is lost -/

namespace Finder

theorem addLiteral_long (p : Profile) (ng : Ng) (l l' : Ue2Literal) (i id : Nat) (single quiet quiet' : Bool)
    (he : l.isEmpty = l'.isEmpty) (hm : mixedSensitivity l.iter = mixedSensitivity l'.iter) (hlen : l.len = l'.len)
    (hs : ∀ r, ng.smwr.addLiteral (ε := CompileError) l r = ng.smwr.addLiteral l' r) :
    ng.addLiteral p l i id single .none quiet = ng.addLiteral p l' i id single .none quiet' := by
  unfold Ng.addLiteral
  simp only [he, hm, hlen, hs]
  rfl

theorem smwr_grey (sw sw' : SmallWriteBuild) (l : Ue2Literal) (r : Nat)
    (h : sw.addLiteral (ε := CompileError) l r = .ok sw') : sw'.grey = sw.grey := by
  unfold SmallWriteBuild.addLiteral at h
  split at h
  · injection h with h; rw [← h]
  · split at h
    · injection h with h; rw [← h]
    · simp only at h
      split at h
      · injection h with h; rw [← h]
      · split at h
        · obtain ⟨_, _, h⟩ := bind_eq_ok h
          injection h with h; rw [← h]
        · obtain ⟨_, _, h⟩ := bind_eq_ok h
          injection h with h; rw [← h]

theorem addLiteral_added (p : Profile) (ng : Ng) (l : Ue2Literal) (i id : Nat) (single quiet : Bool)
    (hon : ng.cc.grey.shortcutLiterals = true) (hm : mixedSensitivity l.iter = false) (y : Ng × Bool)
    (h : ng.addLiteral p l i id single .none quiet = .ok y) :
    y.2 = true ∧ y.1.cc = ng.cc ∧ y.1.smwr.grey = ng.smwr.grey := by
  unfold Ng.addLiteral at h
  obtain ⟨_, _, h⟩ := bind_eq_ok h
  rw [hon, hm] at h
  simp only [Bool.not_true, Bool.false_eq_true, if_false] at h
  split at h
  · cases h
  · obtain ⟨x, _, h⟩ := bind_eq_ok h
    obtain ⟨rm, rose, a⟩ := x
    simp only at h
    split at h
    · cases h
    · split at h
      · cases h
      · obtain ⟨sw, hsw, h⟩ := bind_eq_ok h
        injection h with h
        rw [← h]
        exact ⟨rfl, rfl, smwr_grey _ _ _ _ hsw⟩

/-- Expressions that leave the same trace are added alike. -/
theorem addExpression_trace (p : Profile) (ng : Ng) (hs : Sane ng.cc.grey) (hgrey : ng.smwr.grey = ng.cc.grey)
    (i : Nat) (hi : i < 2 ^ 32) (e e' : Expr)
    (hv : Valid p ng.cc.grey.limitPatternLength e) (hv' : Valid p ng.cc.grey.limitPatternLength e')
    (h : trace ng.cc.grey e = trace ng.cc.grey e') :
    addExpression p ng i e.1 e.2.1 e.2.2 = addExpression p ng i e'.1 e'.2.1 e'.2.2 := by
  obtain ⟨h1, h2⟩ := addExpression_shape p hs.length i hi e hv
  obtain ⟨h1', h2'⟩ := addExpression_shape p hs.length i hi e' hv'
  unfold trace at h
  by_cases hon : litsOn ng.cc.grey = true
  · rw [if_pos hon, if_pos hon] at h
    cases hl : literalOf e with
    | none =>
      rw [hl] at h
      cases hl' : literalOf e' with
      | none => rw [h2 (.inr hl), h2' (.inr hl')]
      | some l' => rw [hl'] at h; cases h
    | some l =>
      rw [hl] at h
      cases hl' : literalOf e' with
      | none => rw [hl'] at h; cases h
      | some l' =>
        rw [hl'] at h
        simp only [Option.map_some, Option.some.injEq, Trace.mk.injEq] at h
        obtain ⟨hid, hsingle, hlen, hels⟩ := h
        obtain ⟨hne, _, hmix, x, gr, hadd⟩ := h1 l hon hl
        obtain ⟨hne', _, hmix', x', gr', hadd'⟩ := h1' l' hon hl'
        have hon' : ng.cc.grey.shortcutLiterals = true := by
          unfold litsOn at hon
          rw [Bool.and_eq_true] at hon
          exact hon.2
        have hemp : ∀ l : List (U8 × Bool), l ≠ [] → (litOf l).isEmpty = false := by
          intro l hl
          cases l with
          | nil => exact absurd rfl hl
          | cons a l => rfl
        have hll : ∀ l : List (U8 × Bool), (litOf l).len = l.length := by
          intro l; simp [litOf, Ue2Literal.len]
        have hsame : ng.addLiteral p (litOf l) i e.2.2 (e.2.1.contains .SINGLEMATCH) .none (e.2.1.contains .QUIET) =
            ng.addLiteral p (litOf l') i e'.2.2 (e'.2.1.contains .SINGLEMATCH) .none (e'.2.1.contains .QUIET) := by
          rw [hid, hsingle]
          by_cases hsh : l.length ≤ ng.cc.grey.smallWriteLargestBuffer
          · rw [if_pos hsh, if_pos (hlen ▸ hsh)] at hels
            injection hels with hels
            subst hels
            exact addLiteral_long p ng _ _ _ _ _ _ _ rfl rfl rfl (fun _ => rfl)
          · refine addLiteral_long p ng _ _ _ _ _ _ _ (by rw [hemp l hne, hemp l' hne']) (by rw [hmix, hmix'])
              (by rw [hll, hll, hlen]) ?_
            intro r
            unfold SmallWriteBuild.addLiteral
            rw [hgrey, hll, hll, if_pos (show l.length > _ by omega), if_pos (show l'.length > _ by omega)]
        rw [hadd, hadd', hsame]
        cases hr : ng.addLiteral p (litOf l') i e'.2.2 (e'.2.1.contains .SINGLEMATCH) .none (e'.2.1.contains .QUIET) with
        | ok y =>
          have := (addLiteral_added p ng _ _ _ _ _ hon' hmix' y hr).1
          simp only [Outcome.bind]
          rw [if_pos this, if_pos this]
        | err x => rfl
        | panic x => rfl
        | timeout => rfl
  · have hoff : litsOn ng.cc.grey = false := by simpa using hon
    rw [h2 (.inl hoff), h2' (.inl hoff)]

theorem addExpression_grey (p : Profile) (ng ng' : Ng) (hs : Sane ng.cc.grey) (i : Nat) (hi : i < 2 ^ 32) (e : Expr)
    (hv : Valid p ng.cc.grey.limitPatternLength e) (h : addExpression p ng i e.1 e.2.1 e.2.2 = .ok ng') :
    ng'.cc = ng.cc ∧ ng'.smwr.grey = ng.smwr.grey := by
  obtain ⟨h1, h2⟩ := addExpression_shape p hs.length i hi e hv
  by_cases hon : litsOn ng.cc.grey = true
  · cases hl : literalOf e with
    | none =>
      rw [h2 (.inr hl)] at h
      injection h with h
      rw [h]
      exact ⟨rfl, rfl⟩
    | some l =>
      obtain ⟨_, _, hmix, x, gr, hadd⟩ := h1 l hon hl
      have hon' : ng.cc.grey.shortcutLiterals = true := by
        unfold litsOn at hon
        rw [Bool.and_eq_true] at hon
        exact hon.2
      rw [hadd] at h
      obtain ⟨y, hy, h⟩ := bind_eq_ok h
      obtain ⟨a1, a2⟩ := addLiteral_added p ng _ _ _ _ _ hon' hmix y hy
      rw [if_pos a1] at h
      injection h with h
      rw [← h]
      exact a2
  · rw [h2 (.inl (by simpa using hon))] at h
    injection h with h
    rw [h]
    exact ⟨rfl, rfl⟩

theorem addAll_trace (p : Profile) : ∀ (l l' : List Expr) (i : Nat) (ng ng1 ng2 : Ng), Sane ng.cc.grey →
    ng.smwr.grey = ng.cc.grey → i + l.length ≤ 2 ^ 32 →
    (∀ e ∈ l, Valid p ng.cc.grey.limitPatternLength e) → (∀ e ∈ l', Valid p ng.cc.grey.limitPatternLength e) →
    l.map (trace ng.cc.grey) = l'.map (trace ng.cc.grey) →
    addAll p i ng l = .ok ng1 → addAll p i ng l' = .ok ng2 → ng1 = ng2 := by
  intro l
  induction l with
  | nil =>
    intro l' i ng ng1 ng2 _ _ _ _ _ ht h1 h2
    cases l' with
    | nil => rw [h1] at h2; injection h2
    | cons e' l' => cases ht
  | cons e l ih =>
    intro l' i ng ng1 ng2 hs hg hlen hv hv' ht h1 h2
    cases l' with
    | nil => cases ht
    | cons e' l' =>
      simp only [List.map_cons, List.cons.injEq] at ht
      simp only [List.length_cons] at hlen
      have he := addExpression_trace p ng hs hg i (by omega) e e' (hv e List.mem_cons_self)
        (hv' e' List.mem_cons_self) ht.1
      rw [addAll] at h1 h2
      cases hr : addExpression p ng i e.1 e.2.1 e.2.2 with
      | ok ng' =>
        obtain ⟨c1, c2⟩ := addExpression_grey p ng ng' hs i (by omega) e (hv e List.mem_cons_self) hr
        rw [hr] at he
        simp only [hr] at h1
        simp only [← he] at h2
        refine ih l' (i + 1) ng' ng1 ng2 (by rw [c1]; exact hs) (by rw [c1, c2]; exact hg) (by omega)
          ?_ ?_ (by rw [c1]; exact ht.2) h1 h2
        · rw [c1]; exact fun x hx => hv x (List.mem_cons_of_mem _ hx)
        · rw [c1]; exact fun x hx => hv' x (List.mem_cons_of_mem _ hx)
      | err x =>
        simp only [hr] at h1
        obtain ⟨_, _, h1⟩ := bind_eq_ok h1
        obtain ⟨_, _, h1⟩ := bind_eq_ok h1
        cases h1
      | panic x => simp only [hr] at h1; cases h1
      | timeout => simp only [hr] at h1; cases h1

end Finder

/-- C121: what compiling keeps.  Two lists of as many expressions, both accepted, leave the same state if
they leave the same traces: of a literal too long for the tries only its length, of an alternation nothing. -/
theorem C121_lost (p : Profile) (es es' : List Str) (fs fs' : List Flags) (ids ids' : List Nat) (mode : Mode)
    (g : Grey) (hs : Sane g) (ng ng' : Ng) (h : compileNg p es fs ids mode g = .ok ng)
    (h' : compileNg p es' fs' ids' mode g = .ok ng') (hlen : es.length = es'.length)
    (ht : (given es fs ids).map (trace g) = (given es' fs' ids').map (trace g)) : ng = ng' := by
  obtain ⟨hne, hc, hv, _⟩ := compileNg_ok hs h
  obtain ⟨hne', hc', hv', _⟩ := compileNg_ok hs h'
  have hcount := hs.count
  unfold compileNg at h h'
  rw [if_neg (by simpa using hne), if_neg (by omega), izip_eq] at h
  rw [if_neg (by simpa using hne'), if_neg (by omega), izip_eq, ← hlen] at h'
  refine addAll_trace p (given es fs ids) (given es' fs' ids') 0
    (Ng.new ⟨mode.isStreaming, mode.isVectored, g⟩ es.length mode.somPrecision) ng ng' hs rfl ?_ hv hv' ht h h'
  have : (given es fs ids).length ≤ es.length := by
    unfold given
    rw [List.length_zip]
    omega
  omega

/-- Two lists: a long literal for another one, an alternation for another one with other flags and id. -/
example : Sane Grey.default ∧
    (compileNg .release [List.replicate 71 'a', "ab".toList, "a|b".toList] [Flags.empty, Flags.CASELESS, Flags.SINGLEMATCH]
      [1, 2, 3] .block Grey.default).isOk = true ∧
    (compileNg .release [List.replicate 71 'z', "aB".toList, "c|d|".toList] [Flags.QUIET, Flags.CASELESS, Flags.empty]
      [1, 2, 9] .block Grey.default).isOk = true ∧
    (given [List.replicate 71 'a', "ab".toList, "a|b".toList] [Flags.empty, Flags.CASELESS, Flags.SINGLEMATCH]
      [1, 2, 3]).map (trace Grey.default) =
    (given [List.replicate 71 'z', "aB".toList, "c|d|".toList] [Flags.QUIET, Flags.CASELESS, Flags.empty]
      [1, 2, 9]).map (trace Grey.default) :=
  ⟨sane_default, by decide +kernel, by decide +kernel, by decide +kernel⟩

/-- Whether the data has a match of one of the expressions can be told from what compiling (with the default
settings, and without poisoning the small-write builder) stores, for lists of expressions all satisfying `P`. -/
def Findable (P : Expr → Prop) : Prop :=
  ∃ find : Ng → List U8 → Bool, ∀ (p : Profile) (es : List Str) (fs : List Flags) (ids : List Nat) (mode : Mode) (ng : Ng),
    (∀ e ∈ given es fs ids, P e) → compileNg p es fs ids mode Grey.default = .ok ng → ng.smwr.poisoned = false →
    ∀ data, (find ng data = true ↔ ∃ e ∈ given es fs ids, ∃ j w c m,
      parse p e.1 (ParseMode.new e.2.1) = .ok (c, m) ∧ EndsAt data j w ∧ Lang c w)

/-- … and so can the ids of the expressions with a match. -/
def IdsFindable (P : Expr → Prop) : Prop :=
  ∃ find : Ng → List U8 → Nat → Bool, ∀ (p : Profile) (es : List Str) (fs : List Flags) (ids : List Nat) (mode : Mode)
    (ng : Ng), (∀ e ∈ given es fs ids, P e) → compileNg p es fs ids mode Grey.default = .ok ng →
    ng.smwr.poisoned = false → ∀ data id, (find ng data id = true ↔ ∃ e ∈ given es fs ids, e.2.2 = id ∧ ∃ j w c m,
      parse p e.1 (ParseMode.new e.2.1) = .ok (c, m) ∧ EndsAt data j w ∧ Lang c w)

/-- C121: matches of short literals can be found. -/
theorem C121_short_findable : Findable (fun e => ∃ l, literalOf e = some l ∧ l.length ≤ 70) := by
  refine ⟨fun ng data => !(scanTries ng.smwr data).isEmpty, ?_⟩
  intro p es fs ids mode ng hP h hp data
  have hL := C121_literals p es fs ids mode _ sane_default rfl ng h hp data
  simp only [Bool.not_eq_true', List.isEmpty_eq_false_iff_exists_mem]
  constructor
  · rintro ⟨⟨r, j⟩, hx⟩
    obtain ⟨e, he, l, c, m, w, _, _, a3, a4, a5⟩ := (hL j).1 ⟨r, hx⟩
    exact ⟨e, he, j, w, c, m, a3, a4, a5⟩
  · rintro ⟨e, he, j, w, c, m, a3, a4, a5⟩
    obtain ⟨l, hl, hlen⟩ := hP e he
    obtain ⟨r, hr⟩ := (hL j).2 ⟨e, he, l, c, m, w, hl, hlen, a3, a4, a5⟩
    exact ⟨_, hr⟩

example : ∃ ng, (∀ e ∈ given ["aB".toList] [Flags.empty] [7], ∃ l, literalOf e = some l ∧ l.length ≤ 70) ∧
    compileNg .release ["aB".toList] [Flags.empty] [7] .block Grey.default = .ok ng ∧ ng.smwr.poisoned = false := by
  obtain ⟨ng, h⟩ := Outcome.exists_ok (x := compileNg .release ["aB".toList] [Flags.empty] [7] .block Grey.default)
    (q := fun ng => ng.smwr.poisoned = false) (by decide +kernel)
  refine ⟨ng, ?_, h⟩
  intro e he
  rw [List.mem_singleton.1 he]
  exact ⟨_, rfl, by decide⟩

namespace Finder

/-- A language two expressions differ in, though they leave the same trace. -/
theorem not_findable (P : Expr → Prop) (t t' : Str) (w : List U8) (c c' : Component) (m m' : ParseMode)
    (hP : P (t, Flags.empty, 0)) (hP' : P (t', Flags.empty, 0))
    (ht : trace Grey.default (t, Flags.empty, 0) = trace Grey.default (t', Flags.empty, 0))
    (h : ∃ ng, compileNg .release [t] [Flags.empty] [0] .block Grey.default = .ok ng ∧ ng.smwr.poisoned = false)
    (h' : ∃ ng, compileNg .release [t'] [Flags.empty] [0] .block Grey.default = .ok ng ∧ ng.smwr.poisoned = false)
    (hp : parse .release t (ParseMode.new Flags.empty) = .ok (c, m))
    (hp' : parse .release t' (ParseMode.new Flags.empty) = .ok (c', m'))
    (hw : Lang c w) (hw' : ∀ u, u <:+: w → ¬ Lang c' u) : ¬ Findable P := by
  rintro ⟨find, hf⟩
  obtain ⟨ng, h1, h2⟩ := h
  obtain ⟨ng', h1', h2'⟩ := h'
  have : ng = ng' := C121_lost .release [t] [t'] [Flags.empty] [Flags.empty] [0] [0] .block _ sane_default ng ng' h1 h1'
    rfl (by show [_] = [_]; rw [ht])
  subst this
  have hmem : ∀ (t : Str) (e : Expr), e ∈ given [t] [Flags.empty] [0] ↔ e = (t, Flags.empty, 0) :=
    fun t e => List.mem_singleton
  have a := (hf .release [t] [Flags.empty] [0] .block ng (fun e he => ((hmem t e).1 he) ▸ hP) h1 h2 w).2
    ⟨_, (hmem ..).2 rfl, w.length, w, c, m, hp, ⟨[], [], by simp, by simp⟩, hw⟩
  obtain ⟨e, he, j, u, d, n, b1, ⟨x, y, b2, _⟩, b3⟩ :=
    (hf .release [t'] [Flags.empty] [0] .block ng (fun e he => ((hmem t' e).1 he) ▸ hP') h1' h2' w).1 a
  rw [(hmem t' e).1 he] at b1
  rw [hp'] at b1
  injection b1 with b1
  injection b1 with b1 _
  subst b1
  exact hw' u ⟨x, y, b2.symm⟩ b3

end Finder

/-- C121: matches of longer literals cannot be found, whatever is done with what is stored. -/
theorem C121_long_unfindable : ¬ Findable (fun e => ∃ l, literalOf e = some l ∧ 70 < l.length) := by
  obtain ⟨⟨c, m⟩, hp⟩ := Outcome.exists_of_isOk
    (x := parse .release (List.replicate 71 'a') (ParseMode.new Flags.empty)) (by decide +kernel)
  obtain ⟨⟨c', m'⟩, hp'⟩ := Outcome.exists_of_isOk
    (x := parse .release (List.replicate 71 'b') (ParseMode.new Flags.empty)) (by decide +kernel)
  have hl : literalOf (List.replicate 71 'a', Flags.empty, 0) = some (List.replicate 71 (0x61#8, false)) := by
    decide +kernel
  have hl' : literalOf (List.replicate 71 'b', Flags.empty, 0) = some (List.replicate 71 (0x62#8, false)) := by
    decide +kernel
  refine not_findable _ (List.replicate 71 'a') (List.replicate 71 'b') (List.replicate 71 0x61#8) c c' m m'
    ⟨_, hl, by simp⟩ ⟨_, hl', by simp⟩ (by decide +kernel) (Outcome.exists_ok (by decide +kernel))
    (Outcome.exists_ok (by decide +kernel)) hp hp' ?_ ?_
  · refine ((literal_matches hl hp _).2 ?_).2 (by simp)
    intro y hy
    rw [List.eq_of_mem_replicate hy]
  · intro u hu hw
    rw [(literal_matches hl' hp' _).2 (by intro y hy; rw [List.eq_of_mem_replicate hy])] at hw
    subst hw
    have : (0x62#8 : U8) ∈ List.replicate 71 0x61#8 := hu.subset (by simp)
    exact absurd (List.eq_of_mem_replicate this) (by decide)

/-- C121: nor can matches of expressions that are no literals. -/
theorem C121_others_unfindable : ¬ Findable (fun e => literalOf e = none) := by
  obtain ⟨c, m, hp, hL⟩ := C115_spelled .release (ParseMode.new Flags.empty) [[0x61#8], [0x62#8]] (by simp)
    (by decide +kernel)
  obtain ⟨c', m', hp', hL'⟩ := C115_spelled .release (ParseMode.new Flags.empty) [[0x63#8], [0x64#8]] (by simp)
    (by decide +kernel)
  refine not_findable _ _ _ [0x61#8] c c' m m' (by decide +kernel) (by decide +kernel) (by decide +kernel)
    (Outcome.exists_ok (by decide +kernel)) (Outcome.exists_ok (by decide +kernel)) hp hp' ?_ ?_
  · exact (hL _).2 (show [0x61#8] ∈ [[0x61#8], [0x62#8]] by simp)
  · intro u hu hw
    have hw := (hL' _).1 hw
    have hw : u ∈ [[0x63#8], [0x64#8]] := hw
    have : ∀ b ∈ u, b = 0x61#8 := fun b hb => List.mem_singleton.1 (hu.subset hb)
    simp only [List.mem_cons, List.not_mem_nil, or_false] at hw
    rcases hw with rfl | rfl
    · exact absurd (this _ (List.mem_singleton.2 rfl)) (by decide)
    · exact absurd (this _ (List.mem_singleton.2 rfl)) (by decide)

/-- C121: nor can the ids of the matches of short literals. -/
theorem C121_ids_unfindable : ¬ IdsFindable (fun e => ∃ l, literalOf e = some l ∧ l.length ≤ 70) := by
  rintro ⟨find, hf⟩
  have hsame : compileNg .release ["a".toList, "b".toList, "a".toList, "b".toList]
      [Flags.empty, Flags.empty, Flags.empty, Flags.empty] [1, 2, 1, 2] .block Grey.default =
    compileNg .release ["a".toList, "b".toList, "a".toList, "b".toList]
      [Flags.empty, Flags.empty, Flags.empty, Flags.empty] [1, 2, 2, 1] .block Grey.default := by
    rfl
  obtain ⟨ng, h1, h2⟩ := Outcome.exists_ok (x := compileNg .release ["a".toList, "b".toList, "a".toList, "b".toList]
      [Flags.empty, Flags.empty, Flags.empty, Flags.empty] [1, 2, 1, 2] .block Grey.default)
    (q := fun ng => ng.smwr.poisoned = false) (by decide +kernel)
  have h1' := hsame ▸ h1
  have hP : ∀ ids : List Nat, ∀ e ∈ given ["a".toList, "b".toList, "a".toList, "b".toList]
      [Flags.empty, Flags.empty, Flags.empty, Flags.empty] ids, ∃ l, literalOf e = some l ∧ l.length ≤ 70 := by
    intro ids e he
    have h3 := (List.of_mem_zip he).1
    have h4 := (List.of_mem_zip (List.of_mem_zip he).2).1
    obtain ⟨t, f, id⟩ := e
    simp only [List.mem_cons, List.not_mem_nil, or_false, or_self] at h3 h4
    subst h4
    rcases h3 with rfl | rfl | rfl | rfl
    all_goals exact ⟨_, rfl, show 1 ≤ 70 by decide⟩
  obtain ⟨⟨c, m⟩, hp⟩ := Outcome.exists_of_isOk (x := parse .release "a".toList (ParseMode.new Flags.empty))
    (by decide +kernel)
  have hw : Lang c [0x61#8] := ((literal_matches (e := ("a".toList, Flags.empty, 2)) (l := [(0x61#8, false)])
    (by decide +kernel) hp _).2 (by simp)).2 rfl
  have a := (hf .release _ _ [1, 2, 2, 1] .block ng (hP _) h1' h2 [0x61#8] 2).2
    ⟨("a".toList, Flags.empty, 2), by decide +kernel, rfl, 1, [0x61#8], c, m, hp, ⟨[], [], rfl, rfl⟩, hw⟩
  obtain ⟨e, he, hid, j, w, d, n, b1, ⟨x, y, b2, _⟩, b3⟩ := (hf .release _ _ [1, 2, 1, 2] .block ng (hP _) h1 h2 [0x61#8] 2).1 a
  have he' : e = ("b".toList, Flags.empty, 2) := by
    simp only [given, List.zip_cons_cons, List.zip_nil_left, List.mem_cons, List.not_mem_nil, or_false] at he
    rcases he with rfl | rfl | rfl | rfl
    · cases hid
    · rfl
    · cases hid
    · rfl
  subst he'
  have := ((literal_matches (e := ("b".toList, Flags.empty, 2)) (l := [(0x62#8, false)])
    (by decide +kernel) b1 w).2 (by simp)).1 b3
  subst this
  have : (0x62#8 : U8) ∈ [0x61#8] := by rw [b2]; simp
  exact absurd (List.mem_singleton.1 this) (by decide)

end Rescan
