import Verif.Proofs.Mended
import Verif.Props.Reference
import Verif.Props.Profiles
import Verif.Spec.Witness
/-! # C108: a compiler without these defects -/
namespace Rescan
open Spec

/-! ## What it returns -/

/-- Success of the mended compiler: at least one expression, not too many, one flag set and one id for each,
every one fine by itself, and no two that share an id disagree about SINGLEMATCH. -/
structure AllFine (g : Grey) (es : List Str) (fs : List Flags) (ids : List Nat) : Prop where
  nonempty : es ≠ []
  few : es.length ≤ g.limitPatternCount
  oneFlag : fs.length = es.length
  oneId : ids.length = es.length
  each : ∀ e ∈ given es fs ids, Mended.Fine g e
  agree : ∀ a ∈ given es fs ids, ∀ b ∈ given es fs ids, a.2.2 = b.2.2 →
    a.2.1.contains .SINGLEMATCH = b.2.1.contains .SINGLEMATCH

theorem agree_iff (l : List Expr) :
    (∀ a ∈ l, ∀ b ∈ l, a.2.2 = b.2.2 → a.2.1.contains .SINGLEMATCH = b.2.1.contains .SINGLEMATCH) ↔
    ∀ (i : Nat) e, l[i]? = some e → ∀ a ∈ l.take i, a.2.2 = e.2.2 →
      a.2.1.contains .SINGLEMATCH = e.2.1.contains .SINGLEMATCH := by
  constructor
  · intro h i e he a ha
    exact h a (List.mem_of_mem_take ha) e (List.mem_of_getElem? he)
  · intro h a ha b hb hid
    obtain ⟨i, hi⟩ := List.mem_iff_getElem?.1 ha
    obtain ⟨j, hj⟩ := List.mem_iff_getElem?.1 hb
    rcases Nat.lt_trichotomy i j with hij | rfl | hij
    · exact h j b hj a (List.mem_iff_getElem?.2 ⟨i, by rw [List.getElem?_take, if_pos hij]; exact hi⟩) hid
    · rw [hi] at hj; injection hj with hj; rw [hj]
    · exact (h i a hi b (List.mem_iff_getElem?.2 ⟨j, by rw [List.getElem?_take, if_pos hij]; exact hj⟩) hid.symm).symm

theorem mended_spec (p : Profile) (es : List Str) (fs : List Flags) (ids : List Nat) (mode : Mode) (g : Grey)
    (hs : Mended.Sane g) :
    match Spec.Mended.compile es fs ids mode g with
    | .ok m => m = mode ∧ AllFine g es fs ids ∧ ∃ ng, Mended.compileNg p es fs ids mode g = .ok ng ∧
        Mended.Ok ⟨mode.isStreaming, mode.isVectored, g⟩ es.length (given es fs ids) ng
    | .error x => ¬ AllFine g es fs ids ∧ Mended.compileNg p es fs ids mode g = .err x := by
  unfold Spec.Mended.compile Mended.compileNg
  by_cases h0 : es = []
  · subst h0
    exact ⟨fun h => h.nonempty rfl, rfl⟩
  have h0' : ¬ es.isEmpty = true := by simpa using h0
  rw [if_neg h0, if_neg h0']
  by_cases h1 : es.length > g.limitPatternCount
  · rw [if_pos h1, if_pos h1]
    exact ⟨fun h => absurd h.few (by omega), rfl⟩
  rw [if_neg h1, if_neg h1]
  by_cases h2 : fs.length ≠ es.length ∨ ids.length ≠ es.length
  · rw [if_pos h2, if_pos h2]
    exact ⟨fun h => h2.elim (fun h' => h' h.oneFlag) (fun h' => h' h.oneId), rfl⟩
  rw [if_neg h2, if_neg h2, izip_eq]
  have hlen : (es.zip (fs.zip ids)).length ≤ g.limitPatternCount := by rw [List.length_zip]; omega
  have := Mended.addAll_step p (cc := ⟨mode.isStreaming, mode.isVectored, g⟩) (np := es.length) hs
    (es.zip (fs.zip ids)) [] (Mended.Ng.new ⟨mode.isStreaming, mode.isVectored, g⟩ es.length) []
    (Mended.ok_new _ _) (by simpa using hlen) (fun _ => rfl)
  simp only [List.length_nil, List.nil_append] at this
  cases hr : Spec.Mended.addAll g [] 0 (es.zip (fs.zip ids)) with
  | ok u =>
    rw [hr] at this
    obtain ⟨⟨ng, a1, a2⟩, a3, a4⟩ := this
    exact ⟨rfl, ⟨h0, by omega, by omega, by omega, a3, (agree_iff _).2 a4⟩, ng, a1, a2⟩
  | error x =>
    rw [hr] at this
    exact ⟨fun h => this.2 ⟨h.each, (agree_iff _).1 h.agree⟩, this.1⟩

/-- C108: the mended compiler returns, for all lists and both profiles, exactly what its reference program
says: a database with the requested mode, or an error. -/
theorem C108_reference (p : Profile) (es : List Str) (fs : List Flags) (ids : List Nat) (mode : Mode) (g : Grey)
    (hs : Mended.Sane g) :
    Mended.compileMultiInt p es fs ids mode g =
      match Spec.Mended.compile es fs ids mode g with
      | .ok m => .ok (ofMode m)
      | .error e => .err e := by
  have h := mended_spec p es fs ids mode g hs
  show (Mended.compileNg p es fs ids mode g).bind _ = _
  cases hc : Spec.Mended.compile es fs ids mode g with
  | ok m =>
    rw [hc] at h
    obtain ⟨rfl, _, ng, h1, h2⟩ := h
    rw [h1]
    show Outcome.ok (⟨{ ng.rose.buildRose with mode := m }⟩ : Database) = _
    rw [h2.rose]
    rfl
  | error e => rw [hc] at h; rw [h.2]; rfl

example : (match Spec.Mended.compile ["ab|".toList, "(c|d)e".toList] [Flags.ALLOWEMPTY, Flags.SOM_LEFTMOST] [1, 2]
      (.stream (some .large)) Grey.default with | .ok (.stream (some .large)) => true | _ => false) = true ∧
    (match Spec.Mended.compile ["ab|".toList] [Flags.empty] [1] .block Grey.default with
      | .error e => e.reason | .ok _ => "") =
      "Pattern matches empty buffer; use ALLOWEMPTY to enable support." := by decide +kernel

/-- C108: it neither panics nor diverges, and debug and release builds agree. -/
theorem C108_no_panic (p : Profile) (es : List Str) (fs : List Flags) (ids : List Nat) (mode : Mode) (g : Grey)
    (hs : Mended.Sane g) :
    ((∃ db, Mended.compileMultiInt p es fs ids mode g = .ok db) ∨
      ∃ e, Mended.compileMultiInt p es fs ids mode g = .err e) ∧
    Mended.compileMultiInt .debug es fs ids mode g = Mended.compileMultiInt .release es fs ids mode g := by
  rw [C108_reference p es fs ids mode g hs, C108_reference .debug es fs ids mode g hs,
    C108_reference .release es fs ids mode g hs]
  refine ⟨?_, rfl⟩
  cases Spec.Mended.compile es fs ids mode g with
  | ok m => exact .inl ⟨_, rfl⟩
  | error e => exact .inr ⟨e, rfl⟩

/-- The code panics in debug builds on texts the mended compiler takes: after a control verb a group starts
at a negative offset. -/
example : (compileMulti .debug ["(*UTF8)(a)".toList] [Flags.empty] [1] .block).isPanic = true ∧
    (Mended.compileMultiInt .debug ["(*UTF8)(a)".toList] [Flags.empty] [1] .block Grey.default).isOk = true := by
  decide +kernel

/-- C108: exactly when it succeeds. -/
theorem C108_success_iff (p : Profile) (es : List Str) (fs : List Flags) (ids : List Nat) (mode : Mode) (g : Grey)
    (hs : Mended.Sane g) :
    (Mended.compileMultiInt p es fs ids mode g).isOk = true ↔ AllFine g es fs ids := by
  rw [C108_reference p es fs ids mode g hs]
  have h := mended_spec p es fs ids mode g hs
  cases hc : Spec.Mended.compile es fs ids mode g with
  | ok m => rw [hc] at h; exact ⟨fun _ => h.2.1, fun _ => rfl⟩
  | error e => rw [hc] at h; exact ⟨fun h' => Bool.noConfusion h', fun h' => absurd h' h.1⟩

example : AllFine Grey.default ["ab|".toList, "(c|d)e".toList] [Flags.ALLOWEMPTY, Flags.SOM_LEFTMOST] [1, 2] :=
  (C108_success_iff .release _ _ _ .block _ Mended.sane_default).1 (by decide +kernel)

theorem mended_ok {p : Profile} {es : List Str} {fs : List Flags} {ids : List Nat} {mode : Mode} {g : Grey}
    (hs : Mended.Sane g) {ng : Mended.Ng} (h : Mended.compileNg p es fs ids mode g = .ok ng) :
    AllFine g es fs ids ∧
      Mended.Ok ⟨mode.isStreaming, mode.isVectored, g⟩ es.length (given es fs ids) ng := by
  have h' := mended_spec p es fs ids mode g hs
  cases hc : Spec.Mended.compile es fs ids mode g with
  | ok m =>
    rw [hc] at h'
    obtain ⟨_, h1, ng', h2, h3⟩ := h'
    rw [h] at h2
    injection h2 with h2
    subst h2
    exact ⟨h1, h3⟩
  | error e => rw [hc] at h'; rw [h] at h'; cases h'.2

/-- C108: whatever it compiles, a release build of the code compiles too: mending only refuses more. -/
theorem C108_refuses_more (es : List Str) (fs : List Flags) (ids : List Nat) (mode : Mode) (g : Grey)
    (hs : Mended.Sane g) (p : Profile) (h : (Mended.compileMultiInt p es fs ids mode g).isOk = true) :
    (compileMultiInt .release es fs ids mode g).isOk = true := by
  have h := (C108_success_iff p es fs ids mode g hs).1 h
  refine (C58_success_iff .release es fs ids mode g hs.base).2 ⟨h.nonempty, h.few, ?_, ?_⟩
  · intro e he
    have := h.each e he
    exact ⟨this.length, this.quiet, this.text⟩
  · rintro _ i j ⟨a, b, _, ha, hb, _, _, hid, hne⟩
    exact hne (h.agree a (List.mem_of_getElem? ha) b (List.mem_of_getElem? hb) hid)

/-- … and it refuses some of them. -/
example : (compileMultiInt .release ["a|b".toList, "a".toList] [Flags.SINGLEMATCH, Flags.empty] [1, 1] .block
      Grey.default).isOk = true ∧
    (Mended.compileMultiInt .release ["a|b".toList, "a".toList] [Flags.SINGLEMATCH, Flags.empty] [1, 1] .block
      Grey.default).isOk = false := by decide +kernel

/-! ## C47 -/

/-- What the result of compiling says, for any compiler. -/
abbrev Asked (α : Type) : Type := Profile → List Str → List Flags → List Nat → Mode → Res α

/-- C47's full statement about a function giving the minimum width: it is the least length of a match. -/
def MinWidthRightOf (f : Asked Nat) : Prop :=
  ∀ (p : Profile) (es : List Str) (fs : List Flags) (ids : List Nat) (mode : Mode) (n : Nat),
    f p es fs ids mode = .ok n →
    (∀ e ∈ given es fs ids, ∀ c m w, parse .release e.1 (ParseMode.new e.2.1) = .ok (c, m) → Lang c w →
      n ≤ w.length) ∧
    ∃ e ∈ given es fs ids, ∃ c m w, parse .release e.1 (ParseMode.new e.2.1) = .ok (c, m) ∧ Lang c w ∧
      w.length = n

/-- Of the code this is not true (it implies the statement C47 refutes). -/
example : ¬ MinWidthRightOf (fun p es fs ids mode =>
    (compileNg p es fs ids mode Grey.default).bind fun ng => .ok ng.minWidth.val) := by
  intro h
  apply C47_false
  intro p es fs ids mode ng hng e he c m w hp hw
  refine (h p es fs ids mode ng.minWidth.val (by simp only [hng]; rfl)).1 e he c m w ?_ hw
  cases p with
  | release => exact hp
  | debug => rw [C78_parse _ _ (by rw [hp]; rfl)]; exact hp

/-- C108, C47 mended. -/
theorem C108_min_width : MinWidthRightOf (fun p es fs ids mode =>
    (Mended.compileNg p es fs ids mode Grey.default).bind fun ng => .ok ng.minWidth.val) := by
  intro p es fs ids mode n h
  obtain ⟨ng, h1, h2⟩ := bind_eq_ok h
  injection h2 with h2
  subst h2
  obtain ⟨hf, hok⟩ := mended_ok Mended.sane_default h1
  refine ⟨fun e he c m w hp hw => hok.width.1 e he w ⟨c, m, hp, hw⟩, ?_⟩
  rcases hok.width.2 with ⟨h0, _⟩ | ⟨e, he, w, ⟨c, m, hp, hw⟩, hl⟩
  · exfalso
    have := congrArg List.length h0
    simp only [given, List.length_zip, List.length_nil, hf.oneFlag, hf.oneId, Nat.min_self] at this
    exact hf.nonempty (List.length_eq_zero_iff.1 this)
  · exact ⟨e, he, c, m, w, hp, hw, hl⟩

example : (match Mended.compileNg .release ["abc".toList, "(a|bc)d".toList] [Flags.empty, Flags.empty] [1, 2] .block
    Grey.default with | .ok ng => some ng.minWidth.val | _ => none) = some 2 := by decide +kernel

/-! ## C48 -/

/-- C48's full statement about a function giving the small-write builder. -/
def IdsDistinguishableOf (f : Asked SmallWriteBuild) : Prop :=
  ∀ (p : Profile) (es : List Str) (fs : List Flags) (ids : List Nat) (mode : Mode) (sw : SmallWriteBuild),
    f p es fs ids mode = .ok sw → sw.poisoned = false → ∀ w w' : List U8,
    (∀ a ∈ given es fs ids, ∀ b ∈ given es fs ids, ∀ la lb, literalOf a = some la → literalOf b = some lb →
      la.map Prod.fst = w → lb.map Prod.fst = w' → a.2.2 ≠ b.2.2) →
    ∀ t ∈ [sw.litTrie, sw.litTrieNocase], ∀ u v pu pv, Follows t.inner t.root w u →
      Follows t.inner t.root w' v → t.inner.nodes[u]? = some pu → t.inner.nodes[v]? = some pv →
      ∀ r ∈ pu.reports, r ∉ pv.reports

example : IdsDistinguishableOf (fun p es fs ids mode =>
    (compileNg p es fs ids mode Grey.default).bind fun ng => .ok ng.smwr) ↔ IdsDistinguishable := by
  constructor
  · intro h p es fs ids mode ng hng
    exact h p es fs ids mode ng.smwr (by simp only [hng]; rfl)
  · intro h p es fs ids mode sw hsw
    obtain ⟨ng, h1, h2⟩ := bind_eq_ok hsw
    injection h2 with h2
    subst h2
    exact h p es fs ids mode ng h1

/-- The literal `es` belongs in the caseless trie (or, for `false`, in the other one), and is short enough. -/
def Belongs (g : Grey) (caseless : Bool) (es : List (U8 × Bool)) : Prop :=
  es.length ≤ g.smallWriteLargestBuffer ∧ ((∃ x ∈ es, x.2 = true) ↔ caseless = true)

/-- C108: the reports at a vertex of a literal trie are those of the expressions that stand for the string
leading there: each belongs to one of them, with its id, its QUIET flag, an exhaustion key exactly for
SINGLEMATCH and a distance exactly for SOM_LEFTMOST, and each of them has such a report. -/
theorem C108_reports (p : Profile) (es : List Str) (fs : List Flags) (ids : List Nat) (mode : Mode) (g : Grey)
    (hs : Mended.Sane g) (ng : Mended.Ng) (h : Mended.compileNg p es fs ids mode g = .ok ng)
    (hp : ng.smwr.poisoned = false) (caseless : Bool) (t : LitTrie)
    (ht : t = if caseless = true then ng.smwr.litTrieNocase else ng.smwr.litTrie)
    (w : List U8) (v : Nat) (props : LitTrieVertexProps) (hf : Follows t.inner t.root w v)
    (hn : t.inner.nodes[v]? = some props) :
    (∀ r ∈ props.reports, ∃ e ∈ given es fs ids, ∃ l, litsOn g = true ∧ literalOf e = some l ∧ l.map Prod.fst = w ∧
      Belongs g caseless l ∧ Mended.RepOf ng.reports e r) ∧
    (∀ e ∈ given es fs ids, ∀ l, litsOn g = true → literalOf e = some l → l.map Prod.fst = w → Belongs g caseless l →
      ∃ r ∈ props.reports, Mended.RepOf ng.reports e r) := by
  obtain ⟨_, hok⟩ := mended_ok hs h
  obtain ⟨calls, hcalls, hco⟩ := hok.smwr
  obtain ⟨_, h1, h2⟩ := C46_tries_hold es.length g calls hs.base.buffer ng.smwr hcalls hp
  have hlen : ∀ l : List (U8 × Bool), (litOf l).s.length = l.length := by intro l; simp [litOf]
  have hcont : ∀ l : List (U8 × Bool), (litOf l).nocase.contains true = true ↔ ∃ x ∈ l, x.2 = true :=
    fun l => contains_true_iff l
  have key : ∀ r, r ∈ props.reports ↔ ∃ x ∈ calls, x.1.s.length ≤ g.smallWriteLargestBuffer ∧
      (x.1.nocase.contains true = true ↔ caseless = true) ∧ bytesOf x.1 = w ∧ x.2 = r := by
    intro r
    cases caseless with
    | true =>
      rw [if_pos rfl] at ht
      subst ht
      obtain ⟨props', hp', hr'⟩ := h1.reports w v hf
      rw [hn] at hp'; injection hp' with hp'; subst hp'
      rw [hr' r]
      simp only [histOf, caselessOnes, shortOnes, List.mem_map, List.mem_filter, decide_eq_true_eq, Prod.mk.injEq,
        iff_true, and_assoc]
    | false =>
      rw [if_neg (by decide)] at ht
      subst ht
      obtain ⟨props', hp', hr'⟩ := h2.reports w v hf
      rw [hn] at hp'; injection hp' with hp'; subst hp'
      rw [hr' r]
      simp only [histOf, sensitiveOnes, shortOnes, List.mem_map, List.mem_filter, decide_eq_true_eq, Prod.mk.injEq,
        Bool.false_eq_true, iff_false, Bool.not_eq_true, and_assoc, Bool.not_eq_eq_eq_not, Bool.not_true]
  constructor
  · intro r hr
    obtain ⟨x, hx, a1, a2, a3, rfl⟩ := (key r).1 hr
    obtain ⟨e, b1, l, b2, b3, b4, b5⟩ := hco.sound x hx
    rw [b4] at a1 a2 a3
    have hon : litsOn g = true := by
      unfold Mended.isLit at b2
      revert b2
      cases litsOn g <;> simp
    exact ⟨e, b1, l, hon, b3, by rw [← a3, bytesOf_litOf], ⟨by rw [← hlen]; exact a1, by rw [← hcont]; exact a2⟩, b5⟩
  · intro e he l hon hl hw hb
    obtain ⟨r, b1, b2⟩ := hco.complete e he l (by unfold Mended.isLit; rw [hon, hl]; rfl) hl
    exact ⟨r, (key r).2 ⟨_, b1, by rw [hlen]; exact hb.1, by rw [hcont]; exact hb.2, by rw [bytesOf_litOf]; exact hw,
      rfl⟩, b2⟩

example : ∃ ng, Mended.compileNg .release ["a".toList, "b".toList, "b".toList]
    [Flags.empty, Flags.SINGLEMATCH, Flags.QUIET] [1, 2, 3] .block Grey.default = .ok ng ∧ ng.smwr.poisoned = false ∧
    ∃ props, Follows ng.smwr.litTrie.inner ng.smwr.litTrie.root [0x62#8] 2 ∧
      ng.smwr.litTrie.inner.nodes[2]? = some props ∧ props.reports = [1, 2] := by
  obtain ⟨ng, h1, h2, h3, h4⟩ := Outcome.exists_ok (q := fun ng => ng.smwr.poisoned = false ∧
    (ng.smwr.litTrie.root, 2) ∈ ng.smwr.litTrie.inner.edges ∧
    (ng.smwr.litTrie.inner.nodes[2]?).map (fun v => (v.c, v.reports)) = some (0x62#8, [1, 2])) (x := Mended.compileNg .release
      ["a".toList, "b".toList, "b".toList] [Flags.empty, Flags.SINGLEMATCH, Flags.QUIET] [1, 2, 3] .block Grey.default)
    (by decide +kernel)
  obtain ⟨v, h5, h6⟩ := Option.map_eq_some_iff.1 h4
  injection h6 with h6 h7
  refine ⟨ng, h1, h2, v, ?_, h5, h7⟩
  rw [← h6]
  exact .cons _ _ _ v [] h3 h5 (.nil _)

/-- C108, C48 mended. -/
theorem C108_ids : IdsDistinguishableOf (fun p es fs ids mode =>
    (Mended.compileNg p es fs ids mode Grey.default).bind fun ng => .ok ng.smwr) := by
  intro p es fs ids mode sw hsw hp w w' hdiff t ht u v pu pv hu hv hpu hpv r hr hr'
  obtain ⟨ng, h1, h2⟩ := bind_eq_ok hsw
  injection h2 with h2
  subst h2
  have hwhich : ∃ b : Bool, t = if b = true then ng.smwr.litTrieNocase else ng.smwr.litTrie := by
    simp only [List.mem_cons, List.not_mem_nil, or_false] at ht
    rcases ht with rfl | rfl
    · exact ⟨false, rfl⟩
    · exact ⟨true, rfl⟩
  obtain ⟨b, hb⟩ := hwhich
  obtain ⟨e, he, l, _, hl, hw, _, rep, hrep, hid, _⟩ :=
    (C108_reports p es fs ids mode _ Mended.sane_default ng h1 hp b t hb w u pu hu hpu).1 r hr
  obtain ⟨e', he', l', _, hl', hw', _, rep', hrep', hid', _⟩ :=
    (C108_reports p es fs ids mode _ Mended.sane_default ng h1 hp b t hb w' v pv hv hpv).1 r hr'
  rw [hrep] at hrep'
  injection hrep' with hrep'
  subst hrep'
  exact hdiff e he e' he' l l' hl hl' hw hw' (hid.symm.trans hid')

example : (match Mended.compileNg .release ["a".toList, "b".toList, "b".toList]
    [Flags.empty, Flags.SINGLEMATCH, Flags.QUIET] [1, 2, 3] .block Grey.default with
    | .ok ng => some (ng.smwr.poisoned, ng.smwr.litTrie.inner.nodes.map (·.reports))
    | _ => none) = some (false, [[], [0], [1, 2]]) ∧
    (match Mended.compileNg .release ["a".toList, "b".toList, "b".toList]
    [Flags.empty, Flags.SINGLEMATCH, Flags.QUIET] [1, 2, 3] .block Grey.default with
    | .ok ng => some ng.reports
    | _ => none) = some [⟨0, 1, 0, none, false, none⟩, ⟨0, 2, 0, some 0, false, none⟩,
      ⟨0, 3, 0, none, true, none⟩] := by decide +kernel

/-! ## C57 -/

/-- C57's full statement about a function. -/
def ConflictsReportedOf (f : Asked Database) (p : Profile) : Prop :=
  ∀ (es : List Str) (fs : List Flags) (ids : List Nat) (mode : Mode) (i j : Nat) (a b : Expr),
    (given es fs ids)[i]? = some a → (given es fs ids)[j]? = some b → a.2.2 = b.2.2 →
    a.2.1.contains .SINGLEMATCH ≠ b.2.1.contains .SINGLEMATCH → ∃ x, f p es fs ids mode = .err x

example (p : Profile) : ConflictsReportedOf compileMulti p ↔ ConflictsReported p := Iff.rfl

/-- C108, C57 mended. -/
theorem C108_conflicts (p : Profile) :
    ConflictsReportedOf (fun p es fs ids mode => Mended.compileMultiInt p es fs ids mode Grey.default) p := by
  intro es fs ids mode i j a b ha hb hid hne
  rcases (C108_no_panic p es fs ids mode _ Mended.sane_default).1 with ⟨db, h⟩ | h
  · have := (C108_success_iff p es fs ids mode _ Mended.sane_default).1 (by rw [h]; rfl)
    exact absurd (this.agree a (List.mem_of_getElem? ha) b (List.mem_of_getElem? hb) hid) hne
  · exact h

example : Mended.compileMultiInt .debug ["x".toList, "a|b".toList, "c".toList]
      [Flags.empty, Flags.SINGLEMATCH, Flags.empty] [4, 5, 5] .block Grey.default = .err ⟨.other,
    "Expression (index 2) with match ID 5 did not sepcify  SINGLEMATCH whereas previous expression (index 1) with the same match ID did.",
    some 2⟩ := by decide +kernel

/-! ## C66 -/

/-- C66's full statement about a function. -/
def SomHonouredOf {N : Type} (f : Asked N) : Prop :=
  ∃ (p : Profile) (es : List Str) (fs : List Flags) (ids : List Nat) (mode : Mode),
    (∀ f ∈ fs, f.contains .QUIET = false) ∧
    f p es (fs.map (·.or (Flags.SOM_LEFTMOST.or .ALLOWEMPTY))) ids mode ≠ f p es fs ids mode

example : SomHonouredOf (fun p es fs ids mode => compileNg p es fs ids mode Grey.default) ↔ SomHonoured := Iff.rfl

/-- C108: start of match is noted exactly if an expression asks for it. -/
theorem C108_som (p : Profile) (es : List Str) (fs : List Flags) (ids : List Nat) (mode : Mode) (g : Grey)
    (hs : Mended.Sane g) (ng : Mended.Ng) (h : Mended.compileNg p es fs ids mode g = .ok ng) :
    ng.rose.hasSom = true ↔ ∃ e ∈ given es fs ids, e.2.1.contains .SOM_LEFTMOST = true := by
  rw [(mended_ok hs h).2.rose]
  show (given es fs ids).any _ = true ↔ _
  rw [List.any_eq_true]

example : Mended.Sane Grey.default ∧ ∃ ng, Mended.compileNg .release ["a|b".toList, "c".toList]
    [Flags.SOM_LEFTMOST, Flags.empty] [1, 2] (.stream (some .large)) Grey.default = .ok ng ∧ ng.rose.hasSom = true :=
  ⟨Mended.sane_default, Outcome.exists_ok (by decide +kernel)⟩

/-- C108: an expression matching the empty string is compiled only with ALLOWEMPTY. -/
theorem C108_allowempty (p : Profile) (es : List Str) (fs : List Flags) (ids : List Nat) (mode : Mode) (g : Grey)
    (hs : Mended.Sane g) (h : (Mended.compileMultiInt p es fs ids mode g).isOk = true) (e : Expr)
    (he : e ∈ given es fs ids) (c : Component) (m : ParseMode)
    (hp : parse .release e.1 (ParseMode.new e.2.1) = .ok (c, m)) (hl : Lang c []) :
    e.2.1.contains .ALLOWEMPTY = true :=
  (((C108_success_iff p es fs ids mode g hs).1 h).each e he).nonempty.elim id (fun h => absurd ⟨c, m, hp, hl⟩ h)

example : (Mended.compileMultiInt .release ["a|".toList] [Flags.ALLOWEMPTY] [1] .block Grey.default).isOk = true ∧
    (Mended.compileMultiInt .release ["a|".toList] [Flags.empty] [1] .block Grey.default).isOk = false ∧
    (Mended.compileMultiInt .release ["(a|b)".toList] [Flags.empty] [1] .block Grey.default).isOk = true := by
  decide +kernel

/-- C108, C66 mended. -/
theorem C108_som_honoured :
    SomHonouredOf (fun p es fs ids mode => Mended.compileNg p es fs ids mode Grey.default) := by
  refine ⟨.release, ["ab".toList], [Flags.empty], [1], .block, by decide, ?_⟩
  intro h
  dsimp only at h
  have h1 : (match Mended.compileNg .release ["ab".toList]
      ([Flags.empty].map (·.or (Flags.SOM_LEFTMOST.or .ALLOWEMPTY))) [1] .block Grey.default with
      | .ok ng => some ng.rose.hasSom | _ => none) = some true := by decide +kernel
  have h2 : (match Mended.compileNg .release ["ab".toList] [Flags.empty] [1] .block Grey.default with
      | .ok ng => some ng.rose.hasSom | _ => none) = some false := by decide +kernel
  rw [h, h2] at h1
  cases h1

/-! ## C69 -/

/-- C69's full statement about a function giving the report manager. -/
def ExhaustRightOf (f : Asked ReportManager) : Prop :=
  ∀ (p : Profile) (es : List Str) (fs : List Flags) (ids : List Nat) (mode : Mode) (rm : ReportManager),
    f p es fs ids mode = .ok rm →
    (rm.globalExhaust = true ↔ ∀ e ∈ given es fs ids, e.2.1.contains .SINGLEMATCH = true) ∧
    (∀ id : Nat, (∃ k, alookup rm.toExhaustibleKeyMap (id : Int) = some k) ↔
      ∃ e ∈ given es fs ids, e.2.1.contains .SINGLEMATCH = true ∧ e.2.2 = id) ∧
    (∀ (id id' : Nat) (k : Nat), alookup rm.toExhaustibleKeyMap (id : Int) = some k →
      alookup rm.toExhaustibleKeyMap (id' : Int) = some k → id = id')

/-- Of the code this is not true (it implies the statement C69 refutes). -/
example : ¬ ExhaustRightOf (fun p es fs ids mode =>
    (compileNg p es fs ids mode Grey.default).bind fun ng => .ok ng.rm) := by
  intro h
  apply C69_false
  intro p es fs ids mode ng hng
  exact (h p es fs ids mode ng.rm (by simp only [hng]; rfl)).1

/-- C108, C69 mended. -/
theorem C108_exhaust : ExhaustRightOf (fun p es fs ids mode =>
    (Mended.compileNg p es fs ids mode Grey.default).bind fun ng => .ok ng.rm) := by
  intro p es fs ids mode rm h
  obtain ⟨ng, h1, h2⟩ := bind_eq_ok h
  injection h2 with h2
  subst h2
  obtain ⟨_, hok⟩ := mended_ok Mended.sane_default h1
  obtain ⟨seen, ⟨hnd, _, hlook⟩, _, hseen⟩ := hok.keys
  refine ⟨?_, ?_, ?_⟩
  · rw [hok.reg.exhaust, List.all_eq_true]
    constructor
    · intro hall e he
      obtain ⟨j, hj⟩ := Mended.regs_mem 0 he
      exact hall _ hj
    · intro hall x hx
      obtain ⟨e, he, _, h3⟩ := Mended.mem_regs hx
      rw [h3]
      exact hall e he
  · intro id
    rw [hlook, ← hseen id]
    by_cases hm : id ∈ seen
    · rw [if_pos hm]; exact ⟨fun _ => hm, fun _ => ⟨_, rfl⟩⟩
    · rw [if_neg hm]
      constructor
      · rintro ⟨k, hk⟩; cases hk
      · intro h; exact absurd h hm
  · intro id id' k h1 h2
    rw [hlook] at h1 h2
    by_cases hm : id ∈ seen
    · by_cases hm' : id' ∈ seen
      · rw [if_pos hm] at h1
        rw [if_pos hm'] at h2
        injection h1 with h1
        injection h2 with h2
        have e1 := List.getElem_idxOf (List.idxOf_lt_length_iff.2 hm)
        have e2 := List.getElem_idxOf (List.idxOf_lt_length_iff.2 hm')
        rw [← e1, ← e2]
        congr 1
        omega
      · rw [if_neg hm'] at h2; cases h2
    · rw [if_neg hm] at h1; cases h1

example : (match Mended.compileNg .release ["a".toList, "b|c".toList, "c|d".toList]
    [Flags.SINGLEMATCH, Flags.SINGLEMATCH, Flags.empty] [9, 7, 5] .block Grey.default with
    | .ok ng => some (ng.rm.globalExhaust, alookup ng.rm.toExhaustibleKeyMap 9, alookup ng.rm.toExhaustibleKeyMap 7,
        alookup ng.rm.toExhaustibleKeyMap 5)
    | _ => none) = some (false, some 0, some 1, none) := by decide +kernel

/-! ## C50, C52, C41 -/

/-- C50's full statement about a function, for either profile: success means that every given expression is
valid (as a release build sees it; C50 says: as the same build sees it, which is more in debug builds only,
where the code panics on valid expressions). -/
def EveryExpressionValidOf (f : Asked Database) : Prop :=
  ∀ (p : Profile) (es : List Str) (fs : List Flags) (ids : List Nat) (mode : Mode),
    (f p es fs ids mode).isOk = true → ∀ t ∈ es, Acceptable .release t

/-- Of the code this is not true. -/
example : ¬ EveryExpressionValidOf compileMulti := by
  intro h
  have h1 := h .release ["a".toList, ")".toList] [Flags.empty] [0, 1] .block (by decide +kernel) ")".toList (by simp)
  have h2 := (parse_ok_iff .release ")".toList ParseMode.default).2 h1
  revert h2
  decide +kernel

/-- C108, C50 mended. -/
theorem C108_checked :
    EveryExpressionValidOf (fun p es fs ids mode => Mended.compileMultiInt p es fs ids mode Grey.default) := by
  intro p es fs ids mode h t ht
  have h := (C108_success_iff p es fs ids mode _ Mended.sane_default).1 h
  obtain ⟨i, hi, rfl⟩ := List.mem_iff_getElem.1 ht
  have h1 : i < fs.length := by rw [h.oneFlag]; exact hi
  have h2 : i < ids.length := by rw [h.oneId]; exact hi
  exact (h.each (es[i], fs[i], ids[i]) (List.mem_iff_getElem.2 ⟨i, by simp [List.length_zip]; omega, by simp⟩)).text

/-- C108, C52 mended. -/
theorem C108_mode :
    ModeRecordedOf (fun p es fs ids mode => Mended.compileMultiInt p es fs ids mode Grey.default) := by
  intro p es fs ids mode db h
  dsimp only at h
  rw [C108_reference p es fs ids mode _ Mended.sane_default] at h
  have h' := mended_spec p es fs ids mode _ Mended.sane_default
  cases hc : Spec.Mended.compile es fs ids mode Grey.default with
  | ok m =>
    rw [hc] at h h'
    injection h with h
    rw [← h]
    exact h'.1
  | error e => rw [hc] at h; cases h

/-- C108, C41 mended: the graphs kept are those of the expressions that are no literals, in order, and each
accepts exactly the strings that end with a match of its expression. -/
theorem C108_graphs (p : Profile) (es : List Str) (fs : List Flags) (ids : List Nat) (mode : Mode) (g : Grey)
    (hs : Mended.Sane g) (ng : Mended.Ng) (h : Mended.compileNg p es fs ids mode g = .ok ng) :
    Mended.GraphsOf ((given es fs ids).filter (fun e => !(litsOn g && (literalOf e).isSome))) ng.graphs :=
  (mended_ok hs h).2.graphs

example : (match Mended.compileNg .release ["abc".toList, "(a|bc)d".toList, "x|".toList]
    [Flags.empty, Flags.empty, Flags.ALLOWEMPTY] [1, 2, 3] .block Grey.default with
    | .ok ng => some (ng.graphs.map (fun g => (g.inner.nodes.length, g.isVacuous)))
    | _ => none) = some [(8, false), (5, true)] := by decide +kernel

end Rescan
