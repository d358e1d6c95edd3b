import Mathlib.Computability.MyhillNerode
import Mathlib.Data.Set.Finite.Lattice
import Mathlib.Data.Set.Finite.Powerset
import Verif.Spec.Regex
import Verif.Props.Completed
import Verif.Props.Express
import Verif.Props.AhoCorasick
/-! # C124: patterns, graphs and tries in Mathlib's terms -/
namespace Rescan
open Spec

namespace Spec

theorem byteRegex_spec (caseless : Bool) (c : Char) (h : c.toNat < 256) (w : List U8) :
    w ∈ (byteRegex caseless (BitVec.ofNat 8 c.toNat)).matches' ↔ Lang (.cls (litClass caseless c)) w := by
  rw [lit_lang _ _ h]
  have hb : (BitVec.ofNat 8 c.toNat).toNat = c.toNat := by
    rw [BitVec.toNat_ofNat]; exact Nat.mod_eq_of_lt h
  generalize BitVec.ofNat 8 c.toNat = d at hb ⊢
  rw [← hb]
  clear hb h c
  have one : ∀ x : U8, w ∈ (RegularExpression.char x).matches' ↔ w = [x] := fun x => Iff.rfl
  have two : ∀ x y : U8, w ∈ (RegularExpression.char x + RegularExpression.char y).matches' ↔ w = [x] ∨ w = [y] :=
    fun x y => Iff.rfl
  unfold byteRegex casePair isUpper
  have hadd : (d + 32#8).toNat = (d.toNat + 32) % 256 := by simp
  have hsub : (d - 32#8).toNat = (256 - 32 + d.toNat) % 256 := by simp
  have hd := d.isLt
  split
  · rename_i hc
    rw [two]
    constructor
    · rintro (rfl | rfl)
      · exact ⟨d, rfl, .inl rfl⟩
      · exact ⟨_, rfl, .inr ⟨hc.1, .inr ⟨by omega, by omega⟩⟩⟩
    · rintro ⟨b, rfl, hb | ⟨_, hb⟩⟩
      · exact .inl (by rw [BitVec.eq_of_toNat_eq hb])
      · exact .inr (by rw [BitVec.eq_of_toNat_eq (x := b) (y := d + 32#8) (by omega)])
  · rename_i hn
    split
    · rename_i hc
      rw [two]
      constructor
      · rintro (rfl | rfl)
        · exact ⟨d, rfl, .inl rfl⟩
        · exact ⟨_, rfl, .inr ⟨hc.1, .inl ⟨by omega, by omega⟩⟩⟩
      · rintro ⟨b, rfl, hb | ⟨_, hb⟩⟩
        · exact .inl (by rw [BitVec.eq_of_toNat_eq hb])
        · exact .inr (by rw [BitVec.eq_of_toNat_eq (x := b) (y := d - 32#8) (by omega)])
    · rename_i hn'
      rw [one]
      constructor
      · rintro rfl
        exact ⟨d, rfl, .inl rfl⟩
      · rintro ⟨b, rfl, hb | ⟨hcl, hb⟩⟩
        · rw [BitVec.eq_of_toNat_eq hb]
        · exfalso
          rw [hcl] at hn hn'
          simp only [true_and] at hn hn'
          have := b.isLt
          omega

mutual
theorem Item.regex_spec (cl : Bool) : ∀ (i : Item), IsAscii i.print → ∀ w,
    w ∈ (i.regex cl).matches' ↔ i.lang (litClass cl) w
  | .lit c, h, w => by
    rw [Item.regex, Item.lang]
    exact byteRegex_spec cl c (by have := h c (by simp [Item.print]); omega) w
  | .group a, h, w => by
    rw [Item.regex, Item.lang]
    exact Alts.regex_spec cl a (fun c hc => h c (by simp [Item.print, hc])) w
theorem Seq.regex_spec (cl : Bool) : ∀ (s : Seq), IsAscii s.print → ∀ w,
    w ∈ (s.regex cl).matches' ↔ s.lang (litClass cl) w
  | .nil, _, w => by
    rw [Seq.regex, Seq.lang]
    exact Iff.rfl
  | .cons i s, h, w => by
    rw [Seq.regex, Seq.lang, RegularExpression.matches'_mul, Language.mem_mul]
    constructor
    · rintro ⟨w1, h1, w2, h2, rfl⟩
      exact ⟨w1, w2, rfl, (Item.regex_spec cl i (fun c hc => h c (by simp [Seq.print, hc])) w1).1 h1,
        (Seq.regex_spec cl s (fun c hc => h c (by simp [Seq.print, hc])) w2).1 h2⟩
    · rintro ⟨w1, w2, rfl, h1, h2⟩
      exact ⟨w1, (Item.regex_spec cl i (fun c hc => h c (by simp [Seq.print, hc])) w1).2 h1, w2,
        (Seq.regex_spec cl s (fun c hc => h c (by simp [Seq.print, hc])) w2).2 h2, rfl⟩
theorem Alts.regex_spec (cl : Bool) : ∀ (a : Alts), IsAscii a.print → ∀ w,
    w ∈ (a.regex cl).matches' ↔ a.lang (litClass cl) w
  | .one s, h, w => by
    rw [Alts.regex, Alts.lang]
    exact Seq.regex_spec cl s h w
  | .more s a, h, w => by
    rw [Alts.regex, Alts.lang, RegularExpression.matches'_add, Language.mem_add,
      Seq.regex_spec cl s (fun c hc => h c (by simp [Alts.print, hc])) w,
      Alts.regex_spec cl a (fun c hc => h c (by simp [Alts.print, hc])) w]
end

theorem nfa_accepts (h : NgHolder) (w : List U8) : w ∈ (nfa h).accepts ↔ Accepts h w := by
  have key : ∀ w v, w ∈ (nfa h).acceptsFrom {v} ↔ Reads h v w := by
    intro w
    induction w with
    | nil =>
      intro v
      rw [NFA.nil_mem_acceptsFrom]
      constructor
      · rintro ⟨s, rfl, hs⟩
        exact .stop _ hs
      · intro hr
        cases hr with
        | stop _ hs => exact ⟨v, rfl, hs⟩
    | cons b w ih =>
      intro v
      rw [NFA.cons_mem_acceptsFrom, NFA.stepSet_singleton]
      constructor
      · intro hm
        obtain ⟨s, hs1, hs2⟩ := hm
        obtain ⟨t, ht1, ht2⟩ := NFA.mem_evalFrom_iff_exists.1 hs2
        obtain ⟨he, props, hp1, hp2⟩ := ht1
        exact .step v t props b w he hp1 hp2 ((ih t).1 ⟨s, hs1, ht2⟩)
      · intro hr
        cases hr with
        | step _ u props _ _ he hp1 hp2 hr =>
          obtain ⟨s, hs1, hs2⟩ := (ih u).2 hr
          exact ⟨s, hs1, NFA.mem_evalFrom_iff_exists.2 ⟨u, ⟨he, props, hp1, hp2⟩, hs2⟩⟩
  have hst : (nfa h).start = {h.start} ∪ {h.startDs} := rfl
  rw [NFA.accepts_eq_acceptsFrom_start, hst, NFA.acceptsFrom_union, Language.mem_add, key, key]
  rfl

end Spec

/-- C124: what an accepted pattern matches is what Mathlib's regular expression for its grammar tree matches, also by
Mathlib's matcher (by derivatives). -/
theorem C124_language (pr : Profile) (ptr : Str) (mode m : ParseMode) (c : Component)
    (h : parse pr ptr mode = .ok (c, m)) :
    ∃ a : Alts, (a.Wf ∧ IsBody ptr a.print) ∧ (∀ b : Alts, b.Wf → IsBody ptr b.print → b = a) ∧
      ∀ w, (Lang c w ↔ w ∈ (a.regex mode.caseless).matches') ∧ (Lang c w ↔ (a.regex mode.caseless).rmatch w = true) := by
  obtain ⟨a, ⟨h1, h2, h3, rfl⟩, hu⟩ := C30_parse_sound _ _ _ _ _ (litClass mode.caseless)
    (fun c hc => litClass_spec _ c (by omega)) h
  refine ⟨a, ⟨h1, h2⟩, hu, fun w => ?_⟩
  have := (Alts.lang_root (litClass mode.caseless) a w).trans (Alts.regex_spec mode.caseless a h3 w).symm
  exact ⟨this, this.trans (RegularExpression.rmatch_iff_matches' _ w).symm⟩

example : (parse .release "(a|B)c".toList { ParseMode.default with caseless := true }).isOk = true := by decide +kernel
example : (Alts.regex true (.one (.cons (.group (.more (.cons (.lit 'a') .nil) (.one (.cons (.lit 'B') .nil))))
    (.cons (.lit 'c') .nil)))).rmatch [0x62#8, 0x43#8] = true := by decide +kernel

/-- C124: the sets of strings patterns can stand for are the non-empty finite sets of strings of plain characters, closed
under change of letter case if matching is caseless. All of them are regular. -/
theorem C124_finite (pr : Profile) (mode : ParseMode) (L : Language U8) :
    ((∃ s c m, parse pr s mode = .ok (c, m) ∧ ∀ w, Lang c w ↔ w ∈ L) ↔
      (L : Set (List U8)).Finite ∧ (L : Set (List U8)).Nonempty ∧ (∀ w ∈ L, ∀ b ∈ w, Plain b) ∧
        (mode.caseless = true → ∀ v w, v ∈ L → CaseEq v w → w ∈ L)) ∧
    ((∃ s c m, parse pr s mode = .ok (c, m) ∧ ∀ w, Lang c w ↔ w ∈ L) → L.IsRegular) := by
  have key : (∃ s c m, parse pr s mode = .ok (c, m) ∧ ∀ w, Lang c w ↔ w ∈ L) ↔
      (L : Set (List U8)).Finite ∧ (L : Set (List U8)).Nonempty ∧ (∀ w ∈ L, ∀ b ∈ w, Plain b) ∧
        (mode.caseless = true → ∀ v w, v ∈ L → CaseEq v w → w ∈ L) := by
    rw [C115_languages pr mode (fun w => w ∈ L)]
    constructor
    · rintro ⟨⟨ws, h1, h2⟩, h3, h4⟩
      refine ⟨(List.finite_toSet ws).subset (fun w hw => (h2 w).1 hw), ?_, h3, h4⟩
      obtain ⟨w, hw⟩ := List.exists_mem_of_ne_nil ws h1
      exact ⟨w, (h2 w).2 hw⟩
    · rintro ⟨h1, ⟨w, hw⟩, h3, h4⟩
      obtain ⟨ws, hws⟩ := h1.exists_finset
      refine ⟨⟨ws.toList, ?_, fun w => ?_⟩, h3, h4⟩
      · intro hnil
        have : w ∈ ws.toList := Finset.mem_toList.2 ((hws w).2 hw)
        rw [hnil] at this
        cases this
      · rw [Finset.mem_toList]
        exact (hws w).symm
  refine ⟨key, fun h => ?_⟩
  obtain ⟨hfin, _⟩ := key.1 h
  rw [Language.isRegular_iff_finite_range_leftQuotient]
  have hsuf : {y : List U8 | ∃ w ∈ L, y <:+ w}.Finite := by
    have : {y : List U8 | ∃ w ∈ L, y <:+ w} = ⋃ w ∈ (L : Set (List U8)), {y | y <:+ w} := by
      ext y; simp
    rw [this]
    refine Set.Finite.biUnion hfin fun w _ => ?_
    exact (List.finite_toSet w.tails).subset fun y hy => (List.mem_tails _ _).2 hy
  refine (hsuf.powerset).subset ?_
  rintro _ ⟨x, rfl⟩ y hy
  exact ⟨x ++ y, hy, x, rfl⟩

example : (parse .release "(a|b)c|".toList ParseMode.default).isOk = true := by decide +kernel

/-- C124: the graph the code builds is an automaton for the empty language. -/
theorem C124_graph (p : Profile) (pe : ParsedExpression) (b : NfaBuilder)
    (hlen : (leaves pe.component).length < 2 ^ 32 - 4) (hb : buildGraph (ε := Empty) p pe = .ok b) :
    (nfa b.graph).accepts = 0 := by
  ext w
  rw [nfa_accepts]
  exact ⟨fun h => (C41_accepts_nothing_partial p pe b hlen hb w h).elim, fun h => (Language.notMem_zero w h).elim⟩

example : ∃ pe, ParsedExpression.new .release 0 "(a|b)c".toList Flags.empty 7 = .ok pe ∧
    (leaves pe.component).length < 2 ^ 32 - 4 ∧ (buildGraph (ε := Empty) .release pe).isOk = true :=
  Outcome.exists_ok (q := fun pe => (leaves pe.component).length < 2 ^ 32 - 4 ∧
    (buildGraph (ε := Empty) .release pe).isOk = true) (by decide +kernel)

/-- C124: completed as in C106, it is an automaton for any string followed by one the regular expression of the
pattern matches. -/
theorem C124_completed {ε : Type} (pr p : Profile) (index : Nat) (expr : Str) (flags : Flags) (id : Nat)
    (pe : ParsedExpression) (hpe : ParsedExpression.new pr index expr flags id = .ok pe)
    (hlen : (leaves pe.component).length < 2 ^ 16 - 4) :
    ∃ b a, Completed.buildGraph (ε := ε) p pe = .ok b ∧ (Alts.Wf a ∧ IsBody expr a.print) ∧
      (nfa b.graph).accepts = ⊤ * (a.regex (flags.contains .CASELESS)).matches' := by
  obtain ⟨b, h1, _, h3⟩ := C106_language (ε := ε) p pe hlen
  obtain ⟨m, hm⟩ : ∃ m, parse pr expr (ParseMode.new (flags.and Flags.QUIET.not)) = .ok (pe.component, m) := by
    obtain ⟨m, hm, _⟩ := parsedExpression_ok hpe
    exact ⟨m, hm⟩
  obtain ⟨a, ha, _, hl⟩ := C124_language _ _ _ _ _ hm
  rw [C37_caseless_flag] at hl
  refine ⟨b, a, h1, ha, ?_⟩
  ext w
  rw [nfa_accepts, h3, Language.mem_mul]
  constructor
  · rintro ⟨u, v, rfl, hv⟩
    exact ⟨u, trivial, v, (hl v).1.1 hv, rfl⟩
  · rintro ⟨u, _, v, hv, rfl⟩
    exact ⟨u, v, rfl, (hl v).1.2 hv⟩

example : ∃ pe, ParsedExpression.new .release 0 "(a|b)c".toList Flags.CASELESS 7 = .ok pe ∧
    (leaves pe.component).length < 2 ^ 16 - 4 := Outcome.exists_ok (by decide +kernel)

/-- C124: a trie with its failure links is a deterministic automaton for any string followed by one of those inserted. -/
theorem C124_trie {ε : Type} (h : List (Ue2Literal × Nat))
    (hroom : 1 + (h.map (fun x => (bytesOf x.1).length)).sum < 2 ^ 32) :
    ∃ t, insertAll (ε := ε) h LitTrie.default = .ok t ∧
      ∃ d : DFA U8 (Fin t.inner.nodes.length), d.start.val = t.root ∧
        (∀ u c, (d.step u c).val = AhoCorasick.next t u.val c) ∧
        (∀ u, u ∈ d.accept ↔ AhoCorasick.out t u.val ≠ []) ∧
        ∀ L : Language U8, (∀ s, s ∈ L ↔ ∃ x ∈ h, s = bytesOf x.1) → d.accepts = ⊤ * L := by
  obtain ⟨t, h1, h2⟩ := C122_reports (ε := ε) h hroom
  obtain ⟨t', h1', _, hrun, hlt⟩ := C122_state (ε := ε) h hroom
  obtain rfl : t = t' := by
    rw [h1] at h1'
    injection h1'
  have hroot : t.root < t.inner.nodes.length := by
    obtain ⟨t', strs, h1', h3⟩ := insertAll_stores (ε := ε) h LitTrie.default _ _ LitTrie.stores_default hroom
    obtain rfl : t = t' := by
      rw [h1] at h1'
      injection h1'
    rw [h3.shape.root, ← h3.shape.len]
    exact (List.getElem?_eq_some_iff.1 h3.shape.zero).1
  refine ⟨t, h1, ⟨fun u c => ⟨AhoCorasick.next t u.val c, hlt u.val c u.isLt⟩, ⟨t.root, hroot⟩,
    {u | AhoCorasick.out t u.val ≠ []}⟩, rfl, fun _ _ => rfl, fun _ => Iff.rfl, ?_⟩
  intro L hL
  have hev : ∀ (data : List U8) (d : DFA U8 (Fin t.inner.nodes.length)),
      (∀ u c, (d.step u c).val = AhoCorasick.next t u.val c) →
      ∀ u, (d.evalFrom u data).val = AhoCorasick.run t u.val data := by
    intro data d hd
    induction data with
    | nil => intro u; rfl
    | cons c data ih => intro u; rw [DFA.evalFrom_cons, ih, hd]; rfl
  ext data
  rw [DFA.mem_accepts, Language.mem_mul]
  show AhoCorasick.out t
    (DFA.evalFrom _ (⟨t.root, hroot⟩ : Fin t.inner.nodes.length) data : Fin t.inner.nodes.length).val ≠ [] ↔ _
  rw [hev data _ (fun _ _ => rfl)]
  constructor
  · intro hne
    obtain ⟨r, hr⟩ := List.exists_mem_of_ne_nil _ hne
    obtain ⟨l, hl, u, hu⟩ := (h2 data r).1 hr
    exact ⟨u, trivial, bytesOf l, (hL _).2 ⟨_, hl, rfl⟩, hu⟩
  · rintro ⟨u, _, s, hs, rfl⟩
    obtain ⟨⟨l, r⟩, hx, rfl⟩ := (hL _).1 hs
    exact List.ne_nil_of_mem ((h2 _ r).2 ⟨l, hx, u, rfl⟩)

example : 1 + ([(litAb, 1), (litAc, 2)].map (fun x => (bytesOf x.1).length)).sum < 2 ^ 32 := by decide +kernel

end Rescan
