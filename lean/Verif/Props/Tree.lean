import Verif.Proofs.TreeLit
import Verif.Spec.Witness
/-! # C36-C39, C64: parse trees, walks, literals -/
namespace Rescan
open Spec

/-! ## C36 -/

/-- C36: walking a tree without pending alternatives (any tree in release builds) calls the visitor's
methods in the order of `steps`, stopping at the first that does not succeed. -/
theorem C36_walk {ε σ : Type} (p : Profile) (v : Visitor ε σ) (s : σ) (c : Component)
    (h : p = .release ∨ Finalized c) : walkComponent p v s c = callAll v s (steps c) :=
  walkComponent_steps p v c s h

example := C36_walk .debug (constructLiteralVisitor) Ue2Literal.default
  (.sequence (.mk [.alternation (.mk [.mk [] none none none])] none (some 0) none)) (.inr ⟨rfl, ⟨⟨rfl, trivial⟩, trivial⟩, trivial⟩)

/-- C36: every node is entered once and left once; there is nothing else but the calls in between. -/
theorem C36_once_per_node (c : Component) :
    (steps c).countP Event.isPre = size c ∧
    ((steps c).filter (fun e => !e.isDuring)).length = 2 * size c ∧
    (steps c).filter (fun e => !e.isDuring) = events c := by
  refine ⟨?_, by rw [steps_filter]; exact (events_counts c).2, steps_filter c⟩
  rw [← (events_counts c).1, ← steps_filter, List.countP_filter]
  congr 1; funext e; cases e <;> rfl

/-- C36: both visitors of the code do nothing in between, so only the order of `events` matters. -/
theorem C36_code_visitors (p : Profile) (fuel : Nat) (c : Component) (lit : Ue2Literal)
    (d : Dump.DumpState) (h : p = .release ∨ Finalized c) :
    walkComponent p constructLiteralVisitor lit c = callAll constructLiteralVisitor lit (events c) ∧
    walkComponent p (Dump.dumpVisitor p fuel) d c = callAll (Dump.dumpVisitor p fuel) d (events c) :=
  ⟨walkComponent_events p _ quiet_constructLiteral c _ h, walkComponent_events p _ (quiet_dump p _) c _ h⟩

example (lit : Ue2Literal) (d : Dump.DumpState) := C36_code_visitors .debug 4
  (.sequence (.mk [.alternation (.mk [.mk [] none none none])] none (some 0) none)) lit d
  (.inr ⟨rfl, ⟨⟨rfl, trivial⟩, trivial⟩, trivial⟩)

/-- C36: trees produced by the parser have no pending alternatives, so no walk over them trips the
assertion. -/
theorem C36_parser_trees_finalized (pr p : Profile) (ptr : Str) (mode : ParseMode) (c : Component)
    (m : ParseMode) (h : parse pr ptr mode = .ok (c, m)) {ε σ : Type} (v : Visitor ε σ) (s : σ) :
    Finalized c ∧ walkComponent p v s c = callAll v s (steps c) :=
  ⟨parse_finalized h, walkComponent_steps p v c s (.inr (parse_finalized h))⟩

example : ∃ x, parse .release "(ab|)".toList ParseMode.default = .ok x ∧ Finalized x.1 := by
  obtain ⟨x, h⟩ := Outcome.exists_of_isOk (x := parse .release "(ab|)".toList ParseMode.default) (by decide +kernel)
  exact ⟨x, h, (C36_parser_trees_finalized .release .debug _ _ _ _ h constructLiteralVisitor Ue2Literal.default).1⟩

/-- C36: on a tree with pending alternatives a debug build does panic. -/
theorem C36_pending_panics {ε σ : Type} (v : Visitor ε σ) (s : σ) (cs : List Component)
    (a : ComponentAlternation) (ci : Option Nat) (cn : Option String) :
    (walkComponent .debug v s (.sequence (.mk cs (some a) ci cn))).isPanic = true := by
  rw [walkComponent, walkComponentSequence]; rfl

example : Finalized (.sequence (.mk [.alternation (.mk [.mk [] none none none])] none (some 0) none)) :=
  ⟨rfl, ⟨⟨rfl, trivial⟩, trivial⟩, trivial⟩

/-- A visitor that records which of its methods are called. -/
def recorder : Visitor Empty (List Nat) where
  preAsciiComponentClass s _ := .ok (s ++ [0])
  preComponentAlternation s _ := .ok (s ++ [1])
  preComponentSequence s _ := .ok (s ++ [2])
  duringAsciiComponentClass s _ := .ok (s ++ [6])
  duringComponentAlternation s _ := .ok (s ++ [7])
  duringComponentSequence s _ := .ok (s ++ [8])
  postAsciiComponentClass s _ := .ok (s ++ [3])
  postComponentAlternation s _ := .ok (s ++ [4])
  postComponentSequence s _ := .ok (s ++ [5])

example : (match parse .debug "(ab|)".toList ParseMode.default with
    | .ok (c, _) => walkComponent .debug recorder [] c
    | _ => .ok []) = .ok [2, 2, 1, 2, 0, 6, 3, 8, 0, 6, 3, 5, 7, 2, 5, 4, 5, 5] := by decide +kernel

/-! ## C37 -/

/-- C37: the visitor finds a literal in the tree of an accepted pattern iff the body has no `|`; the
literal is the body without parentheses, with each letter upper-cased and marked "either case" iff
matching is caseless. -/
theorem C37_literal (pr p : Profile) (ptr body : Str) (mode : ParseMode) (c : Component) (m : ParseMode)
    (h : parse pr ptr mode = .ok (c, m)) (hb : IsBody ptr body) :
    walkComponent p constructLiteralVisitor Ue2Literal.default c =
      if '|' ∈ body then .err .mk
      else .ok ⟨(litElems mode.caseless body).map Prod.fst, (litElems mode.caseless body).map Prod.snd⟩ := by
  rw [parse_walkLit h hb]
  unfold litResult Ue2Literal.app
  simp [Ue2Literal.default]

example : litElems true "(a(B))1".toList = [(0x41#8, true), (0x42#8, true), (0x31#8, false)] := by
  decide

/-- No literal of a pattern is of mixed sensitivity. -/
theorem litElems_not_mixed (cl : Bool) (s : Str) (es : List (U8 × Bool)) (h : es = litElems cl s) :
    mixedSensitivity (Ue2Literal.mk (es.map Prod.fst) (es.map Prod.snd)).iter = false := by
  subst h
  rw [← Bool.not_eq_true, C21_mixed]
  have key : ∀ e ∈ (Ue2Literal.mk ((litElems cl s).map Prod.fst) ((litElems cl s).map Prod.snd)).iter,
      isLetter e.c → e.nocase = cl := by
    intro e he hl
    have : (Ue2Literal.mk ((litElems cl s).map Prod.fst) ((litElems cl s).map Prod.snd)).iter
        = (litElems cl s).map (fun x => ⟨x.1, x.2⟩) := by
      unfold Ue2Literal.iter
      rw [List.zipWith_map, List.zipWith_self]
    rw [this] at he
    obtain ⟨x, hx, rfl⟩ := List.mem_map.1 he
    obtain ⟨c, _, rfl⟩ := List.mem_map.1 hx
    unfold litElem at hl ⊢
    split
    · rename_i h; exact h.1.symm
    · rename_i h
      rw [if_neg h] at hl
      cases cl with
      | false => rfl
      | true => exact absurd ⟨rfl, hl⟩ h
  rintro ⟨⟨e, he, hl, hf⟩, ⟨f, hf', hl', ht⟩⟩
  rw [key e he hl] at hf
  rw [key f hf' hl', hf] at ht
  cases ht

/-- C39: a literal extracted from the tree of an accepted pattern is never of mixed sensitivity. -/
theorem C39_not_mixed (pr p : Profile) (ptr : Str) (mode : ParseMode) (c : Component) (m : ParseMode)
    (lit : Ue2Literal) (h : parse pr ptr mode = .ok (c, m))
    (hl : walkComponent p constructLiteralVisitor Ue2Literal.default c = .ok lit) :
    mixedSensitivity lit.iter = false := by
  obtain ⟨a, _, hb, _, _⟩ := parse_tree h
  rw [C37_literal pr p ptr _ mode c m h hb] at hl
  split at hl
  · cases hl
  · injection hl with hl
    subst hl
    exact litElems_not_mixed mode.caseless a.print _ rfl

example : (parse .release "(*UCP)a1(b)".toList (ParseMode.new Flags.CASELESS)).isOk = true := by
  decide +kernel

/-! ## C38 -/

/-- C38: for every tree (of the parser or not), if the visitor extracts a literal, its two vectors
have the same length and it matches exactly the language of the tree. -/
theorem C38_literal_language (p : Profile) (c : Component) (lit : Ue2Literal)
    (hf : p = .release ∨ Finalized c)
    (h : walkComponent p constructLiteralVisitor Ue2Literal.default c = .ok lit) :
    lit.s.length = lit.nocase.length ∧
      ∀ w, MatchesElems (lit.s.zip lit.nocase) w ↔ Lang c w := by
  rw [walkComponent_events p _ quiet_constructLiteral c _ hf] at h
  obtain ⟨es, rfl, h2⟩ := litLang c _ _ h
  constructor
  · simp [Ue2Literal.app, Ue2Literal.default]
  · intro w
    rw [← h2 w]
    have : (Ue2Literal.default.app es).s.zip (Ue2Literal.default.app es).nocase = es := by
      simp [Ue2Literal.app, Ue2Literal.default, List.zip, List.zipWith_map, List.zipWith_self]
    rw [this]

example : ∃ x, parse .release "a(b1)".toList (ParseMode.new Flags.CASELESS) = .ok x ∧
    walkComponent .release constructLiteralVisitor Ue2Literal.default x.1
      = .ok ⟨[0x41#8, 0x42#8, 0x31#8], [true, true, false]⟩ := Outcome.exists_ok (by decide +kernel)

/-- C38 for patterns: the language of an accepted pattern without `|` is the strings matched by the
pattern's characters. -/
theorem C38_pattern_language (pr : Profile) (ptr body : Str) (mode : ParseMode) (c : Component)
    (m : ParseMode) (h : parse pr ptr mode = .ok (c, m)) (hb : IsBody ptr body) (hbar : '|' ∉ body)
    (w : List U8) : Lang c w ↔ MatchesElems (litElems mode.caseless body) w := by
  have h1 := C37_literal pr .release ptr body mode c m h hb
  rw [if_neg hbar] at h1
  have h2 := (C38_literal_language .release c _ (.inl rfl) h1).2 w
  rw [← h2]
  simp [List.zip, List.zipWith_map, List.zipWith_self]

example : MatchesElems (litElems true "a(b1)".toList) [0x61#8, 0x42#8, 0x31#8] := by
  have : litElems true "a(b1)".toList = [(0x41#8, true), (0x42#8, true), (0x31#8, false)] := by decide
  rw [this]
  exact ⟨_, _, rfl, .inr ⟨rfl, by decide⟩, _, _, rfl, .inl rfl, _, _, rfl, .inl rfl, rfl⟩

/-! ## C37: the fast path -/

/-- `Ng::add_literal` never declines a literal that is not of mixed sensitivity. -/
theorem addLiteral_not_declined (p : Profile) (ng ng' : Ng) (lit : Ue2Literal) (i r : Nat) (hl : Bool)
    (som : SomType) (q : Bool) (hg : ng.cc.grey.shortcutLiterals = true)
    (hm : mixedSensitivity lit.iter = false) :
    ng.addLiteral p lit i r hl som q ≠ .ok (ng', false) := by
  intro h
  unfold Ng.addLiteral at h
  obtain ⟨_, _, h⟩ := bind_eq_ok h
  simp only [hg, Bool.not_true, Bool.false_eq_true, if_false, hm] at h
  split at h
  · cases h
  · obtain ⟨⟨rm, rose, id⟩, _, h⟩ := bind_eq_ok h
    simp only at h
    split at h
    · cases h
    · split at h
      · cases h
      · obtain ⟨_, _, h⟩ := bind_eq_ok h
        injection h with h
        injection h with _ h
        cases h

/-- The mode an expression is parsed with. -/
theorem parsedExpression_ok {p : Profile} {index : Nat} {expr : Str} {flags : Flags} {id : Nat}
    {pe : ParsedExpression} (h : ParsedExpression.new p index expr flags id = .ok pe) :
    ∃ m, parse p expr (ParseMode.new (flags.and Flags.QUIET.not)) = .ok (pe.component, m) ∧
      flags.contains (Flags.QUIET.or .SOM_LEFTMOST) = false ∧
      pe.expr = { index := index, report := id, allowVacuous := false,
                  highlander := flags.contains .SINGLEMATCH, utf8 := m.utf8,
                  prefilter := flags.contains .PREFILTER, som := .none,
                  quiet := flags.contains .QUIET } := by
  unfold ParsedExpression.new at h
  simp only at h
  split at h
  · cases h
  · rename_i hq
    obtain ⟨⟨c, m⟩, h1, h2⟩ := bind_eq_ok h
    injection h2 with h2
    subst h2
    exact ⟨m, h1, by simpa using hq, rfl⟩

theorem caseless_and_quiet (flags : Flags) :
    (ParseMode.new (flags.and Flags.QUIET.not)).caseless = flags.contains .CASELESS := by
  cases flags with
  | mk b =>
    have e : b &&& 1023#16 &&& 1#16 = b &&& 1#16 := by
      rw [BitVec.and_assoc]; rfl
    simp [ParseMode.new, Flags.and, Flags.not, Flags.contains, Flags.CASELESS, Flags.QUIET, Flags.all, e]

/-- C37: with the literal shortcuts enabled (the default), an expression is declined by the literal
fast path iff its body contains `|` or no literal character at all; being declined changes nothing. -/
theorem C37_fast_path (p : Profile) (ng : Ng) (index : Nat) (expr body : Str) (flags : Flags) (id : Nat)
    (pe : ParsedExpression) (hg1 : ng.cc.grey.allowLiteral = true)
    (hg2 : ng.cc.grey.shortcutLiterals = true)
    (hpe : ParsedExpression.new p index expr flags id = .ok pe) (hb : IsBody expr body) :
    ((∃ ng', shortcutLiteral p ng pe = .ok (ng', false)) ↔
        ('|' ∈ body ∨ ∀ c ∈ body, c = '(' ∨ c = ')')) ∧
    ∀ ng', shortcutLiteral p ng pe = .ok (ng', false) → ng' = ng := by
  obtain ⟨m, hparse, _, hexpr⟩ := parsedExpression_ok hpe
  have hwalk := C37_literal p p expr body _ _ m hparse hb
  unfold shortcutLiteral
  simp only [hg1, Bool.not_true, Bool.false_eq_true, if_false]
  rw [hwalk]
  by_cases hbar : '|' ∈ body
  · rw [if_pos hbar]
    refine ⟨⟨fun _ => .inl hbar, fun _ => ⟨ng, rfl⟩⟩, fun ng' h => ?_⟩
    injection h with h
    injection h with h
    exact h.symm
  · rw [if_neg hbar]
    simp only
    by_cases hall : ∀ c ∈ body, c = '(' ∨ c = ')'
    · have : litElems (ParseMode.new (flags.and Flags.QUIET.not)).caseless body = [] := by
        unfold litElems
        rw [List.filter_eq_nil_iff.2]
        · rfl
        · intro c hc
          rcases hall c hc with rfl | rfl <;> decide
      rw [this]
      simp [Ue2Literal.isEmpty]
      exact .inr hall
    · have hne : litElems (ParseMode.new (flags.and Flags.QUIET.not)).caseless body ≠ [] := by
        unfold litElems
        intro h
        apply hall
        intro c hc
        have := List.filter_eq_nil_iff.1 (List.map_eq_nil_iff.1 h) c hc
        by_cases h1 : c = '('
        · exact .inl h1
        · by_cases h2 : c = ')'
          · exact .inr h2
          · simp [h1, h2] at this
      have hmix := litElems_not_mixed (ParseMode.new (flags.and Flags.QUIET.not)).caseless body _ rfl
      rw [show (Ue2Literal.mk _ _).isEmpty = false from ?_]
      · simp only [Bool.false_eq_true, if_false]
        have hno : ∀ ng', ¬ ((ReportManager.toU32 pe.expr.index
            "called `Result::unwrap()` on an `Err` value: TryFromIntError(())" >>= fun i =>
            ng.addLiteral p ⟨(litElems (ParseMode.new (flags.and Flags.QUIET.not)).caseless body).map Prod.fst,
              (litElems (ParseMode.new (flags.and Flags.QUIET.not)).caseless body).map Prod.snd⟩ i
              pe.expr.report pe.expr.highlander pe.expr.som pe.expr.quiet : Res (Ng × Bool))
            = .ok (ng', false)) := by
          intro ng' h
          obtain ⟨_, _, h⟩ := bind_eq_ok h
          exact addLiteral_not_declined _ _ _ _ _ _ _ _ _ hg2 hmix h
        constructor
        · constructor
          · rintro ⟨ng', h⟩; exact absurd h (hno ng')
          · rintro (h | h)
            · exact absurd h hbar
            · exact absurd h hall
        · intro ng' h; exact absurd h (hno ng')
      · unfold Ue2Literal.isEmpty
        simp [hne]

example : ∃ pe, ParsedExpression.new .release 0 "a(b)".toList Flags.CASELESS 7 = .ok pe ∧
    IsBody "a(b)".toList "a(b)".toList ∧ Grey.default.allowLiteral = true ∧ Grey.default.shortcutLiterals = true := by
  obtain ⟨pe, h⟩ := Outcome.exists_of_isOk (x := ParsedExpression.new .release 0 "a(b)".toList Flags.CASELESS 7)
    (by decide +kernel)
  exact ⟨pe, h, .inl ⟨fun v rest h => by have := h.1; simp at this, rfl⟩, rfl, rfl⟩

/-- The literal on the fast path is the one for CASELESS as given. -/
theorem C37_caseless_flag (flags : Flags) :
    (ParseMode.new (flags.and Flags.QUIET.not)).caseless = flags.contains .CASELESS :=
  caseless_and_quiet flags

example : Grey.default.allowLiteral = true ∧ Grey.default.shortcutLiterals = true ∧
    (ParsedExpression.new .release 0 "a(b)".toList Flags.CASELESS 7).isOk = true := by decide +kernel

/-! ## C64 -/

/-- C64: size and depth of parse trees are linear in the length of the pattern (tighter than the
property asks for: `3n + 1` nodes and depth `n + 2`). -/
theorem C64_size_depth (pr : Profile) (ptr : Str) (mode : ParseMode) (c : Component) (m : ParseMode)
    (h : parse pr ptr mode = .ok (c, m)) :
    size c ≤ 3 * ptr.length + 1 ∧ depth c ≤ ptr.length + 2 := by
  obtain ⟨a, _, hb, _, rfl⟩ := parse_tree h
  obtain ⟨v, hv, _⟩ := isBody_len hb
  have hm := Alts.measures (litClass mode.caseless) a 1
  have hl : a.print.length ≤ ptr.length := by rw [hv]; simp
  simp only [Alts.root, size, sizeSeq, depth, depthSeq]
  omega

example : (match parse .release "||".toList ParseMode.default with
    | .ok (c, _) => (size c, depth c)
    | _ => (0, 0)) = (5, 3) := by decide +kernel

end Rescan
