import Verif.Proofs.WorkCompile
/-! # C103: compiling takes a number of steps linear in the length of the patterns -/
namespace Rescan
open Spec Work

namespace Work

theorem addAll_steps (p : Profile) : ∀ (es : List Str) (fs : List Flags) (ids : List Nat) (i : Nat) (ng : Ng), Fans ng.smwr →
    AtMost (addAll p i ng (izip es fs ids)) (Rescan.addAll p i ng (izip es fs ids))
      (272 * totalLength es fs ids + 44 * howMany es fs ids + dropNg ng) ∧
    (∀ r, Rescan.addAll p i ng (izip es fs ids) = .ok r →
      totalLength es fs ids + 16 * howMany es fs ids ≤ (addAll p i ng (izip es fs ids)).2) := by
  have stop : ∀ (i : Nat) (ng : Ng) (k : Nat), AtMost (addAll p i ng []) (Rescan.addAll p i ng []) (0 + dropNg ng) :=
    fun i ng k => ⟨rfl, Nat.le_refl _⟩
  intro es
  induction es with
  | nil => intro fs ids i ng _; exact ⟨(stop i ng 0).mono (by simp [totalLength, howMany]), fun _ _ => by simp [totalLength, howMany]⟩
  | cons e es ih =>
    intro fs ids i ng h
    cases fs with
    | nil => exact ⟨(stop i ng 0).mono (by simp [totalLength, howMany]), fun _ _ => by simp [totalLength, howMany]⟩
    | cons f fs =>
      cases ids with
      | nil => exact ⟨(stop i ng 0).mono (by simp [totalLength, howMany]), fun _ _ => by simp [totalLength, howMany]⟩
      | cons id ids =>
        obtain ⟨⟨a1, a2⟩, a3⟩ := addExpression_steps p ng i e f id h
        simp only [izip, totalLength, howMany]
        have hW : addAll p i ng ((e, f, id) :: izip es fs ids) = thenDo (steps 1 (addExpression p ng i e f id)) fun
            | .ok ng => addAll p (i + 1) ng (izip es fs ids)
            | .panic m => steps (dropNg ng) (ret (.panic m))
            | .timeout => ret .timeout
            | .err e => steps (dropNg ng) (ret do
              let idx ← ReportManager.toU32 i
                "called `Result::unwrap()` on an `Err` value: TryFromIntError(())"
              let e ← e.setExpressionIndex p idx
              .err e) := rfl
        rw [hW, Rescan.addAll]
        have e1 : (steps 1 (addExpression p ng i e f id)).1 = Rescan.addExpression p ng i e f id := a1
        have e2 : (steps 1 (addExpression p ng i e f id)).2 = (addExpression p ng i e f id).2 + 1 := rfl
        unfold thenDo
        rw [e1, e2]
        cases hr : Rescan.addExpression p ng i e f id with
        | ok ng' =>
          obtain ⟨g1, g2, g3⟩ := a3 ng' hr
          obtain ⟨i1, i2⟩ := ih fs ids (i + 1) ng' g1
          refine ⟨⟨i1.out, ?_⟩, fun r ho => ?_⟩
          · have := i1.most
            dsimp only
            omega
          · have := i2 r ho
            dsimp only
            omega
        | err x => exact ⟨⟨rfl, by show _ + 1 + (0 + dropNg ng) ≤ _; omega⟩, fun r ho => by
            obtain ⟨_, _, ho⟩ := bind_eq_ok ho
            obtain ⟨_, _, ho⟩ := bind_eq_ok ho
            cases ho⟩
        | panic x => exact ⟨⟨rfl, by show _ + 1 + (0 + dropNg ng) ≤ _; omega⟩, fun r ho => by cases ho⟩
        | timeout => exact ⟨⟨rfl, by show _ + 1 + 0 ≤ _; omega⟩, fun r ho => by cases ho⟩

theorem compileMultiInt_steps (p : Profile) (es : List Str) (fs : List Flags) (ids : List Nat) (mode : Mode) (g : Grey) :
    AtMost (Work.compileMultiInt p es fs ids mode g) (Rescan.compileMultiInt p es fs ids mode g)
      (272 * totalLength es fs ids + 44 * howMany es fs ids + 2) ∧
    (∀ db, Rescan.compileMultiInt p es fs ids mode g = .ok db →
      totalLength es fs ids + 16 * howMany es fs ids ≤ (Work.compileMultiInt p es fs ids mode g).2) := by
  unfold Work.compileMultiInt Rescan.compileMultiInt compileNg
  by_cases he : es.isEmpty = true
  · rw [if_pos he, if_pos he]; exact ⟨AtMost.ret _ _, fun db h => by cases h⟩
  · rw [if_neg he, if_neg he]
    by_cases hl : es.length > g.limitPatternCount
    · rw [if_pos hl, if_pos hl]; exact ⟨AtMost.ret _ _, fun db h => by cases h⟩
    · rw [if_neg hl, if_neg hl]
      obtain ⟨a1, a2⟩ := addAll_steps p es fs ids 0 (Ng.new ⟨mode.isStreaming, mode.isVectored, g⟩ es.length mode.somPrecision)
        (fans_new _ _)
      have hd : dropNg (Ng.new ⟨mode.isStreaming, mode.isVectored, g⟩ es.length mode.somPrecision) = 2 := rfl
      rw [hd] at a1
      refine ⟨AtMost.mono (AtMost.bind (j := 0) a1 fun _ _ => AtMost.ret _ _) (by omega), fun db h => ?_⟩
      obtain ⟨ng, h1, _⟩ := bind_eq_ok h
      have h2 := a2 ng h1
      have h3 := bind_snd (f := fun ng => ((.ok (build ng), 0) : W CompileError Database)) (a1.out.trans h1)
      exact Nat.le_trans h2 (Nat.le_trans (Nat.le_add_right _ _) (Nat.le_of_eq h3.symm))

/-! ## Trees and texts -/

/-- Characters that are classes, opening parentheses and bars of a text. -/
def classes (s : Str) : Nat := (litChars s).length

theorem classes_append (s t : Str) : classes (s ++ t) = classes s + classes t := by
  simp [classes, litChars]

mutual
theorem calls_item (l : Nat) (cls : Char → ComponentClass) : ∀ (i : Item) (k : Nat), i.Wf →
    l * classes i.print + 2 * i.print.count '(' + i.print.count '|' ≤ calls l (i.build cls k).1 ∧
    calls l (i.build cls k).1 ≤ l * classes i.print + 2 * i.print.count '(' + 4 * i.print.count '|'
  | .lit c, k, h => by
    have h1 : c ≠ '(' := fun e => h (.inl e)
    have h3 : c ≠ '|' := fun e => h (.inr (.inr e))
    have h' : ¬ special c := h
    simp [Item.build, calls, Item.print, classes, litChars, h', h1, h3]
  | .group a, k, h => by
    have := calls_alts l cls a (k + 1) h
    have e1 : classes (Item.group a).print = classes a.print := by
      have e1 : special '(' := .inl rfl
      have e2 : special ')' := .inr (.inl rfl)
      simp [Item.print, classes, litChars, e1, e2]
    have e2 : (Item.group a).print.count '(' = a.print.count '(' + 1 := by simp [Item.print, List.count_cons]
    have e3 : (Item.group a).print.count '|' = a.print.count '|' := by simp [Item.print, List.count_cons]
    rw [e1, e2, e3]
    simp only [Item.build, calls, callsSeq]; omega
theorem calls_seq (l : Nat) (cls : Char → ComponentClass) : ∀ (s : Seq) (k : Nat), s.Wf →
    l * classes s.print + 2 * s.print.count '(' + s.print.count '|' ≤ callsAll l (s.build cls k).1 ∧
    callsAll l (s.build cls k).1 ≤ l * classes s.print + 2 * s.print.count '(' + 4 * s.print.count '|'
  | .nil, k, _ => by simp [Seq.build, callsAll, Seq.print, classes, litChars]
  | .cons i s, k, h => by
    have h1 := calls_item l cls i k h.1
    have h2 := calls_seq l cls s (i.build cls k).2 h.2
    rw [Seq.print, classes_append, List.count_append, List.count_append, Nat.mul_add]
    simp only [Seq.build, callsAll]; omega
theorem calls_alts (l : Nat) (cls : Char → ComponentClass) : ∀ (a : Alts) (k : Nat), a.Wf →
    l * classes a.print + 2 * a.print.count '(' + a.print.count '|' ≤ callsAll l (a.build cls k).1 ∧
    callsAll l (a.build cls k).1 ≤ l * classes a.print + 2 * a.print.count '(' + 4 * a.print.count '|'
  | .one s, k, h => by
    have := calls_seq l cls s k h
    simp only [Alts.build, Alts.print]; omega
  | .more s a, k, h => by
    have h1 := calls_seq l cls s k h.1
    have h2 := calls_branches l cls a (s.build cls k).2 h.2
    have e : classes ('|' :: a.print) = classes a.print := by
      have e1 : special '|' := .inr (.inr rfl)
      simp [classes, litChars, e1]
    rw [Alts.print, classes_append, e, List.count_append, List.count_append, Nat.mul_add, List.count_cons_self,
      List.count_cons_of_ne (by decide)]
    simp only [Alts.build, callsAll, calls, callsSeqs, callsSeq]; omega
theorem calls_branches (l : Nat) (cls : Char → ComponentClass) : ∀ (a : Alts) (k : Nat), a.Wf →
    l * classes a.print + 2 * a.print.count '(' + a.print.count '|' + 1 ≤ callsSeqs l (a.branches cls k).1 ∧
    callsSeqs l (a.branches cls k).1 ≤ l * classes a.print + 2 * a.print.count '(' + 4 * a.print.count '|' + 1
  | .one s, k, h => by
    have := calls_seq l cls s k h
    simp only [Alts.branches, callsSeqs, callsSeq, Alts.print]; omega
  | .more s a, k, h => by
    have h1 := calls_seq l cls s k h.1
    have h2 := calls_branches l cls a (s.build cls k).2 h.2
    have e : classes ('|' :: a.print) = classes a.print := by
      have e1 : special '|' := .inr (.inr rfl)
      simp [classes, litChars, e1]
    rw [Alts.print, classes_append, e, List.count_append, List.count_append, Nat.mul_add, List.count_cons_self,
      List.count_cons_of_ne (by decide)]
    simp only [Alts.branches, callsSeqs, callsSeq]; omega
end

end Work

/-! ## C103 -/

/-- C103: counting steps changes nothing: what comes out is what the compiler gives. -/
theorem C103_same (p : Profile) (es : List Str) (fs : List Flags) (ids : List Nat) (mode : Mode) (g : Grey) :
    (Work.compileMultiInt p es fs ids mode g).1 = compileMultiInt p es fs ids mode g :=
  (compileMultiInt_steps p es fs ids mode g).1.out

/-- C103: compiling, whether it succeeds, is refused or panics, takes at most 272 steps for each character of the patterns, 44
for each pattern and two more. -/
theorem C103_linear (p : Profile) (es : List Str) (fs : List Flags) (ids : List Nat) (mode : Mode) (g : Grey) :
    (Work.compileMultiInt p es fs ids mode g).2 ≤ 272 * totalLength es fs ids + 44 * howMany es fs ids + 2 :=
  (compileMultiInt_steps p es fs ids mode g).1.most

/-- C103: and if it succeeds, at least one step for each character and 16 for each pattern. -/
theorem C103_at_least (p : Profile) (es : List Str) (fs : List Flags) (ids : List Nat) (mode : Mode) (g : Grey)
    (h : (compileMultiInt p es fs ids mode g).isOk = true) :
    totalLength es fs ids + 16 * howMany es fs ids ≤ (Work.compileMultiInt p es fs ids mode g).2 := by
  cases hr : compileMultiInt p es fs ids mode g with
  | ok db => exact (compileMultiInt_steps p es fs ids mode g).2 db hr
  | _ => rw [hr] at h; cases h

/-- Two patterns. -/
def workPatterns : List Str := ["ab(c|d)".toList, "(*UTF8)abc".toList]

example : (Work.compileMultiInt .release workPatterns [Flags.empty, Flags.empty] [1, 2] .block Grey.default).1.isOk = true ∧
    (Work.compileMultiInt .release workPatterns [Flags.empty, Flags.empty] [1, 2] .block Grey.default).2 = 144 ∧
    totalLength workPatterns [Flags.empty, Flags.empty] [1, 2] = 17 ∧
    howMany workPatterns [Flags.empty, Flags.empty] [1, 2] = 2 := by decide +kernel

/-- A refused pattern. -/
example : (Work.compileMultiInt .release ["ab((c".toList] [Flags.empty] [1] .block Grey.default).1.isOk = false := by
  decide +kernel

/-- C103: parsing takes a step for each character and 18 for the control verb, if there is none; if there is one, three steps
fewer; if the pattern is not accepted, at most five steps for each character and 19. -/
theorem C103_parse (pr : Profile) (text : Str) (mode : ParseMode) :
    (Work.parse pr text mode).1 = parse pr text mode ∧ (Work.parse pr text mode).2 ≤ 5 * text.length + 19 ∧
    ((parse pr text mode).isOk = true → ∀ body, IsBody text body →
      (Work.parse pr text mode).2 = if body = text then text.length + 18 else text.length + 15) := by
  obtain ⟨h1, h2, h3⟩ := parse_steps pr text mode
  refine ⟨h1, h2, fun ho body hb => ?_⟩
  cases hp : parse pr text mode with
  | ok x =>
    obtain ⟨c, m⟩ := x
    obtain ⟨⟨rest, hr, hc⟩, _⟩ := h3 c m hp
    obtain ⟨m', _, hr', _⟩ := parse_isBody hb pr mode
    rw [hr] at hr'
    injection hr' with hr'
    injection hr' with hrb _
    subst hrb
    obtain ⟨body', hb', _, hbal⟩ := C29_accepted_is_balanced pr text mode ho
    have := isBody_unique hb hb'
    subst this
    rw [hc]
    rcases readControlVerbs_rest hr with ⟨e, hs⟩ | hs
    · rw [if_pos e, e]
      rcases hs with hs | ⟨⟨t, ht⟩, hno⟩
      · omega
      · rw [e] at hbal
        have h5 := hbal.2
        rw [List.count_eq_zero.2 hno, ht] at h5
        simp at h5
    · have hne : ¬ rest = text := by
        intro e; rw [e] at hs; omega
      rw [if_neg hne]; omega
  | _ => rw [hp] at ho; cases ho

example : ∃ mode : ParseMode, (parse .release "a(b|c)".toList mode).isOk = true ∧ IsBody "a(b|c)".toList "a(b|c)".toList :=
  ⟨ParseMode.new Flags.empty, by decide +kernel, .inl ⟨fun v rest h => by have := h.1; simp at this, rfl⟩⟩

example : (Work.parse .release "a(b|c)".toList (ParseMode.new Flags.empty)).2 = 24 ∧
    (Work.parse .release "(*UCP)a".toList (ParseMode.new Flags.empty)).2 = 22 ∧
    (Work.parse .release "(((a".toList (ParseMode.new Flags.empty)).2 = 30 := by decide +kernel

/-- C103: walking the tree of an accepted pattern with a visitor that does not stop it, noting its positions and dropping it
take as many steps as the recursion has calls: 2 for the pattern, 3 for each class (1 when dropping), 2 for each group and
between one and four for each bar.  A visitor that stops saves steps. -/
theorem C103_tree {ε σ : Type} (pr p : Profile) (text body : Str) (mode m : ParseMode) (c : Component)
    (h : parse pr text mode = .ok (c, m)) (hb : IsBody text body) (v : Visitor ε σ) (s : σ) (bs : GlushkovBuildState) :
    (Work.walkComponent p v s c).1 = walkComponent p v s c ∧ (Work.walkComponent p v s c).2 ≤ calls 3 c ∧
    ((walkComponent p v s c).isOk = true → (Work.walkComponent p v s c).2 = calls 3 c) ∧
    (Work.noteComponent (ε := ε) bs c).1 = bs.noteComponent c ∧ (Work.noteComponent (ε := ε) bs c).2 ≤ calls 3 c ∧
    ((bs.noteComponent (ε := ε) c).isOk = true → (Work.noteComponent (ε := ε) bs c).2 = calls 3 c) ∧
    Work.dropComponent c = calls 1 c ∧
    ∀ l, l * (body.filter (fun c => c != '(' && c != ')' && c != '|')).length + 2 * body.count '(' + body.count '|' + 2
        ≤ calls l c ∧
      calls l c
        ≤ l * (body.filter (fun c => c != '(' && c != ')' && c != '|')).length + 2 * body.count '(' + 4 * body.count '|' + 2 := by
  have hf := parse_finalized h
  obtain ⟨w1, w2, w3⟩ := walkComponent_costs p v c s hf
  obtain ⟨n1, n2, n3⟩ := noteComponent_costs (ε := ε) c bs hf
  refine ⟨w1, w2, w3, n1, n2, n3, dropComponent_calls c, fun l => ?_⟩
  obtain ⟨a, hw, hb', _, rfl⟩ := parse_tree h
  have := isBody_unique hb hb'
  subst this
  have hc := calls_alts l (litClass mode.caseless) a 1 hw
  have he : classes a.print = (a.print.filter (fun c => c != '(' && c != ')' && c != '|')).length := by
    unfold classes litChars
    congr 1
    refine List.filter_congr fun c _ => ?_
    by_cases h1 : c = '(' <;> by_cases h2 : c = ')' <;> by_cases h3 : c = '|' <;> simp [special, h1, h2, h3]
  rw [he] at hc
  rw [Alts.root, calls, callsSeq]
  omega

example : (match parse .release "a(b|c)".toList (ParseMode.new Flags.empty) with
    | .ok (c, _) => (calls 3 c, calls 1 c)
    | _ => (0, 0)) = (17, 11) := by decide +kernel

/-- C103: an expression that is made into a graph without looking for a literal takes exactly the steps of parsing it, noting
its positions, and dropping tree and graph. -/
theorem C103_graph (p : Profile) (ng ng' : Ng) (i : Nat) (e : Str) (f : Flags) (id : Nat) (c : Component) (m : ParseMode)
    (hoff : ng.cc.grey.allowLiteral = false) (hp : parse p e (ParseMode.new (f.and Flags.QUIET.not)) = .ok (c, m))
    (h : addExpression p ng i e f id = .ok ng') :
    (Work.addExpression p ng i e f id).2 =
      (Work.parse p e (ParseMode.new (f.and Flags.QUIET.not))).2 + calls 1 c + calls 3 c + (leaves c).length + 7 := by
  unfold addExpression at h
  unfold Work.addExpression
  split at h
  · cases h
  · rename_i hl
    rw [if_neg hl]
    obtain ⟨pe, hpe, h⟩ := bind_eq_ok h
    obtain ⟨m', hm', _⟩ := parsedExpression_ok hpe
    rw [hp] at hm'
    injection hm' with hm'
    injection hm' with hcc _
    obtain ⟨n1, n2⟩ := parsedNew_steps p i e f id
    rw [CallStack.prefilter_id] at h
    have hs : Rescan.shortcutLiteral p ng pe = .ok (ng, false) := by
      unfold Rescan.shortcutLiteral; rw [hoff]; rfl
    have hs' : Work.shortcutLiteral p ng pe = ret (.ok (ng, false)) := by
      unfold Work.shortcutLiteral; rw [hoff]; rfl
    dsimp only at h
    rw [hs] at h
    obtain ⟨b, hb, _⟩ := bind_eq_ok (show (Rescan.buildGraph p pe).bind _ = _ from h)
    obtain ⟨b1, _, b3⟩ := buildGraph_costs (ε := CompileError) p pe (by rw [← hcc]; exact parse_finalized hp)
    refine (bind_snd (n1.out.trans hpe)).trans ?_
    rw [n2 pe hpe, CallStack.prefilter_id]
    dsimp only
    rw [hs']
    have hg := bind_snd (f := fun built : NfaBuilder => steps (dropGraph built.graph.inner)
      (ret (ε := CompileError) (.ok (ng.addGraph built.expr built.graph)))) (b1.trans hb)
    show _ + (0 + (W.bind (Work.buildGraph p pe) fun built => steps (dropGraph built.graph.inner)
      (ret (ε := CompileError) (.ok (ng.addGraph built.expr built.graph)))).2 + dropComponent pe.component) = _
    rw [hg, b3 (by rw [hb]; rfl), dropComponent_calls, ← hcc]
    show _ + (0 + (_ + (0 + dropGraph b.graph.inner)) + _) = _
    rw [buildGraph_size hb, ← hcc]
    omega

/-- A `Grey` without literals. -/
def workGrey : Grey := { Grey.default with allowLiteral := false }

/-- An `Ng` for it. -/
def workNg : Ng := Ng.new ⟨false, false, workGrey⟩ 1 0

example : workNg.cc.grey.allowLiteral = false ∧
    (parse .release "a(b|c)".toList (ParseMode.new (Flags.empty.and Flags.QUIET.not))).isOk = true ∧
    (addExpression .release workNg 0 "a(b|c)".toList Flags.empty 1).isOk = true ∧
    (Work.addExpression .release workNg 0 "a(b|c)".toList Flags.empty 1).2 = 24 + 11 + 17 + 3 + 7 := by decide +kernel

/-- C103: an expression that is a literal, when no trie is kept, takes exactly the steps of parsing it, walking and dropping
its tree, and looking at its bytes once. -/
theorem C103_literal (p : Profile) (ng ng' : Ng) (i : Nat) (e : Str) (f : Flags) (id : Nat) (c : Component) (m : ParseMode)
    (lit : Ue2Literal) (hon : ng.cc.grey.allowLiteral = true) (hcut : ng.cc.grey.shortcutLiterals = true)
    (hsw : ng.smwr.poisoned = true) (hp : parse p e (ParseMode.new (f.and Flags.QUIET.not)) = .ok (c, m))
    (hw : walkComponent p constructLiteralVisitor Ue2Literal.default c = .ok lit) (hne : lit.isEmpty = false)
    (hmix : mixedSensitivity lit.iter = false) (hfan : Fans ng.smwr) (h : addExpression p ng i e f id = .ok ng') :
    (Work.addExpression p ng i e f id).2 =
      (Work.parse p e (ParseMode.new (f.and Flags.QUIET.not))).2 + calls 1 c + calls 3 c + lit.len := by
  unfold addExpression at h
  unfold Work.addExpression
  split at h
  · cases h
  · rename_i hl
    rw [if_neg hl]
    obtain ⟨pe, hpe, h⟩ := bind_eq_ok h
    obtain ⟨m', hm', _⟩ := parsedExpression_ok hpe
    rw [hp] at hm'
    injection hm' with hm'
    injection hm' with hcc _
    subst hcc
    obtain ⟨n1, n2⟩ := parsedNew_steps p i e f id
    rw [CallStack.prefilter_id] at h
    obtain ⟨⟨ng1, b⟩, hs, h⟩ := bind_eq_ok h
    obtain ⟨w1, _, w3⟩ := walkComponent_costs p constructLiteralVisitor pe.component Ue2Literal.default (parse_finalized hp)
    have hso := (shortcutLiteral_steps p ng pe e.length (parse_finalized hp) (fun lit hw => literal_len hp hw) hfan).1.out
    have key : b = true ∧ (Work.shortcutLiteral p ng pe).2 = calls 3 pe.component + lit.len := by
      unfold Rescan.shortcutLiteral at hs
      rw [hon, hw] at hs
      simp only [hne] at hs
      obtain ⟨idx, hi, hs⟩ := bind_eq_ok (show (ReportManager.toU32 (ε := CompileError) pe.expr.index _).bind _ = _ from hs)
      have hb : b = true := by
        unfold Ng.addLiteral at hs
        obtain ⟨_, _, hs⟩ := bind_eq_ok hs
        rw [hcut, hmix] at hs
        simp only [Bool.not_true, Bool.false_eq_true, if_false] at hs
        generalize ng.rm.registerExtReport pe.expr.report ⟨pe.expr.highlander, idx⟩ = y at hs
        obtain ⟨rm, x⟩ := y
        cases x with
        | error e => cases hs
        | ok _ =>
          obtain ⟨⟨rm2, rose, id⟩, _, hs⟩ := bind_eq_ok hs
          dsimp only at hs
          cases id with
          | error e => cases hs
          | ok id =>
            dsimp only at hs
            cases hd : Depth.tryFrom lit.len with
            | none => rw [hd] at hs; cases hs
            | some d =>
              rw [hd] at hs
              obtain ⟨sw, _, hs⟩ := bind_eq_ok hs
              cases hs; rfl
      refine ⟨hb, ?_⟩
      obtain ⟨_, _, _, g4⟩ := ngAddLiteral_grow hfan hs
      obtain ⟨sid, g5⟩ := g4 hb
      have hzero : (smallAddLiteral (ε := CompileError) ng.smwr lit sid).2 = 0 := by
        unfold smallAddLiteral
        rw [if_pos hsw]; rfl
      unfold Work.shortcutLiteral
      rw [hon]
      unfold thenDo
      rw [w1, hw, w3 (by rw [hw]; rfl)]
      simp only [hne]
      refine congrArg (calls 3 pe.component + ·) ?_
      refine (bind_snd (m := ret _) hi).trans ?_
      show 0 + (ngAddLiteral p ng lit idx pe.expr.report pe.expr.highlander pe.expr.som pe.expr.quiet).2 = _
      omega
    obtain ⟨hb, hk⟩ := key
    subst hb
    refine (bind_snd (n1.out.trans hpe)).trans ?_
    rw [n2 pe hpe, CallStack.prefilter_id]
    show _ + ((W.bind (Work.shortcutLiteral p ng pe) _).2 + dropComponent pe.component) = _
    rw [bind_snd (hso.trans hs)]
    show _ + ((Work.shortcutLiteral p ng pe).2 + 0 + dropComponent pe.component) = _
    rw [hk, dropComponent_calls]
    omega

/-- A `Grey` without small-write tries. -/
def workGrey2 : Grey := { Grey.default with allowSmallWrite := false }

/-- An `Ng` for it. -/
def workNg2 : Ng := Ng.new ⟨false, false, workGrey2⟩ 1 0

example : Fans workNg2.smwr := fans_new _ _

example : workNg2.cc.grey.allowLiteral = true ∧ workNg2.cc.grey.shortcutLiterals = true ∧ workNg2.smwr.poisoned = true ∧
    (match parse .release "a(bc)".toList (ParseMode.new (Flags.empty.and Flags.QUIET.not)) with
      | .ok (c, _) =>
        match walkComponent .release constructLiteralVisitor Ue2Literal.default c with
        | .ok lit => !lit.isEmpty && !mixedSensitivity lit.iter && lit.len == 3 && calls 3 c == 13 && calls 1 c == 7
        | _ => false
      | _ => false) = true ∧
    (addExpression .release workNg2 0 "a(bc)".toList Flags.empty 1).isOk = true ∧
    (Work.addExpression .release workNg2 0 "a(bc)".toList Flags.empty 1).2 = 23 + 7 + 13 + 3 := by decide +kernel

/-- C103: adding a literal to a trie in which edges lead to nodes and those from one node to nodes with different bytes (so in
every trie the compiler makes) takes a step for each byte, at least, and at most 257: no node has more than 256 children. -/
theorem C103_trie {ε : Type} (lit : Ue2Literal) (r : Nat) (t t' : LitTrie) (b : Bool) (hlen : lit.s.length = lit.nocase.length)
    (h : Fan t) (hr : addToTrie (ε := ε) lit r t = .ok (t', b)) :
    (Work.addToTrie (ε := ε) lit r t).1 = .ok (t', b) ∧ lit.len ≤ (Work.addToTrie (ε := ε) lit r t).2 ∧
      (Work.addToTrie (ε := ε) lit r t).2 ≤ 257 * lit.len ∧ Fan t' ∧ dropTrie t' ≤ dropTrie t + 2 * lit.len + 1 := by
  obtain ⟨h1, h2⟩ := addToTrie_steps (ε := ε) lit r t h
  refine ⟨h1.out.trans hr, ?_, h1.most, h2 t' b hr⟩
  obtain ⟨d1, d2⟩ := descendAll_steps (ε := ε) (lit.iter.map (fun e => e.c)) (t, t.root) h
  obtain ⟨st, hst, _⟩ := bind_eq_ok hr
  obtain ⟨_, _, d3⟩ := d2 st hst
  have e : (lit.iter.map (fun e => e.c)).length = lit.len := by
    simp only [Ue2Literal.iter, Ue2Literal.len, List.length_map, List.length_zipWith]; omega
  rw [e] at d3
  refine Nat.le_trans d3 (Nat.le_trans (Nat.le_add_right _ _) (Nat.le_of_eq (bind_snd (d1.out.trans hst)).symm))

example : Fan LitTrie.default := fan_default

example : (addToTrie (ε := Empty) ⟨[97#8, 98#8], [false, false]⟩ 0 LitTrie.default).isOk = true ∧
    (Work.addToTrie (ε := Empty) ⟨[97#8, 98#8], [false, false]⟩ 0 LitTrie.default).2 = 2 := by decide +kernel

/-- C103: finding the child with a byte looks at the children up to and including the first one with it, at all of
them if there is none. -/
theorem C103_looked (t : LitTrie) (u : Nat) (c : U8) :
    (∀ vs : List Nat, (∀ v ∈ vs, (t.inner.nodes[v]?).map (·.c) ≠ some c) → Work.looked t u c vs = vs.length) ∧
    (∀ (l r : List Nat) (v : Nat), (∀ x ∈ l, (t.inner.nodes[x]?).map (·.c) ≠ some c) →
      (t.inner.nodes[v]?).map (·.c) = some c → Work.looked t u c (l ++ v :: r) = l.length + 1) := by
  have step : ∀ (v : Nat) (vs : List Nat), (t.inner.nodes[v]?).map (·.c) ≠ some c →
      Work.looked t u c (v :: vs) = 1 + Work.looked t u c vs := by
    intro v vs hv
    rw [Work.looked]
    cases hn : t.inner.nodes[v]? with
    | none => rfl
    | some w =>
      rw [hn] at hv
      have : (w.c == c) = false := by
        rw [beq_eq_false_iff_ne]
        rintro rfl
        exact hv rfl
      simp [this]
  constructor
  · intro vs
    induction vs with
    | nil => intro _; rfl
    | cons v vs ih =>
      intro h
      rw [step v vs (h v (by simp)), ih (fun x hx => h x (by simp [hx])), List.length_cons]
      omega
  · intro l
    induction l with
    | nil =>
      intro r v _ hv
      rw [List.nil_append, Work.looked]
      cases hn : t.inner.nodes[v]? with
      | none => rw [hn] at hv; cases hv
      | some w =>
        rw [hn] at hv
        injection hv with hv
        simp only at hv
        simp [hv]
    | cons x l ih =>
      intro r v h hv
      rw [List.cons_append, step x _ (h x (by simp)), ih r v (fun y hy => h y (by simp [hy])) hv, List.length_cons]
      omega

example : (match addToTrie (ε := Empty) ⟨[97#8, 98#8], [false, false]⟩ 0 LitTrie.default with
    | .ok (t, _) => match addToTrie (ε := Empty) ⟨[99#8], [false]⟩ 0 t with
      | .ok (t, _) => (t.inner.outgoing t.root, Work.looked t t.root 97#8 (t.inner.outgoing t.root),
          Work.looked t t.root 99#8 (t.inner.outgoing t.root), Work.looked t t.root 98#8 (t.inner.outgoing t.root))
      | _ => ([], 0, 0, 0)
    | _ => ([], 0, 0, 0)) = ([3, 1], 2, 1, 2) := by decide +kernel

end Rescan
