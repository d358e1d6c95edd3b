import Verif.Props.Reference
/-! # C113: what the settings decide -/
namespace Rescan
open Spec

/-! ## Facts about the reference program -/

namespace Reference

theorem read_body {p : Profile} {text : Str} (h : Spec.Reference.read p text = .ok ()) : ∃ body, IsBody text body := by
  unfold Spec.Reference.read at h
  split at h
  · rename_i hv; exact ⟨text, .inl ⟨verb_none.1 hv, rfl⟩⟩
  · rename_i v body hv
    split at h
    · rename_i ho; exact ⟨body, .inr ⟨v, verb_some.1 hv, (obeyed_iff v).1 ho⟩⟩
    · split at h <;> cases h

/-- Only two limits and whether literals are looked for matter. -/
theorem addAll_congr (p : Profile) {g g' : Grey} (h1 : g'.limitPatternLength = g.limitPatternLength)
    (h2 : litsOn g' = litsOn g) : ∀ (es : List Expr) (seen : List Spec.Reference.Noted) (i : Nat),
    Spec.Reference.addAll p g' seen i es = Spec.Reference.addAll p g seen i es := by
  intro es
  have ha : ∀ seen i t f id, Spec.Reference.add p g' seen i t f id = Spec.Reference.add p g seen i t f id := by
    intro seen i t f id
    unfold litsOn at h2
    unfold Spec.Reference.add
    rw [h1, h2]
  induction es with
  | nil => intros; rfl
  | cons e es ih =>
    obtain ⟨t, f, id⟩ := e
    intro seen i
    unfold Spec.Reference.addAll
    rw [ha]
    cases Spec.Reference.add p g seen i t f id with
    | ok s => exact ih s (i + 1)
    | err x => rfl
    | panic m => rfl
    | timeout => rfl

/-- A larger limit changes the outcome only if a pattern longer than the smaller one is met. -/
theorem addAll_longer (p : Profile) {g g' : Grey} (h1 : g.limitPatternLength ≤ g'.limitPatternLength)
    (h2 : litsOn g' = litsOn g) : ∀ (es : List Expr) (seen : List Spec.Reference.Noted) (i : Nat),
    Spec.Reference.addAll p g' seen i es = Spec.Reference.addAll p g seen i es ∨
    ∃ k e, es[k]? = some e ∧ g.limitPatternLength < utf8Len e.1 ∧
      Spec.Reference.addAll p g seen i es = .err ⟨.other, "Pattern length exceeds limit.", some (i + k)⟩ := by
  intro es
  induction es with
  | nil => intros; exact .inl rfl
  | cons e es ih =>
    obtain ⟨t, f, id⟩ := e
    intro seen i
    by_cases hl : g.limitPatternLength < utf8Len t
    · refine .inr ⟨0, (t, f, id), rfl, hl, ?_⟩
      unfold Spec.Reference.addAll Spec.Reference.add
      rw [if_pos hl]; rfl
    · have ha : Spec.Reference.add p g' seen i t f id = Spec.Reference.add p g seen i t f id := by
        unfold litsOn at h2
        unfold Spec.Reference.add
        rw [if_neg (show ¬ utf8Len t > g'.limitPatternLength by omega), if_neg (show ¬ utf8Len t > g.limitPatternLength from hl), h2]
      unfold Spec.Reference.addAll
      rw [ha]
      cases Spec.Reference.add p g seen i t f id with
      | ok s =>
        rcases ih s (i + 1) with h | ⟨k, e, h3, h4, h5⟩
        · exact .inl h
        · refine .inr ⟨k + 1, e, h3, h4, ?_⟩
          show Spec.Reference.addAll p g s (i + 1) es = _
          rw [h5]; congr 3; omega
      | err x => exact .inl rfl
      | panic m => exact .inl rfl
      | timeout => exact .inl rfl

/-- Looking for literals changes the outcome only if two literal expressions are in conflict. -/
theorem addAll_shortcut (p : Profile) {g g' : Grey} (h1 : g'.limitPatternLength = g.limitPatternLength)
    (h2 : litsOn g' = false) : ∀ (es pre : List Expr) (seen : List Spec.Reference.Noted),
    (∀ x ∈ seen, ∃ a, pre[x.index]? = some a ∧ literalOf a ≠ none ∧ a.2.2 = x.id ∧
      a.2.1.contains .SINGLEMATCH = x.single) →
    Spec.Reference.addAll p g' [] pre.length es = Spec.Reference.addAll p g seen pre.length es ∨
    ∃ i j, Conflict (pre ++ es) i j ∧ (Spec.Reference.addAll p g seen pre.length es =
      if p = .debug then .panic "assertion failed: self.index.is_none()"
      else .err ⟨.other, (match (pre ++ es)[i]?, (pre ++ es)[j]? with
        | some a, some b => conflictText j b ⟨i, [], a.2.2, a.2.1.contains .SINGLEMATCH⟩
        | _, _ => ""), some j⟩) := by
  intro es
  induction es with
  | nil => intros; exact .inl rfl
  | cons e es ih =>
    obtain ⟨t, f, id⟩ := e
    intro pre seen hseen
    have hoff : Spec.Reference.add p g' [] pre.length t f id =
        if utf8Len t > g.limitPatternLength then .err ⟨.other, "Pattern length exceeds limit.", some pre.length⟩
        else if f.contains .QUIET && f.contains .SOM_LEFTMOST then
          .err ⟨.other, "QUIET is not supported in combination with SOM_LEFTMOST.", some pre.length⟩
        else match Spec.Reference.read p t with
          | .err e => .err { e with index := some pre.length }
          | .panic m => .panic m
          | .timeout => .timeout
          | .ok () => .ok [] := by
      unfold litsOn at h2
      unfold Spec.Reference.add
      rw [h1, h2]
      rfl
    have hstep : ∀ seen', (∀ x ∈ seen', ∃ a, (pre ++ [(t, f, id)])[x.index]? = some a ∧ literalOf a ≠ none ∧
        a.2.2 = x.id ∧ a.2.1.contains .SINGLEMATCH = x.single) →
        Spec.Reference.addAll p g' [] (pre.length + 1) es = Spec.Reference.addAll p g seen' (pre.length + 1) es ∨
        ∃ i j, Conflict (pre ++ (t, f, id) :: es) i j ∧ (Spec.Reference.addAll p g seen' (pre.length + 1) es =
          if p = .debug then .panic "assertion failed: self.index.is_none()"
          else .err ⟨.other, (match (pre ++ (t, f, id) :: es)[i]?, (pre ++ (t, f, id) :: es)[j]? with
            | some a, some b => conflictText j b ⟨i, [], a.2.2, a.2.1.contains .SINGLEMATCH⟩
            | _, _ => ""), some j⟩) := by
      intro seen' hs'
      have := ih (pre ++ [(t, f, id)]) seen' hs'
      rw [List.append_assoc, List.length_append] at this
      exact this
    have hkeep : ∀ x ∈ seen, ∃ a, (pre ++ [(t, f, id)])[x.index]? = some a ∧ literalOf a ≠ none ∧
        a.2.2 = x.id ∧ a.2.1.contains .SINGLEMATCH = x.single := by
      intro x hx
      obtain ⟨a, ha, hb⟩ := hseen x hx
      have hlt : x.index < pre.length := (List.getElem?_eq_some_iff.1 ha).1
      exact ⟨a, by rw [List.getElem?_append_left hlt]; exact ha, hb⟩
    unfold Spec.Reference.addAll
    rw [hoff]
    unfold Spec.Reference.add
    dsimp only
    by_cases hl : utf8Len t > g.limitPatternLength
    · rw [if_pos hl, if_pos hl]; exact .inl rfl
    · rw [if_neg hl, if_neg hl]
      by_cases hq : (f.contains .QUIET && f.contains .SOM_LEFTMOST) = true
      · rw [if_pos hq, if_pos hq]; exact .inl rfl
      · rw [if_neg hq, if_neg hq]
        cases hr : Spec.Reference.read p t with
        | err x => exact .inl rfl
        | panic m => exact .inl rfl
        | timeout => exact .inl rfl
        | ok u =>
          dsimp only
          by_cases hon : (g.allowLiteral && g.shortcutLiterals && Spec.Reference.isLiteral t) = true
          · rw [if_pos hon]
            obtain ⟨body, hb⟩ := read_body hr
            have hlit : literalOf (t, f, id) ≠ none := (isLiteral_iff hb).1 (by
              have h3 := hon
              simp only [Bool.and_eq_true] at h3
              exact h3.2)
            cases hf : seen.find? (fun x => x.id == id) with
            | none =>
              dsimp only
              refine hstep _ ?_
              intro x hx
              rcases List.mem_append.1 hx with hx | hx
              · exact hkeep x hx
              · rw [List.mem_singleton] at hx
                subst hx
                exact ⟨(t, f, id), by simp, hlit, rfl, rfl⟩
            | some old =>
              dsimp only
              by_cases hs : old.single = f.contains .SINGLEMATCH
              · rw [if_pos hs]; exact hstep seen hkeep
              · rw [if_neg hs]
                right
                obtain ⟨a, ha, hla, hid, hsm⟩ := hseen old (List.mem_of_find?_eq_some hf)
                have hlt : old.index < pre.length := (List.getElem?_eq_some_iff.1 ha).1
                have hoid : old.id = id := by simpa using List.find?_some hf
                have ha' : (pre ++ (t, f, id) :: es)[old.index]? = some a := by
                  rw [List.getElem?_append_left hlt]; exact ha
                have hb' : (pre ++ (t, f, id) :: es)[pre.length]? = some (t, f, id) := by simp
                refine ⟨old.index, pre.length, ⟨a, (t, f, id), hlt, ha', hb', hla, hlit, by rw [hid, hoid],
                  by rw [hsm]; exact hs⟩, ?_⟩
                rw [ha', hb']
                by_cases hp : p = .debug
                · rw [if_pos hp, if_pos hp]
                · rw [if_neg hp, if_neg hp]
                  dsimp only
                  unfold conflictText Spec.Reference.disagreement
                  rw [hsm]
          · rw [if_neg hon]
            exact hstep seen hkeep

end Reference

/-! ## A report limit of 0 -/

/-- With a report limit of 0 the first literal is refused. -/
theorem addLiteral_refused (p : Profile) (cc : CompileContext) (np som : Nat) (h0 : cc.grey.limitReportCount = 0)
    (hg : cc.grey.shortcutLiterals = true) (i : Nat) (es : List (U8 × Bool)) (id : Nat) (single quiet : Bool)
    (hne : es ≠ []) (hmix : mixedSensitivity (litOf es).iter = false) :
    (Ng.new cc np som).addLiteral p (litOf es) i id single .none quiet
      = .err ⟨.resourceLimit, "Resource limit exceeded.", none⟩ := by
  have hne' : (!(litOf es).isEmpty) = true := by
    cases es with
    | nil => exact absurd rfl hne
    | cons a es => rfl
  unfold Ng.addLiteral
  rw [hne', rdebugAssert_true]
  show (if _ then _ else _) = _
  have hg' : (Ng.new cc np som).cc.grey.shortcutLiterals = true := hg
  rw [hg', if_neg (by simp), if_neg (by simp [hmix])]
  have hint : ∀ (rm : ReportManager) (r : Report), rm.limitReportCount = 0 → rm.reportIdToInternalMap = [] →
      rm.getInternalId r = .ok (rm, .error (CompileError.new .resourceLimit "Resource limit exceeded.")) := by
    intro rm r h1 h2
    unfold ReportManager.getInternalId
    rw [h2, h1]
    rfl
  obtain ⟨rm1, hr, hr1, hr2, hr3⟩ : ∃ rm1, (Ng.new cc np som).rm.registerExtReport id ⟨single, i⟩ = (rm1, .ok ()) ∧
      rm1.limitReportCount = 0 ∧ rm1.reportIdToInternalMap = [] ∧ rm1.toExhaustibleKeyMap = [] := by
    cases single with
    | false => exact ⟨_, rfl, h0, rfl, rfl⟩
    | true => exact ⟨_, rfl, h0, rfl, rfl⟩
  rw [hr]
  cases single with
  | false =>
    show ((Ng.lift (rm1.getInternalId _)).bind _).bind _ = _
    rw [hint rm1 _ hr1 hr2]
    rfl
  | true =>
    have hk : rm1.getExhaustibleKey (ε := CompileError) id
        = .ok ({ rm1 with toExhaustibleKeyMap := [((id : Int), 0)] }, 0) := by
      unfold ReportManager.getExhaustibleKey
      rw [hr3]
      rfl
    show (((rm1.getExhaustibleKey id).bind _).bind _).bind _ = _
    rw [hk]
    show ((Ng.lift (ReportManager.getInternalId _ _)).bind _).bind _ = _
    rw [hint { rm1 with toExhaustibleKeyMap := [((id : Int), 0)] } _ hr1 hr2]
    rfl

/-- An invalid expression fails in a way that depends on nothing but the length limit. -/
theorem addExpression_unchecked (p : Profile) {ng ng' : Ng}
    (hl : ng'.cc.grey.limitPatternLength = ng.cc.grey.limitPatternLength) (i : Nat) (e : Expr)
    (hv : ¬ Valid p ng.cc.grey.limitPatternLength e) :
    addExpression p ng' i e.1 e.2.1 e.2.2 = addExpression p ng i e.1 e.2.1 e.2.2 := by
  unfold addExpression
  rw [hl]
  by_cases hlen : utf8Len e.1 > ng.cc.grey.limitPatternLength
  · rw [if_pos hlen, if_pos hlen]
  · rw [if_neg hlen, if_neg hlen]
    cases hpe : ParsedExpression.new p i e.1 e.2.1 e.2.2 with
    | ok pe =>
      exfalso
      obtain ⟨m, h1, h2, _⟩ := parsedExpression_ok hpe
      refine hv ⟨by omega, fun h => ?_, (parse_ok_iff p e.1 (ParseMode.new (e.2.1.and Flags.QUIET.not))).1 (by rw [h1]; rfl)⟩
      rw [(contains_or_iff _ _ _).2 h] at h2
      cases h2
    | err x => exact rfl
    | panic x => exact rfl
    | timeout => exact rfl

/-- Adding expressions to a new `Ng` whose report limit is 0: at the first literal it fails, before it all is as
without literals. -/
theorem addAll_no_reports (p : Profile) (cc cc' : CompileContext) (np som : Nat) (h0 : cc.grey.limitReportCount = 0)
    (hon : litsOn cc.grey = true) (hb : cc'.streaming = cc.streaming ∧ cc'.vectored = cc.vectored)
    (hsame : cc'.grey.limitPatternLength = cc.grey.limitPatternLength)
    (hlen : cc.grey.limitPatternLength ≤ 2 ^ 31 - 5) : ∀ (es : List Expr) (i : Nat), i + es.length ≤ 2 ^ 32 →
    (∀ j e, es[j]? = some e → literalOf e ≠ none → Valid p cc.grey.limitPatternLength e →
      (∀ k e', k < j → es[k]? = some e' → Valid p cc.grey.limitPatternLength e' ∧ literalOf e' = none) →
      addAll p i (Ng.new cc np som) es = .err ⟨.resourceLimit, "Resource limit exceeded.", some (i + j)⟩) ∧
    ((∀ j e, es[j]? = some e → literalOf e ≠ none → Valid p cc.grey.limitPatternLength e →
      ∃ (k : Nat) (e' : Expr), k < j ∧ es[k]? = some e' ∧ ¬ (Valid p cc.grey.limitPatternLength e' ∧ literalOf e' = none)) →
      (addAll p i (Ng.new cc np som) es).bind (fun ng => .ok (build ng))
        = (addAll p i (Ng.new cc' np som) es).bind (fun ng => .ok (build ng))) := by
  intro es
  induction es with
  | nil =>
    intro i _
    refine ⟨fun j e he => by simp at he, fun _ => ?_⟩
    obtain ⟨_, _, _⟩ := cc
    obtain ⟨_, _, _⟩ := cc'
    obtain ⟨rfl, rfl⟩ := hb
    rfl
  | cons e es ih =>
    intro i hi
    rw [List.length_cons] at hi
    have hcc : (Ng.new cc np som).cc = cc := rfl
    have hcc' : (Ng.new cc' np som).cc = cc' := rfl
    by_cases hv : Valid p cc.grey.limitPatternLength e
    · obtain ⟨hlit, hrest⟩ := addExpression_shape p (ng := Ng.new cc np som) hlen i (by omega) e hv
      obtain ⟨_, hrest'⟩ := addExpression_shape p (ng := Ng.new cc' np som) (by rw [hcc', hsame]; exact hlen) i
        (by omega) e (by rw [hcc', hsame]; exact hv)
      cases hl : literalOf e with
      | none =>
        obtain ⟨ih1, ih2⟩ := ih (i + 1) (by omega)
        have s1 : addAll p i (Ng.new cc np som) (e :: es) = addAll p (i + 1) (Ng.new cc np som) es := by
          show (match addExpression p _ i e.1 e.2.1 e.2.2 with | .ok _ => _ | .panic _ => _ | .timeout => _ | .err _ => _) = _
          rw [hrest (.inr hl)]
        have s2 : addAll p i (Ng.new cc' np som) (e :: es) = addAll p (i + 1) (Ng.new cc' np som) es := by
          show (match addExpression p _ i e.1 e.2.1 e.2.2 with | .ok _ => _ | .panic _ => _ | .timeout => _ | .err _ => _) = _
          rw [hrest' (.inr hl)]
        rw [s1, s2]
        constructor
        · intro j e1 he1 hl1 hv1 hb
          cases j with
          | zero =>
            injection he1 with he1
            subst he1
            exact absurd hl hl1
          | succ j =>
            rw [ih1 j e1 he1 hl1 hv1 (fun k e' hk he' => hb (k + 1) e' (by omega) he')]
            congr 3; omega
        · intro hno
          apply ih2
          intro j e1 he1 hl1 hv1
          obtain ⟨k, e', hk, he', hb⟩ := hno (j + 1) e1 he1 hl1 hv1
          cases k with
          | zero =>
            injection he' with he'
            subst he'
            exact absurd ⟨hv, hl⟩ hb
          | succ k => exact ⟨k, e', by omega, he', hb⟩
      | some els =>
        constructor
        · intro j e1 he1 hl1 hv1 hb
          cases j with
          | succ j =>
            have := (hb 0 e (by omega) rfl).2
            rw [hl] at this; cases this
          | zero =>
            obtain ⟨hne, _, hmix, x, g, hadd⟩ := hlit els hon hl
            have hsc : cc.grey.shortcutLiterals = true := by
              unfold litsOn at hon; simp only [Bool.and_eq_true] at hon; exact hon.2
            rw [addLiteral_refused p cc np som h0 hsc i els _ _ _ hne hmix] at hadd
            show (match addExpression p _ i e.1 e.2.1 e.2.2 with | .ok _ => _ | .panic _ => _ | .timeout => _ | .err _ => _) = _
            rw [hadd]
            show (ReportManager.toU32 i _).bind _ = _
            rw [ReportManager.toU32_ok _ _ (by omega)]
            cases p <;> rfl
        · intro hno
          obtain ⟨k, e', hk, _⟩ := hno 0 e rfl (by rw [hl]; simp) hv
          omega
    · constructor
      · intro j e1 he1 hl1 hv1 hb
        cases j with
        | zero =>
          injection he1 with he1
          subst he1
          exact absurd hv1 hv
        | succ j => exact absurd (hb 0 e (by omega) rfl).1 hv
      · intro _
        have h1 := addExpression_unchecked p (ng := Ng.new cc np som) (ng' := Ng.new cc' np som) hsame i e hv
        show Outcome.bind (match addExpression p _ i e.1 e.2.1 e.2.2 with
          | .ok _ => _ | .panic _ => _ | .timeout => _ | .err _ => _) _ = Outcome.bind (match addExpression p _ i e.1 e.2.1 e.2.2 with
          | .ok _ => _ | .panic _ => _ | .timeout => _ | .err _ => _) _
        rw [h1]

/-! ## The settings -/

/-- C113: with settings in their ranges the outcome of compiling depends on the two pattern limits and on whether
literals are looked for at all, and on nothing else. -/
theorem C113_depends (p : Profile) (es : List Str) (fs : List Flags) (ids : List Nat) (mode : Mode) (g g' : Grey)
    (hs : Sane g) (hs' : Sane g') (h1 : g'.limitPatternCount = g.limitPatternCount)
    (h2 : g'.limitPatternLength = g.limitPatternLength)
    (h3 : (g'.allowLiteral && g'.shortcutLiterals) = (g.allowLiteral && g.shortcutLiterals)) :
    compileMultiInt p es fs ids mode g' = compileMultiInt p es fs ids mode g := by
  rw [C105_reference p es fs ids mode g hs, C105_reference p es fs ids mode g' hs']
  unfold Spec.Reference.compile
  rw [h1, Reference.addAll_congr p h2 h3]

example := C113_depends .debug ["ab".toList, "(c".toList] [.empty, .CASELESS] [1, 1] .block
  { Grey.default with allowLiteral := false, allowSmallWrite := false, limitReportCount := 1 }
  { Grey.default with shortcutLiterals := false, floodAsPuffette := true, smallWriteMaxPatterns := 0 }
  (by constructor <;> decide) (by constructor <;> decide) rfl rfl rfl

/-- C113: larger limits change the outcome only where the smaller one was the reason: too many patterns, or a
pattern too long, which is then named. -/
theorem C113_larger_limits (p : Profile) (es : List Str) (fs : List Flags) (ids : List Nat) (mode : Mode) (g g' : Grey)
    (hs : Sane g) (hs' : Sane g') (h1 : g.limitPatternCount ≤ g'.limitPatternCount)
    (h2 : g.limitPatternLength ≤ g'.limitPatternLength)
    (h3 : (g'.allowLiteral && g'.shortcutLiterals) = (g.allowLiteral && g.shortcutLiterals)) :
    compileMultiInt p es fs ids mode g' = compileMultiInt p es fs ids mode g ∨
    (g.limitPatternCount < es.length ∧
      compileMultiInt p es fs ids mode g = .err ⟨.other, "Number of patterns too large", none⟩) ∨
    ∃ j e, (given es fs ids)[j]? = some e ∧ g.limitPatternLength < utf8Len e.1 ∧
      compileMultiInt p es fs ids mode g = .err ⟨.other, "Pattern length exceeds limit.", some j⟩ := by
  rw [C105_reference p es fs ids mode g hs, C105_reference p es fs ids mode g' hs']
  unfold Spec.Reference.compile
  by_cases he : es = []
  · rw [if_pos he, if_pos he]; exact .inl rfl
  · rw [if_neg he, if_neg he]
    by_cases hn : es.length > g.limitPatternCount
    · rw [if_pos hn]; exact .inr (.inl ⟨hn, rfl⟩)
    · rw [if_neg hn, if_neg (by omega)]
      rcases Reference.addAll_longer p h2 h3 (es.zip (fs.zip ids)) [] 0 with h | ⟨k, e, h4, h5, h6⟩
      · rw [h]; exact .inl rfl
      · refine .inr (.inr ⟨k, e, h4, h5, ?_⟩)
        rw [h6, Nat.zero_add]; rfl

/-- Both limits do refuse what larger ones accept. -/
example : Sane Grey.default ∧ Sane { Grey.default with limitPatternCount := 1 } ∧
    Sane { Grey.default with limitPatternLength := 1 } ∧
    (compileMultiInt .debug ["ab".toList, "c".toList] [.empty, .empty] [1, 1] .block Grey.default).isOk = true ∧
    (compileMultiInt .debug ["ab".toList, "c".toList] [.empty, .empty] [1, 1] .block
      { Grey.default with limitPatternCount := 1 }).isOk = false ∧
    (compileMultiInt .debug ["ab".toList, "c".toList] [.empty, .empty] [1, 1] .block
      { Grey.default with limitPatternLength := 1 }).isOk = false :=
  ⟨sane_default, by constructor <;> decide, by constructor <;> decide, by decide +kernel, by decide +kernel,
    by decide +kernel⟩

/-- C113: not looking for literals changes the outcome only where two literal expressions with the same id
disagreed about SINGLEMATCH. -/
theorem C113_no_literals (p : Profile) (es : List Str) (fs : List Flags) (ids : List Nat) (mode : Mode) (g g' : Grey)
    (hs : Sane g) (hs' : Sane g') (h1 : g'.limitPatternCount = g.limitPatternCount)
    (h2 : g'.limitPatternLength = g.limitPatternLength)
    (h3 : (g'.allowLiteral && g'.shortcutLiterals) = false) :
    compileMultiInt p es fs ids mode g' = compileMultiInt p es fs ids mode g ∨
    ∃ i j a b, Conflict (given es fs ids) i j ∧ (given es fs ids)[i]? = some a ∧ (given es fs ids)[j]? = some b ∧
      compileMultiInt p es fs ids mode g =
        if p = .debug then .panic "assertion failed: self.index.is_none()"
        else .err ⟨.other, conflictText j b ⟨i, [], a.2.2, a.2.1.contains .SINGLEMATCH⟩, some j⟩ := by
  rw [C105_reference p es fs ids mode g hs, C105_reference p es fs ids mode g' hs']
  unfold Spec.Reference.compile
  by_cases he : es = []
  · rw [if_pos he, if_pos he]; exact .inl rfl
  · rw [if_neg he, if_neg he, h1]
    by_cases hn : es.length > g.limitPatternCount
    · rw [if_pos hn, if_pos hn]; exact .inl rfl
    · rw [if_neg hn, if_neg hn]
      rcases Reference.addAll_shortcut p h2 h3 (es.zip (fs.zip ids)) [] [] (fun _ h => nomatch h) with
        h | ⟨i, j, h4, h5⟩
      · left
        replace h : Spec.Reference.addAll p g' [] 0 (es.zip (fs.zip ids)) = Spec.Reference.addAll p g [] 0 (es.zip (fs.zip ids)) := h
        rw [h]
      · right
        rw [List.nil_append] at h4 h5
        obtain ⟨a, b, h6, ha, hb, h7⟩ := id h4
        refine ⟨i, j, a, b, h4, ha, hb, ?_⟩
        rw [ha, hb] at h5
        replace h5 : Spec.Reference.addAll p g [] 0 (es.zip (fs.zip ids)) = _ := h5
        rw [h5]
        by_cases hp : p = .debug
        · rw [if_pos hp, if_pos hp]; rfl
        · rw [if_neg hp, if_neg hp]; rfl

/-- Two expressions accepted only if literals are not looked for. -/
example : Sane { Grey.default with shortcutLiterals := false } ∧
    (compileMultiInt .release ["a".toList, "b".toList] [.SINGLEMATCH, .empty] [7, 7] .block
      { Grey.default with shortcutLiterals := false }).isOk = true ∧
    (compileMultiInt .release ["a".toList, "b".toList] [.SINGLEMATCH, .empty] [7, 7] .block Grey.default).isOk = false :=
  ⟨by constructor <;> decide, by decide +kernel, by decide +kernel⟩

/-- C113: what some settings accept is accepted with larger limits, and without looking for literals. -/
theorem C113_monotone (p : Profile) (es : List Str) (fs : List Flags) (ids : List Nat) (mode : Mode) (g g' : Grey)
    (hs : Sane g) (hs' : Sane g') (h1 : g.limitPatternCount ≤ g'.limitPatternCount)
    (h2 : g.limitPatternLength ≤ g'.limitPatternLength)
    (h3 : (g'.allowLiteral && g'.shortcutLiterals) = true → (g.allowLiteral && g.shortcutLiterals) = true)
    (hok : (compileMultiInt p es fs ids mode g).isOk = true) :
    compileMultiInt p es fs ids mode g' = compileMultiInt p es fs ids mode g := by
  obtain ⟨h4, h5, h6, h7⟩ := (C58_success_iff p es fs ids mode g hs).1 hok
  have hok' := (C58_success_iff p es fs ids mode g' hs').2
    ⟨h4, by omega, fun e he => ⟨Nat.le_trans (h6 e he).1 h2, (h6 e he).2⟩, fun h => h7 (h3 h)⟩
  rw [C105_reference p es fs ids mode g hs] at hok ⊢
  rw [C105_reference p es fs ids mode g' hs'] at hok' ⊢
  have hm : ∀ g : Grey, ((Spec.Reference.compile p es fs ids mode g).bind (fun m => Outcome.ok (ofMode m))).isOk = true →
      Spec.Reference.compile p es fs ids mode g = .ok (Spec.Reference.modeOf mode) := by
    intro g h
    unfold Spec.Reference.compile at h ⊢
    split at h
    · cases h
    · split at h
      · cases h
      · rename_i ha hb
        rw [if_neg ha, if_neg hb]
        cases hx : Spec.Reference.addAll p g [] 0 (es.zip (fs.zip ids)) with
        | ok u => rfl
        | err x => rw [hx] at h; cases h
        | panic m => rw [hx] at h; cases h
        | timeout => rw [hx] at h; cases h
  rw [hm g hok, hm g' hok']

example : ({ Grey.default with limitPatternLength := 2 } : Grey).limitPatternLength ≤ Grey.default.limitPatternLength ∧
    (compileMultiInt .debug ["ab".toList, "c".toList] [.empty, .empty] [1, 1] .block
      { Grey.default with limitPatternLength := 2 }).isOk = true := ⟨by decide, by decide +kernel⟩

/-- C113: a report limit of 0 refuses the first literal expression, and has no other effect: as long as there is
none, the outcome is that of not looking for literals. With any other limit (up to 2^32) see `C113_depends`. -/
theorem C113_no_reports (p : Profile) (es : List Str) (fs : List Flags) (ids : List Nat) (mode : Mode) (g : Grey)
    (h0 : g.limitReportCount = 0) (hs : Sane { g with limitReportCount := 1 }) (hon : litsOn g = true)
    (hne : es ≠ []) (hn : es.length ≤ g.limitPatternCount) :
    (∀ j e, (given es fs ids)[j]? = some e → literalOf e ≠ none → Valid p g.limitPatternLength e →
      (∀ k e', k < j → (given es fs ids)[k]? = some e' → Valid p g.limitPatternLength e' ∧ literalOf e' = none) →
      compileMultiInt p es fs ids mode g = .err ⟨.resourceLimit, "Resource limit exceeded.", some j⟩) ∧
    ((∀ j e, (given es fs ids)[j]? = some e → literalOf e ≠ none → Valid p g.limitPatternLength e →
      ∃ (k : Nat) (e' : Expr), k < j ∧ (given es fs ids)[k]? = some e' ∧ ¬ (Valid p g.limitPatternLength e' ∧ literalOf e' = none)) →
      compileMultiInt p es fs ids mode g
        = compileMultiInt p es fs ids mode { g with allowLiteral := false, limitReportCount := 1 }) := by
  have hcount : g.limitPatternCount ≤ 2 ^ 32 := hs.count
  have hlen : 0 + (es.zip (fs.zip ids)).length ≤ 2 ^ 32 := by rw [List.length_zip]; omega
  have hshow : ∀ g0 : Grey, es.length ≤ g0.limitPatternCount → compileMultiInt p es fs ids mode g0
      = (addAll p 0 (Ng.new ⟨mode.isStreaming, mode.isVectored, g0⟩ es.length mode.somPrecision)
          (es.zip (fs.zip ids))).bind (fun ng => .ok (build ng)) := by
    intro g0 h
    rw [compileMultiInt_eq]
    unfold compileNg
    rw [if_neg (by simpa using hne), if_neg (by omega)]
    dsimp only
    rw [izip_eq]
  obtain ⟨h1, h2⟩ := addAll_no_reports p ⟨mode.isStreaming, mode.isVectored, g⟩
    ⟨mode.isStreaming, mode.isVectored, { g with allowLiteral := false, limitReportCount := 1 }⟩
    es.length mode.somPrecision h0 hon ⟨rfl, rfl⟩ rfl hs.length (es.zip (fs.zip ids)) 0 hlen
  constructor
  · intro j e he hl hv hb
    have := h1 j e he hl hv hb
    rw [hshow g hn, this, Nat.zero_add]
    rfl
  · intro hno
    rw [hshow g hn, hshow { g with allowLiteral := false, limitReportCount := 1 } hn]
    exact h2 hno

/-- A literal after an expression that is none, which succeeds if there may be a report, and two that are none. -/
example : Sane { Grey.default with limitReportCount := 1 } ∧ litsOn { Grey.default with limitReportCount := 0 } = true ∧
    literalOf ("a|b".toList, .empty, 3) = none ∧ literalOf ("ab".toList, .empty, 3) ≠ none ∧
    (compileMultiInt .debug ["a|b".toList, "ab".toList] [.empty, .empty] [3, 3] .block
      { Grey.default with limitReportCount := 1 }).isOk = true ∧
    (compileMultiInt .debug ["a|b".toList, "ab".toList] [.empty, .empty] [3, 3] .block
      { Grey.default with limitReportCount := 0 }).isOk = false ∧
    (compileMultiInt .debug ["a|b".toList, "".toList] [.empty, .empty] [3, 3] .block
      { Grey.default with limitReportCount := 0 }).isOk = true :=
  ⟨by constructor <;> decide, by decide, by decide +kernel, by decide +kernel, by decide +kernel, by decide +kernel,
    by decide +kernel⟩

/-- C113: with either setting off no literal is looked for, and compiling records nothing: no width, reports, ids or
keys, and tries that accept nothing. -/
theorem C113_nothing_recorded (p : Profile) (es : List Str) (fs : List Flags) (ids : List Nat) (mode : Mode) (g : Grey)
    (hs : Sane g) (hoff : (g.allowLiteral && g.shortcutLiterals) = false) (ng : Ng)
    (h : compileNg p es fs ids mode g = .ok ng) :
    ng.minWidth = Depth.infinity ∧ ng.rose.hasSom = false ∧ ng.rm.reportIds = [] ∧ ng.rm.reportIdToInternalMap = [] ∧
    ng.rm.externalIdMap = [] ∧ ng.rm.toExhaustibleKeyMap = [] ∧ ng.rm.globalExhaust = true ∧ ng.smwr.numLiterals = 0 ∧
    (ng.smwr.poisoned = true ↔ g.allowSmallWrite = false ∨ g.smallWriteMaxPatterns < es.length) ∧
    ∀ w, ¬ Accepts ng.smwr.litTrie w ∧ ¬ Accepts ng.smwr.litTrieNocase w := by
  rw [compileNg_idle hs hoff h]
  refine ⟨rfl, rfl, rfl, rfl, rfl, rfl, rfl, rfl, ?_, fun w => ?_⟩
  · show (!g.allowSmallWrite || decide (es.length > g.smallWriteMaxPatterns)) = true ↔ _
    rw [Bool.or_eq_true, decide_eq_true_eq, Bool.not_eq_true']
  · have : ¬ Accepts LitTrie.default w := by
      rw [holds_accepts LitTrie.stores_default.holds]
      rintro ⟨r, hr⟩
      simp at hr
    exact ⟨this, this⟩

example : (Grey.default.allowLiteral && { Grey.default with shortcutLiterals := false }.shortcutLiterals) = false ∧
    ∃ ng, compileNg .debug ["ab".toList, "c".toList] [.empty, .SINGLEMATCH] [1, 1] .block
      { Grey.default with shortcutLiterals := false } = .ok ng := ⟨rfl, Outcome.exists_of_isOk (by decide +kernel)⟩

end Rescan
