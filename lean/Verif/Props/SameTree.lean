import Verif.Props.DumpUnique
import Verif.Props.Compiled
/-! # C107: when two patterns are the same to the compiler -/
namespace Rescan
open Spec Dump

mutual
theorem build_mapItem {cls cls' : Char → ComponentClass} {f : Char → Char} : ∀ (i : Item) (k : Nat), i.Wf →
    (∀ c ∈ i.print, ¬ special c → cls c = cls' (f c)) → i.build cls k = (mapItem f i).build cls' k
  | .lit c, k, hw, h => by
    rw [mapItem, Item.build, Item.build, h c (by simp [Item.print]) hw]
  | .group a, k, hw, h => by
    rw [mapItem, Item.build, Item.build,
      build_mapAlts a (k + 1) hw (fun c hc => h c (by simp [Item.print, hc]))]
theorem build_mapSeq {cls cls' : Char → ComponentClass} {f : Char → Char} : ∀ (s : Seq) (k : Nat), s.Wf →
    (∀ c ∈ s.print, ¬ special c → cls c = cls' (f c)) → s.build cls k = (mapSeq f s).build cls' k
  | .nil, k, hw, h => by rw [mapSeq, Seq.build, Seq.build]
  | .cons i s, k, hw, h => by
    rw [mapSeq, Seq.build, Seq.build, build_mapItem i k hw.1 (fun c hc => h c (by simp [Seq.print, hc])),
      build_mapSeq s _ hw.2 (fun c hc => h c (by simp [Seq.print, hc]))]
theorem build_mapAlts {cls cls' : Char → ComponentClass} {f : Char → Char} : ∀ (a : Alts) (k : Nat), a.Wf →
    (∀ c ∈ a.print, ¬ special c → cls c = cls' (f c)) → a.build cls k = (mapAlts f a).build cls' k
  | .one s, k, hw, h => by
    rw [mapAlts, Alts.build, Alts.build]
    exact build_mapSeq s k hw (fun c hc => h c (by simp [Alts.print, hc]))
  | .more s a, k, hw, h => by
    rw [mapAlts, Alts.build, Alts.build, build_mapSeq s k hw.1 (fun c hc => h c (by simp [Alts.print, hc])),
      build_mapBranches a _ hw.2 (fun c hc => h c (by simp [Alts.print, hc]))]
theorem build_mapBranches {cls cls' : Char → ComponentClass} {f : Char → Char} : ∀ (a : Alts) (k : Nat), a.Wf →
    (∀ c ∈ a.print, ¬ special c → cls c = cls' (f c)) → a.branches cls k = (mapAlts f a).branches cls' k
  | .one s, k, hw, h => by
    rw [mapAlts, Alts.branches, Alts.branches,
      build_mapSeq s k hw (fun c hc => h c (by simp [Alts.print, hc]))]
  | .more s a, k, hw, h => by
    rw [mapAlts, Alts.branches, Alts.branches,
      build_mapSeq s k hw.1 (fun c hc => h c (by simp [Alts.print, hc])),
      build_mapBranches a _ hw.2 (fun c hc => h c (by simp [Alts.print, hc]))]
end

mutual
/-- If no class of the tree is one a literal could have been turned into, there are no literals. -/
theorem no_lit_item {cls : Char → ComponentClass} {Q : AsciiComponentClass → Prop}
    (h : ∀ c a, cls c = .ascii a → ¬ Q a) : ∀ (i : Item) (k : Nat), Nice Q (i.build cls k).1 →
    ∀ c ∈ i.print, special c
  | .lit c, k, hn => by
    rw [Item.build] at hn
    cases hc : cls c with
    | ascii a => rw [hc] at hn; exact absurd hn (h c a hc)
  | .group a, k, hn => by
    rw [Item.build] at hn
    intro c hc
    simp only [Item.print, List.cons_append, List.mem_cons, List.mem_append, List.not_mem_nil, or_false] at hc
    rcases hc with rfl | hc | rfl
    · exact .inl rfl
    · exact no_lit_alts h a (k + 1) hn.2.2 c hc
    · exact .inr (.inl rfl)
theorem no_lit_seq {cls : Char → ComponentClass} {Q : AsciiComponentClass → Prop}
    (h : ∀ c a, cls c = .ascii a → ¬ Q a) : ∀ (s : Seq) (k : Nat), NiceComps Q (s.build cls k).1 →
    ∀ c ∈ s.print, special c
  | .nil, k, hn => by intro c hc; rw [Seq.print] at hc; cases hc
  | .cons i s, k, hn => by
    rw [Seq.build] at hn
    intro c hc
    rw [Seq.print, List.mem_append] at hc
    rcases hc with hc | hc
    · exact no_lit_item h i k hn.1 c hc
    · exact no_lit_seq h s _ hn.2 c hc
theorem no_lit_alts {cls : Char → ComponentClass} {Q : AsciiComponentClass → Prop}
    (h : ∀ c a, cls c = .ascii a → ¬ Q a) : ∀ (a : Alts) (k : Nat), NiceComps Q (a.build cls k).1 →
    ∀ c ∈ a.print, special c
  | .one s, k, hn => by
    rw [Alts.build] at hn
    rw [Alts.print]
    exact no_lit_seq h s k hn
  | .more s a, k, hn => by
    rw [Alts.build] at hn
    intro c hc
    rw [Alts.print, List.mem_append, List.mem_cons] at hc
    rcases hc with hc | rfl | hc
    · exact no_lit_seq h s k hn.1.1.2.2 c hc
    · exact .inr (.inr rfl)
    · exact no_lit_branches h a _ hn.1.2 c hc
theorem no_lit_branches {cls : Char → ComponentClass} {Q : AsciiComponentClass → Prop}
    (h : ∀ c a, cls c = .ascii a → ¬ Q a) : ∀ (a : Alts) (k : Nat), NiceSeqs Q (a.branches cls k).1 →
    ∀ c ∈ a.print, special c
  | .one s, k, hn => by
    rw [Alts.branches] at hn
    rw [Alts.print]
    exact no_lit_seq h s k hn.1.2.2
  | .more s a, k, hn => by
    rw [Alts.branches] at hn
    intro c hc
    rw [Alts.print, List.mem_append, List.mem_cons] at hc
    rcases hc with hc | rfl | hc
    · exact no_lit_seq h s k hn.1.2.2 c hc
    · exact .inr (.inr rfl)
    · exact no_lit_branches h a _ hn.2 c hc
end

theorem litClass_upper (c : Char) (h : c.toNat < 128) : litClass true c = litClass true c.toUpper := by
  have key : ∀ n : Fin 128, litClass true (Char.ofNat n) = litClass true (Char.ofNat n).toUpper := by
    decide +kernel
  have := key ⟨c.toNat, h⟩
  simpa [Char.ofNat_toNat] using this

/-- The texts of two patterns are the same to a parser: letter for letter; up to capitals, if both are
caseless; and if only one is, there must not be any letters. -/
def SameText (k k' : Bool) (body body' : Str) : Prop :=
  match k, k' with
  | true, true => body.map Char.toUpper = body'.map Char.toUpper
  | false, false => body = body'
  | _, _ => body = body' ∧ ∀ c ∈ body, special c

instance (k k' : Bool) (body body' : Str) : Decidable (SameText k k' body body') := by
  unfold SameText; split <;> infer_instance

theorem map_special {s : Str} (h : ∀ c ∈ s, special c) : s.map Char.toUpper = s := by
  induction s with
  | nil => rfl
  | cons c s ih =>
    rw [List.map_cons, toUpper_special c (h c (by simp)), ih (fun d hd => h d (by simp [hd]))]

theorem special_of_map {s : Str} (ha : IsAscii s) (h : ∀ c ∈ s.map Char.toUpper, special c) :
    ∀ c ∈ s, special c := fun c hc => special_toUpper c (ha c hc) (h _ (List.mem_map_of_mem hc))

/-- A tree of literals of one case sensitivity is none of another, unless there are no literals. -/
theorem root_special {k k' : Bool} (hk : k ≠ k') {a b : Alts} (hb : IsAscii b.print)
    (h : a.root (litClass k) = b.root (litClass k')) : ∀ c ∈ a.print, special c := by
  unfold Alts.root at h
  injection h with h
  injection h with h
  refine no_lit_alts (cls := litClass k) (Q := fun x => x.mode.caseless = k') ?_ a 1 ?_
  · intro c x hx
    unfold litClass at hx
    injection hx with hx
    subst hx
    exact hk
  · rw [h]
    refine nice_alts ?_ b 1 hb
    intro c hc x hx
    unfold litClass at hx
    injection hx with hx
    subst hx
    rfl

/-- C107: two accepted patterns give the same tree if and only if their texts after any control verb are the
same, up to capitals if both are caseless; if only one of them is caseless they must not have any
literal characters. -/
theorem C107_same_tree (pr pr' : Profile) (ptr ptr' body body' : Str) (mode mode' : ParseMode)
    (c c' : Component) (m m' : ParseMode)
    (h : parse pr ptr mode = .ok (c, m)) (h' : parse pr' ptr' mode' = .ok (c', m'))
    (hb : IsBody ptr body) (hb' : IsBody ptr' body') :
    c = c' ↔ SameText mode.caseless mode'.caseless body body' := by
  have hd := C72_exact_partial pr pr' .release 4 (Nat.le_refl _) ptr ptr' body body' mode mode' c c' m m' h h' hb hb'
  obtain ⟨a, ⟨haw, hba, ha, rfl⟩, _⟩ := C30_parse_sound pr ptr mode c m (litClass mode.caseless)
    (fun c hc => litClass_spec mode.caseless c (by omega)) h
  obtain ⟨b, ⟨hbw, hbb, hb2, rfl⟩, _⟩ := C30_parse_sound pr' ptr' mode' c' m' (litClass mode'.caseless)
    (fun c hc => litClass_spec mode'.caseless c (by omega)) h'
  have e1 := isBody_unique hb hba
  have e2 := isBody_unique hb' hbb
  subst e1
  subst e2
  generalize mode.caseless = k at *
  generalize mode'.caseless = k' at *
  have heq : a.root (litClass k) = b.root (litClass k') → shownText k a.print = shownText k' b.print :=
    fun h => hd.1 (by rw [h])
  have same : a.print = b.print → (∀ c ∈ a.print, special c) →
      a.root (litClass k) = b.root (litClass k') := by
    intro hp hs
    have := print_inj a b haw hbw hp
    subst this
    have e := build_mapAlts (cls := litClass k) (cls' := litClass k') (f := id) a 1 haw
      (fun c hc hn => absurd (hs c hc) hn)
    have hid : mapAlts id a = a := by
      refine print_inj _ _ (mapAlts_wf (fun _ _ h => h) a ha haw) haw ?_
      rw [mapAlts_print (f := id) (fun _ _ => rfl), List.map_id]
    rw [hid] at e
    unfold Alts.root
    rw [e]
  cases k <;> cases k'
  · refine ⟨fun h => heq h, fun h => ?_⟩
    rw [print_inj a b haw hbw h]
  · refine ⟨fun h => ?_, fun h => same h.1 h.2⟩
    have hs := root_special (by decide) hb2 h
    have hs' := root_special (by decide) ha h.symm
    have := heq h
    simp only [shownText, Bool.false_eq_true, if_false, if_true] at this
    rw [map_special hs'] at this
    exact ⟨this, hs⟩
  · refine ⟨fun h => ?_, fun h => same h.1 h.2⟩
    have hs := root_special (by decide) hb2 h
    have := heq h
    simp only [shownText, Bool.false_eq_true, if_false, if_true] at this
    rw [map_special hs] at this
    exact ⟨this, hs⟩
  · refine ⟨fun h => heq h, fun h => ?_⟩
    have up : ∀ a : Alts, a.Wf → IsAscii a.print →
        a.root (litClass true) = (mapAlts Char.toUpper a).root (litClass true) := by
      intro a hw ha
      unfold Alts.root
      rw [build_mapAlts (cls := litClass true) (cls' := litClass true) (f := Char.toUpper) a 1 hw
        (fun c hc _ => litClass_upper c (ha c hc))]
    rw [up a haw ha, up b hbw hb2]
    have hm : mapAlts Char.toUpper a = mapAlts Char.toUpper b := by
      apply print_inj _ _ (mapAlts_wf special_toUpper a ha haw) (mapAlts_wf special_toUpper b hb2 hbw)
      rw [mapAlts_print toUpper_special, mapAlts_print toUpper_special]
      exact h
    rw [hm]

/-- Caseless: `(a|B)1` and `(*UTF8)(A|b)1`, but case sensitive they differ; and `(|)` whatever the case. -/
example : (parse .release "(a|B)1".toList caselessMode).isOk = true ∧
    (parse .release "(*UTF8)(A|b)1".toList caselessMode).isOk = true ∧
    IsBody "(a|B)1".toList "(a|B)1".toList ∧ IsBody "(*UTF8)(A|b)1".toList "(A|b)1".toList ∧
    SameText true true "(a|B)1".toList "(A|b)1".toList ∧
    ¬ SameText false false "(a|B)1".toList "(A|b)1".toList ∧
    ¬ SameText true false "(a|B)1".toList "(a|B)1".toList ∧ SameText true false "(|)".toList "(|)".toList := by
  refine ⟨by decide +kernel, by decide +kernel, .inl ⟨by rw [← controlVerb_none]; decide, rfl⟩,
    .inr ⟨['U', 'T', 'F', '8'], ⟨by decide, by decide, by decide⟩, by decide⟩, by decide, by decide, by decide,
    by decide⟩

/-- One expression of a list is another, or both are accepted, within the limit, and are the same to the parser. -/
def SameExpression (p : Profile) (g : Grey) (f : Flags) (t t' : Str) : Prop :=
  t = t' ∨ ∃ body body', IsBody t body ∧ IsBody t' body' ∧
    SameText (f.contains .CASELESS) (f.contains .CASELESS) body body' ∧
    utf8Len t ≤ g.limitPatternLength ∧ utf8Len t' ≤ g.limitPatternLength ∧
    (parse p t (ParseMode.new f)).isOk = true ∧ (parse p t' (ParseMode.new f)).isOk = true

/-- `SameExpression` at each position of two lists of expressions with the same flags. -/
inductive SameExpressions (p : Profile) (g : Grey) : List Flags → List Str → List Str → Prop
  | nil {fs : List Flags} : SameExpressions p g fs [] []
  | done {es es' : List Str} : SameExpressions p g [] es es'
  | cons {f : Flags} {fs : List Flags} {t t' : Str} {es es' : List Str} : SameExpression p g f t t' →
      SameExpressions p g fs es es' → SameExpressions p g (f :: fs) (t :: es) (t' :: es')

theorem parse_of_ok {p : Profile} {t : Str} {f : Flags} (h : (parse p t (ParseMode.new f)).isOk = true) :
    ∃ c m, parse p t (ParseMode.new (f.and Flags.QUIET.not)) = .ok (c, m) := by
  have h35 := C35_only_caseless_matters p t (ParseMode.new f) (ParseMode.new (f.and Flags.QUIET.not)) (by
    rw [C37_caseless_flag]; rfl)
  cases h1 : parse p t (ParseMode.new (f.and Flags.QUIET.not)) with
  | ok x => exact ⟨x.1, x.2, rfl⟩
  | _ =>
    cases h2 : parse p t (ParseMode.new f) with
    | ok x => rw [h1, h2] at h35; cases h35
    | _ => rw [h2] at h; cases h

theorem addExpression_same (p : Profile) (ng : Ng) (hs : Sane ng.cc.grey) (i : Nat) (t t' : Str) (f : Flags)
    (id : Nat) (h : SameExpression p ng.cc.grey f t t') :
    addExpression p ng i t f id = addExpression p ng i t' f id := by
  rcases h with rfl | ⟨body, body', hb, hb', hst, hl, hl', ho, ho'⟩
  · rfl
  · obtain ⟨c, m, hc⟩ := parse_of_ok ho
    obtain ⟨c', m', hc'⟩ := parse_of_ok ho'
    have e : c = c' := (C107_same_tree p p t t' body body' _ _ c c' m m' hc hc' hb hb').2 (by
      rw [C37_caseless_flag]; exact hst)
    subst e
    by_cases hqs : QuietSom f
    · have h : ∀ t, ParsedExpression.new p i t f id = .err (CompileError.new .other
          "QUIET is not supported in combination with SOM_LEFTMOST.") := by
        intro t
        unfold ParsedExpression.new
        simp only
        rw [if_pos ((contains_or_iff _ _ _).2 hqs)]
      unfold addExpression
      rw [if_neg (by omega), if_neg (by omega), h t, h t']
    · have h : ∀ t, ParsedExpression.new p i t f id =
          (parse p t (ParseMode.new (f.and Flags.QUIET.not))).bind (fun x => .ok
            ⟨{ index := i, report := id, allowVacuous := false, highlander := f.contains .SINGLEMATCH,
               utf8 := x.2.utf8, prefilter := f.contains .PREFILTER, som := .none,
               quiet := f.contains .QUIET }, x.1⟩) := by
        intro t
        unfold ParsedExpression.new
        simp only
        rw [if_neg (fun h => hqs ((contains_or_iff _ _ _).1 h))]
        rfl
      have h1 := h t
      have h2 := h t'
      rw [hc] at h1
      rw [hc'] at h2
      rw [addExpression_parsed p ng hs i t f id hl _ h1, addExpression_parsed p ng hs i t' f id hl' _ h2]
      exact congrArg (fun x => x.bind (fun x => .ok x.1))
        (shortcutLiteral_congr p ng _ _ rfl rfl rfl rfl rfl)

theorem addAll_same (p : Profile) : ∀ (es es' : List Str) (fs : List Flags) (ids : List Nat) (i : Nat)
    (ng : Ng), Sane ng.cc.grey → SameExpressions p ng.cc.grey fs es es' →
    addAll p i ng (given es fs ids) = addAll p i ng (given es' fs ids) := by
  intro es
  induction es with
  | nil => intro es' fs ids i ng hs h; cases h <;> first | rfl | (cases es' <;> rfl)
  | cons t es ih =>
    intro es' fs ids i ng hs h
    cases h with
    | done => cases es' <;> rfl
    | @cons f fs t t' es es' h1 h2 =>
      cases ids with
      | nil => rfl
      | cons id ids =>
        have hc := addExpression_same p ng hs i t t' f id h1
        show addAll p i ng ((t, f, id) :: given es fs ids) = addAll p i ng ((t', f, id) :: given es' fs ids)
        rw [addAll, addAll, ← hc]
        cases hr : addExpression p ng i t f id with
        | ok ng' =>
          have hcc := addExpression_cc p ng ng' hs i t f id hr
          exact ih es' fs ids (i + 1) ng' (by rw [hcc]; exact hs) (by rw [hcc]; exact h2)
        | err x => rfl
        | panic x => rfl
        | timeout => rfl

/-- C107: lists of as many expressions, the same to the parser pair by pair, compile alike: the result,
including errors, and all of the bookkeeping behind it. -/
theorem C107_same_compile (p : Profile) (es es' : List Str) (fs : List Flags) (ids : List Nat) (mode : Mode)
    (g : Grey) (hs : Sane g) (hlen : es.length = es'.length) (h : SameExpressions p g fs es es') :
    compileNg p es fs ids mode g = compileNg p es' fs ids mode g ∧
    compileMultiInt p es fs ids mode g = compileMultiInt p es' fs ids mode g := by
  have : compileNg p es fs ids mode g = compileNg p es' fs ids mode g := by
    unfold compileNg
    have : es.isEmpty = es'.isEmpty := by
      cases es <;> cases es' <;> simp at hlen ⊢
    rw [hlen, this]
    by_cases h1 : es'.isEmpty = true
    · rw [if_pos h1, if_pos h1]
    · rw [if_neg h1, if_neg h1]
      by_cases h2 : es'.length > g.limitPatternCount
      · rw [if_pos h2, if_pos h2]
      · rw [if_neg h2, if_neg h2, izip_eq, izip_eq]
        exact addAll_same p es es' fs ids 0
          (Ng.new ⟨mode.isStreaming, mode.isVectored, g⟩ es'.length mode.somPrecision) hs h
  exact ⟨this, by rw [compileMultiInt_eq, compileMultiInt_eq, this]⟩

/-- A case sensitive expression behind a control verb, and a caseless one in other capitals. -/
example : Sane Grey.default ∧
    SameExpressions .release Grey.default [⟨0#16⟩, .CASELESS] ["(a|B)1".toList, "xyZ".toList]
      ["(*UTF8)(a|B)1".toList, "Xyz".toList] := by
  refine ⟨sane_default, .cons (.inr ⟨"(a|B)1".toList, "(a|B)1".toList, ?_, ?_, ?_, ?_, ?_, ?_, ?_⟩)
    (.cons (.inr ⟨"xyZ".toList, "Xyz".toList, ?_, ?_, ?_, ?_, ?_, ?_, ?_⟩) .nil)⟩
  · exact .inl ⟨by rw [← controlVerb_none]; decide, rfl⟩
  · exact .inr ⟨['U', 'T', 'F', '8'], ⟨by decide, by decide, by decide⟩, by decide⟩
  · decide
  · decide
  · decide
  · decide +kernel
  · decide +kernel
  · exact .inl ⟨by rw [← controlVerb_none]; decide, rfl⟩
  · exact .inl ⟨by rw [← controlVerb_none]; decide, rfl⟩
  · decide
  · decide
  · decide
  · decide +kernel
  · decide +kernel

end Rescan
