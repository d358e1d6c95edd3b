import Verif.Proofs.ParserErr
/-! # C27-C35: the parser -/
namespace Rescan
open Spec

/-- The control verbs of src/parser/control_verbs.rs that are recognised but refused. -/
def RefusedVerb (v : Str) : Prop :=
  v ∈ ["NO_AUTO_POSSESS".toList, "NO_START_OPT".toList, "UTF16".toList, "UTF32".toList,
       "CR".toList, "LF".toList, "CRLF".toList, "ANYCRLF".toList, "ANY".toList,
       "BSR_ANYCRLF".toList, "BSR_UNICODE".toList] ∨
    (∃ t, v = "LIMIT_MATCH=".toList ++ t) ∨ (∃ t, v = "LIMIT_RECURSION=".toList ++ t)

/-- The control verbs that are accepted. -/
def AcceptedVerb (v : Str) : Prop := v = "UCP".toList ∨ v = "UTF8".toList ∨ v = "UTF".toList

theorem acceptedVerb_not_refused {v : Str} (h : AcceptedVerb v) : ¬ RefusedVerb v := by
  rintro (h2 | ⟨t, h2⟩ | ⟨t, h2⟩)
  · rcases h with rfl | rfl | rfl <;> revert h2 <;> decide
  · rcases h with rfl | rfl | rfl <;> simp at h2
  · rcases h with rfl | rfl | rfl <;> simp at h2

theorem limit_iff (v : Str) : ("LIMIT_MATCH=".toList.isPrefixOf v ||
    "LIMIT_RECURSION=".toList.isPrefixOf v) = true ↔
    (∃ t, v = "LIMIT_MATCH=".toList ++ t) ∨ (∃ t, v = "LIMIT_RECURSION=".toList ++ t) := by
  rw [Bool.or_eq_true, List.isPrefixOf_iff_prefix, List.isPrefixOf_iff_prefix]
  constructor
  · rintro (⟨t, h⟩ | ⟨t, h⟩)
    · exact .inl ⟨t, h.symm⟩
    · exact .inr ⟨t, h.symm⟩
  · rintro (⟨t, h⟩ | ⟨t, h⟩)
    · exact .inl ⟨t, h.symm⟩
    · exact .inr ⟨t, h.symm⟩

/-- C27: which patterns start with a control verb, and what is done about each verb. -/
theorem C27_control_verbs (input : Str) (start : Nat) (mode : ParseMode) :
    (NoVerb input → readControlVerbs input start mode = .ok (input, mode)) ∧
    ∀ v rest, HasVerb input v rest →
      (AcceptedVerb v → ∃ m, readControlVerbs input start mode = .ok (rest, m)) ∧
      (RefusedVerb v → readControlVerbs input start mode = .err ⟨.locatedParse,
        "Unsupported control verb " ++ String.ofList v ++ " at index " ++ toString (start + 2), none⟩) ∧
      (¬ AcceptedVerb v → ¬ RefusedVerb v → readControlVerbs input start mode = .err ⟨.locatedParse,
        "Unknown control verb " ++ String.ofList v ++ " at index " ++ toString (start + 2), none⟩) := by
  constructor
  · intro h
    unfold readControlVerbs
    rw [controlVerb_none.2 h]
  · intro v rest h
    unfold readControlVerbs
    rw [controlVerb_some.2 h]
    simp only
    refine ⟨?_, ?_, ?_⟩
    · rintro (rfl | rfl | rfl)
      · exact ⟨_, by rw [if_pos rfl]⟩
      · exact ⟨_, by rw [if_neg (by decide), if_pos (.inl rfl)]⟩
      · exact ⟨_, by rw [if_neg (by decide), if_pos (.inr rfl)]⟩
    · intro hr
      have hna : ¬ AcceptedVerb v := fun ha => acceptedVerb_not_refused ha hr
      unfold AcceptedVerb at hna
      rw [if_neg (fun e => hna (.inl e)), if_neg (fun e => hna (.inr e))]
      split
      · rfl
      · rename_i hm
        rw [if_pos]
        · rfl
        · rw [limit_iff]
          rcases hr with hr | hr
          · exact absurd hr hm
          · exact hr
    · intro hna hnr
      unfold AcceptedVerb at hna
      unfold RefusedVerb at hnr
      rw [if_neg (fun e => hna (.inl e)), if_neg (fun e => hna (.inr e)),
        if_neg (c := v ∈ unsupportedVerbs) (fun e => hnr (.inl e)), if_neg (fun e => hnr (.inr ((limit_iff v).1 e)))]
      rfl

example : HasVerb "(*UTF8)a".toList "UTF8".toList "a".toList ∧ AcceptedVerb "UTF8".toList ∧
    HasVerb "(*ANY)a".toList "ANY".toList "a".toList ∧ RefusedVerb "ANY".toList ∧
    RefusedVerb "LIMIT_MATCH=3".toList ∧ ¬ RefusedVerb "XXX".toList ∧ ¬ AcceptedVerb "XXX".toList ∧
    NoVerb "(*)a".toList := by
  refine ⟨⟨rfl, by decide, by decide⟩, .inr (.inl rfl), ⟨rfl, by decide, by decide⟩,
    .inl (by decide), .inr (.inl ⟨"3".toList, rfl⟩), ?_, ?_, ?_⟩
  · rintro (h | ⟨t, h⟩ | ⟨t, h⟩)
    · revert h; decide
    · simp at h
    · simp at h
  · unfold AcceptedVerb; decide
  · rw [← controlVerb_none]; decide

/-- C28: what reading a control verb may change. -/
theorem C28_control_verb_effects (input : Str) (start : Nat) (mode : ParseMode) (rest : Str)
    (m : ParseMode) (h : readControlVerbs input start mode = .ok (rest, m)) :
    (NoVerb input ∧ rest = input ∧ m = mode) ∨
    (HasVerb input "UCP".toList rest ∧ m = { mode with ucp := true }) ∨
    ((HasVerb input "UTF8".toList rest ∨ HasVerb input "UTF".toList rest) ∧
      m = { mode with utf8 := true }) := by
  by_cases hn : NoVerb input
  · rw [(C27_control_verbs input start mode).1 hn] at h
    injection h with h; injection h with h1 h2
    exact .inl ⟨hn, h1.symm, h2.symm⟩
  · cases hc : controlVerb input with
    | none => exact absurd (controlVerb_none.1 hc) hn
    | some x =>
      obtain ⟨rest', v⟩ := x
      have hv := controlVerb_some.1 hc
      have h27 := (C27_control_verbs input start mode).2 v rest' hv
      by_cases ha : AcceptedVerb v
      · unfold readControlVerbs at h
        rw [hc] at h
        simp only at h
        rcases ha with rfl | rfl | rfl
        · rw [if_pos rfl] at h
          injection h with h; injection h with h1 h2
          subst h1 h2; exact .inr (.inl ⟨hv, rfl⟩)
        · rw [if_neg (by decide), if_pos (.inl rfl)] at h
          injection h with h; injection h with h1 h2
          subst h1 h2; exact .inr (.inr ⟨.inl hv, rfl⟩)
        · rw [if_neg (by decide), if_pos (.inr rfl)] at h
          injection h with h; injection h with h1 h2
          subst h1 h2; exact .inr (.inr ⟨.inr hv, rfl⟩)
      · by_cases hr : RefusedVerb v
        · rw [h27.2.1 hr] at h; cases h
        · rw [h27.2.2 ha hr] at h; cases h

example : readControlVerbs "(*UTF)(*UCP)x".toList 0 ParseMode.default
    = .ok ("(*UCP)x".toList, { ParseMode.default with utf8 := true }) := by decide

/-- A pattern has at most one body. -/
theorem hasVerb_unique {p v rest v' rest' : Str} (h : HasVerb p v rest) (h' : HasVerb p v' rest') :
    v = v' ∧ rest = rest' := by
  have := controlVerb_some.2 h
  rw [controlVerb_some.2 h'] at this
  injection this with this; injection this with h1 h2
  exact ⟨h2.symm, h1.symm⟩

theorem isBody_unique {p b b' : Str} (h : IsBody p b) (h' : IsBody p b') : b = b' := by
  rcases h with ⟨hn, rfl⟩ | ⟨v, hv, _⟩
  · rcases h' with ⟨_, rfl⟩ | ⟨v, hv, _⟩
    · rfl
    · exact absurd hv (hn _ _)
  · rcases h' with ⟨hn, rfl⟩ | ⟨v', hv', _⟩
    · exact absurd hv (hn _ _)
    · exact (hasVerb_unique hv hv').2

/-- The mode after reading the control verb of `ptr`. -/
theorem parse_isBody {ptr body : Str} (h : IsBody ptr body) (pr : Profile) (mode : ParseMode) :
    ∃ m, m.caseless = mode.caseless ∧ readControlVerbs ptr 0 mode = .ok (body, m) ∧
      parse pr ptr mode = ((Context.new ptr body m).parse pr).bind
        (fun s => .ok (.sequence s, m)) := by
  have : ∃ m, m.caseless = mode.caseless ∧ readControlVerbs ptr 0 mode = .ok (body, m) := by
    rcases h with ⟨hn, rfl⟩ | ⟨v, hv, ha⟩
    · exact ⟨mode, rfl, (C27_control_verbs _ 0 mode).1 hn⟩
    · obtain ⟨m, hm⟩ := ((C27_control_verbs ptr 0 mode).2 v body hv).1 ha
      refine ⟨m, ?_, hm⟩
      rcases C28_control_verb_effects _ _ _ _ _ hm with ⟨_, _, rfl⟩ | ⟨_, rfl⟩ | ⟨_, rfl⟩ <;> rfl
  obtain ⟨m, h1, h2⟩ := this
  refine ⟨m, h1, h2, ?_⟩
  unfold parse
  rw [h2]; rfl

theorem isBody_len {ptr body : Str} (h : IsBody ptr body) :
    ∃ pre, ptr = pre ++ body ∧ (pre = [] ↔ body = ptr) := by
  rcases h with ⟨_, rfl⟩ | ⟨v, ⟨rfl, _, _⟩, _⟩
  · exact ⟨[], rfl, by simp⟩
  · refine ⟨_, rfl, ?_⟩
    constructor
    · intro h; simp at h
    · intro h
      have := congrArg List.length h
      simp at this; omega

/-- If there is no body the control verb is an error. -/
theorem parse_noBody {ptr : Str} (h : ∀ body, ¬ IsBody ptr body) (pr : Profile) (mode : ParseMode) :
    ∃ e, parse pr ptr mode = .err e ∧ e.kind = .locatedParse ∧ e.index = none := by
  have hnv : ¬ NoVerb ptr := fun hn => h ptr (.inl ⟨hn, rfl⟩)
  have : ∃ v rest, HasVerb ptr v rest := by
    cases hc : controlVerb ptr with
    | none => exact absurd (controlVerb_none.1 hc) hnv
    | some x => exact ⟨x.2, x.1, controlVerb_some.1 hc⟩
  obtain ⟨v, rest, hv⟩ := this
  have ha : ¬ AcceptedVerb v := fun ha => h rest (.inr ⟨v, hv, ha⟩)
  have h27 := (C27_control_verbs ptr 0 mode).2 v rest hv
  by_cases hr : RefusedVerb v
  · exact ⟨⟨.locatedParse, _, none⟩, by unfold parse; rw [h27.2.1 hr]; rfl, rfl, rfl⟩
  · exact ⟨⟨.locatedParse, _, none⟩, by unfold parse; rw [h27.2.2 ha hr]; rfl, rfl, rfl⟩

/-! ## Accepted patterns -/

theorem bind_isOk {α β : Type} (r : Res α) (f : α → β) :
    (r.bind (fun a => .ok (f a))).isOk = r.isOk := by
  cases r <;> rfl

theorem bind_isPanic {α β : Type} (r : Res α) (f : α → β) :
    (r.bind (fun a => .ok (f a))).isPanic = r.isPanic := by
  cases r <;> rfl

theorem ascii_cases (ptr body : Str) (m : ParseMode) (ha : IsAscii body) :
    (Balanced body ∧ ∃ s, (Context.new ptr body m).parse .release = .ok s) ∨
    (¬ PrefixOk 0 body ∧ (Context.new ptr body m).parse .release = .err Context.unmatched) ∨
    (PrefixOk 0 body ∧ ∃ pre post, body = pre ++ '(' :: post ∧ Balanced post ∧
      (Context.new ptr body m).parse .release = .err (Context.missing
        (Context.offsetOf (utf8Len ('(' :: post)) (utf8Len ptr)))) := by
  by_cases hp : PrefixOk 0 body
  · rcases balanced_or_open body.length body (Nat.le_refl _) hp with hb | ⟨pre, post, rfl, hb⟩
    · obtain ⟨a, _, _, h⟩ := Context.parse_balanced ptr body m ha hb
      exact .inl ⟨hb, _, h⟩
    · exact .inr (.inr ⟨hp, pre, post, rfl, hb, Context.parse_missing ptr pre post m ha hp hb⟩)
  · exact .inr (.inl ⟨hp, Context.parse_unmatched ptr body m ha hp⟩)

theorem open_not_balanced {pre post : Str} (hp : PrefixOk 0 (pre ++ '(' :: post))
    (hb : Balanced post) : ¬ Balanced (pre ++ '(' :: post) := by
  intro h
  have h1 := prefixOk_total (prefixOk_left hp)
  have h2 := h.2
  have h3 := hb.2
  simp [List.count_append] at h1 h2
  omega

/-- C29: in release builds an ASCII pattern body is accepted iff its parentheses are balanced. -/
theorem C29_accepted_iff_balanced (ptr body : Str) (mode : ParseMode) (hb : IsBody ptr body)
    (ha : IsAscii body) : (parse .release ptr mode).isOk = true ↔ Balanced body := by
  obtain ⟨m, _, _, h⟩ := parse_isBody hb .release mode
  rw [h, bind_isOk]
  rcases ascii_cases ptr body m ha with ⟨h1, s, h2⟩ | ⟨h1, h2⟩ | ⟨h1, pre, post, rfl, h3, h2⟩
  · rw [h2]; exact ⟨fun _ => h1, fun _ => rfl⟩
  · rw [h2]; exact ⟨fun h => (by cases h), fun h => absurd h.1 h1⟩
  · rw [h2]; exact ⟨fun h => (by cases h), fun h => absurd h (open_not_balanced h1 h3)⟩

example : IsBody "(a|b)c".toList "(a|b)c".toList ∧ IsAscii "(a|b)c".toList ∧
    (parse .release "(a|b)c".toList ParseMode.default).isOk = true ∧
    (parse .release "(a|b".toList ParseMode.default).isOk = false := by
  refine ⟨.inl ⟨by rw [← controlVerb_none]; decide, rfl⟩, by unfold IsAscii; decide,
    by decide +kernel, by decide +kernel⟩

theorem not_ascii_not_ok (pr : Profile) : ∀ (s : Str) (ctx ctx' : Context),
    Context.loop pr s ctx = .ok ctx' → IsAscii s := by
  intro s
  induction s with
  | nil => intro _ _ _ c hc; simp at hc
  | cons c cs ih =>
    intro ctx ctx' h
    rw [Context.loop_cons] at h
    have hc : c.toNat < 128 := by
      rcases Nat.lt_or_ge c.toNat 128 with h1 | h1
      · exact h1
      · have := Context.main_nonascii pr ctx c cs (by omega)
        cases hm : ctx.main pr (c :: cs) <;> rw [hm] at this h <;> simp [Outcome.isPanic] at this
        cases h
    rw [Context.isAscii_cons]
    cases hm : ctx.main pr (c :: cs) <;> rw [hm] at h
    · exact ⟨hc, ih _ _ h⟩
    · cases h
    · cases h
    · cases h

/-- C29, both profiles and all characters: whatever is accepted is ASCII with balanced parentheses. -/
theorem C29_accepted_is_balanced (pr : Profile) (ptr : Str) (mode : ParseMode)
    (h : (parse pr ptr mode).isOk = true) :
    ∃ body, IsBody ptr body ∧ IsAscii body ∧ Balanced body := by
  by_cases hex : ∃ body, IsBody ptr body
  · obtain ⟨body, hb⟩ := hex
    obtain ⟨m, _, _, he⟩ := parse_isBody hb pr mode
    rw [he, bind_isOk] at h
    have hasc : IsAscii body := by
      rw [Context.parse_eq] at h
      cases hl : Context.loop pr (Context.new ptr body m).p (Context.new ptr body m) with
      | ok x => exact not_ascii_not_ok pr _ _ _ hl
      | _ => rw [hl] at h; cases h
    refine ⟨body, hb, hasc, ?_⟩
    have hrel : ((Context.new ptr body m).parse .release).isOk = true := by
      cases pr with
      | release => exact h
      | debug =>
        rcases Context.parse_debug (Context.new ptr body m) with h1 | h1
        · cases hx : (Context.new ptr body m).parse .debug <;> rw [hx] at h h1 <;>
            simp [Outcome.isOk, Outcome.isPanic] at h h1
        · rw [← h1]; exact h
    rcases ascii_cases ptr body m hasc with ⟨h1, _⟩ | ⟨h1, h2⟩ | ⟨h1, pre, post, rfl, h3, h2⟩
    · exact h1
    · rw [h2] at hrel; cases hrel
    · rw [h2] at hrel; cases hrel
  · obtain ⟨e, he, _⟩ := parse_noBody (fun b hb => hex ⟨b, hb⟩) pr mode
    rw [he] at h; cases h

example : (parse .debug "(ab".toList ParseMode.default).isOk = false ∧
    (parse .debug "(ab)".toList ParseMode.default).isOk = true := by
  constructor <;> decide +kernel

mutual
theorem Item.build_congr (c1 c2 : Char → ComponentClass) : ∀ (i : Item) (k : Nat),
    (∀ c ∈ i.print, c1 c = c2 c) → i.build c1 k = i.build c2 k
  | .lit c, k, h => by simp [Item.build, h c (by simp [Item.print])]
  | .group a, k, h => by
    have := Alts.build_congr c1 c2 a (k + 1) (fun c hc => h c (by simp [Item.print, hc]))
    simp [Item.build, this]
theorem Seq.build_congr (c1 c2 : Char → ComponentClass) : ∀ (s : Seq) (k : Nat),
    (∀ c ∈ s.print, c1 c = c2 c) → s.build c1 k = s.build c2 k
  | .nil, k, h => rfl
  | .cons i s, k, h => by
    have h1 := Item.build_congr c1 c2 i k (fun c hc => h c (by simp [Seq.print, hc]))
    have h2 := Seq.build_congr c1 c2 s (i.build c2 k).2 (fun c hc => h c (by simp [Seq.print, hc]))
    simp [Seq.build, h1, h2]
theorem Alts.build_congr (c1 c2 : Char → ComponentClass) : ∀ (a : Alts) (k : Nat),
    (∀ c ∈ a.print, c1 c = c2 c) → a.build c1 k = a.build c2 k
  | .one s, k, h => by
    have := Seq.build_congr c1 c2 s k (fun c hc => h c (by simp [Alts.print, hc]))
    simp [Alts.build, this]
  | .more s a, k, h => by
    have h1 := Seq.build_congr c1 c2 s k (fun c hc => h c (by simp [Alts.print, hc]))
    have h2 := Alts.branches_congr c1 c2 a (s.build c2 k).2
      (fun c hc => h c (by simp [Alts.print, hc]))
    simp [Alts.build, h1, h2]
theorem Alts.branches_congr (c1 c2 : Char → ComponentClass) : ∀ (a : Alts) (k : Nat),
    (∀ c ∈ a.print, c1 c = c2 c) → a.branches c1 k = a.branches c2 k
  | .one s, k, h => by
    have := Seq.build_congr c1 c2 s k (fun c hc => h c (by simp [Alts.print, hc]))
    simp [Alts.branches, this]
  | .more s a, k, h => by
    have h1 := Seq.build_congr c1 c2 s k (fun c hc => h c (by simp [Alts.print, hc]))
    have h2 := Alts.branches_congr c1 c2 a (s.build c2 k).2
      (fun c hc => h c (by simp [Alts.print, hc]))
    simp [Alts.branches, h1, h2]
end

theorem root_eq (cls : Char → ComponentClass) (caseless : Bool) (a : Alts) (ha : IsAscii a.print)
    (hcls : ∀ c, c.toNat < 128 → IsLitClass caseless c (cls c)) :
    a.root cls = a.root (litClass caseless) := by
  unfold Alts.root
  rw [Alts.build_congr cls (litClass caseless) a 1 (fun c hc =>
    isLitClass_unique (hcls c (ha c hc)) (litClass_spec caseless c (by have := ha c hc; omega)))]

/-- C30, one direction: parsing the text of any grammar tree gives that tree's components. -/
theorem C30_parse_print (ptr : Str) (mode : ParseMode) (a : Alts) (cls : Char → ComponentClass)
    (hcls : ∀ c, c.toNat < 128 → IsLitClass mode.caseless c (cls c))
    (hw : a.Wf) (ha : IsAscii a.print) (hb : IsBody ptr a.print) :
    ∃ m, parse .release ptr mode = .ok (a.root cls, m) := by
  obtain ⟨m, hm, _, h⟩ := parse_isBody hb .release mode
  refine ⟨m, ?_⟩
  rw [h, Context.parse_print a ptr m hw ha, root_eq cls mode.caseless a ha hcls, hm]
  rfl

example : ∃ a : Alts, a.Wf ∧ a.print = "(a|b)c".toList ∧ IsBody a.print a.print ∧
    ∃ cls : Char → ComponentClass, ∀ c, c.toNat < 128 → IsLitClass true c (cls c) := by
  refine ⟨.one (.cons (.group (.more (.cons (.lit 'a') .nil) (.one (.cons (.lit 'b') .nil))))
    (.cons (.lit 'c') .nil)), ?_, rfl, .inl ⟨?_, rfl⟩, litClass true, fun c h => litClass_spec _ c (by omega)⟩
  · simp [Alts.Wf, Seq.Wf, Item.Wf, special]
  · rw [← controlVerb_none]; rfl

/-- C30, other direction, both profiles: the tree of an accepted pattern is the component tree of
exactly one grammar tree, and the pattern body is the text of that grammar tree. -/
theorem C30_parse_sound (pr : Profile) (ptr : Str) (mode : ParseMode) (c : Component) (m : ParseMode)
    (cls : Char → ComponentClass) (hcls : ∀ c, c.toNat < 128 → IsLitClass mode.caseless c (cls c))
    (h : parse pr ptr mode = .ok (c, m)) :
    ∃ a : Alts, (a.Wf ∧ IsBody ptr a.print ∧ IsAscii a.print ∧ c = a.root cls) ∧
      ∀ b : Alts, b.Wf → IsBody ptr b.print → b = a := by
  obtain ⟨body, hb, ha, hbal⟩ := C29_accepted_is_balanced pr ptr mode (by rw [h]; rfl)
  obtain ⟨a, hw, rfl⟩ := exists_tree body hbal
  refine ⟨a, ⟨hw, hb, ha, ?_⟩, fun b hbw hbb => print_inj b a hbw hw (isBody_unique hbb hb)⟩
  obtain ⟨m', hrel⟩ := C30_parse_print ptr mode a cls hcls hw ha hb
  have : parse pr ptr mode = parse .release ptr mode := by
    cases pr with
    | release => rfl
    | debug =>
      obtain ⟨m1, _, hr1, h1⟩ := parse_isBody hb .debug mode
      obtain ⟨m2, _, hr2, h2⟩ := parse_isBody hb .release mode
      rw [hr1] at hr2
      injection hr2 with hr2; injection hr2 with _ hr2; subst hr2
      rw [h1, h2]
      rcases Context.parse_debug (Context.new ptr a.print m1) with h3 | h3
      · rw [h1] at h
        cases hx : (Context.new ptr a.print m1).parse .debug <;> rw [hx] at h h3 <;>
          simp [Outcome.isPanic, Outcome.bind] at h h3
      · rw [h3]
  rw [this, hrel] at h
  injection h with h; injection h with h _
  exact h.symm

example : (parse .debug "(a|b)c".toList ParseMode.default).isOk = true := by decide +kernel

/-! ## C31: capture numbering -/

/-- The captures `l` are the groups numbered from `k` up to (not including) `k'`. -/
def CapOk (l : List (Bool × Option Nat × Option String)) (k n : Nat) : Prop :=
  (l.filter (fun x => !x.1)).map (fun x => x.2.1)
      = (List.range' k n).map (fun j => some (j % 2 ^ 32)) ∧
    (∀ x ∈ l, x.1 = true → x.2.1 = none) ∧ ∀ x ∈ l, x.2.2 = none

theorem CapOk.nil (k : Nat) : CapOk [] k 0 := ⟨rfl, by simp, by simp⟩

theorem CapOk.append {l1 l2 : List (Bool × Option Nat × Option String)} {k n1 n2 : Nat}
    (h1 : CapOk l1 k n1) (h2 : CapOk l2 (k + n1) n2) : CapOk (l1 ++ l2) k (n1 + n2) := by
  refine ⟨?_, ?_, ?_⟩
  · rw [List.filter_append, List.map_append, h1.1, h2.1, ← List.map_append, List.range'_append_1]
  · intro x hx
    rcases List.mem_append.1 hx with hx | hx
    · exact h1.2.1 x hx
    · exact h2.2.1 x hx
  · intro x hx
    rcases List.mem_append.1 hx with hx | hx
    · exact h1.2.2 x hx
    · exact h2.2.2 x hx

theorem CapOk.branch {l : List (Bool × Option Nat × Option String)} {k n : Nat} (h : CapOk l k n) :
    CapOk ((true, none, none) :: l) k n := by
  refine ⟨by simpa using h.1, ?_, ?_⟩
  · intro x hx
    rcases List.mem_cons.1 hx with rfl | hx
    · intro _; rfl
    · exact h.2.1 x hx
  · intro x hx
    rcases List.mem_cons.1 hx with rfl | hx
    · rfl
    · exact h.2.2 x hx

theorem CapOk.group {l : List (Bool × Option Nat × Option String)} {k n : Nat}
    (h : CapOk l (k + 1) n) : CapOk ((false, some (k % 2 ^ 32), none) :: l) k (n + 1) := by
  refine ⟨by simp [h.1, List.range'_succ], ?_, ?_⟩
  · intro x hx
    rcases List.mem_cons.1 hx with rfl | hx
    · intro h; cases h
    · exact h.2.1 x hx
  · intro x hx
    rcases List.mem_cons.1 hx with rfl | hx
    · rfl
    · exact h.2.2 x hx

mutual
theorem Item.caps (cls : Char → ComponentClass) : ∀ (i : Item) (k : Nat), i.Wf →
    CapOk (captures (i.build cls k).1) k (i.print.count '(') ∧
      (i.build cls k).2 = k + i.print.count '('
  | .lit c, k, h => by
    have hc : c ≠ '(' := fun e => h (.inl e)
    simp [Item.build, captures, Item.print, List.count_cons, hc, CapOk.nil]
  | .group a, k, h => by
    have ih := Alts.caps cls a (k + 1) h
    simp only [Item.build, captures, capturesSeq, Item.print]
    simp only [List.count_append, List.count_cons, List.cons_append]
    simp
    exact ⟨ih.1.group, by rw [ih.2]; omega⟩
theorem Seq.caps (cls : Char → ComponentClass) : ∀ (s : Seq) (k : Nat), s.Wf →
    CapOk (capturesAll (s.build cls k).1) k (s.print.count '(') ∧
      (s.build cls k).2 = k + s.print.count '('
  | .nil, k, h => by simp [Seq.build, capturesAll, Seq.print, CapOk.nil]
  | .cons i s, k, h => by
    have h1 := Item.caps cls i k h.1
    have h2 := Seq.caps cls s (i.build cls k).2 h.2
    simp only [Seq.build, capturesAll, Seq.print, List.count_append]
    rw [h2.2, h1.2] 
    rw [h1.2] at h2
    exact ⟨h1.1.append h2.1, by omega⟩
theorem Alts.caps (cls : Char → ComponentClass) : ∀ (a : Alts) (k : Nat), a.Wf →
    CapOk (capturesAll (a.build cls k).1) k (a.print.count '(') ∧
      (a.build cls k).2 = k + a.print.count '('
  | .one s, k, h => Seq.caps cls s k h
  | .more s a, k, h => by
    have h1 := Seq.caps cls s k h.1
    have h2 := Alts.capsB cls a (s.build cls k).2 h.2
    simp only [Alts.build, capturesAll, captures, capturesBranches, capturesSeq, Alts.print,
      List.count_append, List.append_nil]
    rw [h2.2, h1.2]
    rw [h1.2] at h2
    have := h1.1.branch.append h2.1
    simp [List.count_cons] at this ⊢
    exact ⟨this, by omega⟩
theorem Alts.capsB (cls : Char → ComponentClass) : ∀ (a : Alts) (k : Nat), a.Wf →
    CapOk (capturesBranches (a.branches cls k).1) k (a.print.count '(') ∧
      (a.branches cls k).2 = k + a.print.count '('
  | .one s, k, h => by
    have h1 := Seq.caps cls s k h
    simp only [Alts.branches, capturesBranches, capturesSeq, Alts.print, List.append_nil]
    exact ⟨h1.1.branch, h1.2⟩
  | .more s a, k, h => by
    have h1 := Seq.caps cls s k h.1
    have h2 := Alts.capsB cls a (s.build cls k).2 h.2
    simp only [Alts.branches, capturesBranches, capturesSeq, Alts.print,
      List.count_append]
    rw [h2.2, h1.2]
    rw [h1.2] at h2
    have := h1.1.branch.append h2.1
    simp [List.count_cons] at this ⊢
    exact ⟨this, by omega⟩
end

/-- C31: in the tree of an accepted pattern the groups are numbered consecutively from 0 (the root)
in the order of their opening parentheses (numbers are `u32`s), branches of alternations are not
captured, and nothing is named. -/
theorem C31_capture_numbering (pr : Profile) (ptr : Str) (mode : ParseMode) (c : Component)
    (m : ParseMode) (h : parse pr ptr mode = .ok (c, m)) :
    ∃ body, IsBody ptr body ∧
      groupNumbers c = (List.range (body.count '(' + 1)).map (fun k => some (k % 2 ^ 32)) ∧
      (body.length < 2 ^ 32 - 1 → groupNumbers c = (List.range (body.count '(' + 1)).map some) ∧
      (∀ x ∈ captures c, x.1 = true → x.2.1 = none) ∧ ∀ x ∈ captures c, x.2.2 = none := by
  obtain ⟨a, ⟨hw, hb, ha, rfl⟩, _⟩ := C30_parse_sound pr ptr mode c m (litClass mode.caseless)
    (fun c h => litClass_spec _ c (by omega)) h
  have hc := (Alts.caps (litClass mode.caseless) a 1 hw).1
  have h0 : CapOk (captures (a.root (litClass mode.caseless))) 0 (a.print.count '(' + 1) := by
    have := CapOk.group (k := 0) hc
    simpa [Alts.root, captures, capturesSeq] using this
  refine ⟨a.print, hb, ?_, ?_, h0.2.1, h0.2.2⟩
  · unfold groupNumbers; rw [h0.1, List.range_eq_range']
  · intro hl
    unfold groupNumbers; rw [h0.1, List.range_eq_range']
    apply List.map_congr_left
    intro x hx
    have hcount : a.print.count '(' ≤ a.print.length := List.count_le_length
    simp only [List.mem_range'_1] at hx
    rw [Nat.mod_eq_of_lt (by omega)]

example : (match parse .release "(a(b|c))(d)".toList ParseMode.default with
    | .ok (c, _) => groupNumbers c
    | _ => []) = [some 0, some 1, some 2, some 3] := by decide +kernel

/-! ## C32: errors -/

/-- C32, first error: exactly the bodies with a prefix closing more than it opens. -/
theorem C32_unmatched (ptr body : Str) (mode : ParseMode) (hb : IsBody ptr body) (ha : IsAscii body) :
    parse .release ptr mode = .err ⟨.locatedParse, "Unmatched parentheses", none⟩ ↔
      ∃ n, (body.take n).count '(' < (body.take n).count ')' := by
  obtain ⟨m, _, _, h⟩ := parse_isBody hb .release mode
  have hiff : (∃ n, (body.take n).count '(' < (body.take n).count ')') ↔ ¬ PrefixOk 0 body := by
    unfold PrefixOk
    constructor
    · rintro ⟨n, hn⟩ h; have := h n; omega
    · intro h
      apply Classical.byContradiction
      intro h2
      exact h (fun n => by
        apply Nat.le_of_not_lt; intro h3; exact h2 ⟨n, by omega⟩)
  rw [h, hiff]
  rcases ascii_cases ptr body m ha with ⟨h1, s, h2⟩ | ⟨h1, h2⟩ | ⟨h1, pre, post, rfl, h3, h2⟩
  · rw [h2]; exact ⟨fun h => (by cases h), fun h => absurd h1.1 h⟩
  · rw [h2]; exact ⟨fun _ => h1, fun _ => rfl⟩
  · rw [h2]
    constructor
    · intro h
      simp [Outcome.bind, Context.missing, CompileError.new] at h
    · intro h; exact absurd h1 h

example : parse .release "a)(".toList ParseMode.default
    = .err ⟨.locatedParse, "Unmatched parentheses", none⟩ := by
  rw [C32_unmatched "a)(".toList "a)(".toList ParseMode.default
    (.inl ⟨by rw [← controlVerb_none]; rfl, rfl⟩) (by unfold IsAscii; decide)]
  exact ⟨2, by decide⟩

/-- C32, second error: exactly the bodies that never close too much but leave a group open. -/
theorem C32_missing (ptr body : Str) (mode : ParseMode) (hb : IsBody ptr body) (ha : IsAscii body) :
    (∃ e, parse .release ptr mode = .err e ∧ e.kind = .parse) ↔
      (∀ n, (body.take n).count ')' ≤ (body.take n).count '(') ∧ body.count ')' < body.count '(' := by
  obtain ⟨m, _, _, h⟩ := parse_isBody hb .release mode
  have hiff : (∀ n, (body.take n).count ')' ≤ (body.take n).count '(') ↔ PrefixOk 0 body := by
    unfold PrefixOk; simp
  rw [h, hiff]
  rcases ascii_cases ptr body m ha with ⟨h1, s, h2⟩ | ⟨h1, h2⟩ | ⟨h1, pre, post, rfl, h3, h2⟩
  · rw [h2]
    constructor
    · rintro ⟨e, h, _⟩; cases h
    · intro h; have := h1.2; omega
  · rw [h2]
    constructor
    · rintro ⟨e, h, h'⟩
      simp only [Outcome.bind] at h
      injection h with h; subst h; cases h'
    · intro h; exact absurd h.1 h1
  · rw [h2]
    constructor
    · intro _
      refine ⟨h1, ?_⟩
      have := open_not_balanced h1 h3
      have h4 := prefixOk_total h1
      rcases Nat.lt_or_eq_of_le h4 with h5 | h5
      · omega
      · exact absurd ⟨h1, by omega⟩ this
    · intro _; exact ⟨_, rfl, rfl⟩

example : ∃ e, parse .release "a((b)".toList ParseMode.default = .err e ∧ e.kind = .parse := by
  rw [C32_missing "a((b)".toList "a((b)".toList ParseMode.default
    (.inl ⟨by rw [← controlVerb_none]; rfl, rfl⟩) (by unfold IsAscii; decide)]
  refine ⟨fun n => ?_, by decide⟩
  have : ∀ n, n < 6 → (List.take n "a((b)".toList).count ')' ≤ (List.take n "a((b)".toList).count '(' := by
    decide
  rcases Nat.lt_or_ge n 6 with h | h
  · exact this n h
  · rw [List.take_of_length_le (by simpa using (by omega : 5 ≤ n))]; decide

/-- C32, the index (false part): the message should give the byte offset of the innermost open group;
it does not. -/
theorem C32_false : ¬ ∀ (ptr pre post : Str) (mode : ParseMode), IsBody ptr (pre ++ '(' :: post) →
    IsAscii (pre ++ '(' :: post) → PrefixOk 0 (pre ++ '(' :: post) → Balanced post →
    parse .release ptr mode = .err ⟨.parse,
      "Missing close parenthesis for group started at index "
        ++ toString (utf8Len ptr - utf8Len ('(' :: post)) ++ ".", none⟩ := by
  intro h
  have h1 := h "a(".toList "a".toList [] ParseMode.default
    (.inl ⟨by rw [← controlVerb_none]; rfl, rfl⟩) (by unfold IsAscii; decide)
    (by
      have e : "a".toList ++ '(' :: [] = 'a' :: '(' :: [] := rfl
      rw [e, prefixOk_other _ _ _ (by decide) (by decide), prefixOk_open]; exact prefixOk_nil _)
    ⟨prefixOk_nil 0, rfl⟩
  have h2 := congrArg (fun r => match r with | .err e => e.reason | _ => "") h1
  revert h2
  decide +kernel

/-- C32, the index (what is reported, missing: the right value): for the innermost open group at byte
offset `i` of the pattern the message gives `2^64 - i`, which is right only for `i = 0`. -/
theorem C32_index_partial (ptr pre post : Str) (mode : ParseMode)
    (hb : IsBody ptr (pre ++ '(' :: post)) (ha : IsAscii (pre ++ '(' :: post))
    (hp : PrefixOk 0 (pre ++ '(' :: post)) (hbal : Balanced post) (hlen : utf8Len ptr < 2 ^ 64) :
    parse .release ptr mode = .err ⟨.parse,
      "Missing close parenthesis for group started at index "
        ++ toString ((2 ^ 64 - (utf8Len ptr - utf8Len ('(' :: post))) % 2 ^ 64) ++ ".", none⟩ := by
  obtain ⟨m, _, _, h⟩ := parse_isBody hb .release mode
  rw [h, Context.parse_missing ptr pre post m ha hp hbal]
  obtain ⟨v, hv, _⟩ := isBody_len hb
  have hl : utf8Len ptr = utf8Len v + utf8Len pre + utf8Len ('(' :: post) := by
    rw [hv, Context.utf8Len_append, Context.utf8Len_append]; omega
  have : Context.offsetOf (utf8Len ('(' :: post)) (utf8Len ptr)
      = (2 ^ 64 - (utf8Len ptr - utf8Len ('(' :: post))) % 2 ^ 64 := by
    unfold Context.offsetOf
    split
    · have : utf8Len ptr - utf8Len ('(' :: post) = 0 := by omega
      rw [this]; omega
    · rw [Nat.mod_eq_of_lt (by omega)]; omega
  rw [this]; rfl

example : (match parse .release "(*UCP)a(b".toList ParseMode.default with
    | .err e => e.reason
    | _ => "") = "Missing close parenthesis for group started at index 18446744073709551609." := by
  decide +kernel

/-! ## C33: panics -/

/-- C33 is false in both profiles: a non-ASCII character panics. -/
theorem C33_false (pr : Profile) : ¬ ∀ (ptr : Str) (mode : ParseMode),
    (parse pr ptr mode).isPanic = false := by
  intro h
  have := h ['é'] ParseMode.default
  revert this
  cases pr <;> decide +kernel

/-- C33 is false in debug builds even for ASCII: `a()` panics. -/
theorem C33_debug_false : ¬ ∀ (ptr : Str) (mode : ParseMode), IsAscii ptr →
    (parse .debug ptr mode).isPanic = false := by
  intro h
  have := h "a()".toList ParseMode.default (by unfold IsAscii; decide)
  revert this
  decide +kernel

/-- C33, exactly when parsing panics: a character of the body that is not ASCII, or in debug builds a
`(` that is not the first character of the pattern, provided no earlier `)` is unmatched. -/
theorem C33_panics_partial (pr : Profile) (ptr : Str) (mode : ParseMode) :
    (parse pr ptr mode).isPanic = true ↔
      ∃ body n c, IsBody ptr body ∧ body[n]? = some c ∧
        (128 ≤ c.toNat ∨ (pr = .debug ∧ c = '(' ∧ ¬ (n = 0 ∧ body = ptr))) ∧
        ∀ k ≤ n, (body.take k).count ')' ≤ (body.take k).count '(' := by
  by_cases hex : ∃ body, IsBody ptr body
  · obtain ⟨body, hb⟩ := hex
    obtain ⟨m, _, _, h⟩ := parse_isBody hb pr mode
    obtain ⟨v, hv, hv0⟩ := isBody_len hb
    have hle : utf8Len ptr = utf8Len v + utf8Len body := by rw [hv, Context.utf8Len_append]
    rw [h, bind_isPanic, Context.parse_panic pr ptr body m (by omega)]
    -- a proper suffix is shorter
    have hlen : ∀ n, n ≤ body.length → (utf8Len (body.drop n) < utf8Len ptr ↔ ¬ (n = 0 ∧ body = ptr)) := by
      intro n hn
      have e1 : utf8Len body = utf8Len (body.take n) + utf8Len (body.drop n) := by
        rw [← Context.utf8Len_append, List.take_append_drop]
      constructor
      · rintro h1 ⟨rfl, rfl⟩; simp at h1
      · intro h1
        have hpos : ∀ s : Str, s ≠ [] → 0 < utf8Len s := by
          intro s hs
          cases s with
          | nil => exact absurd rfl hs
          | cons c cs => have := Context.utf8Len_lt_cons c cs; omega
        by_cases hn0 : n = 0
        · have hne : v ≠ [] := fun e => h1 ⟨hn0, hv0.1 e⟩
          have := hpos v hne; omega
        · cases hbd : body with
          | nil => rw [hbd] at hn; simp at hn; exact absurd hn hn0
          | cons c cs =>
            have hne : body.take n ≠ [] := by
              rw [hbd]; cases n with
              | zero => exact absurd rfl hn0
              | succ n => simp
            have := hpos _ hne
            rw [← hbd]
            omega
    have hpre : ∀ n, PrefixOk 0 (body.take n) ↔
        ∀ k ≤ n, (body.take k).count ')' ≤ (body.take k).count '(' := by
      intro n
      unfold PrefixOk
      constructor
      · intro h k hk
        have := h k
        rw [List.take_take, Nat.min_eq_left hk] at this
        omega
      · intro h k
        rw [List.take_take]
        have := h (min k n) (Nat.min_le_right _ _)
        omega
    constructor
    · rintro ⟨n, ⟨c, cs, hd, hbad⟩, h2⟩
      have hget : body[n]? = some c := by
        have := congrArg List.head? hd
        rw [List.head?_drop] at this
        simpa using this
      refine ⟨body, n, c, hb, hget, ?_, (hpre n).1 h2⟩
      have hn : n ≤ body.length := by
        have := (List.getElem?_eq_some_iff.1 hget).1; omega
      rcases hbad with h3 | ⟨h3, h4, h5⟩
      · exact .inl (by omega)
      · exact .inr ⟨h3, h4, (hlen n hn).1 h5⟩
    · rintro ⟨body', n, c, hb', hget, hbad, h2⟩
      have := isBody_unique hb' hb
      subst this
      obtain ⟨hn, hget'⟩ := List.getElem?_eq_some_iff.1 hget
      refine ⟨n, ⟨c, body'.drop (n + 1), ?_, ?_⟩, (hpre n).2 h2⟩
      · rw [List.drop_eq_getElem_cons hn, hget']
      · rcases hbad with h3 | ⟨h3, h4, h5⟩
        · exact .inl (by omega)
        · exact .inr ⟨h3, h4, (hlen n (by omega)).2 h5⟩
  · obtain ⟨e, he, _⟩ := parse_noBody (fun b hb => hex ⟨b, hb⟩) pr mode
    rw [he]
    constructor
    · intro h; cases h
    · rintro ⟨body, _, _, hb, _⟩; exact absurd ⟨body, hb⟩ hex

example : (parse .release ")é".toList ParseMode.default).isPanic = false ∧
    (parse .release "(é".toList ParseMode.default).isPanic = true ∧
    (parse .debug "(a(".toList ParseMode.default).isPanic = true ∧
    (parse .debug "(a)".toList ParseMode.default).isPanic = false := by
  refine ⟨?_, ?_, ?_, ?_⟩ <;> decide +kernel

/-! ## C34, C35: literals -/

/-- C34: a literal ASCII character becomes the class of that byte, or with CASELESS of that byte and
its partner; the whole parser agrees. -/
theorem C34_literal_class (pr : Profile) (c : Char) (mode : ParseMode) (hc : c.toNat < 128)
    (hs : ¬ special c) :
    ∃ cc, IsLitClass mode.caseless c cc ∧ getLiteralComponentClass c mode.caseless = .ok cc ∧
      parse pr [c] mode = .ok (.sequence (.mk [.cls cc] none (some 0) none), mode) := by
  refine ⟨litClass mode.caseless c, litClass_spec _ c (by omega),
    getLiteralComponentClass_ascii c _ (by omega), ?_⟩
  have hnv : NoVerb [c] := by
    intro v rest h
    have := congrArg List.length h.1
    simp at this
  unfold parse
  rw [(C27_control_verbs [c] 0 mode).1 hnv]
  show ((Context.new [c] [c] mode).parse pr).bind _ = _
  rw [Context.parse_eq]
  show ((Context.loop pr [c] _).bind _).bind _ = _
  rw [Context.loop_cons, Context.main_lit pr _ c [] hs hc]
  rfl

example : ¬ special '*' ∧ ¬ special 'A' ∧ 'A'.toNat < 128 := by decide

/-- C34 for every character, not only those the parser lets through: characters up to 0xff get their class,
others are refused with this error. -/
theorem C34_every_char (c : Char) (nocase : Bool) :
    (c.toNat < 256 → ∃ cc, IsLitClass nocase c cc ∧ getLiteralComponentClass c nocase = .ok cc) ∧
    (256 ≤ c.toNat → getLiteralComponentClass c nocase
      = .err ⟨.locatedParse, "Hexadecimal value is greater than \\xFF", none⟩) := by
  refine ⟨fun h => ⟨_, litClass_spec nocase c h, getLiteralComponentClass_ascii c nocase h⟩, fun h => ?_⟩
  unfold getLiteralComponentClass getComponentClass ComponentClass.add
  simp only
  rw [if_pos (by omega)]; rfl

example : 'é'.toNat < 256 ∧ 256 ≤ 'Ā'.toNat := by decide

/-- C34: adding a character to a class that already has members adds its byte, and with CASELESS the
partner, and nothing else; the class's own mode decides and stays. -/
theorem C34_add (a : AsciiComponentClass) (c : Char) (hc : c.toNat < 256) :
    ∃ a', (ComponentClass.ascii a).add c = .ok (.ascii a') ∧ a'.mode = a.mode ∧
      ∀ b : U8, a'.cr.test b = true ↔
        a.cr.test b = true ∨ b.toNat = c.toNat ∨ (a.mode.caseless = true ∧ casePair b (BitVec.ofNat 8 c.toNat)) := by
  refine ⟨a.add (BitVec.ofNat 8 c.toNat), ?_, rfl, fun b => ?_⟩
  · unfold ComponentClass.add
    simp only
    rw [if_neg (by omega)]
  · have h := (litClass_spec a.mode.caseless c hc).2 b
    have hor : ∀ x y : CharReach, (x.orAssign y).test b = (y.test b || x.test b) := fun x y => CharReach.or_test y x b
    simp only [AsciiComponentClass.add, AsciiComponentClass.new, hor, CharReach.default_test,
      Bool.or_false] at h ⊢
    rw [Bool.or_eq_true, or_comm]
    exact or_congr Iff.rfl h

example : (match (ComponentClass.ascii ⟨{ ParseMode.default with caseless := true }, CharReach.fromChar 0x30#8⟩).add 'k' with
    | .ok (.ascii a) => a.cr.memberSeq
    | _ => []) = [0x30#8, 0x4b#8, 0x6b#8] := by decide +kernel

/-- The loop on characters without special meaning. -/
theorem loop_plain (pr : Profile) : ∀ (s : Str) (ctx : Context), IsAscii s → (∀ c ∈ s, ¬ special c) →
    Context.loop pr s ctx = .ok { ctx with
      currentSeq := Context.appendAll ctx.currentSeq (s.map (fun c => .cls (litClass ctx.mode.caseless c)))
      p := if s = [] then ctx.p else [] } := by
  intro s
  induction s with
  | nil => intro ctx _ _; simp [Context.loop, Context.appendAll_nil]
  | cons c cs ih =>
    intro ctx ha hs
    obtain ⟨ha1, ha2⟩ := Context.isAscii_cons.1 ha
    rw [Context.loop_cons, Context.main_lit pr ctx c cs (hs c (by simp)) ha1]
    simp only [Outcome.bind]
    rw [ih _ ha2 (fun x hx => hs x (by simp [hx]))]
    simp only [List.map_cons, Context.addComponent_appendAll]
    congr 2
    by_cases h : cs = [] <;> simp [h]

/-- C35: every ASCII character other than `(`, `)` and `|` stands for itself, in both profiles: a
pattern of such characters is the sequence of their classes. -/
theorem C35_plain_characters (pr : Profile) (s : Str) (mode : ParseMode) (ha : IsAscii s)
    (hs : ∀ c ∈ s, ¬ special c) (cls : Char → ComponentClass)
    (hcls : ∀ c, c.toNat < 128 → IsLitClass mode.caseless c (cls c)) :
    parse pr s mode = .ok (.sequence (.mk (s.map (fun c => .cls (cls c))) none (some 0) none), mode) := by
  have hnv : NoVerb s := by
    intro v rest h
    have : '(' ∈ s := by rw [h.1]; simp
    exact hs _ this (.inl rfl)
  unfold parse
  rw [(C27_control_verbs s 0 mode).1 hnv]
  show ((Context.new s s mode).parse pr).bind _ = _
  rw [Context.parse_eq]
  show ((Context.loop pr s _).bind _).bind _ = _
  rw [loop_plain pr s _ ha hs]
  have : s.map (fun c => Component.cls (cls c)) = s.map (fun c => .cls (litClass mode.caseless c)) := by
    apply List.map_congr_left
    intro c hc
    rw [isLitClass_unique (hcls c (ha c hc)) (litClass_spec mode.caseless c (by have := ha c hc; omega))]
  rw [this]
  rfl

example : IsAscii "a.*[b]\\d+{2}^$".toList ∧ ∀ c ∈ "a.*[b]\\d+{2}^$".toList, ¬ special c := by
  unfold IsAscii; decide

/-- The mode with everything but CASELESS dropped. -/
def normMode (m : ParseMode) : ParseMode := { ParseMode.default with caseless := m.caseless }

/-- The context with everything but CASELESS dropped from all modes. -/
def normCtx (ctx : Context) : Context :=
  { ctx with
    mode := normMode ctx.mode
    sequences := ctx.sequences.map (fun v => { v with mode := normMode v.mode }) }

theorem main_norm (pr : Profile) (ctx : Context) (c : Char) (cs : Str) :
    (normCtx ctx).main pr (c :: cs) = (ctx.main pr (c :: cs)).bind (fun x => .ok (normCtx x)) := by
  rcases Context.char_kinds c with h | h | h | ⟨h, h'⟩ | h
  · subst h
    show ((normCtx ctx).pushSequence pr ('(' :: cs)).bind _ = ((ctx.pushSequence pr ('(' :: cs)).bind _).bind _
    unfold Context.pushSequence
    have e1 : (normCtx ctx).groupIndex = ctx.groupIndex := rfl
    have e2 : (normCtx ctx).ptrLen = ctx.ptrLen := rfl
    rw [e1, e2]
    cases h1 : Context.u32Incr pr ctx.groupIndex with
    | ok g =>
      cases h2 : Context.usizeSub pr (utf8Len ('(' :: cs)) ctx.ptrLen <;> rfl
    | _ => rfl
  · subst h
    cases hs : ctx.sequences with
    | nil =>
      rw [Context.main_close_nil pr ctx cs hs, Context.main_close_nil pr (normCtx ctx) cs
        (by simp [normCtx, hs])]; rfl
    | cons v r =>
      rw [Context.main_close_cons pr ctx cs v r hs, Context.main_close_cons pr (normCtx ctx) cs
        { v with mode := normMode v.mode } (r.map (fun v => { v with mode := normMode v.mode }))
        (by simp [normCtx, hs])]; rfl
  · subst h; rfl
  · rw [Context.main_lit pr ctx c cs h h', Context.main_lit pr (normCtx ctx) c cs h h']; rfl
  · unfold Context.main
    split
    · rename_i heq; injection heq with h1 h2; subst h1; exact absurd (by decide) h
    · rename_i heq; injection heq with h1 h2; subst h1; exact absurd (by decide) h
    · rename_i heq; injection heq with h1 h2; subst h1; exact absurd (by decide) h
    · rename_i c' p' _ _ _ heq
      injection heq with h1 h2
      subst h1 h2
      have e : ∀ (f : Unit → Res Context), (rassert (c.toNat < 128) "assertion failed: c.is_ascii()" >>= f)
          = .panic "assertion failed: c.is_ascii()" := by
        intro f; simp only [rassert, decide_eq_false h]; rfl
      rw [e, e]; rfl
    · simp_all

theorem loop_norm (pr : Profile) : ∀ (s : Str) (ctx : Context),
    Context.loop pr s (normCtx ctx) = (Context.loop pr s ctx).bind (fun x => .ok (normCtx x)) := by
  intro s
  induction s with
  | nil => intro ctx; rfl
  | cons c cs ih =>
    intro ctx
    rw [Context.loop_cons, Context.loop_cons, main_norm]
    cases ctx.main pr (c :: cs) with
    | ok x => exact ih x
    | _ => rfl

theorem finish_norm (ctx : Context) : (normCtx ctx).finish = ctx.finish := by
  unfold Context.finish
  cases hs : ctx.sequences <;> simp [normCtx, hs]

theorem parse_norm (pr : Profile) (ctx : Context) : (normCtx ctx).parse pr = ctx.parse pr := by
  rw [Context.parse_eq, Context.parse_eq]
  show (Context.loop pr ctx.p (normCtx ctx)).bind _ = _
  rw [loop_norm]
  cases Context.loop pr ctx.p ctx with
  | ok x => exact finish_norm x
  | _ => rfl

/-- C35: of the parse mode only CASELESS influences the tree, the error or the panic. -/
theorem C35_only_caseless_matters (pr : Profile) (ptr : Str) (m1 m2 : ParseMode)
    (h : m1.caseless = m2.caseless) :
    (parse pr ptr m1).bind (fun r => Outcome.ok r.1) = (parse pr ptr m2).bind (fun r => Outcome.ok r.1) := by
  by_cases hex : ∃ body, IsBody ptr body
  · obtain ⟨body, hb⟩ := hex
    obtain ⟨n1, hn1, _, h1⟩ := parse_isBody hb pr m1
    obtain ⟨n2, hn2, _, h2⟩ := parse_isBody hb pr m2
    rw [h1, h2]
    have : (Context.new ptr body n1).parse pr = (Context.new ptr body n2).parse pr := by
      rw [← parse_norm, ← parse_norm pr (Context.new ptr body n2)]
      have : normCtx (Context.new ptr body n1) = normCtx (Context.new ptr body n2) := by
        simp [normCtx, Context.new, normMode, hn1, hn2, h]
      rw [this]
    rw [this]
    cases (Context.new ptr body n2).parse pr <;> rfl
  · have hv : ∃ v rest, HasVerb ptr v rest := by
      cases hc : controlVerb ptr with
      | none => exact absurd ⟨ptr, .inl ⟨controlVerb_none.1 hc, rfl⟩⟩ hex
      | some x => exact ⟨x.2, x.1, controlVerb_some.1 hc⟩
    obtain ⟨v, rest, hv⟩ := hv
    have ha : ¬ AcceptedVerb v := fun ha => hex ⟨rest, .inr ⟨v, hv, ha⟩⟩
    have h1 := (C27_control_verbs ptr 0 m1).2 v rest hv
    have h2 := (C27_control_verbs ptr 0 m2).2 v rest hv
    unfold parse
    by_cases hr : RefusedVerb v
    · rw [h1.2.1 hr, h2.2.1 hr]
    · rw [h1.2.2 ha hr, h2.2.2 ha hr]

example : (ParseMode.new ⟨0x0007#16⟩).caseless = (ParseMode.new Flags.CASELESS).caseless := by decide

end Rescan
