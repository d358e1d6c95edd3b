import Verif.Spec.Compile
import Verif.Props.SmallWrite
import Verif.Props.Graph
import Verif.Proofs.Report
/-! # Helper lemmas about compiling lists of expressions -/
namespace Rescan
open Spec

theorem not_mem_takeWhile (l : Str) : ')' ∉ l.takeWhile (fun c => c != ')') := by
  induction l with
  | nil => simp
  | cons a l ih =>
    rw [List.takeWhile_cons]
    split
    · rename_i h
      simp at h
      simp [ih, Ne.symm h]
    · simp

theorem bodyOf_some (text body : Str) : bodyOf text = some body ↔ IsBody text body := by
  have hverb : ∀ v rest, HasVerb text v rest → bodyOf text =
      if v = ['U', 'C', 'P'] ∨ v = ['U', 'T', 'F', '8'] ∨ v = ['U', 'T', 'F'] then some rest else none := by
    rintro v rest ⟨rfl, h1, h2⟩
    have ht : (v ++ [')'] ++ rest).takeWhile (fun c => c != ')') = v := by
      rw [List.append_assoc, List.takeWhile_append_of_pos]
      · simp
      · intro c hc; have : c ≠ ')' := fun e => h2 (e ▸ hc)
        simpa using this
    have hd : (v ++ [')'] ++ rest).dropWhile (fun c => c != ')') = ')' :: rest := by
      rw [List.append_assoc, List.dropWhile_append_of_pos]
      · simp
      · intro c hc; have : c ≠ ')' := fun e => h2 (e ▸ hc)
        simpa using this
    show bodyOf ('(' :: '*' :: (v ++ [')'] ++ rest)) = _
    unfold bodyOf
    simp only [hd, ht, if_neg h1]
  have hno : NoVerb text → bodyOf text = some text := by
    intro hn
    unfold bodyOf
    split
    · rename_i rest
      split
      · rfl
      · rename_i x body hd
        have hx : x = ')' := by
          have := List.head?_dropWhile_not (fun c => c != ')') rest
          rw [hd] at this
          simpa using this
        subst hx
        simp only
        split
        · rfl
        · rename_i hv
          exfalso
          refine hn (rest.takeWhile (fun c => c != ')')) body ⟨?_, hv, ?_⟩
          · have := List.takeWhile_append_dropWhile (p := fun c => c != ')') (l := rest)
            rw [hd] at this
            conv => lhs; rw [← this]
            simp
          · exact not_mem_takeWhile rest
    · rfl
  by_cases hn : NoVerb text
  · rw [hno hn]
    unfold IsBody
    constructor
    · intro h; injection h with h; exact .inl ⟨hn, h.symm⟩
    · rintro (⟨_, rfl⟩ | ⟨v, hv, _⟩)
      · rfl
      · exact absurd hv (hn _ _)
  · have : ∃ v rest, HasVerb text v rest := by
      apply Classical.byContradiction
      intro h
      exact hn (fun v rest hv => h ⟨v, rest, hv⟩)
    obtain ⟨v, rest, hv⟩ := this
    rw [hverb v rest hv]
    unfold IsBody
    constructor
    · intro h
      split at h
      · rename_i ha
        injection h with h
        subst h
        exact .inr ⟨v, hv, ha⟩
      · cases h
    · rintro (⟨hn', _⟩ | ⟨v', hv', ha⟩)
      · exact absurd hv (hn' _ _)
      · obtain ⟨rfl, rfl⟩ := hasVerb_unique hv hv'
        rw [if_pos ha]

/-! ## Parsing -/

theorem Context.main_err_index (pr : Profile) (ctx : Context) (c : Char) (cs : Str) (e : CompileError)
    (h : ctx.main pr (c :: cs) = .err e) : e.index = none ∧ (e.kind = .parse ∨ e.kind = .locatedParse) := by
  rcases Context.char_kinds c with hc | hc | hc | ⟨hc, hc'⟩ | hc
  · subst hc
    replace h : (ctx.pushSequence pr ('(' :: cs)).bind _ = _ := h
    unfold pushSequence u32Incr usizeSub at h
    exfalso
    revert h
    repeat' split
    all_goals simp [Outcome.bind, bind, pure]
  · subst hc
    cases hs : ctx.sequences with
    | nil =>
      rw [Context.main_close_nil pr ctx cs hs] at h
      injection h with h
      subst h; exact ⟨rfl, .inr rfl⟩
    | cons v r => rw [Context.main_close_cons pr ctx cs v r hs] at h; cases h
  · subst hc; rw [Context.main_bar] at h; cases h
  · rw [Context.main_lit pr ctx c cs hc hc'] at h; cases h
  · have := Context.main_nonascii pr ctx c cs hc; rw [h] at this; cases this

theorem Context.loop_err_index (pr : Profile) : ∀ (s : Str) (ctx : Context) (e : CompileError),
    Context.loop pr s ctx = .err e → e.index = none ∧ (e.kind = .parse ∨ e.kind = .locatedParse) := by
  intro s
  induction s with
  | nil => intro ctx e h; cases h
  | cons c cs ih =>
    intro ctx e h
    rw [Context.loop_cons] at h
    cases hm : ctx.main pr (c :: cs) with
    | ok x => rw [hm] at h; exact ih x e h
    | err e' =>
      rw [hm] at h
      injection h with h
      subst h
      exact Context.main_err_index pr ctx c cs _ hm
    | panic m => rw [hm] at h; cases h
    | timeout => rw [hm] at h; cases h

/-- Parse errors name no expression yet. -/
theorem parse_err_index {pr : Profile} {ptr : Str} {mode : ParseMode} {e : CompileError}
    (h : parse pr ptr mode = .err e) : e.index = none ∧ (e.kind = .parse ∨ e.kind = .locatedParse) := by
  by_cases hex : ∃ body, IsBody ptr body
  · obtain ⟨body, hb⟩ := hex
    obtain ⟨m, _, _, he⟩ := parse_isBody hb pr mode
    rw [he, Context.parse_eq] at h
    cases hl : Context.loop pr (Context.new ptr body m).p (Context.new ptr body m) with
    | ok x =>
      rw [hl] at h
      cases hs : x.sequences with
      | nil => simp [Outcome.bind, Context.finish, hs] at h
      | cons v r =>
        simp only [Outcome.bind, Context.finish, hs] at h
        injection h with h
        rw [← h]; exact ⟨rfl, .inl rfl⟩
    | err e' =>
      rw [hl] at h
      injection h with h
      subst h
      exact Context.loop_err_index pr _ _ _ hl
    | panic m => rw [hl] at h; cases h
    | timeout => rw [hl] at h; cases h
  · obtain ⟨e', he, hk, hi⟩ := parse_noBody (fun b hb => hex ⟨b, hb⟩) pr mode
    rw [he] at h
    injection h with h
    subst h
    exact ⟨hi, .inr hk⟩

theorem parse_not_timeout (pr : Profile) (ptr : Str) (mode : ParseMode) : parse pr ptr mode ≠ .timeout := by
  by_cases hex : ∃ body, IsBody ptr body
  · obtain ⟨body, hb⟩ := hex
    obtain ⟨m, _, _, he⟩ := parse_isBody hb pr mode
    rw [he]
    intro h
    cases hl : (Context.new ptr body m).parse pr with
    | timeout => exact absurd hl (Context.parse_ne_timeout pr _)
    | ok x => rw [hl] at h; cases h
    | err x => rw [hl] at h; cases h
    | panic x => rw [hl] at h; cases h
  · obtain ⟨e', he, _, hi⟩ := parse_noBody (fun b hb => hex ⟨b, hb⟩) pr mode
    rw [he]; intro h; cases h

/-- Exactly which texts can be parsed, in both profiles. -/
theorem parse_ok_iff (pr : Profile) (text : Str) (mode : ParseMode) :
    (parse pr text mode).isOk = true ↔ Acceptable pr text := by
  constructor
  · intro h
    obtain ⟨body, hb, ha, hbal⟩ := C29_accepted_is_balanced pr text mode h
    refine ⟨body, hb, ha, hbal, ?_⟩
    rintro rfl n hn
    apply Classical.byContradiction
    intro hne
    have hp : (parse .debug text mode).isPanic = true := by
      rw [C33_panics_partial]
      refine ⟨body, n, '(', hb, hn, .inr ⟨rfl, rfl, hne⟩, ?_⟩
      intro k _
      have := hbal.1 k
      omega
    cases hx : parse .debug text mode <;> rw [hx] at h hp <;> simp [Outcome.isOk, Outcome.isPanic] at h hp
  · rintro ⟨body, hb, ha, hbal, hd⟩
    have hrel := (C29_accepted_iff_balanced text body mode hb ha).2 hbal
    cases pr with
    | release => exact hrel
    | debug =>
      obtain ⟨m, _, _, he⟩ := parse_isBody hb .release mode
      obtain ⟨m', _, hr', he'⟩ := parse_isBody hb .debug mode
      have hnp : ¬ (parse .debug text mode).isPanic = true := by
        rw [C33_panics_partial]
        rintro ⟨body', n, c, hb', hn, hbad, _⟩
        have := isBody_unique hb hb'
        subst this
        rcases hbad with h1 | ⟨_, rfl, h1⟩
        · have := ha c (List.mem_of_getElem? hn); omega
        · exact h1 (hd rfl n hn)
      rw [he, bind_isOk] at hrel
      rw [he', bind_isPanic] at hnp
      rw [he', bind_isOk]
      obtain ⟨m2, _, hr2, _⟩ := parse_isBody hb .release mode
      rcases Context.parse_debug (Context.new text body m') with h1 | h1
      · exact absurd h1 hnp
      · rw [h1]
        rcases ascii_cases text body m' ha with ⟨_, s, h2⟩ | ⟨h3, _⟩ | ⟨h3, pre, post, rfl, h4, _⟩
        · rw [h2]; rfl
        · exact absurd hbal.1 h3
        · exact absurd hbal (open_not_balanced h3 h4)

/-! ## The bookkeeping of one literal expression -/

namespace ReportManager

theorem register_frame (rm : ReportManager) (id : Nat) (ext : ExternalReportInfo) :
    (rm.registerExtReport id ext).1.limitReportCount = rm.limitReportCount ∧
    (rm.registerExtReport id ext).1.reportIds = rm.reportIds ∧
    (rm.registerExtReport id ext).1.reportIdToInternalMap = rm.reportIdToInternalMap ∧
    (rm.registerExtReport id ext).1.toExhaustibleKeyMap = rm.toExhaustibleKeyMap := by
  unfold registerExtReport
  simp only
  split
  · split
    · exact ⟨rfl, rfl, rfl, rfl⟩
    · cases ext.highlander <;> exact ⟨rfl, rfl, rfl, rfl⟩
  · cases ext.highlander <;> exact ⟨rfl, rfl, rfl, rfl⟩

theorem getExhaustibleKey_frame {ε : Type} (rm rm' : ReportManager) (a k : Nat)
    (h : rm.getExhaustibleKey (ε := ε) a = .ok (rm', k)) :
    rm'.limitReportCount = rm.limitReportCount ∧ rm'.reportIds = rm.reportIds ∧
    rm'.reportIdToInternalMap = rm.reportIdToInternalMap ∧ rm'.externalIdMap = rm.externalIdMap ∧
    rm'.globalExhaust = rm.globalExhaust := by
  unfold getExhaustibleKey at h
  obtain ⟨_, _, h⟩ := bind_eq_ok h
  split at h
  · injection h with h
    injection h with h _
    subst h
    exact ⟨rfl, rfl, rfl, rfl, rfl⟩
  · injection h with h
    injection h with h _
    subst h
    exact ⟨rfl, rfl, rfl, rfl, rfl⟩

end ReportManager

/-- The registrations made by literal expressions. -/
def regsOf (h : List LitEntry) : List (Nat × ExternalReportInfo) := h.map (fun x => (x.id, ⟨x.single, x.index⟩))

/-- The small-write calls made by literal expressions. -/
def callsOf (h : List LitEntry) : List (Ue2Literal × Nat) := h.map (fun x => (litOf x.elems, 0))

/-- The state after the literal expressions `h` were added. -/
structure NgOk (cc : CompileContext) (np : Nat) (h : List LitEntry) (ng : Ng) : Prop where
  context : ng.cc = cc
  rose : ng.rose = ⟨cc, false⟩
  limit : ng.rm.limitReportCount = cc.grey.limitReportCount
  inv : ng.rm.IdInv
  ids : ng.rm.reportIds = if h.isEmpty then [] else [⟨0⟩]
  reg : ReportManager.RegInv ng.rm (regsOf h)
  keys : ∃ seen, ReportManager.KeyInv ng.rm seen ∧ seen.length ≤ h.length ∧
    ∀ id, id ∈ seen ↔ ∃ x ∈ h, x.single = true ∧ x.id = id
  width : ng.minWidth.val = h.foldl (fun m x => min m x.elems.length) (2 ^ 31 - 1)
  smwr : addLiterals (ε := CompileError) (callsOf h) (SmallWriteBuild.new np cc.grey) = .ok ng.smwr

theorem ngOk_new (cc : CompileContext) (np som : Nat) : NgOk cc np [] (Ng.new cc np som) where
  context := rfl
  rose := rfl
  limit := rfl
  inv := ReportManager.idInv_new _
  ids := rfl
  reg := ReportManager.regInv_new _
  keys := ⟨[], ReportManager.keyInv_new _, by simp, by simp⟩
  width := rfl
  smwr := rfl

theorem addLiterals_append {ε : Type} : ∀ (h h' : List (Ue2Literal × Nat)) (sw : SmallWriteBuild),
    addLiterals (ε := ε) (h ++ h') sw = (addLiterals h sw).bind (fun sw => addLiterals h' sw) := by
  intro h
  induction h with
  | nil => intro h' sw; rfl
  | cons x h ih =>
    obtain ⟨l, r⟩ := x
    intro h' sw
    rw [List.cons_append, addLiterals, addLiterals]
    cases sw.addLiteral (ε := ε) l r with
    | ok sw1 => exact ih h' sw1
    | err e => rfl
    | panic m => rfl
    | timeout => rfl

theorem addLiterals_ok {ε : Type} (np : Nat) (g : Grey) (hL : g.smallWriteLargestBuffer < 2 ^ 31)
    (h : List (Ue2Literal × Nat)) : ∃ sw, addLiterals (ε := ε) h (SmallWriteBuild.new np g) = .ok sw := by
  obtain ⟨n, hn⟩ := prefixCount_exists (strings (sensitiveOnes (shortOnes g.smallWriteLargestBuffer h)))
  obtain ⟨m, hm⟩ := prefixCount_exists (strings (caselessOnes (shortOnes g.smallWriteLargestBuffer h)))
  obtain ⟨sw, h1, _⟩ := C45_poisoned_iff (ε := ε) np g h hL n m hn hm
  exact ⟨sw, h1⟩

theorem depth_min (a b : Depth) : (Depth.min a b).val = min a.val b.val := by
  unfold Depth.min Depth.cmp
  by_cases h : compare a.val b.val = .gt
  · rw [if_pos h]
    have := Nat.compare_eq_gt.1 h
    omega
  · rw [if_neg h]
    have : ¬ b.val < a.val := fun hlt => h (Nat.compare_eq_gt.2 hlt)
    omega

/-- The settings are within the ranges of the integer types used. -/
structure Sane (g : Grey) : Prop where
  reports1 : 1 ≤ g.limitReportCount
  count : g.limitPatternCount ≤ 2 ^ 32
  length : g.limitPatternLength ≤ 2 ^ 31 - 5
  buffer : g.smallWriteLargestBuffer < 2 ^ 31

theorem sane_default : Sane Grey.default := by constructor <;> decide

theorem addLiteral_step (p : Profile) {cc : CompileContext} {np : Nat} {h : List LitEntry} {ng : Ng}
    (hs : Sane cc.grey) (hok : NgOk cc np h ng) (hg : cc.grey.shortcutLiterals = true)
    (i : Nat) (es : List (U8 × Bool)) (id : Nat) (single quiet : Bool) (hne : es ≠ [])
    (hlen : es.length ≤ 2 ^ 31 - 2) (hmix : mixedSensitivity (litOf es).iter = false)
    (hh : h.length < 2 ^ 32) :
    (∃ old, firstFor (regsOf h) id = some old ∧ old.highlander ≠ single ∧
      ng.addLiteral p (litOf es) i id single .none quiet
        = .err (CompileError.withIndex i (ReportManager.conflictMessage id ⟨single, i⟩ old))) ∨
    ((∀ x ∈ h, x.id = id → x.single = single) ∧
      ∃ ng', ng.addLiteral p (litOf es) i id single .none quiet = .ok (ng', true) ∧
        NgOk cc np (h ++ [⟨i, es, id, single⟩]) ng') := by
  obtain ⟨hcc, hrose, hlimit, hinv, hids, hreg, ⟨seen, hkey, hseen, hkeys⟩, hwidth, hsmwr⟩ := hok
  have hne' : (!(litOf es).isEmpty) = true := by
    cases es with
    | nil => exact absurd rfl hne
    | cons a es => rfl
  have hstart : ng.addLiteral p (litOf es) i id single .none quiet =
      match ng.rm.registerExtReport id ⟨single, i⟩ with
      | (_, .error e) => .err e
      | (rm, .ok ()) =>
        ((show Res (ReportManager × RoseBuild × Except CompileError Nat) from
          ((show Res (ReportManager × Option Nat) from
            if single then (rm.getExhaustibleKey id).bind (fun x => .ok (x.1, some x.2))
            else .ok (rm, none))).bind fun x =>
              (Ng.lift (x.1.getInternalId (makeECallback id 0 x.2 quiet))).bind fun y =>
                .ok (y.1, ng.rose, y.2))).bind fun z =>
          match z.2.2 with
          | .error e => .err e
          | .ok id' =>
            match Depth.tryFrom (litOf es).len with
            | none => .err (CompileError.new .other "depth overflow")
            | some d => (ng.smwr.addLiteral (litOf es) id').bind fun smwr =>
              .ok (({ ng with minWidth := Depth.min ng.minWidth d, rm := z.1, rose := z.2.1,
                              smwr := smwr } : Ng), true) := by
    unfold Ng.addLiteral
    rw [hne', rdebugAssert_true]
    show (if _ then _ else _) = _
    rw [hcc, hg, if_neg (by simp), if_neg (by simp [hmix])]
    rfl
  by_cases hconf : ∀ old, firstFor (regsOf h) id = some old → old.highlander = single
  · right
    have hagree : ∀ x ∈ h, x.id = id → x.single = single := by
      intro x hx hid
      have hm : (x.id, (⟨x.single, x.index⟩ : ExternalReportInfo)) ∈ regsOf h :=
        List.mem_map.2 ⟨x, hx, rfl⟩
      cases hf : firstFor (regsOf h) id with
      | none => exact absurd hid (ReportManager.firstFor_none hf _ hm)
      | some old =>
        have h1 := hreg.agree _ hm old (by show firstFor _ x.id = _; rw [hid]; exact hf)
        have h2 := hconf old hf
        exact h1.symm.trans h2
    refine ⟨hagree, ?_⟩
    obtain ⟨hr1, hr2⟩ := ReportManager.register_ok ng.rm (regsOf h) hreg id ⟨single, i⟩ hconf
    obtain ⟨f1, f2, f3, f4⟩ := ReportManager.register_frame ng.rm id ⟨single, i⟩
    rw [hstart]
    generalize ng.rm.registerExtReport id ⟨single, i⟩ = reg at hr1 hr2 f1 f2 f3 f4
    obtain ⟨rm1, res⟩ := reg
    simp only at hr1 hr2 f1 f2 f3 f4
    subst hr1
    simp only
    -- the exhaustible key
    have hkey1 : ReportManager.KeyInv rm1 seen := by
      unfold ReportManager.KeyInv at hkey ⊢; rw [f4]; exact hkey
    obtain ⟨rm2, ek, hk, ⟨seen2, hkey2, hseen2, hkeys2⟩, g1, g2, g3, g4, g5⟩ : ∃ rm2 ek,
        (if single then (rm1.getExhaustibleKey (ε := CompileError) id).bind (fun x => .ok (x.1, some x.2))
          else .ok (rm1, none)) = .ok (rm2, ek) ∧
        (∃ seen2, ReportManager.KeyInv rm2 seen2 ∧ seen2.length ≤ h.length + 1 ∧
          ∀ k, k ∈ seen2 ↔ k ∈ seen ∨ (single = true ∧ id = k)) ∧
        rm2.limitReportCount = rm1.limitReportCount ∧ rm2.reportIds = rm1.reportIds ∧
        rm2.reportIdToInternalMap = rm1.reportIdToInternalMap ∧
        rm2.externalIdMap = rm1.externalIdMap ∧ rm2.globalExhaust = rm1.globalExhaust := by
      cases single with
      | false =>
        exact ⟨rm1, none, rfl, ⟨seen, hkey1, by omega, by simp⟩, rfl, rfl, rfl, rfl, rfl⟩
      | true =>
        obtain ⟨rm2, k, h1, h2, h3⟩ := ReportManager.getExhaustibleKey_spec (ε := CompileError) rm1 seen
          hkey1 (2 ^ 32) (Nat.le_refl _) (by omega) id
        obtain ⟨e1, e2, e3, e4, e5⟩ := ReportManager.getExhaustibleKey_frame rm1 rm2 id k h1
        refine ⟨rm2, some k, ?_, ⟨_, h3, ?_, ?_⟩, e1, e2, e3, e4, e5⟩
        · rw [if_pos rfl, h1]; rfl
        · unfold assign
          split
          · simp; omega
          · split <;> simp <;> omega
        · intro k'
          unfold assign
          split
          · rename_i hm
            constructor
            · exact .inl
            · rintro (h | ⟨_, rfl⟩)
              · exact h
              · exact hm
          · rw [if_neg (by omega)]
            simp [eq_comm]
    rw [hk]
    simp only [Outcome.bind]
    -- the internal id
    have hinv2 : rm2.IdInv := by
      unfold ReportManager.IdInv at hinv ⊢
      rw [g2, g3, f2, f3]; exact hinv
    have hlim2 : rm2.limitReportCount = cc.grey.limitReportCount := by rw [g1, f1, hlimit]
    obtain ⟨rm3, h1, h2, h3, h4, h5, h6, h7⟩ := ReportManager.getInternalId_spec rm2 hinv2
      (makeECallback id 0 ek quiet) (.inr (.inr (by rw [g2, f2, hids]; split <;> simp)))
    have hid0 : rm2.reportIds = if h.isEmpty then [] else [⟨0⟩] := by rw [g2, f2, hids]
    have hass : assign rm2.limitReportCount rm2.reportIds (makeECallback id 0 ek quiet) = ([⟨0⟩], some 0) := by
      rw [hid0, hlim2]
      show assign _ _ (⟨0⟩ : Report) = _
      cases h with
      | nil =>
        have := hs.reports1
        unfold assign
        rw [if_neg (by simp), if_neg (by simp; omega)]
        rfl
      | cons x h => rfl
    rw [hass] at h1 h3
    rw [h1]
    simp only [Ng.lift, ReportManager.ofAnswer]
    have hl : (litOf es).len = es.length := by simp [litOf, Ue2Literal.len]
    have hd : Depth.tryFrom (litOf es).len = some ⟨es.length⟩ := by
      rw [hl]
      unfold Depth.tryFrom Depth.maxValue Depth.infinityVal
      rw [if_pos (by omega)]
    rw [hd]
    simp only
    -- the small-write builder
    obtain ⟨sw', hsw'⟩ := addLiterals_ok (ε := CompileError) np cc.grey hs.buffer
      (callsOf h ++ [(litOf es, 0)])
    have hsw1 : ng.smwr.addLiteral (ε := CompileError) (litOf es) 0 = .ok sw' := by
      rw [addLiterals_append, hsmwr] at hsw'
      replace hsw' : (ng.smwr.addLiteral (litOf es) 0).bind _ = _ := hsw'
      cases hx : ng.smwr.addLiteral (ε := CompileError) (litOf es) 0 with
      | ok sw => rw [hx] at hsw'; exact hsw'
      | err e => rw [hx] at hsw'; cases hsw'
      | panic e => rw [hx] at hsw'; cases hsw'
      | timeout => rw [hx] at hsw'; cases hsw'
    rw [hsw1]
    refine ⟨_, rfl, ?_⟩
    constructor
    · exact hcc
    · exact hrose
    · show rm3.limitReportCount = _
      rw [h4, hlim2]
    · exact h2
    · show rm3.reportIds = _
      rw [h3]
      simp
    · show ReportManager.RegInv rm3 _
      have e : regsOf (h ++ [⟨i, es, id, single⟩]) = regsOf h ++ [(id, ⟨single, i⟩)] := by simp [regsOf]
      rw [e]
      constructor
      · intro k; rw [h5, g4]; exact hr2.first k
      · exact hr2.agree
      · rw [h7, g5]; exact hr2.exhaust
    · refine ⟨seen2, ?_, by simpa using hseen2, ?_⟩
      · show ReportManager.KeyInv rm3 _
        unfold ReportManager.KeyInv at hkey2 ⊢
        rw [h6]; exact hkey2
      · intro k
        rw [hkeys2, hkeys]
        simp only [List.mem_append, List.mem_singleton]
        constructor
        · rintro (⟨x, hx, h1, h2⟩ | ⟨h1, h2⟩)
          · exact ⟨x, .inl hx, h1, h2⟩
          · exact ⟨_, .inr rfl, h1, h2⟩
        · rintro ⟨x, hx | rfl, h1, h2⟩
          · exact .inl ⟨x, hx, h1, h2⟩
          · exact .inr ⟨h1, h2⟩
    · show (Depth.min ng.minWidth ⟨es.length⟩).val = _
      rw [depth_min, hwidth, List.foldl_append]
      rfl
    · show addLiterals (callsOf (h ++ [⟨i, es, id, single⟩])) _ = .ok sw'
      have e : callsOf (h ++ [⟨i, es, id, single⟩]) = callsOf h ++ [(litOf es, 0)] := by simp [callsOf]
      rw [e]; exact hsw'
  · left
    have : ∃ old, firstFor (regsOf h) id = some old ∧ old.highlander ≠ single := by
      apply Classical.byContradiction
      intro hx; apply hconf; intro i hi
      apply Classical.byContradiction
      intro hne; exact hx ⟨i, hi, hne⟩
    obtain ⟨old, h1, h2⟩ := this
    refine ⟨old, h1, h2, ?_⟩
    rw [hstart, ReportManager.register_err ng.rm (regsOf h) hreg id ⟨single, i⟩ old h1 h2]

/-! ## One expression -/

theorem and_eq_right_iff (x a : U16) : (x &&& a) = a ↔ ∀ i, a.getLsbD i = true → x.getLsbD i = true := by
  constructor
  · intro h i hi
    rw [← h, BitVec.getLsbD_and] at hi
    simp at hi
    exact hi.1
  · intro h
    apply BitVec.eq_of_getLsbD_eq
    intro i _
    rw [BitVec.getLsbD_and]
    have := h i
    cases ha : a.getLsbD i
    · simp
    · rw [this ha]; rfl

theorem contains_or_iff (f a b : Flags) :
    f.contains (a.or b) = true ↔ f.contains a = true ∧ f.contains b = true := by
  unfold Flags.contains Flags.or
  simp only [beq_iff_eq, and_eq_right_iff, BitVec.getLsbD_or]
  constructor
  · intro h
    exact ⟨fun i hi => h i (by simp [hi]), fun i hi => h i (by simp [hi])⟩
  · rintro ⟨h1, h2⟩ i hi
    simp at hi
    rcases hi with hi | hi
    · exact h1 i hi
    · exact h2 i hi

theorem length_le_utf8Len (s : Str) : s.length ≤ utf8Len s := by
  induction s with
  | nil => exact Nat.le_refl _
  | cons c cs ih =>
    have := Context.utf8Len_lt_cons c cs
    simp; omega

/-- The expression record made from a valid expression. -/
theorem parsedExpression_valid (p : Profile) (i : Nat) (e : Expr) (hq : ¬ QuietSom e.2.1)
    (hacc : Acceptable p e.1) : ∃ pe, ParsedExpression.new p i e.1 e.2.1 e.2.2 = .ok pe := by
  have hq' : ¬ e.2.1.contains (Flags.QUIET.or .SOM_LEFTMOST) = true :=
    fun h => hq ((contains_or_iff _ _ _).1 h)
  have hiff := (parse_ok_iff p e.1 (ParseMode.new (e.2.1.and Flags.QUIET.not))).2 hacc
  unfold ParsedExpression.new
  simp only
  rw [if_neg hq']
  cases hp : parse p e.1 (ParseMode.new (e.2.1.and Flags.QUIET.not)) with
  | ok x => exact ⟨_, rfl⟩
  | err x => rw [hp] at hiff; cases hiff
  | panic x => rw [hp] at hiff; cases hiff
  | timeout => rw [hp] at hiff; cases hiff

theorem firstFor_regsOf {h : List LitEntry} {id : Nat} {old : ExternalReportInfo}
    (hf : firstFor (regsOf h) id = some old) :
    ∃ x, h.find? (fun x => x.id == id) = some x ∧ old = ⟨x.single, x.index⟩ := by
  induction h with
  | nil => simp [regsOf, firstFor] at hf
  | cons y h ih =>
    unfold regsOf firstFor at hf ih
    rw [List.map_cons, List.find?_cons] at hf
    rw [List.find?_cons]
    cases hy : y.id == id with
    | true =>
      rw [hy] at hf
      injection hf with hf
      exact ⟨y, rfl, hf.symm⟩
    | false =>
      rw [hy] at hf
      exact ih hf

theorem addGraph_none (ng : Ng) (x : ExpressionInfo) (g : NgHolder) (h : x.som = .none) :
    ng.addGraph x g = ng := by
  unfold Ng.addGraph
  rw [if_neg (by simp [h])]

/-- How a valid expression is added: a literal through `add_literal`, any other without any change. -/
theorem addExpression_shape (p : Profile) {ng : Ng} (hl : ng.cc.grey.limitPatternLength ≤ 2 ^ 31 - 5) (i : Nat)
    (hi : i < 2 ^ 32) (e : Expr) (hv : Valid p ng.cc.grey.limitPatternLength e) :
    (∀ els, litsOn ng.cc.grey = true → literalOf e = some els →
      els ≠ [] ∧ els.length ≤ 2 ^ 31 - 5 ∧ mixedSensitivity (litOf els).iter = false ∧
      ∃ (x : ExpressionInfo) (g : NgHolder), addExpression p ng i e.1 e.2.1 e.2.2 =
        (ng.addLiteral p (litOf els) i e.2.2 (e.2.1.contains .SINGLEMATCH) .none (e.2.1.contains .QUIET)).bind fun y =>
          if y.2 then .ok y.1 else .ok (y.1.addGraph x g)) ∧
    (litsOn ng.cc.grey = false ∨ literalOf e = none → addExpression p ng i e.1 e.2.1 e.2.2 = .ok ng) := by
  obtain ⟨hlen, hq, hacc⟩ := hv
  obtain ⟨pe, hpe⟩ := parsedExpression_valid p i e hq hacc
  obtain ⟨m, hparse, _, hexpr⟩ := parsedExpression_ok hpe
  obtain ⟨body, hb, ha, hbal, _⟩ := hacc
  have hcl := C37_caseless_flag e.2.1
  have hblen : body.length ≤ ng.cc.grey.limitPatternLength := by
    obtain ⟨v, hv, _⟩ := isBody_len hb
    have h1 := length_le_utf8Len e.1
    have h2 := congrArg List.length hv
    simp at h2
    omega
  obtain ⟨b, hbuild, hbexpr, _⟩ := C40_positions (ε := CompileError) p i e.1 body e.2.1 e.2.2 pe hpe hb
    (by omega)
  have hadd : addExpression p ng i e.1 e.2.1 e.2.2 =
      (shortcutLiteral p ng pe).bind fun x =>
        if x.2 then .ok x.1 else .ok (x.1.addGraph b.expr b.graph) := by
    unfold addExpression
    rw [if_neg (by omega)]
    show (ParsedExpression.new p i e.1 e.2.1 e.2.2).bind _ = _
    rw [hpe]
    simp only [Outcome.bind]
    have hpf : (if pe.expr.prefilter = true then ({ pe with component := prefilterTree pe.component } : ParsedExpression) else pe) = pe := by
      split <;> rfl
    show (shortcutLiteral p ng (if pe.expr.prefilter = true then
      ({ pe with component := prefilterTree pe.component } : ParsedExpression) else pe)).bind _ = _
    simp only [hpf]
    cases hsl : shortcutLiteral p ng pe with
    | ok x =>
      obtain ⟨ng1, done⟩ := x
      simp only [Outcome.bind]
      cases done with
      | true => rfl
      | false =>
        show (buildGraph p pe).bind _ = _
        rw [hbuild]; rfl
    | err x => rfl
    | panic x => rfl
    | timeout => rfl
  have hsom : b.expr.som = .none := by rw [hbexpr, hexpr]
  -- an expression off the literal path changes nothing
  have hoff : shortcutLiteral p ng pe = .ok (ng, false) → addExpression p ng i e.1 e.2.1 e.2.2 = .ok ng := by
    intro hsl
    rw [hadd, hsl]
    simp only [Outcome.bind]
    rw [if_neg (by simp), addGraph_none _ _ _ hsom]
  have hbody : bodyOf e.1 = some body := (bodyOf_some _ _).2 hb
  have hlitform : literalOf e = if '|' ∈ body ∨ ∀ c ∈ body, c = '(' ∨ c = ')' then none
      else some (litElems (e.2.1.contains .CASELESS) body) := by
    unfold literalOf; rw [hbody]
  constructor
  · intro els hon hels
    have hon' : ng.cc.grey.allowLiteral = true ∧ ng.cc.grey.shortcutLiterals = true := by
      simpa [litsOn] using hon
    rw [hlitform] at hels
    split at hels
    · cases hels
    · rename_i hlit
      injection hels with hels
      subst hels
      have hbar : '|' ∉ body := fun h => hlit (.inl h)
      have hne : litElems (e.2.1.contains .CASELESS) body ≠ [] := by
        unfold litElems
        intro h
        apply hlit
        right
        intro c hc
        have := List.filter_eq_nil_iff.1 (List.map_eq_nil_iff.1 h) c hc
        by_cases h1 : c = '('
        · exact .inl h1
        · by_cases h2 : c = ')'
          · exact .inr h2
          · simp [h1, h2] at this
      have hwalk := C37_literal p p e.1 body _ _ m hparse hb
      rw [if_neg hbar, hcl] at hwalk
      have hmix := litElems_not_mixed (e.2.1.contains .CASELESS) body _ rfl
      have hshort : shortcutLiteral p ng pe =
          ng.addLiteral p (litOf (litElems (e.2.1.contains .CASELESS) body)) i e.2.2
            (e.2.1.contains .SINGLEMATCH) .none (e.2.1.contains .QUIET) := by
        unfold shortcutLiteral
        rw [hon'.1, if_neg (by simp), hwalk]
        simp only
        rw [if_neg ?_]
        · rw [hexpr]
          show (ReportManager.toU32 i _).bind _ = _
          rw [ReportManager.toU32_ok _ _ hi]
          rfl
        · simpa [Ue2Literal.isEmpty] using hne
      have helen : (litElems (e.2.1.contains .CASELESS) body).length ≤ body.length := by
        unfold litElems
        rw [List.length_map]
        exact List.length_filter_le _ _
      exact ⟨hne, by omega, hmix, b.expr, b.graph, by rw [hadd, hshort]⟩
  · intro hoff'
    apply hoff
    by_cases hon : litsOn ng.cc.grey = true
    · have hon' : ng.cc.grey.allowLiteral = true ∧ ng.cc.grey.shortcutLiterals = true := by
        simpa [litsOn] using hon
      obtain ⟨hfast, hsame⟩ := C37_fast_path p ng i e.1 body e.2.1 e.2.2 pe hon'.1 hon'.2 hpe hb
      have hnone : literalOf e = none := hoff'.resolve_left (by rw [hon]; simp)
      rw [hlitform] at hnone
      split at hnone
      · rename_i hlit
        obtain ⟨ng', hn⟩ := hfast.2 hlit
        have := hsame ng' hn
        subst this
        exact hn
      · cases hnone
    · unfold shortcutLiteral
      by_cases hal : ng.cc.grey.allowLiteral = true
      · have hsc : ng.cc.grey.shortcutLiterals = false := by simpa [litsOn, hal] using hon
        rw [hal, if_neg (by simp)]
        have hwalk := C37_literal p p e.1 body _ _ m hparse hb
        rw [hwalk]
        split
        · rfl
        · rename_i heq; split at heq <;> cases heq
        · rename_i heq; split at heq <;> cases heq
        · rename_i lit heq
          split
          · rfl
          · rename_i hemp
            rw [hexpr]
            show (ReportManager.toU32 i _).bind _ = _
            rw [ReportManager.toU32_ok _ _ hi]
            simp only [Outcome.bind]
            unfold Ng.addLiteral
            have : (!lit.isEmpty) = true := by simpa using hemp
            rw [this, rdebugAssert_true]
            show (if _ then _ else _) = _
            rw [hsc]
            rfl
      · have : ng.cc.grey.allowLiteral = false := by simpa using hal
        rw [this]; rfl

/-- What adding a valid expression does. -/
theorem addExpression_valid (p : Profile) {cc : CompileContext} {np : Nat} {h : List LitEntry} {ng : Ng}
    (hs : Sane cc.grey) (hok : NgOk cc np h ng) (hh : h.length < 2 ^ 32) (i : Nat) (hi : i < 2 ^ 32)
    (e : Expr) (hv : Valid p cc.grey.limitPatternLength e) :
    (¬ Agrees (litsOn cc.grey) h e ∧ litsOn cc.grey = true ∧ literalOf e ≠ none ∧
      ∃ old, h.find? (fun x => x.id == e.2.2) = some old ∧ old.single ≠ e.2.1.contains .SINGLEMATCH ∧
      addExpression p ng i e.1 e.2.1 e.2.2 = .err ⟨.other, conflictText i e old, some i⟩) ∨
    (Agrees (litsOn cc.grey) h e ∧ ∃ ng', addExpression p ng i e.1 e.2.1 e.2.2 = .ok ng' ∧
      NgOk cc np (h ++ entriesFrom (litsOn cc.grey) i [e]) ng') := by
  have hcc : ng.cc = cc := hok.context
  obtain ⟨h1, h2⟩ := addExpression_shape p (ng := ng) (by rw [hcc]; exact hs.length) i hi e (by rw [hcc]; exact hv)
  rw [hcc] at h1 h2
  by_cases hon : litsOn cc.grey = true
  · have hon' : cc.grey.allowLiteral = true ∧ cc.grey.shortcutLiterals = true := by
      simpa [litsOn] using hon
    cases hlit : literalOf e with
    | none =>
      right
      refine ⟨fun _ hne => absurd hlit hne, ng, h2 (.inr hlit), ?_⟩
      simp only [entriesFrom, hon, hlit, if_true, List.append_nil]
      exact hok
    | some els =>
      obtain ⟨hne, hlen, hmix, x, g, hadd⟩ := h1 els hon hlit
      have hne' : literalOf e ≠ none := by rw [hlit]; simp
      rcases addLiteral_step p hs hok hon'.2 i els e.2.2 (e.2.1.contains .SINGLEMATCH)
        (e.2.1.contains .QUIET) hne (by omega) hmix hh with ⟨old, h3, h4, h5⟩ | ⟨h3, ng', h4, h5⟩
      · left
        obtain ⟨x, hx, rfl⟩ := firstFor_regsOf h3
        refine ⟨?_, hon, by simp, x, hx, h4, ?_⟩
        · intro hag
          exact h4 (hag hon hne' x (List.mem_of_find?_eq_some hx) (by
            have := List.find?_some hx; simpa using this))
        · rw [hadd, h5]; rfl
      · right
        refine ⟨fun _ _ => h3, ng', ?_, ?_⟩
        · rw [hadd, h4]; rfl
        · simp only [entriesFrom, hon, hlit, if_true]
          exact h5
  · right
    have hoff : litsOn cc.grey = false := by simpa using hon
    refine ⟨fun h => absurd h hon, ng, h2 (.inl hoff), ?_⟩
    simp only [entriesFrom, hoff]
    simpa using hok

/-- What adding an invalid expression does. -/
theorem addExpression_invalid (p : Profile) (ng : Ng) (i : Nat) (e : Expr)
    (hv : ¬ Valid p ng.cc.grey.limitPatternLength e) :
    (utf8Len e.1 > ng.cc.grey.limitPatternLength ∧
      addExpression p ng i e.1 e.2.1 e.2.2 = .err ⟨.other, "Pattern length exceeds limit.", none⟩) ∨
    (utf8Len e.1 ≤ ng.cc.grey.limitPatternLength ∧ QuietSom e.2.1 ∧
      addExpression p ng i e.1 e.2.1 e.2.2 =
        .err ⟨.other, "QUIET is not supported in combination with SOM_LEFTMOST.", none⟩) ∨
    (utf8Len e.1 ≤ ng.cc.grey.limitPatternLength ∧ ¬ QuietSom e.2.1 ∧ ¬ Acceptable p e.1 ∧
      ¬ ParsePanics p e.1 ∧ ∃ kind reason, (kind = .parse ∨ kind = .locatedParse) ∧
      addExpression p ng i e.1 e.2.1 e.2.2 = .err ⟨kind, reason, none⟩) ∨
    (utf8Len e.1 ≤ ng.cc.grey.limitPatternLength ∧ ¬ QuietSom e.2.1 ∧ ParsePanics p e.1 ∧
      ∃ m, addExpression p ng i e.1 e.2.1 e.2.2 = .panic m) := by
  unfold addExpression
  by_cases hlen : utf8Len e.1 > ng.cc.grey.limitPatternLength
  · rw [if_pos hlen]; exact .inl ⟨hlen, rfl⟩
  · rw [if_neg hlen]
    right
    have hl : utf8Len e.1 ≤ ng.cc.grey.limitPatternLength := by omega
    by_cases hq : QuietSom e.2.1
    · left
      refine ⟨hl, hq, ?_⟩
      show (ParsedExpression.new p i e.1 e.2.1 e.2.2).bind _ = _
      unfold ParsedExpression.new
      simp only
      rw [if_pos ((contains_or_iff _ _ _).2 hq)]
      rfl
    · right
      have hq' : ¬ e.2.1.contains (Flags.QUIET.or .SOM_LEFTMOST) = true :=
        fun h => hq ((contains_or_iff _ _ _).1 h)
      have hiff := parse_ok_iff p e.1 (ParseMode.new (e.2.1.and Flags.QUIET.not))
      have hpan : _ ↔ ParsePanics p e.1 :=
        C33_panics_partial p e.1 (ParseMode.new (e.2.1.and Flags.QUIET.not))
      show (_ ∧ _ ∧ _ ∧ _ ∧ ∃ kind reason, _ ∧ (ParsedExpression.new p i e.1 e.2.1 e.2.2).bind _ = _) ∨
        (_ ∧ _ ∧ _ ∧ ∃ m, (ParsedExpression.new p i e.1 e.2.1 e.2.2).bind _ = _)
      unfold ParsedExpression.new
      simp only
      rw [if_neg hq']
      cases hp : parse p e.1 (ParseMode.new (e.2.1.and Flags.QUIET.not)) with
      | ok x =>
        rw [hp] at hiff
        exact absurd ⟨hl, hq, hiff.1 rfl⟩ hv
      | err x =>
        rw [hp] at hiff hpan
        obtain ⟨hxi, hxk⟩ := parse_err_index hp
        refine .inl ⟨hl, hq, fun h => (by cases hiff.2 h), fun h => (by cases hpan.2 h), x.kind, x.reason, hxk, ?_⟩
        rw [← hxi]; rfl
      | panic m =>
        rw [hp] at hpan
        exact .inr ⟨hl, hq, hpan.1 rfl, m, rfl⟩
      | timeout => exact absurd hp (parse_not_timeout _ _ _)

/-! ## Lists of expressions -/

theorem entriesFrom_cons (on : Bool) (i : Nat) (e : Expr) (es : List Expr) :
    entriesFrom on i (e :: es) = entriesFrom on i [e] ++ entriesFrom on (i + 1) es := by
  simp only [entriesFrom]
  split <;> simp

theorem entriesFrom_append (on : Bool) : ∀ (es es' : List Expr) (i : Nat),
    entriesFrom on i (es ++ es') = entriesFrom on i es ++ entriesFrom on (i + es.length) es' := by
  intro es
  induction es with
  | nil => intro es' i; simp [entriesFrom]
  | cons e es ih =>
    intro es' i
    rw [List.cons_append, entriesFrom_cons, ih, entriesFrom_cons on i e es, List.length_cons]
    rw [show i + 1 + es.length = i + (es.length + 1) by omega, List.append_assoc]

theorem entriesFrom_length (on : Bool) : ∀ (es : List Expr) (i : Nat),
    (entriesFrom on i es).length ≤ es.length := by
  intro es
  induction es with
  | nil => intro i; simp [entriesFrom]
  | cons e es ih =>
    intro i
    simp only [entriesFrom]
    have := ih (i + 1)
    split <;> simp <;> omega

/-- The error or panic for an expression that cannot be added. -/
theorem addAll_stop (p : Profile) (i : Nat) (ng : Ng) (e : Expr) (es : List Expr) (hi : i < 2 ^ 32) :
    (∀ x, addExpression p ng i e.1 e.2.1 e.2.2 = .err x → x.index = none ∨ p = .release →
      addAll p i ng (e :: es) = .err { x with index := some i }) ∧
    (∀ x, addExpression p ng i e.1 e.2.1 e.2.2 = .err x → x.index ≠ none → p = .debug →
      (addAll p i ng (e :: es)).isPanic = true) ∧
    (∀ m, addExpression p ng i e.1 e.2.1 e.2.2 = .panic m → addAll p i ng (e :: es) = .panic m) ∧
    (∀ ng', addExpression p ng i e.1 e.2.1 e.2.2 = .ok ng' →
      addAll p i ng (e :: es) = addAll p (i + 1) ng' es) := by
  obtain ⟨e1, e2, e3⟩ := e
  refine ⟨?_, ?_, ?_, ?_⟩
  · intro x hx hn
    rw [addAll, hx]
    show (ReportManager.toU32 i _).bind _ = _
    rw [ReportManager.toU32_ok _ _ hi]
    show (CompileError.setExpressionIndex p x i).bind _ = _
    unfold CompileError.setExpressionIndex
    show ((rdebugAssert p x.index.isNone _).bind _).bind _ = _
    have : rdebugAssert (ε := CompileError) p x.index.isNone "assertion failed: self.index.is_none()" = .ok () := by
      rcases hn with hn | rfl
      · rw [hn]; exact rdebugAssert_true p _
      · exact rdebugAssert_release _ _
    rw [this]; rfl
  · intro x hx hn hd
    rw [addAll, hx]
    show ((ReportManager.toU32 i _).bind _).isPanic = _
    rw [ReportManager.toU32_ok _ _ hi]
    show ((CompileError.setExpressionIndex p x i).bind _).isPanic = _
    unfold CompileError.setExpressionIndex
    show (((rdebugAssert p x.index.isNone _).bind _).bind _).isPanic = _
    have hf : x.index.isNone = false := by
      cases h : x.index with
      | none => exact absurd h hn
      | some _ => rfl
    subst hd
    rw [hf]; rfl
  · intro m hm; rw [addAll, hm]
  · intro ng' hn; rw [addAll, hn]

/-- What happens at an expression that cannot be added. -/
theorem addAll_refused (p : Profile) {cc : CompileContext} {np : Nat} {h : List LitEntry} {ng : Ng}
    (hs : Sane cc.grey) (hok : NgOk cc np h ng) (hh : h.length < 2 ^ 32) (i : Nat) (hi : i < 2 ^ 32)
    (e : Expr) (es : List Expr)
    (hv : ¬ (Valid p cc.grey.limitPatternLength e ∧ Agrees (litsOn cc.grey) h e)) :
    Refused p cc.grey h i e (addAll p i ng (e :: es)) := by
  obtain ⟨s1, s2, s3, s4⟩ := addAll_stop p i ng e es hi
  by_cases hval : Valid p cc.grey.limitPatternLength e
  · rcases addExpression_valid p hs hok hh i hi e hval with ⟨h1, hon, hlit, old, h2, h3, h4⟩ | ⟨h1, _⟩
    · cases p with
      | release =>
        rw [s1 _ h4 (.inr rfl)]
        exact .conflict old hval hon hlit h2 h3 rfl
      | debug =>
        have := s2 _ h4 (by simp) rfl
        cases hr : addAll .debug i ng (e :: es) with
        | panic m => exact .conflictDebug m hval h1 rfl
        | ok x => rw [hr] at this; cases this
        | err x => rw [hr] at this; cases this
        | timeout => rw [hr] at this; cases this
    · exact absurd ⟨hval, h1⟩ hv
  · rcases addExpression_invalid p ng i e (by rw [hok.context]; exact hval) with
      ⟨h1, h2⟩ | ⟨h1, hq, h2⟩ | ⟨h1, hq, hna, hnp, kind, reason, hk, h2⟩ | ⟨h1, hq, hp, m, h2⟩
    all_goals rw [hok.context] at h1
    · rw [s1 _ h2 (.inl rfl)]; exact .tooLong h1
    · rw [s1 _ h2 (.inl rfl)]; exact .quietSom h1 hq
    · rw [s1 _ h2 (.inl rfl)]; exact .unparsable kind reason h1 hq hna hnp hk
    · rw [s3 _ h2]; exact .panics m h1 hq hp

/-- Adding a list: either everything can be added, or there is a first expression that cannot. -/
theorem addAll_spec (p : Profile) {cc : CompileContext} {np : Nat} (hs : Sane cc.grey) (all : List Expr)
    (hall : all.length ≤ 2 ^ 32) :
    ∀ (es done : List Expr) (ng : Ng), all = done ++ es →
    NgOk cc np (entriesFrom (litsOn cc.grey) 0 done) ng →
    ((∀ (j : Nat) (e : Expr), es[j]? = some e → Addable p cc.grey all (done.length + j) e) ∧
      ∃ ng', addAll p done.length ng es = .ok ng' ∧
        NgOk cc np (entriesFrom (litsOn cc.grey) 0 all) ng') ∨
    (∃ (j : Nat) (e : Expr), es[j]? = some e ∧ ¬ Addable p cc.grey all (done.length + j) e ∧
      (∀ (k : Nat) (e' : Expr), k < j → es[k]? = some e' → Addable p cc.grey all (done.length + k) e') ∧
      Refused p cc.grey (entriesFrom (litsOn cc.grey) 0 (all.take (done.length + j))) (done.length + j) e
        (addAll p done.length ng es)) := by
  intro es
  induction es with
  | nil =>
    intro done ng hd hok
    refine .inl ⟨fun j e h => by simp at h, ng, rfl, ?_⟩
    rw [hd, List.append_nil]; exact hok
  | cons e es ih =>
    intro done ng hd hok
    have hlen : done.length < 2 ^ 32 := by
      have := congrArg List.length hd
      simp at this; omega
    have hel : (entriesFrom (litsOn cc.grey) 0 done).length < 2 ^ 32 := by
      have := entriesFrom_length (litsOn cc.grey) done 0; omega
    have htake : all.take done.length = done := by rw [hd]; simp
    by_cases hv : Addable p cc.grey all done.length e
    · have hv' := hv
      unfold Addable at hv'
      rw [htake] at hv'
      rcases addExpression_valid p hs hok hel done.length hlen e hv'.1 with ⟨h1, _⟩ | ⟨h1, ng', h2, h3⟩
      · exact absurd hv'.2 h1
      · rw [(addAll_stop p done.length ng e es hlen).2.2.2 ng' h2]
        have hok' : NgOk cc np (entriesFrom (litsOn cc.grey) 0 (done ++ [e])) ng' := by
          rw [entriesFrom_append, Nat.zero_add]; exact h3
        have hd' : all = (done ++ [e]) ++ es := by rw [hd]; simp
        have hl' : (done ++ [e]).length = done.length + 1 := by simp
        have := ih (done ++ [e]) ng' hd' hok'
        rw [hl'] at this
        rcases this with ⟨g1, ng2, g2, g3⟩ | ⟨j, e', g1, g2, g3, g4⟩
        · left
          refine ⟨?_, ng2, g2, g3⟩
          intro j e' hj
          cases j with
          | zero => injection hj with hj; subst hj; exact hv
          | succ j =>
            have := g1 j e' hj
            rw [show done.length + 1 + j = done.length + (j + 1) by omega] at this
            exact this
        · right
          rw [show done.length + 1 + j = done.length + (j + 1) by omega] at g2 g4
          refine ⟨j + 1, e', g1, g2, ?_, g4⟩
          intro k e'' hk hke
          cases k with
          | zero => injection hke with hke; subst hke; exact hv
          | succ k =>
            have := g3 k e'' (by omega) hke
            rw [show done.length + 1 + k = done.length + (k + 1) by omega] at this
            exact this
    · right
      refine ⟨0, e, rfl, hv, by intro k e' hk; omega, ?_⟩
      rw [Nat.add_zero, htake]
      apply addAll_refused p hs hok hel _ hlen
      unfold Addable at hv
      rw [htake] at hv
      exact hv

/-! ## The whole call -/

theorem izip_eq : ∀ (es : List Str) (fs : List Flags) (ids : List Nat), izip es fs ids = es.zip (fs.zip ids) := by
  intro es
  induction es with
  | nil => intro fs ids; rfl
  | cons e es ih =>
    intro fs ids
    cases fs with
    | nil => rfl
    | cons f fs =>
      cases ids with
      | nil => rfl
      | cons i ids => simp [izip, ih]

/-- What is said about an expression carries over to any type of result. -/
theorem Refused.map {α β : Type} {p : Profile} {g : Grey} {h : List LitEntry} {j : Nat} {e : Expr}
    {r : Res α} (f : α → Res β) (hr : Refused p g h j e r) : Refused p g h j e (r.bind f) := by
  cases hr with
  | tooLong h1 => exact .tooLong h1
  | quietSom h1 h2 => exact .quietSom h1 h2
  | unparsable k r h1 h2 h3 h4 h5 => exact .unparsable k r h1 h2 h3 h4 h5
  | panics m h1 h2 h3 => exact .panics m h1 h2 h3
  | conflict old h1 h2 h3 h4 h5 h6 => exact .conflict old h1 h2 h3 h4 h5 h6
  | conflictDebug m h1 h2 h3 => exact .conflictDebug m h1 h2 h3

/-- The two outcomes of compiling, for the builder state. -/
theorem compileNg_spec (p : Profile) (es : List Str) (fs : List Flags) (ids : List Nat) (mode : Mode) (g : Grey)
    (hs : Sane g) (hne : es ≠ []) (hn : es.length ≤ g.limitPatternCount) :
    ((∀ (j : Nat) (e : Expr), (es.zip (fs.zip ids))[j]? = some e → Addable p g (es.zip (fs.zip ids)) j e) ∧
      ∃ ng, compileNg p es fs ids mode g = .ok ng ∧
        NgOk ⟨mode.isStreaming, mode.isVectored, g⟩ es.length
          (entriesFrom (litsOn g) 0 (es.zip (fs.zip ids))) ng) ∨
    (∃ (j : Nat) (e : Expr), (es.zip (fs.zip ids))[j]? = some e ∧ ¬ Addable p g (es.zip (fs.zip ids)) j e ∧
      (∀ (k : Nat) (e' : Expr), k < j → (es.zip (fs.zip ids))[k]? = some e' →
        Addable p g (es.zip (fs.zip ids)) k e') ∧
      Refused p g (entriesFrom (litsOn g) 0 ((es.zip (fs.zip ids)).take j)) j e
        (compileNg p es fs ids mode g)) := by
  have heq : compileNg p es fs ids mode g =
      addAll p 0 (Ng.new ⟨mode.isStreaming, mode.isVectored, g⟩ es.length mode.somPrecision)
        (es.zip (fs.zip ids)) := by
    unfold compileNg
    rw [if_neg (by simpa using hne), if_neg (by omega), izip_eq]
  rw [heq]
  have := addAll_spec p (cc := ⟨mode.isStreaming, mode.isVectored, g⟩) (np := es.length) hs
    (es.zip (fs.zip ids)) (by have := hs.count; rw [List.length_zip]; omega)
    (es.zip (fs.zip ids)) [] _ rfl (ngOk_new _ _ mode.somPrecision)
  simpa using this

end Rescan
