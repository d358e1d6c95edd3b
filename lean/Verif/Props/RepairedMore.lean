import Verif.Model.Repaired
import Verif.Props.RepairedText
import Verif.Props.DotText
import Verif.Props.Expression
import Verif.Spec.Witness
/-! # C98 (continued): dumps, DOT descriptions, and graphs offered to the small-write builder

`Model/Repaired.lean` is **not code that exists**. -/
namespace Rescan.RepairedMore
open Spec Dump RepairedText

/-! ## C72: dumps -/

theorem item_no_newline (i : ClassItem) : '\n' ∉ i.text .text := by
  cases i with
  | one c => exact describe_no_newline c
  | range a b =>
    have := describe_no_newline a
    have := describe_no_newline b
    simp_all [ClassItem.text]
  | word => decide
  | digit => decide
  | space => decide

theorem items_no_newline (l : List ClassItem) : '\n' ∉ itemsText .text l := by
  unfold itemsText
  rw [List.mem_flatMap]
  rintro ⟨i, _, h⟩
  exact item_no_newline i h

theorem full_no_newline {s : U8 → Bool} {t : Str} (h : IsFullDescription s .text t) : '\n' ∉ t := by
  rcases h with ⟨rfl, _⟩ | ⟨rfl, _⟩ | ⟨l, rfl, _⟩ | ⟨l, rfl, _⟩ | ⟨l, rfl, _⟩
  · decide
  · decide
  · exact items_no_newline l
  · have := items_no_newline l
    simp_all
  · have := items_no_newline l
    simp_all

/-- The description of a class, as text. -/
def textOf (p : Profile) (cr : CharReach) : Str :=
  match Repaired.describeClass p 4 cr 256 .text with
  | .ok t => t
  | _ => []

theorem textOf_eq (p : Profile) (fuel : Nat) (hf : 4 ≤ fuel) (cr : CharReach) :
    Repaired.describeClass p fuel cr 256 .text = .ok (textOf p cr) := by
  obtain ⟨t, ht, _⟩ := C98_describe_class p 4 (Nat.le_refl _) cr .text
  obtain ⟨k, rfl⟩ : ∃ k, fuel = 4 + k := ⟨fuel - 4, by omega⟩
  rw [describeClass_le p 4 k 256 cr .text t ht]
  unfold textOf
  rw [ht]

theorem textOf_no_newline (p : Profile) (cr : CharReach) : '\n' ∉ textOf p cr := by
  obtain ⟨t, ht, hd⟩ := C98_describe_class p 4 (Nat.le_refl _) cr .text
  rw [textOf_eq p 4 (Nat.le_refl _)] at ht
  injection ht with ht
  subst ht
  exact full_no_newline hd

theorem textOf_inj (p : Profile) {a b : CharReach} (h : textOf p a = textOf p b) : a = b :=
  C98_descriptions_of_mode p 4 a b .text _ (textOf_eq p 4 (Nat.le_refl _) a) (by
    rw [h]; exact textOf_eq p 4 (Nat.le_refl _) b)

section
variable {p : Profile} {fuel : Nat} {hf : 4 ≤ fuel}

include hf
mutual
theorem dumpEvents : ∀ (c : Component) (out : Str) (d : Nat),
    callAll (Repaired.dumpVisitor p fuel) ⟨out, d⟩ (events c) = .ok ⟨out ++ dump (textOf p) d c, d⟩
  | .cls (.ascii a), out, d => by
    have hpre : call (Repaired.dumpVisitor p fuel) ⟨out, d⟩ (.preClass a)
        = .ok ⟨out ++ dump (textOf p) d (.cls (.ascii a)), d + 1⟩ := by
      show Repaired.preClass p fuel ⟨out, d⟩ a = _
      unfold Repaired.preClass
      rw [textOf_eq p fuel hf]
      simp [filler_eq, dump, indent_succ, Outcome.bind, Bind.bind, Pure.pure]
    rw [events, callAll_cons, hpre]
    show callAll _ _ _ = _
    rw [callAll_single]
    exact outdent_succ p _ d
  | .alternation a, out, d => by rw [events, dump]; exact dumpEventsAlt a out d
  | .sequence q, out, d => by rw [events, dump]; exact dumpEventsSeq q out d
theorem dumpEventsAlt : ∀ (a : ComponentAlternation) (out : Str) (d : Nat),
    callAll (Repaired.dumpVisitor p fuel) ⟨out, d⟩ (eventsAlt a) = .ok ⟨out ++ dumpAlt (textOf p) d a, d⟩
  | .mk cs, out, d => by
    have hpre : call (Repaired.dumpVisitor p fuel) ⟨out, d⟩ (.preAlt (.mk cs))
        = .ok ⟨out ++ (indent d ++ "ALTERNATION\n".toList), d + 1⟩ := by
      show preAlt ⟨out, d⟩ (.mk cs) = _
      simp [preAlt, filler_eq]
    rw [eventsAlt, callAll_cons, hpre]
    show callAll _ _ _ = _
    rw [callAll_append, dumpEventsSeqs cs _ _]
    show callAll _ _ _ = _
    rw [callAll_single]
    show outdent p _ = _
    rw [outdent_succ, dumpAlt]
    simp only [List.append_assoc]
theorem dumpEventsSeq : ∀ (q : ComponentSequence) (out : Str) (d : Nat),
    callAll (Repaired.dumpVisitor p fuel) ⟨out, d⟩ (eventsSeq q) = .ok ⟨out ++ dumpSeq (textOf p) d q, d⟩
  | .mk cs a i n, out, d => by
    rw [eventsSeq, callAll_cons]
    show (preSeq ⟨out, d⟩ _).bind _ = _
    rw [preSeq_eq]
    show callAll _ _ _ = _
    rw [callAll_append, dumpEventsComps cs _ _]
    show callAll _ _ _ = _
    rw [callAll_single]
    show outdent p _ = _
    rw [outdent_succ, dumpSeq]
    cases cs with
    | nil => simp [dumpComps]
    | cons c cs => simp
theorem dumpEventsSeqs : ∀ (ss : List ComponentSequence) (out : Str) (d : Nat),
    callAll (Repaired.dumpVisitor p fuel) ⟨out, d⟩ (eventsSeqs ss) = .ok ⟨out ++ dumpSeqs (textOf p) d ss, d⟩
  | [], out, d => by rw [eventsSeqs, dumpSeqs, List.append_nil]; rfl
  | s :: ss, out, d => by
    rw [eventsSeqs, callAll_append, dumpEventsSeq s out d]
    show callAll _ _ _ = _
    rw [dumpEventsSeqs ss _ d, dumpSeqs, List.append_assoc]
theorem dumpEventsComps : ∀ (cs : List Component) (out : Str) (d : Nat),
    callAll (Repaired.dumpVisitor p fuel) ⟨out, d⟩ (eventsAll cs) = .ok ⟨out ++ dumpComps (textOf p) d cs, d⟩
  | [], out, d => by rw [eventsAll, dumpComps, List.append_nil]; rfl
  | c :: cs, out, d => by
    rw [eventsAll, callAll_append, dumpEvents c out d]
    show callAll _ _ _ = _
    rw [dumpEventsComps cs _ d, dumpComps, List.append_assoc]
end
end

theorem quiet (p : Profile) (fuel : Nat) : QuietDuring (Repaired.dumpVisitor p fuel) := by
  intro e s h; cases e <;> first | rfl | cases h

theorem callAll_le {ε σ : Type} (v w : Visitor ε σ)
    (h : ∀ s e s', call v s e = .ok s' → call w s e = .ok s') : ∀ (l : List Event) (s s' : σ),
    callAll v s l = .ok s' → callAll w s l = .ok s'
  | [], _, _, e => e
  | x :: l, s, s', e => by
    rw [callAll] at e ⊢
    cases hx : call v s x with
    | ok t =>
      rw [hx] at e
      rw [h s x t hx]
      exact callAll_le v w h l t s' e
    | err e' => rw [hx] at e; cases e
    | panic m => rw [hx] at e; cases e
    | timeout => rw [hx] at e; cases e

theorem preClass_le (p : Profile) (f k : Nat) (s : DumpState) (c : AsciiComponentClass) :
    Le (Repaired.preClass p f s c) (Repaired.preClass p (f + k) s c) :=
  le_bind (describeClass_le p f k 256 c.cr .text) fun _ => le_refl _

/-- C98, C72: the repaired dump is the printer of the specification, with every class written in full. -/
theorem C98_tree_dump (p : Profile) (fuel : Nat) (c : Component) (s : Str) (hc : p = .release ∨ Finalized c)
    (h : Repaired.dumpTree p fuel c = .ok s) : s = dump (textOf p) 0 c := by
  unfold Repaired.dumpTree at h
  rw [walkComponent_events p _ (quiet p _) c _ hc] at h
  obtain ⟨t, ht, h⟩ := bind_eq_ok h
  have := callAll_le _ (Repaired.dumpVisitor p (fuel + 4)) (by
    intro s e s' he
    cases e with
    | preClass a => exact preClass_le p fuel 4 s a s' he
    | _ => exact he) _ _ _ ht
  rw [dumpEvents (hf := by omega)] at this
  injection this with this
  injection h with h
  rw [← h, ← this]
  rfl

example : ∃ x, parse .release "(a|b)1".toList ParseMode.default = .ok x ∧
    (Repaired.dumpTree .release 4 x.1).isOk = true := Outcome.exists_ok (by decide +kernel)

mutual
theorem dump_modes (text : CharReach → Str) : ∀ (c : Component) (d : Nat), dump text d (withoutModes c) = dump text d c
  | .cls (.ascii a), d => by rw [withoutModes, dump, dump]
  | .alternation a, d => by rw [withoutModes, dump, dump, dumpAlt_modes text a]
  | .sequence q, d => by rw [withoutModes, dump, dump, dumpSeq_modes text q]
theorem dumpAlt_modes (text : CharReach → Str) : ∀ (a : ComponentAlternation) (d : Nat),
    dumpAlt text d (withoutModesAlt a) = dumpAlt text d a
  | .mk cs, d => by rw [withoutModesAlt, dumpAlt, dumpAlt, dumpSeqs_modes text cs]
theorem dumpSeq_modes (text : CharReach → Str) : ∀ (q : ComponentSequence) (d : Nat),
    dumpSeq text d (withoutModesSeq q) = dumpSeq text d q
  | .mk cs none i n, d => by
    rw [withoutModesSeq, dumpSeq, dumpSeq, dumpComps_modes text cs]
    cases cs <;> simp [withoutModesComps]
  | .mk cs (some a) i n, d => by
    rw [withoutModesSeq, dumpSeq, dumpSeq, dumpComps_modes text cs]
    cases cs <;> simp [withoutModesComps]
theorem dumpSeqs_modes (text : CharReach → Str) : ∀ (cs : List ComponentSequence) (d : Nat),
    dumpSeqs text d (withoutModesSeqs cs) = dumpSeqs text d cs
  | [], d => by rw [withoutModesSeqs]
  | s :: ss, d => by rw [withoutModesSeqs, dumpSeqs, dumpSeqs, dumpSeq_modes text s, dumpSeqs_modes text ss]
theorem dumpComps_modes (text : CharReach → Str) : ∀ (cs : List Component) (d : Nat),
    dumpComps text d (withoutModesComps cs) = dumpComps text d cs
  | [], d => by rw [withoutModesComps]
  | s :: ss, d => by rw [withoutModesComps, dumpComps, dumpComps, dump_modes text s, dumpComps_modes text ss]
end

/-- The class remembers the default mode. -/
def Plain (a : AsciiComponentClass) : Prop := a.mode = ParseMode.default

mutual
theorem nice_modes {Q : AsciiComponentClass → Prop} : ∀ c : Component, Nice Q c → Nice Plain (withoutModes c)
  | .cls (.ascii a), _ => by rw [withoutModes]; exact rfl
  | .alternation a, h => by rw [withoutModes]; exact niceAlt_modes a h
  | .sequence q, h => by rw [withoutModes]; exact niceSeq_modes q h
theorem niceAlt_modes {Q : AsciiComponentClass → Prop} : ∀ a : ComponentAlternation, NiceAlt Q a →
    NiceAlt Plain (withoutModesAlt a)
  | .mk cs, h => by rw [withoutModesAlt]; exact niceSeqs_modes cs h
theorem niceSeq_modes {Q : AsciiComponentClass → Prop} : ∀ q : ComponentSequence, NiceSeq Q q →
    NiceSeq Plain (withoutModesSeq q)
  | .mk cs none i n, h => by rw [withoutModesSeq]; exact ⟨rfl, h.2.1, niceComps_modes cs h.2.2⟩
  | .mk cs (some a) i n, h => by cases h.1
theorem niceSeqs_modes {Q : AsciiComponentClass → Prop} : ∀ cs : List ComponentSequence, NiceSeqs Q cs →
    NiceSeqs Plain (withoutModesSeqs cs)
  | [], _ => by rw [withoutModesSeqs]; trivial
  | s :: ss, h => by rw [withoutModesSeqs]; exact ⟨niceSeq_modes s h.1, niceSeqs_modes ss h.2⟩
theorem niceComps_modes {Q : AsciiComponentClass → Prop} : ∀ cs : List Component, NiceComps Q cs →
    NiceComps Plain (withoutModesComps cs)
  | [], _ => by rw [withoutModesComps]; trivial
  | s :: ss, h => by rw [withoutModesComps]; exact ⟨nice_modes s h.1, niceComps_modes ss h.2⟩
end

theorem nice_parse {pr : Profile} {ptr : Str} {mode : ParseMode} {c : Component} {m : ParseMode}
    (h : parse pr ptr mode = .ok (c, m)) : Nice Plain (withoutModes c) := by
  obtain ⟨a, ⟨_, _, ha, rfl⟩, _⟩ := C30_parse_sound pr ptr mode c m (litClass mode.caseless)
    (fun c hc => litClass_spec mode.caseless c (by omega)) h
  exact nice_modes (Q := fun _ => True) _ ⟨rfl, rfl, nice_alts (fun _ _ _ _ => trivial) a 1 ha⟩

/-- C98, C72 repaired: with the last range of a class always written dumps identify trees. -/
theorem C98_dumps (p : Profile) : DumpsIdentifyOf p (Repaired.dumpTree p) := by
  intro ptr ptr' mode mode' c c' m m' fuel s h h' hs hs'
  have e := C98_tree_dump p fuel c s (.inr (parse_finalized h)) hs
  have e' := C98_tree_dump p fuel c' s (.inr (parse_finalized h')) hs'
  refine (dump_unique (text := textOf p) (Q := Plain) (fun a _ => textOf_no_newline p a.cr) ?_ _ _ 0 [] []
    (nice_parse h) (nice_parse h') (.inl rfl) (.inl rfl) (by rw [dump_modes, dump_modes, ← e, ← e'])).1
  intro a b ha hb ht
  cases a
  cases b
  simp only [Plain] at ha hb
  have hc := textOf_inj p ht
  simp only at hc
  rw [ha, hb, hc]

example : (match parse .release "a(b|1)".toList caselessMode with
    | .ok (c, _) => match Repaired.dumpTree .release 4 c with
      | .ok s => s
      | _ => []
    | _ => []) = ("SEQUENCE (capture index 0)\n" ++
      "  ASCII CLASS\n" ++
      "    [Aa]\n" ++
      "  SEQUENCE (capture index 1)\n" ++
      "    ALTERNATION\n" ++
      "      SEQUENCE (not captured)\n" ++
      "        ASCII CLASS\n" ++
      "          [Bb]\n" ++
      "      SEQUENCE (not captured)\n" ++
      "        ASCII CLASS\n" ++
      "          1\n").toList := by decide +kernel

/-! ## C85: DOT descriptions -/

/-- C85's full statement about a function. -/
def DotIsQuotedTextOf (f : Profile → Nat → CharReach → Nat → CcOutput → Res Str) : Prop :=
  ∀ (p : Profile) (fuel : Nat) (cr : CharReach) (maxLen : Nat),
    f p fuel cr maxLen .dot = (do return dotQuote (← f p fuel cr maxLen .text))

example : DotIsQuotedTextOf describeClass ↔ DotIsQuotedText := Iff.rfl

/-- C98, C85 repaired: with the text forms compared in both modes a DOT description is the text description, quoted. -/
theorem C98_dot : DotIsQuotedTextOf Repaired.describeClassAlike := by
  intro p fuel cr maxLen
  unfold Repaired.describeClassAlike
  by_cases h1 : cr.all = true
  · rw [if_pos h1, if_pos h1]; rfl
  rw [if_neg h1, if_neg h1]
  by_cases h2 : cr.none = true
  · rw [if_pos h2, if_pos h2]; rfl
  rw [if_neg h2, if_neg h2]
  by_cases h3 : cr.count = 1
  · rw [if_pos h3, if_pos h3]
    cases cr.findFirst with
    | none => rfl
    | some c =>
      show Outcome.ok _ = Outcome.ok _
      rw [DotText.char]
  rw [if_neg h3, if_neg h3]
  by_cases h4 : cr.not.count = 1
  · rw [if_pos h4, if_pos h4]
    cases cr.not.findFirst with
    | none => rfl
    | some c =>
      show Outcome.ok _ = Outcome.ok _
      simp only [DotText.quote_append, DotText.char]; rfl
  rw [if_neg h4, if_neg h4, DotText.classInt, DotText.classInt]
  cases ho : describeClassInt p fuel cr maxLen .text with
  | err e => rfl
  | panic m => rfl
  | timeout => rfl
  | ok o =>
    cases hn : describeClassInt p fuel cr.not maxLen .text with
    | err e => rfl
    | panic m => rfl
    | timeout => rfl
    | ok n =>
      show (if utf8Len o.1 ≤ utf8Len n.1 then _ else _) = Outcome.bind (if utf8Len o.1 ≤ utf8Len n.1 then _ else _) _
      by_cases hle : utf8Len o.1 ≤ utf8Len n.1
      · rw [if_pos hle, if_pos hle]
        by_cases hk : o.2 > 1
        · rw [if_pos hk, if_pos hk]
          show Outcome.ok _ = Outcome.ok _
          simp only [DotText.quote_append]; rfl
        · rw [if_neg hk, if_neg hk]; rfl
      · rw [if_neg hle, if_neg hle]
        show Outcome.ok _ = Outcome.ok _
        simp only [DotText.quote_append]; rfl

/-- The text descriptions stay as they are. -/
theorem C98_dot_text_same (p : Profile) (fuel : Nat) (cr : CharReach) (maxLen : Nat) :
    Repaired.describeClassAlike p fuel cr maxLen .text = describeClass p fuel cr maxLen .text := by
  unfold Repaired.describeClassAlike describeClass
  cases describeClassInt p fuel cr maxLen .text with
  | err e => rfl
  | panic m => rfl
  | timeout => rfl
  | ok o => cases describeClassInt p fuel cr.not maxLen .text <;> rfl

/-- The class of `C85_false`. -/
example : (let cr := CharReach.fromBytes ((List.range 0x23).map (BitVec.ofNat 8))
    Repaired.describeClassAlike .release 256 cr 16 .dot = .ok "[\\\\x 0-\\\"]".toList ∧
    describeClass .release 256 cr 16 .dot = .ok "[^#-\\\\xff]".toList) := by decide +kernel

/-! ## C74: graphs offered to the small-write builder -/

/-- C74's full statement about a function. -/
def GraphsOfferedOf (f : SmallWriteBuild → ReportManager → NgHolder → ExpressionInfo → Outcome Empty SmallWriteBuild) :
    Prop :=
  ∀ (sw : SmallWriteBuild) (rm : ReportManager) (g : NgHolder) (expr : ExpressionInfo),
    (∀ r, ReportedBy g r → r < rm.reportIds.length) → (f sw rm g expr).isOk = true

example : GraphsOfferedOf (SmallWriteBuild.addExpression (ε := Empty)) ↔ GraphsOffered := Iff.rfl

/-- What offering a graph does when the builder gives up instead of panicking: it ends up poisoned, and nothing else
changes. -/
theorem C98_graphs_offered_exact {ε : Type} (sw : SmallWriteBuild) (rm : ReportManager) (g : NgHolder)
    (expr : ExpressionInfo) (hr : ∀ r, ReportedBy g r → r < rm.reportIds.length) :
    Repaired.smallWriteAddExpression (ε := ε) sw rm g expr = .ok { sw with poisoned := true } := by
  obtain ⟨b, h1, -⟩ := anyMinLength_eq (ε := ε) rm g.allReports (fun r hm => hr r ((C74_all_reports g r).1 hm))
  unfold Repaired.smallWriteAddExpression
  by_cases hp : sw.poisoned = true
  · rw [if_pos hp]
    cases sw
    simp only at hp
    rw [hp]
  · rw [if_neg hp, h1]
    split
    · rfl
    · split
      · rfl
      · cases b <;> rfl

example (rm : ReportManager) : ∀ r, ReportedBy GlushkovBuildState.freshGraph r → r < rm.reportIds.length := by
  intro r h
  rw [← C74_all_reports] at h
  exact absurd h (by rw [show GlushkovBuildState.freshGraph.allReports = [] from rfl]; simp)

/-- C98, C74 repaired: every graph whose reports are known can be offered. -/
theorem C98_graphs_offered : GraphsOfferedOf (Repaired.smallWriteAddExpression (ε := Empty)) := by
  intro sw rm g expr hr
  rw [C98_graphs_offered_exact sw rm g expr hr]
  rfl

/-- Wherever the code does not panic the result stays as it is. -/
theorem C98_graphs_offered_same {ε : Type} (sw sw' : SmallWriteBuild) (rm : ReportManager) (g : NgHolder)
    (expr : ExpressionInfo) (h : sw.addExpression (ε := ε) rm g expr = .ok sw') :
    Repaired.smallWriteAddExpression (ε := ε) sw rm g expr = .ok sw' := by
  unfold SmallWriteBuild.addExpression at h
  unfold Repaired.smallWriteAddExpression
  split at h
  · rename_i hp; rw [if_pos hp]; exact h
  · rename_i hp
    rw [if_neg hp]
    split at h
    · rename_i hs; rw [if_pos hs]; exact h
    · rename_i hs
      rw [if_neg hs]
      split at h
      · rename_i hv; rw [if_pos hv]; exact h
      · rename_i hv
        rw [if_neg hv]
        obtain ⟨b, hb, h⟩ := bind_eq_ok h
        show (SmallWriteBuild.anyMinLength rm g.allReports).bind _ = _
        rw [hb]
        cases b with
        | true => exact h
        | false => cases h

/-- The graph on which the code panics. -/
example : ((SmallWriteBuild.new 1 Grey.default).addExpression (ε := Empty) (ReportManager.new Grey.default) GlushkovBuildState.freshGraph
      ⟨0, 0, false, false, false, false, .none, false⟩).isPanic = true ∧
    (Repaired.smallWriteAddExpression (ε := Empty) (SmallWriteBuild.new 1 Grey.default) (ReportManager.new Grey.default)
      GlushkovBuildState.freshGraph ⟨0, 0, false, false, false, false, .none, false⟩).isOk = true := by decide +kernel

end Rescan.RepairedMore
