import Verif.Proofs.Parser
import Verif.Model.Compiler
import Verif.Spec.Tree
import Verif.Props.Parser
import Verif.Props.CharReach
/-! # Helper lemmas about tree walks -/
namespace Rescan
open Spec

variable {ε σ : Type}

theorem callAll_append (v : Visitor ε σ) (l1 l2 : List Event) (s : σ) :
    callAll v s (l1 ++ l2) = (callAll v s l1).bind (fun s => callAll v s l2) := by
  induction l1 generalizing s with
  | nil => rfl
  | cons e es ih =>
    simp only [List.cons_append, callAll]
    cases call v s e with
    | ok s' => exact ih s'
    | _ => rfl

theorem callAll_cons (v : Visitor ε σ) (e : Event) (es : List Event) (s : σ) :
    callAll v s (e :: es) = (call v s e).bind (fun s => callAll v s es) := by
  simp only [callAll]; cases call v s e <;> rfl

theorem callAll_single (v : Visitor ε σ) (e : Event) (s : σ) : callAll v s [e] = call v s e := by
  simp only [callAll]; cases call v s e <;> rfl

theorem rdebugAssert_true (p : Profile) (m : String) : rdebugAssert (ε := ε) p true m = .ok () := by
  simp [rdebugAssert]

theorem rdebugAssert_release (b : Bool) (m : String) : rdebugAssert (ε := ε) .release b m = .ok () := by
  simp [rdebugAssert]

/-- The check of `walk_component_sequence` does not fire. -/
def CheckOk (p : Profile) (fin : Prop) : Prop := p = .release ∨ fin

mutual
theorem walkComponent_steps (p : Profile) (v : Visitor ε σ) : ∀ (c : Component) (s : σ),
    CheckOk p (Finalized c) → walkComponent p v s c = callAll v s (steps c)
  | .alternation a, s, h => by
    rw [walkComponent, steps, walkAlt_steps p v a s]
    cases a; exact h
  | .cls (.ascii a), s, h => by
    rw [walkComponent, steps, callAll_cons, walkComponentClass]
    simp only [callAll_cons v (.duringClass a), callAll_single]; rfl
  | .sequence q, s, h => by
    rw [walkComponent, steps, walkSeq_steps p v q s]
    cases q; exact h
theorem walkAlt_steps (p : Profile) (v : Visitor ε σ) : ∀ (a : ComponentAlternation) (s : σ),
    CheckOk p (FinalizedSeqs a.children) → walkComponentAlternation p v s a = callAll v s (stepsAlt a)
  | .mk cs, s, h => by
    rw [walkComponentAlternation, stepsAlt, callAll_cons]
    show (v.preComponentAlternation s (.mk cs)).bind _ = (v.preComponentAlternation s (.mk cs)).bind _
    cases v.preComponentAlternation s (.mk cs) with
    | ok s' =>
      show (walkSequences p v s' (.mk cs) cs).bind _ = callAll v s' _
      rw [callAll_append, walkSeqs_steps p v (.mk cs) cs s' h]
      congr 1; funext s2; rw [callAll_single]; rfl
    | _ => rfl
theorem walkSeq_steps (p : Profile) (v : Visitor ε σ) : ∀ (q : ComponentSequence) (s : σ),
    CheckOk p (FinalizedSeq q) → walkComponentSequence p v s q = callAll v s (stepsSeq q)
  | .mk cs a ci cn, s, h => by
    have h0 : rdebugAssert (ε := ε) p a.isNone "assertion failed: c.alternation.is_none()" = .ok () := by
      rcases h with rfl | h
      · exact rdebugAssert_release _ _
      · rw [h.1]; exact rdebugAssert_true _ _
    have h' : CheckOk p (FinalizedAll cs) := h.imp id (fun h => h.2)
    rw [walkComponentSequence, stepsSeq, callAll_cons, h0]
    show (v.preComponentSequence s (.mk cs a ci cn)).bind _
      = (v.preComponentSequence s (.mk cs a ci cn)).bind _
    cases v.preComponentSequence s (.mk cs a ci cn) with
    | ok s' =>
      show (walkComponents p v s' (.mk cs a ci cn) cs).bind _ = callAll v s' _
      rw [callAll_append, walkAll_steps p v (.mk cs a ci cn) cs s' h']
      congr 1; funext s2; rw [callAll_single]; rfl
    | _ => rfl
theorem walkSeqs_steps (p : Profile) (v : Visitor ε σ) (a : ComponentAlternation) :
    ∀ (qs : List ComponentSequence) (s : σ),
    CheckOk p (FinalizedSeqs qs) → walkSequences p v s a qs = callAll v s (stepsSeqs (.duringAlt a) qs)
  | [], s, h => by rw [walkSequences, stepsSeqs]; rfl
  | [q], s, h => by
    rw [walkSequences, stepsSeqs, walkSeq_steps p v q s (h.imp id (fun h => h.1))]
    show (callAll v s (stepsSeq q)).bind _ = _
    cases callAll v s (stepsSeq q) with
    | ok s' => show (walkSequences p v s' a []) = _; rw [walkSequences]
    | _ => rfl
  | q :: r :: qs, s, h => by
    rw [walkSequences, stepsSeqs, callAll_append, walkSeq_steps p v q s (h.imp id (fun h => h.1))]
    show (callAll v s (stepsSeq q)).bind _ = _
    congr 1; funext s2
    rw [callAll_cons]
    show (v.duringComponentAlternation s2 a).bind _ = _
    congr 1; funext s3
    exact walkSeqs_steps p v a (r :: qs) s3 (h.imp id (fun h => h.2))
theorem walkAll_steps (p : Profile) (v : Visitor ε σ) (q : ComponentSequence) :
    ∀ (cs : List Component) (s : σ),
    CheckOk p (FinalizedAll cs) → walkComponents p v s q cs = callAll v s (stepsAll (.duringSeq q) cs)
  | [], s, h => by rw [walkComponents, stepsAll]; rfl
  | [c], s, h => by
    rw [walkComponents, stepsAll, walkComponent_steps p v c s (h.imp id (fun h => h.1))]
    show (callAll v s (steps c)).bind _ = _
    cases callAll v s (steps c) with
    | ok s' => show (walkComponents p v s' q []) = _; rw [walkComponents]
    | _ => rfl
  | c :: d :: cs, s, h => by
    rw [walkComponents, stepsAll, callAll_append, walkComponent_steps p v c s (h.imp id (fun h => h.1))]
    show (callAll v s (steps c)).bind _ = _
    congr 1; funext s2
    rw [callAll_cons]
    show (v.duringComponentSequence s2 q).bind _ = _
    congr 1; funext s3
    exact walkAll_steps p v q (d :: cs) s3 (h.imp id (fun h => h.2))
end

/-! ## Visitors that do nothing in between -/

mutual
theorem steps_filter : ∀ c : Component, (steps c).filter (fun e => !e.isDuring) = events c
  | .alternation (.mk cs) => by
    rw [steps, stepsAlt, events, eventsAlt, List.filter_cons, List.filter_append,
      stepsSeqs_filter _ rfl cs]; rfl
  | .cls (.ascii a) => rfl
  | .sequence q => by rw [steps, events, stepsSeq_filter q]
theorem stepsSeq_filter : ∀ q : ComponentSequence, (stepsSeq q).filter (fun e => !e.isDuring) = eventsSeq q
  | .mk cs a i n => by
    rw [stepsSeq, eventsSeq, List.filter_cons, List.filter_append, stepsAll_filter _ rfl cs]; rfl
theorem stepsSeqs_filter (sep : Event) (h : sep.isDuring = true) : ∀ qs : List ComponentSequence,
    (stepsSeqs sep qs).filter (fun e => !e.isDuring) = eventsSeqs qs
  | [] => rfl
  | [q] => by simp [stepsSeqs, eventsSeqs, stepsSeq_filter q]
  | q :: r :: qs => by
    rw [stepsSeqs, eventsSeqs, List.filter_append, List.filter_cons, stepsSeq_filter q,
      stepsSeqs_filter sep h (r :: qs)]
    simp [h]
theorem stepsAll_filter (sep : Event) (h : sep.isDuring = true) : ∀ cs : List Component,
    (stepsAll sep cs).filter (fun e => !e.isDuring) = eventsAll cs
  | [] => rfl
  | [c] => by simp [stepsAll, eventsAll, steps_filter c]
  | c :: d :: cs => by
    rw [stepsAll, eventsAll, List.filter_append, List.filter_cons, steps_filter c,
      stepsAll_filter sep h (d :: cs)]
    simp [h]
end

/-- The `during` methods do nothing. -/
def QuietDuring (v : Visitor ε σ) : Prop := ∀ (e : Event) (s : σ), e.isDuring = true → call v s e = .ok s

theorem quiet_constructLiteral : QuietDuring constructLiteralVisitor := by
  intro e s h; cases e <;> first | rfl | cases h

theorem quiet_dump (p : Profile) (fuel : Nat) : QuietDuring (Dump.dumpVisitor p fuel) := by
  intro e s h; cases e <;> first | rfl | cases h

theorem callAll_filter {v : Visitor ε σ} (h : QuietDuring v) (l : List Event) (s : σ) :
    callAll v s (l.filter (fun e => !e.isDuring)) = callAll v s l := by
  induction l generalizing s with
  | nil => rfl
  | cons e l ih =>
    rw [List.filter_cons, callAll_cons]
    cases he : e.isDuring with
    | true => rw [h e s he]; exact ih s
    | false => simp only [Bool.not_false, if_true, callAll_cons, ih]

theorem walkComponent_events (p : Profile) (v : Visitor ε σ) (hq : QuietDuring v) (c : Component) (s : σ)
    (h : CheckOk p (Finalized c)) : walkComponent p v s c = callAll v s (events c) := by
  rw [walkComponent_steps p v c s h, ← steps_filter, callAll_filter hq]

/-! ## Every node has one `pre` and one `post` event -/

mutual
theorem events_counts : ∀ c : Component,
    (events c).countP Event.isPre = size c ∧ (events c).length = 2 * size c
  | .alternation (.mk cs) => by
    have h := eventsSeqs_counts cs
    simp only [events, eventsAlt, size, List.countP_cons, List.countP_append, List.countP_nil,
      List.length_cons, List.length_append, List.length_nil, h.1, h.2, Event.isPre]
    simp; omega
  | .cls (.ascii a) => by rw [events, size]; exact ⟨rfl, rfl⟩
  | .sequence q => by rw [events, size]; exact eventsSeq_counts q
theorem eventsSeq_counts : ∀ q : ComponentSequence,
    (eventsSeq q).countP Event.isPre = sizeSeq q ∧ (eventsSeq q).length = 2 * sizeSeq q
  | .mk cs a ci cn => by
    have h := eventsAll_counts cs
    simp only [eventsSeq, sizeSeq, List.countP_cons, List.countP_append, List.countP_nil,
      List.length_cons, List.length_append, List.length_nil, h.1, h.2, Event.isPre]
    simp; omega
theorem eventsSeqs_counts : ∀ qs : List ComponentSequence,
    (eventsSeqs qs).countP Event.isPre = sizeSeqs qs ∧ (eventsSeqs qs).length = 2 * sizeSeqs qs
  | [] => by simp [eventsSeqs, sizeSeqs]
  | q :: qs => by
    have h1 := eventsSeq_counts q
    have h2 := eventsSeqs_counts qs
    simp only [eventsSeqs, sizeSeqs, List.countP_append, List.length_append, h1.1, h1.2, h2.1, h2.2]
    exact ⟨trivial, by omega⟩
theorem eventsAll_counts : ∀ cs : List Component,
    (eventsAll cs).countP Event.isPre = sizeAll cs ∧ (eventsAll cs).length = 2 * sizeAll cs
  | [] => by simp [eventsAll, sizeAll]
  | c :: cs => by
    have h1 := events_counts c
    have h2 := eventsAll_counts cs
    simp only [eventsAll, sizeAll, List.countP_append, List.length_append, h1.1, h1.2, h2.1, h2.2]
    exact ⟨trivial, by omega⟩
end

/-! ## Trees of the grammar: finalized, small -/

mutual
theorem Item.measures (cls : Char → ComponentClass) : ∀ (i : Item) (k : Nat),
    Finalized (i.build cls k).1 ∧ size (i.build cls k).1 ≤ 3 * i.print.length ∧
      depth (i.build cls k).1 ≤ i.print.length
  | .lit c, k => by simp [Item.build, Finalized, size, depth, Item.print]
  | .group a, k => by
    have h := Alts.measures cls a (k + 1)
    simp only [Item.build, Finalized, FinalizedSeq, size, sizeSeq, depth, depthSeq, Item.print,
      List.length_append, List.length_cons, List.length_nil]
    refine ⟨⟨trivial, h.1⟩, by omega, by omega⟩
theorem Seq.measures (cls : Char → ComponentClass) : ∀ (s : Seq) (k : Nat),
    FinalizedAll (s.build cls k).1 ∧ sizeAll (s.build cls k).1 ≤ 3 * s.print.length ∧
      depthAll (s.build cls k).1 ≤ s.print.length
  | .nil, k => by simp [Seq.build, FinalizedAll, sizeAll, depthAll, Seq.print]
  | .cons i s, k => by
    have h1 := Item.measures cls i k
    have h2 := Seq.measures cls s (i.build cls k).2
    simp only [Seq.build, FinalizedAll, sizeAll, depthAll, Seq.print, List.length_append]
    refine ⟨⟨h1.1, h2.1⟩, by omega, by omega⟩
theorem Alts.measures (cls : Char → ComponentClass) : ∀ (a : Alts) (k : Nat),
    FinalizedAll (a.build cls k).1 ∧ sizeAll (a.build cls k).1 ≤ 3 * a.print.length ∧
      depthAll (a.build cls k).1 ≤ a.print.length + 1
  | .one s, k => by
    have h := Seq.measures cls s k
    simp only [Alts.build, Alts.print]
    exact ⟨h.1, h.2.1, by omega⟩
  | .more s a, k => by
    have h1 := Seq.measures cls s k
    have h2 := Alts.measuresB cls a (s.build cls k).2
    simp only [Alts.build, Alts.print, FinalizedAll, Finalized, FinalizedSeqs, FinalizedSeq, sizeAll,
      size, sizeSeqs, sizeSeq, depthAll, depth, depthSeqs, depthSeq, List.length_append,
      List.length_cons]
    refine ⟨⟨⟨⟨trivial, h1.1⟩, h2.1⟩, trivial⟩, by omega, by omega⟩
theorem Alts.measuresB (cls : Char → ComponentClass) : ∀ (a : Alts) (k : Nat),
    FinalizedSeqs (a.branches cls k).1 ∧ sizeSeqs (a.branches cls k).1 ≤ 3 * a.print.length + 1 ∧
      depthSeqs (a.branches cls k).1 ≤ a.print.length + 1
  | .one s, k => by
    have h1 := Seq.measures cls s k
    simp only [Alts.branches, Alts.print, FinalizedSeqs, FinalizedSeq, sizeSeqs, sizeSeq, depthSeqs,
      depthSeq]
    refine ⟨⟨⟨trivial, h1.1⟩, trivial⟩, by omega, by omega⟩
  | .more s a, k => by
    have h1 := Seq.measures cls s k
    have h2 := Alts.measuresB cls a (s.build cls k).2
    simp only [Alts.branches, Alts.print, FinalizedSeqs, FinalizedSeq, sizeSeqs, sizeSeq, depthSeqs,
      depthSeq, List.length_append, List.length_cons]
    refine ⟨⟨⟨trivial, h1.1⟩, h2.1⟩, by omega, by omega⟩
end

/-- The tree of an accepted pattern is the tree of a grammar tree with the text of the body. -/
theorem parse_tree {pr : Profile} {ptr : Str} {mode : ParseMode} {c : Component} {m : ParseMode}
    (h : parse pr ptr mode = .ok (c, m)) :
    ∃ a : Alts, a.Wf ∧ IsBody ptr a.print ∧ IsAscii a.print ∧ c = a.root (litClass mode.caseless) := by
  obtain ⟨a, ⟨hw, hb, ha, hc⟩, _⟩ := C30_parse_sound pr ptr mode c m (litClass mode.caseless)
    (fun c h => litClass_spec _ c (by omega)) h
  exact ⟨a, hw, hb, ha, hc⟩

theorem parse_finalized {pr : Profile} {ptr : Str} {mode : ParseMode} {c : Component} {m : ParseMode}
    (h : parse pr ptr mode = .ok (c, m)) : Finalized c := by
  obtain ⟨a, _, _, _, rfl⟩ := parse_tree h
  exact ⟨rfl, (Alts.measures _ a 1).1⟩

end Rescan
