import Verif.Props.Dump
import Verif.Proofs.Writes
import Verif.Spec.Witness
/-! # C83: printing to a writer that may fail -/
namespace Rescan
open Spec Dump

theorem rep0_text {f : Printer0} (hf : Rep0 f) {d : Res Str} (hd : f CompileError Str stringSink [] = d) :
    ∃ (ws : List Write) (fin : Outcome Empty Unit),
      (∀ (ε σ : Type) (w : Sink ε σ) (s : σ),
        f ε σ w s = (play w s ws).bind (fun s => (noErr fin).bind (fun _ => .ok s))) ∧
      d = (noErr fin).bind (fun _ => .ok (text ws)) := by
  obtain ⟨ws, fin, h⟩ := hf
  refine ⟨ws, fin, h, ?_⟩
  rw [← hd, h, play_string]; rfl

/-- C83: describing a class makes a fixed sequence of calls on its writer, whatever the writer: it stops
at the first call that does not succeed, with that call's outcome.  The text of the calls is the text
printed into a `String`; if the printer itself panics, it does so for every writer, after the same calls. -/
theorem C83_class (p : Profile) (fuel : Nat) (cr : CharReach) (maxLen : Nat) (out : CcOutput) :
    ∃ (ws : List Write) (fin : Outcome Empty Unit),
      (∀ (ε σ : Type) (w : Sink ε σ) (s : σ), describeClassTo p fuel w s cr maxLen out =
        (play w s ws).bind (fun s => (noErr fin).bind (fun _ => .ok s))) ∧
      describeClass p fuel cr maxLen out = (noErr fin).bind (fun _ => .ok (text ws)) := by
  refine rep0_text (rep_describeClass p fuel cr maxLen out) ?_
  rw [describeClass_string]
  cases describeClass p fuel cr maxLen out <;> rfl

/-- C83, for the counted description used inside (`describe_class_int`). -/
theorem C83_class_int (p : Profile) (fuel : Nat) (cr : CharReach) (maxLen : Nat) (out : CcOutput) :
    ∃ (ws : List Write) (fin : Outcome Empty Nat),
      (∀ (ε σ : Type) (w : Sink ε σ) (s : σ), describeClassIntTo p fuel w s cr maxLen out =
        (play w s ws).bind (fun s => (noErr fin).bind (fun n => .ok (s, n)))) ∧
      describeClassInt p fuel cr maxLen out = (noErr fin).bind (fun n => .ok (text ws, n)) := by
  obtain ⟨ws, fin, h⟩ := rep_describeClassInt p fuel cr maxLen out
  refine ⟨ws, fin, h, ?_⟩
  have h1 : describeClassIntTo p fuel stringSink [] cr maxLen out = _ := h CompileError Str stringSink []
  rw [describeClassInt_string, play_string] at h1
  refine Eq.trans ?_ h1
  cases describeClassInt p fuel cr maxLen out <;> rfl

/-- C83, for dumps of component trees. -/
theorem C83_tree (p : Profile) (fuel : Nat) (c : Component) (hf : p = .release ∨ Finalized c) :
    ∃ (ws : List Write) (fin : Outcome Empty Unit),
      (∀ (ε σ : Type) (w : Sink ε σ) (s : σ), dumpTreeTo p fuel w s c =
        (play w s ws).bind (fun s => (noErr fin).bind (fun _ => .ok s))) ∧
      dumpTree p fuel c = (noErr fin).bind (fun _ => .ok (text ws)) :=
  rep0_text (rep_dumpTree p fuel c hf) (dumpTree_string p fuel c hf)

example := C83_tree .debug 4 (.sequence (.mk [.alternation (.mk [.mk [] none none none])] none (some 0) none))
  (.inr ⟨rfl, ⟨⟨rfl, trivial⟩, trivial⟩, trivial⟩)

/-- C83: dumping the tree of an accepted pattern never panics of itself: the dump is just a sequence of
calls on the writer, whose text is the dump of the tree. -/
theorem C83_parsed_tree (pr p : Profile) (fuel : Nat) (hf : 4 ≤ fuel) (ptr : Str) (mode : ParseMode)
    (c : Component) (m : ParseMode) (h : parse pr ptr mode = .ok (c, m)) :
    ∃ ws : List Write, text ws = dump firstByteText 0 c ∧
      ∀ (ε σ : Type) (w : Sink ε σ) (s : σ), dumpTreeTo p fuel w s c = play w s ws := by
  obtain ⟨ws, fin, h1, h2⟩ := C83_tree p fuel c (.inr (parse_finalized h))
  rw [C62_tree_dump pr p fuel hf ptr mode c m h] at h2
  cases fin with
  | ok _ =>
    refine ⟨ws, ?_, fun ε σ w s => ?_⟩
    · injection h2 with h2; exact h2.symm
    · rw [h1]; cases play w s ws <;> rfl
  | err e => nomatch e
  | panic _ => cases h2
  | timeout => cases h2

example : ∃ x, parse .release "(a|b)c".toList ParseMode.default = .ok x :=
  Outcome.exists_of_isOk (by decide +kernel)

/-- C83: a writer that never fails receives all the calls. -/
theorem play_total {ε σ : Type} (w : Sink ε σ) (f : σ → Write → σ) (h : ∀ s x, perform w s x = .ok (f s x)) :
    ∀ (ws : List Write) (s : σ), play w s ws = .ok (ws.foldl f s)
  | [], _ => rfl
  | x :: ws, s => by rw [play, h]; exact play_total w f h ws _

/-- C83: an error comes from one of the calls; all calls before it have succeeded, none is made after
it. -/
theorem play_err {ε σ : Type} (w : Sink ε σ) (e : ε) : ∀ (ws : List Write) (s : σ),
    play w s ws = .err e ↔ ∃ (done : List Write) (x : Write) (rest : List Write) (s' : σ),
      ws = done ++ x :: rest ∧ play w s done = .ok s' ∧ perform w s' x = .err e
  | [], s => by simp [play]
  | y :: ws, s => by
    constructor
    · intro h
      rw [play] at h
      cases hy : perform w s y with
      | ok s1 =>
        rw [hy] at h
        obtain ⟨done, x, rest, s', h1, h2, h3⟩ := (play_err w e ws s1).1 h
        refine ⟨y :: done, x, rest, s', by rw [h1]; rfl, ?_, h3⟩
        rw [play, hy]; exact h2
      | err e' => rw [hy] at h; exact ⟨[], y, ws, s, rfl, rfl, hy.trans h⟩
      | panic m => rw [hy] at h; cases h
      | timeout => rw [hy] at h; cases h
    · rintro ⟨done, x, rest, s', h1, h2, h3⟩
      rw [h1, play_append, h2]
      show play w s' (x :: rest) = _
      rw [play, h3]

/-- C83: if dumping an accepted pattern fails, then with the error of one of its writes; all writes
before it have succeeded, and what they wrote is a beginning of the dump. -/
theorem C83_failed_dump (pr p : Profile) (fuel : Nat) (hf : 4 ≤ fuel) (ptr : Str) (mode : ParseMode)
    (c : Component) (m : ParseMode) (h : parse pr ptr mode = .ok (c, m)) {ε σ : Type} (w : Sink ε σ)
    (s : σ) (e : ε) (he : dumpTreeTo p fuel w s c = .err e) :
    ∃ (done : List Write) (x : Write) (s' : σ), play w s done = .ok s' ∧ perform w s' x = .err e ∧
      text done <+: dump firstByteText 0 c := by
  obtain ⟨ws, h1, h2⟩ := C83_parsed_tree pr p fuel hf ptr mode c m h
  rw [h2] at he
  obtain ⟨done, x, rest, s', h3, h4, h5⟩ := (play_err w e ws s).1 he
  refine ⟨done, x, s', h4, h5, ?_⟩
  rw [← h1, h3]
  have : ∀ a b : List Write, text (a ++ b) = text a ++ text b := by
    intro a b
    induction a with
    | nil => rfl
    | cons y a ih => cases y <;> simp [text, ih]
  rw [this]
  exact ⟨_, rfl⟩

/-- A writer that takes a given number of calls and then fails. -/
def countdown : Sink Unit (Str × Nat) where
  writeStr s t := if s.2 = 0 then .err () else .ok (s.1 ++ t, s.2 - 1)
  writeChar s c := if s.2 = 0 then .err () else .ok (s.1 ++ [c], s.2 - 1)

/-! A full stop takes two calls: a writer that takes one gives the error, a writer that takes two gets
the whole text. -/
example : describeCharTo countdown ([], 1) 0x2e#8 .text = .err () := rfl
example : describeCharTo countdown ([], 2) 0x2e#8 .text = .ok (['\\', '.'], 0) := rfl
example : describeClassTo .debug 4 countdown ([], 0) (CharReach.fromBytes [0x2e#8]) 256 .text = .err () := by
  decide +kernel
example : describeClassTo .debug 4 countdown ([], 1) (CharReach.fromBytes [0x2e#8]) 256 .text = .err () := by
  decide +kernel
example : describeClassTo .debug 4 countdown ([], 5) (CharReach.fromBytes [0x2e#8]) 256 .text =
    .ok (['\\', '.'], 3) := by decide +kernel

/-! The dump of an accepted pattern, to a writer that takes 3 or 8 calls. -/
example : (match parse .debug "a".toList ParseMode.default with
    | .ok (c, _) => dumpTreeTo .debug 4 countdown ([], 3) c
    | _ => .timeout) = .err () := by decide +kernel
example : (match parse .debug "a".toList ParseMode.default with
    | .ok (c, _) => dumpTreeTo .debug 4 countdown ([], 8) c
    | _ => .timeout) = .ok ("SEQUENCE (capture index 0)\n  ASCII CLASS\n    a\n".toList, 2) := by decide +kernel

end Rescan
