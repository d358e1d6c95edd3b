import Verif.Props.Reference
import Verif.Props.OrderOfExpressions
import Verif.Spec.Results
/-! # C120: every result of compiling -/
namespace Rescan
open Spec

namespace Results

/-- A verdict on one text, not yet placed. -/
def Bad (p : Profile) (r : Res Unit) : Prop :=
  r = .ok () ∨ (∃ e, r = .err e ∧ ∀ j, Complaint p j { e with index := some j }) ∨ ∃ m, r = .panic m ∧ Panics p m

theorem utf8Len_cons (c : Char) (s : Str) : utf8Len (c :: s) = c.utf8Size + utf8Len s := by
  simp [utf8Len]

theorem walk_bad (p : Profile) : ∀ (s : Str) (k : Nat) (opens : List Nat), k + utf8Len s ≤ 16000 →
    (∀ o ∈ opens, o < 16000 ∧ (p = .debug → o = 0)) → Bad p (Reference.walk p k opens s)
  | [], k, opens, hk, ho => by
    unfold Reference.walk
    cases opens with
    | nil => exact .inl rfl
    | cons o opens =>
      obtain ⟨h1, h2⟩ := ho o List.mem_cons_self
      exact .inr (.inl ⟨_, rfl, fun j => .missing o h1 h2⟩)
  | c :: s, k, opens, hk, ho => by
    have hc : 1 ≤ c.utf8Size := Char.utf8Size_pos c
    rw [utf8Len_cons] at hk
    unfold Reference.walk
    split
    · split
      · rename_i h; exact .inr (.inr ⟨_, rfl, .position h.1⟩)
      · rename_i h
        refine walk_bad p s (k + 1) (k :: opens) (by omega) ?_
        intro o hm
        rcases List.mem_cons.1 hm with rfl | hm
        · exact ⟨by omega, fun hp => Classical.byContradiction fun h0 => h ⟨hp, h0⟩⟩
        · exact ho o hm
    · split
      · cases opens with
        | nil => exact .inr (.inl ⟨_, rfl, fun j => .unmatched⟩)
        | cons o opens => exact walk_bad p s (k + 1) opens (by omega) (fun x hx => ho x (List.mem_cons_of_mem _ hx))
      · split
        · exact walk_bad p s (k + 1) opens (by omega) ho
        · exact .inr (.inr ⟨_, rfl, .ascii⟩)

theorem utf8Len_append (s t : Str) : utf8Len (s ++ t) = utf8Len s + utf8Len t := by simp [utf8Len]

theorem read_bad (p : Profile) (s : Str) (h : utf8Len s ≤ 16000) : Bad p (Reference.read p s) := by
  unfold Reference.read
  cases hv : Reference.verb s with
  | none => exact walk_bad p s 0 [] (by omega) (by simp)
  | some x =>
    obtain ⟨v, body⟩ := x
    obtain ⟨h1, h2, h3⟩ := Reference.verb_some.1 hv
    have hl : utf8Len s = utf8Len v + 3 + utf8Len body := by
      rw [h1]
      simp only [utf8Len_append, utf8Len_cons, show utf8Len [] = 0 from rfl, show '('.utf8Size = 1 from rfl,
        show '*'.utf8Size = 1 from rfl, show ')'.utf8Size = 1 from rfl]
      omega
    dsimp only
    split
    · rename_i hm
      have : v.length = utf8Len v := by
        simp only [Reference.obeyed, List.mem_cons, List.not_mem_nil, or_false] at hm
        rcases hm with rfl | rfl | rfl <;> decide +kernel
      exact walk_bad p body _ [] (by omega) (by simp)
    · rename_i hm
      split
      · rename_i hu
        exact .inr (.inl ⟨_, rfl, fun j => .unsupportedVerb v (by simpa using h3) (by omega) hu⟩)
      · rename_i hu
        exact .inr (.inl ⟨_, rfl, fun j => .unknownVerb v (by simpa using h3) (by omega) (by simpa using h2) hm (by simpa using hu)⟩)

/-- What adding an expression can return. -/
def AddBad {α : Type} (p : Profile) (j id : Nat) (seen : List Reference.Noted) (good : α → Prop) (r : Res α) : Prop :=
  (∃ a, r = .ok a ∧ good a) ∨ (∃ e, r = .err e ∧ Complaint p j e) ∨ (∃ m, r = .panic m ∧ Panics p m) ∨
  (p = .release ∧ ∃ x ∈ seen, ∃ single,
    r = .err ⟨.other, Reference.disagreement j id single ⟨id, !single, x.index⟩, some j⟩) ∨
  (p = .debug ∧ seen ≠ [] ∧ r = .panic "assertion failed: self.index.is_none()")

theorem add_bad (p : Profile) (seen : List Reference.Noted) (j : Nat) (t : Str) (f : Flags) (id : Nat)
    (hs : ∀ x ∈ seen, x.index < j) :
    AddBad p j id seen (fun seen' => ∀ x ∈ seen', x.index < j + 1) (Reference.add p Grey.default seen j t f id) := by
  have hs' : ∀ x ∈ seen, x.index < j + 1 := fun x hx => Nat.lt_succ_of_lt (hs x hx)
  unfold Reference.add
  dsimp only
  split
  · exact .inr (.inl ⟨_, rfl, .tooLong⟩)
  · rename_i hl
    split
    · exact .inr (.inl ⟨_, rfl, .quietSom⟩)
    · rcases read_bad p t (by have : Grey.default.limitPatternLength = 16000 := rfl; omega) with h | ⟨e, h, he⟩ | ⟨m, h, hm⟩
      · rw [h]
        dsimp only
        split
        · cases hf : seen.find? (fun x => x.id == id) with
          | none =>
            refine .inl ⟨_, rfl, ?_⟩
            intro x hx
            rcases List.mem_append.1 hx with hx | hx
            · exact hs' x hx
            · rw [List.mem_singleton.1 hx]; exact Nat.lt_succ_self j
          | some old =>
            have hmem := List.mem_of_find?_eq_some hf
            dsimp only
            split
            · exact .inl ⟨_, rfl, hs'⟩
            · rename_i hne
              split
              · rename_i hp
                exact .inr (.inr (.inr (.inr ⟨hp, List.ne_nil_of_mem hmem, rfl⟩)))
              · rename_i hp
                refine .inr (.inr (.inr (.inl ⟨by cases p <;> simp_all, old, hmem, f.contains .SINGLEMATCH, ?_⟩)))
                have : old.single = !f.contains .SINGLEMATCH := by
                  cases h1 : old.single <;> cases h2 : f.contains .SINGLEMATCH <;> simp_all
                unfold Reference.disagreement
                rw [this]
        · exact .inl ⟨_, rfl, hs'⟩
      · rw [h]; exact .inr (.inl ⟨_, rfl, he j⟩)
      · rw [h]; exact .inr (.inr (.inl ⟨_, rfl, hm⟩))

theorem addAll_bad (p : Profile) : ∀ (l : List (Str × Flags × Nat)) (seen : List Reference.Noted) (j : Nat),
    j + l.length ≤ 8000000 → (∀ x ∈ l, x.2.2 < 2 ^ 32) → (∀ x ∈ seen, x.index < j) →
    Result p () (Reference.addAll p Grey.default seen j l)
  | [], seen, j, _, _, _ => .made
  | (t, f, id) :: l, seen, j, hj, hid, hs => by
    rw [List.length_cons] at hj
    unfold Reference.addAll
    rcases add_bad p seen j t f id hs with ⟨a, h, ha⟩ | ⟨e, h, he⟩ | ⟨m, h, hm⟩ | ⟨hp, x, hx, single, h⟩ | ⟨hp, _, h⟩
    · rw [h]
      exact addAll_bad p l a (j + 1) (by omega) (fun x hx => hid x (List.mem_cons_of_mem _ hx)) ha
    · rw [h]; exact .complaint j e (by omega) he
    · rw [h]; exact .panics m hm
    · rw [h]; exact .conflict x.index j id single hp (hs x hx) (by omega) (hid _ List.mem_cons_self)
    · rw [h]; exact .conflictPanics hp

theorem Result.map {α β : Type} {p : Profile} {a : α} {b : β} {r : Res α} (h : Result p a r) (f : α → Res β) (hf : f a = .ok b) :
    Result p b (r.bind f) := by
  cases h with
  | made => show Result p b (f a); rw [hf]; exact .made
  | none => exact .none
  | tooMany => exact .tooMany
  | complaint j e h1 h2 => exact .complaint j e h1 h2
  | conflict i j id single h1 h2 h3 h4 => exact .conflict i j id single h1 h2 h3 h4
  | panics m h => exact .panics m h
  | conflictPanics h => exact .conflictPanics h

theorem compile_bad (p : Profile) (es : List Str) (fs : List Flags) (ids : List Nat) (mode : Mode)
    (hid : ∀ id ∈ ids, id < 2 ^ 32) :
    Result p (Reference.modeOf mode) (Reference.compile p es fs ids mode Grey.default) := by
  unfold Reference.compile
  split
  · exact .none
  · split
    · exact .tooMany
    · rename_i hn
      have hl : (es.zip (fs.zip ids)).length ≤ 8000000 := by
        have : Grey.default.limitPatternCount = 8000000 := rfl
        rw [List.length_zip]; omega
      have := addAll_bad p (es.zip (fs.zip ids)) [] 0 (by omega) (by
        rintro ⟨t, f, id⟩ hx
        exact hid id (List.of_mem_zip (List.of_mem_zip hx).2).2) (by simp)
      have := Result.map this (fun _ => .ok (Reference.modeOf mode)) rfl
      cases h : Reference.addAll p Grey.default [] 0 (es.zip (fs.zip ids)) <;> rw [h] at this <;> exact this

/-! ## All of these results occur -/

theorem utf8Len_replicate (n : Nat) : utf8Len (List.replicate n 'a') = n := by
  induction n with
  | zero => rfl
  | succ n ih => rw [List.replicate_succ, utf8Len_cons, ih, show 'a'.utf8Size = 1 from rfl]; omega

theorem noVerb_of_no_close {s : Str} (h : ')' ∉ s) : NoVerb s := by
  rintro v rest ⟨h1, _, _⟩
  exact h (by rw [h1]; simp)

theorem read_noVerb (p : Profile) {s : Str} (h : NoVerb s) : Reference.read p s = Reference.walk p 0 [] s := by
  unfold Reference.read
  rw [Reference.verb_none.2 h]

theorem walk_cons (p : Profile) (k : Nat) (opens : List Nat) (c : Char) (rest : Str) :
    Reference.walk p k opens (c :: rest) =
      if c = '(' then
        if p = .debug ∧ k ≠ 0 then .panic "attempt to subtract with overflow"
        else Reference.walk p (k + 1) (k :: opens) rest
      else if c = ')' then
        match opens with
        | [] => .err ⟨.locatedParse, "Unmatched parentheses", none⟩
        | _ :: opens => Reference.walk p (k + 1) opens rest
      else if c.toNat < 128 then Reference.walk p (k + 1) opens rest
      else .panic "assertion failed: c.is_ascii()" := by
  rw [Reference.walk.eq_def]; rfl

theorem walk_as (p : Profile) (opens : List Nat) (rest : Str) : ∀ (n k : Nat),
    Reference.walk p k opens (List.replicate n 'a' ++ rest) = Reference.walk p (k + n) opens rest
  | 0, k => rfl
  | n + 1, k => by
    rw [List.replicate_succ, List.cons_append, walk_cons, if_neg (by decide), if_neg (by decide), if_pos (by decide),
      walk_as p opens rest n (k + 1)]
    congr 1; omega

/-- Adding a text that cannot be read. -/
theorem add_read_err {p : Profile} {t : Str} {e : CompileError} (hl : utf8Len t ≤ 16000) (h : Reference.read p t = .err e)
    (seen : List Reference.Noted) (j id : Nat) :
    Reference.add p Grey.default seen j t .empty id = .err { e with index := some j } := by
  unfold Reference.add
  have : Grey.default.limitPatternLength = 16000 := rfl
  rw [if_neg (by omega), if_neg (by decide), h]

theorem add_read_panic {p : Profile} {t : Str} {m : String} (hl : utf8Len t ≤ 16000) (h : Reference.read p t = .panic m)
    (seen : List Reference.Noted) (j id : Nat) :
    Reference.add p Grey.default seen j t .empty id = .panic m := by
  unfold Reference.add
  have : Grey.default.limitPatternLength = 16000 := rfl
  rw [if_neg (by omega), if_neg (by decide), h]

theorem read_verb (p : Profile) {v : Str} (h1 : ')' ∉ v) (h2 : v ≠ []) (h3 : v ∉ Reference.obeyed) :
    utf8Len (['(', '*'] ++ v ++ [')']) = utf8Len v + 3 ∧
    Reference.read p (['(', '*'] ++ v ++ [')']) = if Reference.unsupported v then
        .err ⟨.locatedParse, "Unsupported control verb " ++ String.ofList v ++ " at index 2", none⟩
      else .err ⟨.locatedParse, "Unknown control verb " ++ String.ofList v ++ " at index 2", none⟩ := by
  constructor
  · simp only [utf8Len_append, utf8Len_cons, show utf8Len [] = 0 from rfl, show '('.utf8Size = 1 from rfl,
        show '*'.utf8Size = 1 from rfl, show ')'.utf8Size = 1 from rfl]
    omega
  · unfold Reference.read
    rw [Reference.verb_some.2 (show HasVerb _ v [] from ⟨by simp, h2, h1⟩)]
    dsimp only
    rw [if_neg h3]

/-- Each complaint is made about some expression. -/
theorem complaint_made {p : Profile} {j : Nat} {e : CompileError} (h : Complaint p j e) :
    ∃ t f, Flags.all.contains f = true ∧ ∀ seen id, Reference.add p Grey.default seen j t f id = .err e := by
  cases h with
  | tooLong =>
    refine ⟨List.replicate 16001 'a', .empty, by decide, fun seen id => ?_⟩
    unfold Reference.add
    have : Grey.default.limitPatternLength = 16000 := rfl
    rw [if_pos (by rw [utf8Len_replicate]; omega)]
  | quietSom =>
    refine ⟨[], .or .QUIET .SOM_LEFTMOST, by decide, fun seen id => ?_⟩
    unfold Reference.add
    rw [if_neg (by decide +kernel), if_pos (by decide +kernel)]
  | unmatched => exact ⟨[')'], .empty, by decide, fun seen id => add_read_err (by decide +kernel) (e := ⟨_, _, none⟩) (by rfl) seen j id⟩
  | missing k h1 h2 =>
    refine ⟨List.replicate k 'a' ++ ['('], .empty, by decide, fun seen id => add_read_err ?_ (e := ⟨_, _, none⟩) ?_ seen j id⟩
    · rw [utf8Len_append, utf8Len_replicate, show utf8Len ['('] = 1 from rfl]; omega
    · rw [read_noVerb p (noVerb_of_no_close (by simp)), walk_as, walk_cons, if_pos rfl, if_neg, Nat.zero_add]
      · rfl
      · rintro ⟨hp, hk⟩; exact hk (by rw [h2 hp])
  | unsupportedVerb v h1 h2 h3 =>
    have hne : v ≠ [] := by rintro rfl; revert h3; decide +kernel
    have ho : v ∉ Reference.obeyed := by
      intro hm
      simp only [Reference.obeyed, List.mem_cons, List.not_mem_nil, or_false] at hm
      rcases hm with rfl | rfl | rfl <;> revert h3 <;> decide +kernel
    obtain ⟨h4, h5⟩ := read_verb p h1 hne ho
    rw [if_pos h3] at h5
    exact ⟨_, .empty, by decide, fun seen id => add_read_err (by omega) h5 seen j id⟩
  | unknownVerb v h1 h2 h3 h4 h5 =>
    obtain ⟨h6, h7⟩ := read_verb p h1 h3 h4
    rw [if_neg (by simp [h5])] at h7
    exact ⟨_, .empty, by decide, fun seen id => add_read_err (by omega) h7 seen j id⟩

theorem panics_made {p : Profile} {m : String} (h : Panics p m) :
    ∃ t f, Flags.all.contains f = true ∧ ∀ seen j id, Reference.add p Grey.default seen j t f id = .panic m := by
  cases h with
  | ascii => exact ⟨['é'], .empty, by decide, fun seen j id => add_read_panic (by decide +kernel) (by rfl) seen j id⟩
  | position hp =>
    subst hp
    exact ⟨['a', '('], .empty, by decide, fun seen j id => add_read_panic (by decide +kernel) (by rfl) seen j id⟩

/-- An expression that changes nothing. -/
abbrev blank : Str × Flags × Nat := ([], .empty, 0)

theorem addAll_blank (p : Profile) (seen : List Reference.Noted) (rest : List (Str × Flags × Nat)) : ∀ (n j : Nat),
    Reference.addAll p Grey.default seen j (List.replicate n blank ++ rest)
      = Reference.addAll p Grey.default seen (j + n) rest
  | 0, j => rfl
  | n + 1, j => by
    have : Reference.add p Grey.default seen j [] .empty 0 = .ok seen := by
      unfold Reference.add
      rw [if_neg (by decide +kernel), if_neg (by decide +kernel)]
      rfl
    rw [List.replicate_succ, List.cons_append, Reference.addAll, this]
    dsimp only
    rw [addAll_blank p seen rest n (j + 1)]
    congr 1; omega

/-- Flags with or without SINGLEMATCH. -/
def litFlags (single : Bool) : Flags := if single then .SINGLEMATCH else .empty

theorem add_lit_first (p : Profile) (single : Bool) (j id : Nat) :
    Reference.add p Grey.default [] j ['a'] (litFlags single) id = .ok [⟨id, single, j⟩] := by
  cases p <;> cases single <;> rfl

theorem add_lit_second (p : Profile) (i j id : Nat) (single : Bool) :
    Reference.add p Grey.default [⟨id, !single, i⟩] j ['a'] (litFlags single) id =
      if p = .debug then .panic "assertion failed: self.index.is_none()"
      else .err ⟨.other, Reference.disagreement j id single ⟨id, !single, i⟩, some j⟩ := by
  have h1 : Reference.read p ['a'] = .ok () := by cases p <;> rfl
  have h2 : (litFlags single).contains .SINGLEMATCH = single := by cases single <;> decide
  have h3 : ((litFlags single).contains .QUIET && (litFlags single).contains .SOM_LEFTMOST) = false := by
    cases single <;> decide
  have h4 : (Grey.default.allowLiteral && Grey.default.shortcutLiterals && Reference.isLiteral ['a']) = true := by
    decide +kernel
  unfold Reference.add
  dsimp only
  rw [if_neg (by decide +kernel), h3, if_neg (by simp), h1]
  dsimp only
  rw [if_pos h4, List.find?_cons_of_pos (by simp)]
  dsimp only
  rw [h2, if_neg (by cases single <;> decide)]

/-- Compiling a list that is neither empty nor too long. -/
theorem compile_list (p : Profile) (mode : Mode) (l : List (Str × Flags × Nat)) (hne : l ≠ []) (hl : l.length ≤ 8000000) :
    compileMulti p (texts l) (flagSets l) (matchIds l) mode
      = (Reference.addAll p Grey.default [] 0 l).bind (fun _ => .ok (ofMode (Reference.modeOf mode))) := by
  rw [(C105_public p mode).1]
  unfold Reference.compile
  have : Grey.default.limitPatternCount = 8000000 := rfl
  rw [if_neg (by simpa using hne), if_neg (by rw [List.length_map]; omega),
    show (texts l).zip ((flagSets l).zip (matchIds l)) = l from given_unzip l]
  cases Reference.addAll p Grey.default [] 0 l <;> rfl

end Results

open Results

/-- C120: what compiling a list of expressions returns is one of the results listed, and each of them is
returned for some list. -/
theorem C120_compile_multi (p : Profile) (mode : Mode) (r : Res Database) :
    (∃ es fs ids, fs.length = es.length ∧ ids.length = es.length ∧ (∀ f ∈ fs, Flags.all.contains f = true) ∧
      (∀ id ∈ ids, id < 2 ^ 32) ∧ compileMulti p es fs ids mode = r) ↔ Result p (ofMode (Reference.modeOf mode)) r := by
  constructor
  · rintro ⟨es, fs, ids, _, _, _, hid, rfl⟩
    rw [(C105_public p mode).1]
    exact Results.Result.map (compile_bad p es fs ids mode hid) _ rfl
  · have key : ∀ l : List (Str × Flags × Nat), l ≠ [] → l.length ≤ 8000000 →
        (∀ x ∈ l, Flags.all.contains x.2.1 = true ∧ x.2.2 < 2 ^ 32) →
        (Reference.addAll p Grey.default [] 0 l).bind (fun _ => .ok (ofMode (Reference.modeOf mode))) = r →
        ∃ es fs ids, fs.length = es.length ∧ ids.length = es.length ∧ (∀ f ∈ fs, Flags.all.contains f = true) ∧
          (∀ id ∈ ids, id < 2 ^ 32) ∧ compileMulti p es fs ids mode = r := by
      intro l h1 h2 h3 h4
      refine ⟨texts l, flagSets l, matchIds l, by simp, by simp, ?_, ?_, by rw [compile_list p mode l h1 h2, h4]⟩
      · intro f hf
        obtain ⟨x, hx, rfl⟩ := List.mem_map.1 hf
        exact (h3 x hx).1
      · intro id hid
        obtain ⟨x, hx, rfl⟩ := List.mem_map.1 hid
        exact (h3 x hx).2
    have hb : Flags.all.contains blank.2.1 = true ∧ blank.2.2 < 2 ^ 32 := by decide
    have hlf : ∀ s, Flags.all.contains (litFlags s) = true := by decide
    intro h
    cases h with
    | made =>
      refine key [blank] (by simp) (by simp) (fun x hx => by rw [List.mem_singleton.1 hx]; exact hb) ?_
      have := addAll_blank p [] [] 1 0
      rw [show [blank] = List.replicate 1 blank ++ [] from rfl, this]; rfl
    | none => exact ⟨[], [], [], rfl, rfl, by simp, by simp, by rfl⟩
    | tooMany =>
      obtain ⟨n, hn⟩ : ∃ n, 8000000 < n := ⟨_, Nat.lt_succ_self _⟩
      refine ⟨List.replicate n [], List.replicate n .empty, List.replicate n 0, by simp, by simp, ?_, ?_, ?_⟩
      · intro f hf; rw [List.eq_of_mem_replicate hf]; decide
      · intro id hid; rw [List.eq_of_mem_replicate hid]; decide
      · rw [(C105_public p mode).1]
        unfold Reference.compile
        have : Grey.default.limitPatternCount = 8000000 := rfl
        rw [if_neg (by simp only [List.replicate_eq_nil_iff]; omega), if_pos (by rw [List.length_replicate]; omega)]
        rfl
    | complaint j e hj he =>
      obtain ⟨t, f, hf, ht⟩ := complaint_made he
      refine key (List.replicate j blank ++ [(t, f, 0)]) (by simp) (by simp; omega) ?_ ?_
      · intro x hx
        rcases List.mem_append.1 hx with hx | hx
        · rw [List.eq_of_mem_replicate hx]; exact hb
        · rw [List.mem_singleton.1 hx]; exact ⟨hf, Nat.two_pow_pos 32⟩
      · rw [addAll_blank, Nat.zero_add, Reference.addAll, ht]; rfl
    | panics m hm =>
      obtain ⟨t, f, hf, ht⟩ := panics_made hm
      refine key [(t, f, 0)] (by simp) (by simp)
        (fun x hx => by rw [List.mem_singleton.1 hx]; exact ⟨hf, Nat.two_pow_pos 32⟩) ?_
      rw [Reference.addAll, ht]; rfl
    | conflict i j id single hp hij hj hid =>
      refine key (List.replicate i blank ++ (['a'], litFlags (!single), id) ::
        (List.replicate (j - i - 1) blank ++ [(['a'], litFlags single, id)])) (by simp) (by simp; omega) ?_ ?_
      · intro x hx
        rcases List.mem_append.1 hx with hx | hx
        · rw [List.eq_of_mem_replicate hx]; exact hb
        · rcases List.mem_cons.1 hx with rfl | hx
          · exact ⟨hlf _, hid⟩
          · rcases List.mem_append.1 hx with hx | hx
            · rw [List.eq_of_mem_replicate hx]; exact hb
            · rw [List.mem_singleton.1 hx]; exact ⟨hlf _, hid⟩
      · rw [addAll_blank, Nat.zero_add, Reference.addAll, add_lit_first]
        dsimp only
        rw [addAll_blank, Reference.addAll, add_lit_second, show i + 1 + (j - i - 1) = j by omega, if_neg (by simp [hp])]
        rfl
    | conflictPanics hp =>
      refine key [(['a'], litFlags true, 0), (['a'], litFlags false, 0)] (by simp) (by simp) (by simp [hlf]) ?_
      rw [Reference.addAll, add_lit_first]
      dsimp only
      rw [Reference.addAll, show Reference.Noted.mk 0 true 0 = ⟨0, !false, 0⟩ from rfl, add_lit_second p 0 _ 0 false, if_pos hp]
      rfl

/-- C120 for a single expression. -/
theorem C120_compile (p : Profile) (mode : Mode) (r : Res Database) :
    (∃ e f, Flags.all.contains f = true ∧ compile p e f mode = r) ↔
      Result1 p (ofMode (Reference.modeOf mode)) r := by
  have hc : ∀ e f, compile p e f mode = (Reference.add p Grey.default [] 0 e f 0).bind
      (fun _ => .ok (ofMode (Reference.modeOf mode))) := by
    intro e f
    rw [(C105_public p mode).2]
    unfold Reference.compile
    rw [if_neg (by simp), if_neg (by show ¬ (1 > 8000000); decide)]
    simp only [List.zip_cons_cons, List.zip_nil_right, Reference.addAll]
    cases Reference.add p Grey.default [] 0 e f 0 <;> rfl
  constructor
  · rintro ⟨e, f, _, rfl⟩
    rw [hc]
    rcases add_bad p [] 0 e f 0 (by simp) with ⟨a, h, _⟩ | ⟨e, h, he⟩ | ⟨m, h, hm⟩ | ⟨_, x, hx, _⟩ | ⟨_, h, _⟩
    · rw [h]; exact .made
    · rw [h]; exact .complaint e he
    · rw [h]; exact .panics m hm
    · cases hx
    · exact absurd rfl h
  · intro h
    cases h with
    | made => exact ⟨['a'], litFlags false, by decide, by rw [hc, add_lit_first]; rfl⟩
    | complaint e he =>
      obtain ⟨t, f, hf, ht⟩ := complaint_made he
      exact ⟨t, f, hf, by rw [hc, ht]; rfl⟩
    | panics m hm =>
      obtain ⟨t, f, hf, ht⟩ := panics_made hm
      exact ⟨t, f, hf, by rw [hc, ht]; rfl⟩

example : ∃ e f, Flags.all.contains f = true ∧ compile .release e f .block = .err ⟨.parse,
    "Missing close parenthesis for group started at index 18446744073709535617.", some 0⟩ :=
  (C120_compile .release .block _).2 (.complaint _ (.missing 15999 (by decide) (by decide)))

example : ¬ ∃ e f, Flags.all.contains f = true ∧ compile .debug e f .block = .panic "not implemented" := fun h => by
  generalize hr : (.panic "not implemented" : Res Database) = r at h
  cases (C120_compile .debug .block _).1 h with
  | made => cases hr
  | complaint _ _ => cases hr
  | panics m hm =>
    injection hr with hr
    cases hm with
    | ascii => revert hr; decide
    | position _ => revert hr; decide

example : ∃ es fs ids, fs.length = es.length ∧ ids.length = es.length ∧
    (∀ f ∈ fs, Flags.all.contains f = true) ∧ (∀ id ∈ ids, id < 2 ^ 32) ∧
    compileMulti .release es fs ids .block = .err ⟨.other, "Expression (index 7999999) with match ID 4294967295 \
specified  SINGLEMATCH whereas previous expression (index 5) with the same match ID did.", some 7999999⟩ :=
  (C120_compile_multi .release .block _).2 (by
    have h := Result.conflict (db := ofMode (Reference.modeOf .block)) 5 7999999 4294967295 true
      (rfl : Profile.release = .release) (by decide) (by decide) (by decide)
    have e : Reference.disagreement 7999999 4294967295 true ⟨4294967295, !true, 5⟩ = "Expression (index 7999999) with match ID 4294967295 \
specified  SINGLEMATCH whereas previous expression (index 5) with the same match ID did." := by decide +kernel
    rw [e] at h
    exact h)

end Rescan
