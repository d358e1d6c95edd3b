import Mathlib.Computability.MyhillNerode
import Verif.Spec.DebugForm
import Verif.Proofs.Compile
/-! # C126: what debug builds accept -/
namespace Rescan
open Spec

namespace Spec

theorem flat_iff (s : Str) : Flat s ↔ IsAscii s ∧ s.count '(' = 0 ∧ s.count ')' = 0 := by
  simp only [Flat, IsAscii, List.count_eq_zero]
  constructor
  · intro h
    exact ⟨fun c hc => (h c hc).1, fun hc => (h _ hc).2.1 rfl, fun hc => (h _ hc).2.2 rfl⟩
  · rintro ⟨h1, h2, h3⟩ c hc
    exact ⟨h1 c hc, fun h => h2 (h ▸ hc), fun h => h3 (h ▸ hc)⟩

theorem acceptable_debugForm (s : Str) (h : Acceptable .debug s) : DebugForm s := by
  obtain ⟨body, hb, ha, ⟨_, hc⟩, hp⟩ := h
  have hp := hp rfl
  rcases hb with ⟨hn, rfl⟩ | ⟨v, hv, hv'⟩
  · cases body with
    | nil => exact .inl (by simp [Flat])
    | cons c t =>
      have ht : t.count '(' = 0 := by
        rw [List.count_eq_zero]
        intro hm
        obtain ⟨n, hn⟩ := List.mem_iff_getElem?.1 hm
        exact absurd (hp (n + 1) (by simpa using hn)).1 (by omega)
      by_cases hcp : c = '('
      · subst hcp
        rw [List.count_cons_self, ht, List.count_cons_of_ne (by decide)] at hc
        have hm : ')' ∈ t := List.count_pos_iff.1 (by omega)
        obtain ⟨x, y, rfl⟩ := List.append_of_mem hm
        rw [List.count_append, List.count_cons] at ht hc
        simp only [beq_self_eq_true, if_true] at hc
        have hx : Flat x := (flat_iff x).2 ⟨fun c hc => ha c (by simp [hc]), by omega, by omega⟩
        have hy : Flat y := (flat_iff y).2 ⟨fun c hc => ha c (by simp [hc]), by omega, by omega⟩
        refine .inr ⟨x, y, rfl, hx, hy, ?_⟩
        rintro v rfl
        refine .inl (Classical.byContradiction fun hne => hn v y ⟨by simp, hne, fun hm => ?_⟩)
        exact (hx ')' (by simp [hm])).2.2 rfl
      · refine .inl ((flat_iff _).2 ⟨ha, ?_, ?_⟩) <;> rw [List.count_cons_of_ne hcp, ht] at hc
        · rw [List.count_cons_of_ne hcp, ht]
        · exact hc.symm
  · have hnp : body.count '(' = 0 := by
      rw [List.count_eq_zero]
      intro hm
      obtain ⟨n, hn⟩ := List.mem_iff_getElem?.1 hm
      have h1 := congrArg List.length (hp n hn).2
      have h2 := congrArg List.length hv.1
      simp at h2
      omega
    refine .inr ⟨'*' :: v, body, by rw [hv.1]; simp, ?_, (flat_iff _).2 ⟨ha, hnp, by omega⟩, ?_⟩
    · rcases hv' with rfl | rfl | rfl <;> simp [Flat]
    · intro w hw
      cases hw
      exact .inr hv'

theorem debugForm_acceptable (s : Str) (h : DebugForm s) : Acceptable .debug s := by
  rcases h with h | ⟨x, y, rfl, hx, hy, hv⟩
  · obtain ⟨h1, h2, h3⟩ := (flat_iff s).1 h
    refine ⟨s, .inl ⟨?_, rfl⟩, h1, ⟨fun n => ?_, by omega⟩, fun _ n hn => ?_⟩
    · rintro v r ⟨rfl, _⟩
      simp at h2
    · have := (List.take_sublist n s).count_le ')'
      omega
    · exact absurd (List.mem_of_getElem? hn) (List.count_eq_zero.1 h2)
  · obtain ⟨x1, x2, x3⟩ := (flat_iff x).1 hx
    obtain ⟨y1, y2, y3⟩ := (flat_iff y).1 hy
    by_cases hvb : ∃ v, x = '*' :: v ∧ v ≠ []
    · obtain ⟨v, rfl, hne⟩ := hvb
      refine ⟨y, .inr ⟨v, ⟨by simp, hne, fun hm => ?_⟩, (hv v rfl).resolve_left hne⟩, y1, ⟨fun n => ?_, by omega⟩,
        fun _ n hn => ?_⟩
      · exact (hx ')' (by simp [hm])).2.2 rfl
      · have := (List.take_sublist n y).count_le ')'
        omega
      · exact absurd (List.mem_of_getElem? hn) (List.count_eq_zero.1 y2)
    · have hnv : NoVerb ('(' :: x ++ ')' :: y) := by
        rintro v r ⟨he, hne, hm⟩
        apply hvb
        have he' : x ++ ')' :: y = ('*' :: v) ++ ')' :: r := by simpa using he
        have hm' : ')' ∉ '*' :: v := by simp [hm]
        refine ⟨v, ?_, hne⟩
        have key : ∀ (a b c d : Str), ')' ∉ a → ')' ∉ b → a ++ ')' :: c = b ++ ')' :: d → a = b := by
          intro a
          induction a with
          | nil =>
            intro b c d _ hb h
            cases b with
            | nil => rfl
            | cons e b => simp at h; exact absurd (h.1 ▸ List.mem_cons_self) hb
          | cons e a ih =>
            intro b c d ha hb h
            cases b with
            | nil => simp at h; exact absurd (h.1 ▸ List.mem_cons_self) ha
            | cons e' b =>
              simp at h ha hb
              rw [h.1, ih b c d ha.2 hb.2 h.2]
        exact key _ _ _ _ (List.count_eq_zero.1 x3) hm' he'
      refine ⟨_, .inl ⟨hnv, rfl⟩, ?_, ⟨?_, ?_⟩, ?_⟩
      · intro c hc
        simp only [List.cons_append, List.mem_cons, List.mem_append] at hc
        rcases hc with rfl | hc | rfl | hc
        · decide
        · exact x1 c hc
        · decide
        · exact y1 c hc
      · intro n
        cases n with
        | zero => simp
        | succ n =>
          simp only [List.cons_append, List.take_succ_cons, List.count_cons_self]
          rw [List.count_cons_of_ne (by decide)]
          have := (List.take_sublist n (x ++ ')' :: y)).count_le ')'
          rw [List.count_append, List.count_cons_self, x3, y3] at this
          omega
      · simp [x2, x3, y2, y3]
      · intro _ n hn
        cases n with
        | zero => exact ⟨rfl, rfl⟩
        | succ n =>
          have hm := List.mem_of_getElem? (l := x ++ ')' :: y) (i := n) (by simpa using hn)
          simp only [List.mem_append, List.mem_cons] at hm
          rcases hm with hm | hm | hm
          · exact absurd hm (List.count_eq_zero.1 x2)
          · exact absurd hm (by decide)
          · exact absurd hm (List.count_eq_zero.1 y2)

/-! ## Regular languages by their quotients -/

theorem regular_of_quotients (S : Set (Language Char)) (hS : S.Finite)
    (hq : ∀ M ∈ S, ∀ a, M.leftQuotient [a] ∈ S) (L : Language Char) (hL : L ∈ S) : L.IsRegular := by
  apply Language.IsRegular.of_finite_range_leftQuotient
  apply hS.subset
  rintro _ ⟨w, rfl⟩
  induction w generalizing L with
  | nil => exact hL
  | cons a w ih =>
    rw [← List.singleton_append, Language.leftQuotient_append]
    exact ih _ (hq _ hL a)

/-- The texts starting with `a` and going on as in `L`. -/
def after (a : Char) (L : Language Char) : Language Char := {s | ∃ w ∈ L, s = a :: w}

theorem after_regular (a : Char) (L : Language Char) (h : L.IsRegular) : (after a L).IsRegular := by
  refine regular_of_quotients ({after a L, (∅ : Set Str)} ∪ Set.range L.leftQuotient)
    (Set.Finite.union ((Set.finite_singleton _).insert _) h.finite_range_leftQuotient) ?_ _ (by simp)
  rintro M ((rfl | rfl) | ⟨w, rfl⟩) c
  · by_cases hc : c = a
    · subst hc
      refine .inr ⟨[], ?_⟩
      ext s
      show s ∈ L ↔ ∃ w ∈ L, c :: s = c :: w
      simp
    · refine .inl (.inr ?_)
      ext s
      show (∃ w ∈ L, c :: s = a :: w) ↔ False
      simp [hc]
  · refine .inl (.inr ?_)
    ext s
    exact Iff.rfl
  · refine .inr ⟨w ++ [c], ?_⟩
    rw [Language.leftQuotient_append]

/-- Flat texts. -/
def flatLang : Language Char := {s | Flat s}

/-- Flat text, a closing parenthesis, flat text. -/
def closeLang : Language Char := {s | ∃ x y, s = x ++ ')' :: y ∧ Flat x ∧ Flat y}

theorem flat_cons (c : Char) (s : Str) : Flat (c :: s) ↔ (c.toNat < 128 ∧ c ≠ '(' ∧ c ≠ ')') ∧ Flat s := by
  simp [Flat]

theorem flatLang_quotient (a : Char) :
    flatLang.leftQuotient [a] = flatLang ∨ flatLang.leftQuotient [a] = (∅ : Set Str) := by
  by_cases h : a.toNat < 128 ∧ a ≠ '(' ∧ a ≠ ')'
  · left
    ext s
    show Flat (a :: s) ↔ Flat s
    simp [flat_cons, h]
  · right
    ext s
    show Flat (a :: s) ↔ False
    simp [flat_cons, h]

theorem empty_quotient (a : Char) : Language.leftQuotient (∅ : Set Str) [a] = (∅ : Set Str) := rfl

theorem flatLang_regular : flatLang.IsRegular := by
  refine regular_of_quotients {flatLang, (∅ : Set Str)} ((Set.finite_singleton _).insert _) ?_ _ (by simp)
  rintro M (rfl | rfl) a
  · exact flatLang_quotient a
  · exact .inr (empty_quotient a)

theorem closeLang_regular : closeLang.IsRegular := by
  refine regular_of_quotients {closeLang, flatLang, (∅ : Set Str)} (((Set.finite_singleton _).insert _).insert _) ?_ _ (by simp)
  rintro M (rfl | rfl | rfl) a
  · have hm : ∀ s, s ∈ closeLang.leftQuotient [a] ↔
        (a = ')' ∧ Flat s) ∨ ((a.toNat < 128 ∧ a ≠ '(' ∧ a ≠ ')') ∧ s ∈ closeLang) := by
      intro s
      show (∃ x y, a :: s = x ++ ')' :: y ∧ Flat x ∧ Flat y) ↔ _
      constructor
      · rintro ⟨x, y, he, hx, hy⟩
        cases x with
        | nil => simp at he; exact .inl ⟨he.1, he.2 ▸ hy⟩
        | cons c x =>
          simp at he
          rw [flat_cons] at hx
          exact .inr ⟨he.1 ▸ hx.1, x, y, he.2, hx.2, hy⟩
      · rintro (⟨rfl, h⟩ | ⟨h, x, y, rfl, hx, hy⟩)
        · exact ⟨[], s, rfl, by simp [Flat], h⟩
        · exact ⟨a :: x, y, rfl, (flat_cons a x).2 ⟨h, hx⟩, hy⟩
    by_cases h1 : a = ')'
    · refine .inr (.inl ?_)
      ext s
      rw [hm]
      simp only [h1, ne_eq, not_true_eq_false, and_false, false_and, or_false, true_and]
      exact Iff.rfl
    · by_cases h2 : a.toNat < 128 ∧ a ≠ '('
      · refine .inl ?_
        ext s
        rw [hm]
        simp [h1, h2]
      · refine .inr (.inr ?_)
        ext s
        rw [hm]
        have h3 : ¬ (a.toNat < 128 ∧ a ≠ '(' ∧ a ≠ ')') := fun h => h2 ⟨h.1, h.2.1⟩
        simp only [h1, h3, false_and, or_false]
        exact Iff.rfl
  · exact .inr (flatLang_quotient a)
  · exact .inr (.inr (empty_quotient a))

/-- All texts. -/
def allLang : Language Char := {_s | True}

theorem allLang_regular : allLang.IsRegular := by
  refine regular_of_quotients {allLang} (by simp) ?_ _ (by simp)
  rintro M rfl a
  rfl

/-- The texts starting with `v` and a closing parenthesis, then flat. -/
def verbLang : Str → Language Char
  | [] => after ')' flatLang
  | c :: v => after c (verbLang v)

theorem verbLang_regular (v : Str) : (verbLang v).IsRegular := by
  induction v with
  | nil => exact after_regular _ _ flatLang_regular
  | cons c v ih => exact after_regular _ _ ih

theorem mem_verbLang (v s : Str) : s ∈ verbLang v ↔ ∃ y, s = v ++ ')' :: y ∧ Flat y := by
  induction v generalizing s with
  | nil =>
    show (∃ w ∈ flatLang, s = ')' :: w) ↔ _
    exact ⟨fun ⟨w, h, e⟩ => ⟨w, e, h⟩, fun ⟨w, e, h⟩ => ⟨w, h, e⟩⟩
  | cons c v ih =>
    show (∃ w ∈ verbLang v, s = c :: w) ↔ _
    constructor
    · rintro ⟨w, h, rfl⟩
      obtain ⟨y, rfl, hy⟩ := (ih w).1 h
      exact ⟨y, rfl, hy⟩
    · rintro ⟨y, rfl, hy⟩
      exact ⟨v ++ ')' :: y, (ih _).2 ⟨y, rfl, hy⟩, rfl⟩

/-- The accepted patterns as built from regular languages. -/
def debugLang : Language Char :=
  flatLang + after '(' ((closeLang ⊓ (after '*' allLang)ᶜ) + verbLang ['*'] + verbLang ['*', 'U', 'C', 'P'] +
    verbLang ['*', 'U', 'T', 'F', '8'] + verbLang ['*', 'U', 'T', 'F'])

theorem debugLang_regular : debugLang.IsRegular :=
  flatLang_regular.add (after_regular _ _ (((((closeLang_regular.inf
    (after_regular _ _ allLang_regular).compl).add (verbLang_regular _)).add (verbLang_regular _)).add
    (verbLang_regular _)).add (verbLang_regular _)))

theorem mem_debugLang (s : Str) : s ∈ debugLang ↔ DebugForm s := by
  show (Flat s ∨ ∃ w, (((((w ∈ closeLang ∧ ¬ ∃ u ∈ allLang, w = '*' :: u) ∨ w ∈ verbLang ['*']) ∨
    w ∈ verbLang ['*', 'U', 'C', 'P']) ∨ w ∈ verbLang ['*', 'U', 'T', 'F', '8']) ∨
    w ∈ verbLang ['*', 'U', 'T', 'F']) ∧ s = '(' :: w) ↔ _
  simp only [mem_verbLang]
  constructor
  · rintro (h | ⟨w, h, rfl⟩)
    · exact .inl h
    · rcases h with (((⟨⟨x, y, rfl, hx, hy⟩, hn⟩ | ⟨y, rfl, hy⟩) | ⟨y, rfl, hy⟩) | ⟨y, rfl, hy⟩) | ⟨y, rfl, hy⟩
      · refine .inr ⟨x, y, rfl, hx, hy, ?_⟩
        rintro v rfl
        exact absurd ⟨v ++ ')' :: y, trivial, rfl⟩ hn
      · exact .inr ⟨_, y, rfl, by simp [Flat], hy, fun v hv => by cases hv; simp⟩
      · exact .inr ⟨_, y, rfl, by simp [Flat], hy, fun v hv => by cases hv; simp⟩
      · exact .inr ⟨_, y, rfl, by simp [Flat], hy, fun v hv => by cases hv; simp⟩
      · exact .inr ⟨_, y, rfl, by simp [Flat], hy, fun v hv => by cases hv; simp⟩
  · rintro (h | ⟨x, y, rfl, hx, hy, hv⟩)
    · exact .inl h
    · refine .inr ⟨x ++ ')' :: y, ?_, rfl⟩
      by_cases hs : ∃ v, x = '*' :: v
      · obtain ⟨v, rfl⟩ := hs
        rcases hv v rfl with rfl | rfl | rfl | rfl
        · exact .inl (.inl (.inl (.inr ⟨y, rfl, hy⟩)))
        · exact .inl (.inl (.inr ⟨y, rfl, hy⟩))
        · exact .inl (.inr ⟨y, rfl, hy⟩)
        · exact .inr ⟨y, rfl, hy⟩
      · refine .inl (.inl (.inl (.inl ⟨⟨x, y, rfl, hx, hy⟩, ?_⟩)))
        rintro ⟨u, _, he⟩
        cases x with
        | nil => simp at he
        | cons c x => simp at he; exact hs ⟨x, by rw [he.1]⟩

end Spec

/-- C126: a debug build accepts exactly the texts without parentheses and those with one group, at the very
start. -/
theorem C126_form (s : Str) (mode : ParseMode) : (parse .debug s mode).isOk = true ↔ DebugForm s := by
  rw [parse_ok_iff]
  exact ⟨acceptable_debugForm s, debugForm_acceptable s⟩

example : DebugForm "(a|b)c".toList ∧ ¬ DebugForm "a(b)".toList := by
  refine ⟨.inr ⟨"a|b".toList, "c".toList, rfl, by simp [Flat], by simp [Flat], fun v h => by simp at h⟩, ?_⟩
  rw [← C126_form _ ParseMode.default]
  decide +kernel

/-- C126: and these patterns a finite automaton can decide. -/
theorem C126_regular (mode : ParseMode) (L : Language Char)
    (hL : ∀ s, s ∈ L ↔ (parse .debug s mode).isOk = true) : L.IsRegular := by
  have : L = debugLang := by
    ext s
    rw [hL, C126_form, mem_debugLang]
  rw [this]
  exact debugLang_regular

example : ∀ s, s ∈ ({s | (parse .debug s ParseMode.default).isOk = true} : Set Str) ↔
    (parse .debug s ParseMode.default).isOk = true := fun _ => Iff.rfl

/-- C126: in particular none with two opening parentheses, nested or not. -/
theorem C126_two_groups (mode : ParseMode) (s : Str) (h : 2 ≤ s.count '(') : (parse .debug s mode).isOk = false := by
  rw [Bool.eq_false_iff, ne_eq, C126_form]
  rintro (h' | ⟨x, y, rfl, hx, hy, _⟩)
  · have := ((flat_iff s).1 h').2.1
    omega
  · have h1 := ((flat_iff x).1 hx).2.1
    have h2 := ((flat_iff y).1 hy).2.1
    simp [h1, h2] at h

example : 2 ≤ "(a)(b)".toList.count '(' ∧ (parse .release "(a)(b)".toList ParseMode.default).isOk = true := by
  decide +kernel

end Rescan
