import Mathlib.Computability.MyhillNerode
import Verif.Spec.ContextFree
import Verif.Proofs.Compile
/-! # C125: acceptance in Mathlib's terms -/
namespace Rescan
open Spec

namespace Spec

theorem mem_literalChars (c : Char) : c ∈ literalChars ↔ c.toNat < 128 ∧ ¬ special c := by
  simp only [literalChars, List.mem_filter, List.mem_map, List.mem_range, Bool.not_eq_true', decide_eq_false_iff_not]
  constructor
  · rintro ⟨⟨n, hn, rfl⟩, h⟩
    refine ⟨?_, h⟩
    have hv : n.isValidChar := .inl (by omega)
    rw [Char.ofNat, dif_pos hv]
    exact hn
  · rintro ⟨h, h'⟩
    exact ⟨⟨c.toNat, h, Char.ofNat_toNat c⟩, h'⟩

theorem mem_rules (r : ContextFreeRule Char Phrase) : r ∈ patternGrammar.rules ↔
    r = ⟨.alt, [.nonterminal .seq]⟩ ∨ r = ⟨.alt, [.nonterminal .seq, .terminal '|', .nonterminal .alt]⟩ ∨
    r = ⟨.seq, []⟩ ∨ r = ⟨.seq, [.nonterminal .item, .nonterminal .seq]⟩ ∨
    r = ⟨.item, [.terminal '(', .nonterminal .alt, .terminal ')']⟩ ∨
    ∃ c, (c.toNat < 128 ∧ ¬ special c) ∧ r = ⟨.item, [.terminal c]⟩ := by
  show r ∈ patternRules.toFinset ↔ _
  simp only [patternRules, List.mem_toFinset, List.mem_append, List.mem_cons, List.not_mem_nil, or_false,
    List.mem_map, mem_literalChars, or_assoc]
  simp only [eq_comm]

/-- What a symbol stands for. -/
def symText : Symbol Char Phrase → Str → Prop
  | .terminal c, w => w = [c]
  | .nonterminal .alt, w => ∃ a : Alts, a.Wf ∧ IsAscii a.print ∧ a.print = w
  | .nonterminal .seq, w => ∃ a : Seq, a.Wf ∧ IsAscii a.print ∧ a.print = w
  | .nonterminal .item, w => ∃ a : Item, a.Wf ∧ IsAscii a.print ∧ a.print = w

/-- What a string of symbols stands for. -/
def formText : List (Symbol Char Phrase) → Str → Prop
  | [], w => w = []
  | x :: xs, w => ∃ u v, w = u ++ v ∧ symText x u ∧ formText xs v

theorem formText_append (xs ys : List (Symbol Char Phrase)) (w : Str) :
    formText (xs ++ ys) w ↔ ∃ u v, w = u ++ v ∧ formText xs u ∧ formText ys v := by
  induction xs generalizing w with
  | nil => simp [formText]
  | cons x xs ih =>
    simp only [List.cons_append, formText, ih]
    constructor
    · rintro ⟨u, _, rfl, hu, v, t, rfl, hv, ht⟩
      exact ⟨u ++ v, t, by simp, ⟨u, v, rfl, hu, hv⟩, ht⟩
    · rintro ⟨_, t, rfl, ⟨u, v, rfl, hu, hv⟩, ht⟩
      exact ⟨u, v ++ t, by simp, hu, v, t, rfl, hv, ht⟩

theorem formText_terminals (w w' : Str) : formText (w.map Symbol.terminal) w' ↔ w' = w := by
  induction w generalizing w' with
  | nil => simp [formText]
  | cons c w ih =>
    simp only [List.map_cons, formText, ih, symText]
    constructor
    · rintro ⟨_, _, rfl, rfl, rfl⟩; rfl
    · rintro rfl; exact ⟨[c], w, rfl, rfl, rfl⟩

theorem isAscii_append {s t : Str} : IsAscii (s ++ t) ↔ IsAscii s ∧ IsAscii t := by
  simp only [IsAscii, List.mem_append]
  exact ⟨fun h => ⟨fun c hc => h c (.inl hc), fun c hc => h c (.inr hc)⟩, fun h c hc => hc.elim (h.1 c) (h.2 c)⟩

theorem isAscii_cons {c : Char} {t : Str} : IsAscii (c :: t) ↔ c.toNat < 128 ∧ IsAscii t := by
  simp [IsAscii]

theorem rule_text (r : ContextFreeRule Char Phrase) (hr : r ∈ patternGrammar.rules) (w : Str)
    (h : formText r.output w) : symText (.nonterminal r.input) w := by
  rcases (mem_rules r).1 hr with rfl | rfl | rfl | rfl | rfl | ⟨c, ⟨hc1, hc2⟩, rfl⟩
  · obtain ⟨u, v, rfl, ⟨s, h1, h2, rfl⟩, rfl⟩ := h
    exact ⟨.one s, h1, h2, by simp [Alts.print]⟩
  · obtain ⟨u, v, rfl, ⟨s, h1, h2, rfl⟩, _, v, rfl, rfl, _, _, rfl, ⟨a, h3, h4, rfl⟩, rfl⟩ := h
    refine ⟨.more s a, ⟨h1, h3⟩, ?_, by simp [Alts.print]⟩
    rw [Alts.print, isAscii_append, isAscii_cons]
    exact ⟨h2, by decide, h4⟩
  · subst h
    exact ⟨.nil, trivial, by simp [Seq.print, IsAscii], rfl⟩
  · obtain ⟨u, v, rfl, ⟨i, h1, h2, rfl⟩, _, _, rfl, ⟨s, h3, h4, rfl⟩, rfl⟩ := h
    refine ⟨.cons i s, ⟨h1, h3⟩, ?_, by simp [Seq.print]⟩
    rw [Seq.print, isAscii_append]
    exact ⟨h2, h4⟩
  · obtain ⟨_, v, rfl, rfl, _, _, rfl, ⟨a, h3, h4, rfl⟩, _, _, rfl, rfl, rfl⟩ := h
    refine ⟨.group a, h3, ?_, by simp [Item.print]⟩
    rw [Item.print, List.cons_append, isAscii_cons, isAscii_append, isAscii_cons]
    exact ⟨by decide, h4, by decide, by simp [IsAscii]⟩
  · obtain ⟨_, _, rfl, rfl, rfl⟩ := h
    exact ⟨.lit c, hc2, by simpa [Item.print, IsAscii] using hc1, rfl⟩

theorem derives_text (u v : List (Symbol Char Phrase)) (h : patternGrammar.Derives u v) (w : Str)
    (hv : formText v w) : formText u w := by
  induction h with
  | refl => exact hv
  | tail _ hp ih =>
    apply ih
    obtain ⟨r, hr, hw⟩ : ∃ r : ContextFreeRule Char Phrase, r ∈ patternGrammar.rules ∧ r.Rewrites _ _ := hp
    obtain ⟨p, q, rfl, rfl⟩ := hw.exists_parts
    rw [List.append_assoc] at hv ⊢
    obtain ⟨a, b, rfl, ha, hb⟩ := (formText_append _ _ _).1 hv
    obtain ⟨b, c, rfl, hb, hc⟩ := (formText_append _ _ _).1 hb
    exact (formText_append _ _ _).2 ⟨a, b ++ c, rfl, ha, b, c, rfl, rule_text r hr b hb, hc⟩

theorem derives_rule (r : ContextFreeRule Char Phrase) (hr : r ∈ patternGrammar.rules) :
    patternGrammar.Derives [.nonterminal r.input] r.output :=
  ContextFreeGrammar.Produces.single ⟨r, hr, ContextFreeRule.Rewrites.input_output⟩

mutual
theorem Item.derives : ∀ i : Item, i.Wf → IsAscii i.print →
    patternGrammar.Derives [.nonterminal Phrase.item] (i.print.map Symbol.terminal)
  | .lit c, h, ha => derives_rule ⟨.item, [.terminal c]⟩
      ((mem_rules _).2 (.inr (.inr (.inr (.inr (.inr ⟨c, ⟨ha c (by simp [Item.print]), h⟩, rfl⟩))))))
  | .group a, h, ha => by
    rw [Item.print, List.cons_append, isAscii_cons, isAscii_append] at ha
    have h1 := derives_rule ⟨.item, [.terminal '(', .nonterminal .alt, .terminal ')']⟩
      ((mem_rules _).2 (.inr (.inr (.inr (.inr (.inl rfl))))))
    have h2 := ((Alts.derives a h ha.2.1).append_left [.terminal '(']).append_right [.terminal ')']
    have := h1.trans h2
    simpa [Item.print] using this
theorem Seq.derives : ∀ s : Seq, s.Wf → IsAscii s.print →
    patternGrammar.Derives [.nonterminal Phrase.seq] (s.print.map Symbol.terminal)
  | .nil, _, _ => derives_rule ⟨.seq, []⟩ ((mem_rules _).2 (.inr (.inr (.inl rfl))))
  | .cons i s, h, ha => by
    rw [Seq.print, isAscii_append] at ha
    have h1 := derives_rule ⟨.seq, [.nonterminal .item, .nonterminal .seq]⟩
      ((mem_rules _).2 (.inr (.inr (.inr (.inl rfl)))))
    have h2 := (Item.derives i h.1 ha.1).append_right [.nonterminal Phrase.seq]
    have h3 := (Seq.derives s h.2 ha.2).append_left (i.print.map Symbol.terminal)
    have := (h1.trans h2).trans h3
    simpa [Seq.print] using this
theorem Alts.derives : ∀ a : Alts, a.Wf → IsAscii a.print →
    patternGrammar.Derives [.nonterminal Phrase.alt] (a.print.map Symbol.terminal)
  | .one s, h, ha => (derives_rule ⟨.alt, [.nonterminal .seq]⟩ ((mem_rules _).2 (.inl rfl))).trans (Seq.derives s h ha)
  | .more s a, h, ha => by
    rw [Alts.print, isAscii_append, isAscii_cons] at ha
    have h1 := derives_rule ⟨.alt, [.nonterminal .seq, .terminal '|', .nonterminal .alt]⟩
      ((mem_rules _).2 (.inr (.inl rfl)))
    have h2 := (Seq.derives s h.1 ha.1).append_right [.terminal '|', .nonterminal Phrase.alt]
    have h3 := (Alts.derives a h.2 ha.2.2).append_left (s.print.map Symbol.terminal ++ [.terminal '|'])
    have := (h1.trans h2).trans (by simpa using h3)
    simpa [Alts.print] using this
end

theorem mem_patternGrammar (w : Str) : w ∈ patternGrammar.language ↔ IsAscii w ∧ Balanced w := by
  rw [ContextFreeGrammar.mem_language_iff]
  constructor
  · intro h
    have := derives_text _ _ h w ((formText_terminals w w).2 rfl)
    obtain ⟨_, _, rfl, ⟨a, h1, h2, rfl⟩, rfl⟩ := this
    simp only [List.append_nil]
    exact ⟨h2, print_balanced a h1⟩
  · rintro ⟨ha, hb⟩
    obtain ⟨a, h1, rfl⟩ := exists_tree w hb
    exact Alts.derives a h1 ha

end Spec

/-- C125: what a release build accepts after any control verb is the language of a context-free grammar. -/
theorem C125_context_free (ptr body : Str) (mode : ParseMode) (hb : IsBody ptr body) :
    (parse .release ptr mode).isOk = true ↔ body ∈ patternGrammar.language := by
  rw [mem_patternGrammar]
  constructor
  · intro h
    obtain ⟨body', h1, h2, h3⟩ := C29_accepted_is_balanced .release ptr mode h
    rw [isBody_unique hb h1]
    exact ⟨h2, h3⟩
  · rintro ⟨h1, h2⟩
    exact (C29_accepted_iff_balanced ptr body mode hb h1).2 h2

example : IsBody "(*UCP)(a|b)c".toList "(a|b)c".toList := .inr ⟨"UCP".toList, by simp [HasVerb], .inl (by rfl)⟩

/-- C125: no finite automaton and no regular expression decides which patterns a release build accepts. -/
theorem C125_not_regular (mode : ParseMode) (L : Language Char)
    (hL : ∀ s, s ∈ L ↔ (parse .release s mode).isOk = true) : ¬ L.IsRegular := by
  rw [Language.isRegular_iff_finite_range_leftQuotient]
  intro hfin
  let f : Nat → Language Char := fun n => L.leftQuotient (List.replicate n '(')
  have hmem : ∀ m n, List.replicate m ')' ∈ f n ↔ m = n := by
    intro m n
    show List.replicate n '(' ++ List.replicate m ')' ∈ L ↔ _
    have hnv : NoVerb (List.replicate n '(' ++ List.replicate m ')') := by
      rintro v rest ⟨h, _⟩
      have : '*' ∈ List.replicate n '(' ++ List.replicate m ')' := by rw [h]; simp
      simp at this
    have hb : IsBody (List.replicate n '(' ++ List.replicate m ')') _ := .inl ⟨hnv, rfl⟩
    have hc1 : (List.replicate n '(' ++ List.replicate m ')').count '(' = n := by
      simp [List.count_replicate]
    have hc2 : (List.replicate n '(' ++ List.replicate m ')').count ')' = m := by
      simp [List.count_replicate]
    rw [hL, C125_context_free _ _ mode hb, mem_patternGrammar]
    constructor
    · rintro ⟨_, _, h⟩
      omega
    · rintro rfl
      refine ⟨?_, ?_, by omega⟩
      · intro c hc
        simp only [List.mem_append, List.mem_replicate] at hc
        rcases hc with ⟨_, rfl⟩ | ⟨_, rfl⟩ <;> decide
      · intro k
        simp only [List.take_append, List.take_replicate, List.count_append, List.count_replicate, List.length_replicate]
        simp
  have hinj : Function.Injective f := by
    intro m n h
    exact (hmem m n).1 (h ▸ (hmem m m).2 rfl)
  exact (Set.infinite_range_of_injective hinj) (hfin.subset (by rintro _ ⟨n, rfl⟩; exact ⟨_, rfl⟩))

example : ∀ s, s ∈ ({s | (parse .release s ParseMode.default).isOk = true} : Set Str) ↔
    (parse .release s ParseMode.default).isOk = true := fun _ => Iff.rfl

end Rescan
