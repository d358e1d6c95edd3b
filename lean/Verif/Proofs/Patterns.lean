import Verif.Proofs.Parser
import Verif.Proofs.ParserErr
import Verif.Proofs.Grammar
import Verif.Spec.Patterns
/-! # Languages of grammar trees -/
namespace Rescan.Spec

mutual
/-- The language of an item. -/
def Item.lang (cls : Char → ComponentClass) : Item → List U8 → Prop
  | .lit c => Lang (.cls (cls c))
  | .group a => a.lang cls
/-- The language of a sequence. -/
def Seq.lang (cls : Char → ComponentClass) : Seq → List U8 → Prop
  | .nil => fun w => w = []
  | .cons i s => fun w => ∃ w1 w2, w = w1 ++ w2 ∧ i.lang cls w1 ∧ s.lang cls w2
/-- The language of an alternation. -/
def Alts.lang (cls : Char → ComponentClass) : Alts → List U8 → Prop
  | .one s => s.lang cls
  | .more s a => fun w => s.lang cls w ∨ a.lang cls w
end

mutual
theorem Item.lang_build (cls : Char → ComponentClass) : ∀ (i : Item) (k : Nat) (w : List U8),
    Lang (i.build cls k).1 w ↔ i.lang cls w
  | .lit c, k, w => by simp [Item.build, Item.lang]
  | .group a, k, w => by
    simp only [Item.build, Item.lang, Lang, LangSeq]
    exact Alts.lang_build cls a (k + 1) w
theorem Seq.lang_build (cls : Char → ComponentClass) : ∀ (s : Seq) (k : Nat) (w : List U8),
    LangAll (s.build cls k).1 w ↔ s.lang cls w
  | .nil, k, w => by simp [Seq.build, Seq.lang, LangAll]
  | .cons i s, k, w => by
    simp only [Seq.build, Seq.lang, LangAll]
    simp only [Item.lang_build cls i, Seq.lang_build cls s]
theorem Alts.lang_build (cls : Char → ComponentClass) : ∀ (a : Alts) (k : Nat) (w : List U8),
    LangAll (a.build cls k).1 w ↔ a.lang cls w
  | .one s, k, w => by
    simp only [Alts.build, Alts.lang]
    exact Seq.lang_build cls s k w
  | .more s a, k, w => by
    simp only [Alts.build, Alts.lang, LangAll, Lang, LangAny, LangSeq]
    simp only [Seq.lang_build cls s, Alts.lang_branches cls a]
    constructor
    · rintro ⟨w1, w2, rfl, h, rfl⟩; simpa using h
    · intro h; exact ⟨w, [], by simp, h, rfl⟩
theorem Alts.lang_branches (cls : Char → ComponentClass) : ∀ (a : Alts) (k : Nat) (w : List U8),
    LangAny (a.branches cls k).1 w ↔ a.lang cls w
  | .one s, k, w => by
    simp only [Alts.branches, Alts.lang, LangAny, LangSeq, or_false]
    exact Seq.lang_build cls s k w
  | .more s a, k, w => by
    simp only [Alts.branches, Alts.lang, LangAny, LangSeq]
    simp only [Seq.lang_build cls s, Alts.lang_branches cls a]
end

theorem Alts.lang_root (cls : Char → ComponentClass) (a : Alts) (w : List U8) :
    Lang (a.root cls) w ↔ a.lang cls w := by
  simp only [Alts.root, Lang, LangSeq]
  exact Alts.lang_build cls a 1 w

/-! ## Joining trees -/

/-- All branches of one alternation, then those of the other. -/
def Alts.join : Alts → Alts → Alts
  | .one s, b => .more s b
  | .more s a, b => .more s (a.join b)

theorem Alts.join_print : ∀ a b : Alts, (a.join b).print = a.print ++ '|' :: b.print
  | .one s, b => by simp [Alts.join, Alts.print]
  | .more s a, b => by simp [Alts.join, Alts.print, Alts.join_print a b]

theorem Alts.join_wf : ∀ a b : Alts, a.Wf → b.Wf → (a.join b).Wf
  | .one _, _, ha, hb => ⟨ha, hb⟩
  | .more _ a, b, ha, hb => ⟨ha.1, Alts.join_wf a b ha.2 hb⟩

theorem Alts.join_lang (cls : Char → ComponentClass) (w : List U8) : ∀ a b : Alts,
    (a.join b).lang cls w ↔ a.lang cls w ∨ b.lang cls w
  | .one s, b => by simp [Alts.join, Alts.lang]
  | .more s a, b => by simp [Alts.join, Alts.lang, Alts.join_lang cls w a b, or_assoc]

/-- One sequence, then the other. -/
def Seq.app : Seq → Seq → Seq
  | .nil, t => t
  | .cons i s, t => .cons i (s.app t)

theorem Seq.app_print : ∀ s t : Seq, (s.app t).print = s.print ++ t.print
  | .nil, t => by simp [Seq.app, Seq.print]
  | .cons i s, t => by simp [Seq.app, Seq.print, Seq.app_print s t]

theorem Seq.app_wf : ∀ s t : Seq, s.Wf → t.Wf → (s.app t).Wf
  | .nil, _, _, ht => ht
  | .cons _ s, t, hs, ht => ⟨hs.1, Seq.app_wf s t hs.2 ht⟩

theorem Seq.app_lang (cls : Char → ComponentClass) : ∀ (s t : Seq) (w : List U8),
    (s.app t).lang cls w ↔ ∃ w1 w2, w = w1 ++ w2 ∧ s.lang cls w1 ∧ t.lang cls w2
  | .nil, t, w => by
    simp only [Seq.app, Seq.lang]
    constructor
    · intro h; exact ⟨[], w, rfl, rfl, h⟩
    · rintro ⟨w1, w2, rfl, rfl, h⟩; exact h
  | .cons i s, t, w => by
    simp only [Seq.app, Seq.lang, Seq.app_lang cls s t]
    constructor
    · rintro ⟨w1, w2, rfl, h1, w3, w4, rfl, h3, h4⟩
      exact ⟨w1 ++ w3, w4, by simp, ⟨w1, w3, rfl, h1, h3⟩, h4⟩
    · rintro ⟨w1, w2, rfl, ⟨w3, w4, rfl, h3, h4⟩, h2⟩
      exact ⟨w3, w4 ++ w2, by simp, h3, w4, w2, rfl, h4, h2⟩

theorem one_of_noOuterBar {a : Alts} (ha : a.Wf) (h : NoOuterBar a.print) : ∃ s, a = .one s := by
  cases a with
  | one s => exact ⟨s, rfl⟩
  | more s a =>
    exfalso
    exact h s.print a.print rfl (print_balanced (.one s) ha.1).2

/-! ## Verbs of composed patterns -/

theorem noVerb_append {s t : Str} (hs : NoVerb s) (hb : Balanced s) (hne : s ≠ []) : NoVerb (s ++ t) := by
  rintro v rest ⟨h1, h2, h3⟩
  rcases List.append_eq_append_iff.1 h1 with ⟨x, hx, _⟩ | ⟨x, hx, _⟩
  · cases hxl : x.reverse with
    | nil =>
      have : x = [] := by simpa using hxl
      subst this
      exact hs v [] ⟨by simpa using hx.symm, h2, h3⟩
    | cons z zs =>
      have hx' : x = zs.reverse ++ [z] := by
        have := congrArg List.reverse hxl; simpa using this
      rw [hx', ← List.append_assoc] at hx
      have hpre := List.append_inj' hx rfl
      have h4 : s ++ zs.reverse = ['(', '*'] ++ v := hpre.1.symm
      have hc : s.count ')' = 0 := by
        have : (s ++ zs.reverse).count ')' = 0 := by
          rw [h4]; simp [List.count_append, List.count_eq_zero.2 h3]
        rw [List.count_append] at this; omega
      have ho : 0 < s.count '(' := by
        cases s with
        | nil => exact absurd rfl hne
        | cons c cs =>
          have : c = '(' := by simpa using congrArg List.head? h4
          subst this; simp
      have := hb.2
      omega
  · exact hs v x ⟨by simpa using hx, h2, h3⟩

theorem noVerb_of_head {c : Char} {s : Str} (h : c ≠ '(') : NoVerb (c :: s) := by
  rintro v rest ⟨h1, _, _⟩
  simp at h1
  exact h h1.1

theorem noVerb_group {s : Str} (h : ∀ s', s = '*' :: s' → s' = []) : NoVerb ('(' :: s ++ [')']) := by
  rintro v rest ⟨h1, h2, h3⟩
  simp at h1
  cases s with
  | nil => simp at h1
  | cons c cs =>
    simp at h1
    obtain ⟨rfl, h1⟩ := h1
    have := h cs rfl
    subst this
    cases v with
    | nil => exact h2 rfl
    | cons x xs => simp at h1

theorem isBody_append {s b t : Str} (h : IsBody s b) (hb : Balanced b) (ht : NoVerb t) :
    IsBody (s ++ t) (b ++ t) := by
  rcases h with ⟨h1, rfl⟩ | ⟨v, ⟨h1, h2, h3⟩, h4⟩
  · by_cases hne : b = []
    · subst hne; exact .inl ⟨by simpa using ht, rfl⟩
    · exact .inl ⟨noVerb_append h1 hb hne, rfl⟩
  · exact .inr ⟨v, ⟨by simp [h1], h2, h3⟩, h4⟩

theorem isBody_noVerb {s b : Str} (h : IsBody s b) (hn : NoVerb s) : b = s := by
  rcases h with ⟨_, rfl⟩ | ⟨v, hv, _⟩
  · rfl
  · exact absurd hv (hn _ _)

theorem isAscii_append {s t : Str} : IsAscii (s ++ t) ↔ IsAscii s ∧ IsAscii t := by
  unfold IsAscii
  simp only [List.mem_append]
  exact ⟨fun h => ⟨fun c hc => h c (.inl hc), fun c hc => h c (.inr hc)⟩,
    fun h c hc => hc.elim (h.1 c) (h.2 c)⟩

/-! ## Letter case -/

theorem CaseEq.append : ∀ {v1 w1 v2 w2 : List U8}, CaseEq v1 w1 → CaseEq v2 w2 →
    CaseEq (v1 ++ v2) (w1 ++ w2)
  | [], [], _, _, _, h => h
  | _ :: _, _ :: _, _, _, h1, h2 => ⟨h1.1, CaseEq.append h1.2 h2⟩
  | [], _ :: _, _, _, h, _ => h.elim
  | _ :: _, [], _, _, h, _ => h.elim

theorem CaseEq.split : ∀ {v1 v2 w : List U8}, CaseEq (v1 ++ v2) w →
    ∃ w1 w2, w = w1 ++ w2 ∧ CaseEq v1 w1 ∧ CaseEq v2 w2
  | [], _, w, h => ⟨[], w, rfl, trivial, h⟩
  | a :: v1, v2, [], h => h.elim
  | a :: v1, v2, b :: w, h => by
    obtain ⟨w1, w2, rfl, h1, h2⟩ := CaseEq.split (v1 := v1) h.2
    exact ⟨b :: w1, w2, rfl, ⟨h.1, h1⟩, h2⟩

theorem casePair_symm {a b : U8} (h : casePair a b) : casePair b a := h.symm

theorem lit_lang (caseless : Bool) (c : Char) (h : c.toNat < 256) (w : List U8) :
    Lang (.cls (litClass caseless c)) w ↔
      ∃ b : U8, w = [b] ∧ (b.toNat = c.toNat ∨ (caseless = true ∧ casePair b (BitVec.ofNat 8 c.toNat))) := by
  have := (litClass_spec caseless c h)
  cases hc : litClass caseless c with
  | ascii a =>
    rw [hc] at this
    simp only [Lang, this.2]

theorem lit_closure (c : Char) (h : c.toNat < 256) (w : List U8) :
    Lang (.cls (litClass true c)) w ↔ ∃ v, Lang (.cls (litClass false c)) v ∧ CaseEq v w := by
  simp only [lit_lang _ c h]
  have hb : ∀ b : U8, b.toNat = c.toNat ↔ b = BitVec.ofNat 8 c.toNat := by
    intro b
    rw [← BitVec.toNat_inj, BitVec.toNat_ofNat, Nat.mod_eq_of_lt h]
  simp only [hb]
  constructor
  · rintro ⟨b, rfl, h1⟩
    refine ⟨[BitVec.ofNat 8 c.toNat], ⟨_, rfl, .inl rfl⟩, ?_, trivial⟩
    rcases h1 with h1 | ⟨_, h1⟩
    · exact .inl h1.symm
    · exact .inr (casePair_symm h1)
  · rintro ⟨v, ⟨b, rfl, h1⟩, h2⟩
    simp only [Bool.false_eq_true, false_and, or_false] at h1
    subst h1
    cases w with
    | nil => exact h2.elim
    | cons x w =>
      cases w with
      | cons y w => exact h2.2.elim
      | nil =>
        refine ⟨x, rfl, ?_⟩
        rcases h2.1 with h3 | h3
        · exact .inl h3.symm
        · exact .inr ⟨trivial, casePair_symm h3⟩

mutual
theorem Item.closure : ∀ (i : Item) (w : List U8), IsAscii i.print →
    (i.lang (litClass true) w ↔ ∃ v, i.lang (litClass false) v ∧ CaseEq v w)
  | .lit c, w, h => by
    simp only [Item.lang]
    exact lit_closure c (by have := h c (by simp [Item.print]); omega) w
  | .group a, w, h => by
    simp only [Item.lang]
    refine Alts.closure a w ?_
    intro c hc; exact h c (by simp [Item.print, hc])
theorem Seq.closure : ∀ (s : Seq) (w : List U8), IsAscii s.print →
    (s.lang (litClass true) w ↔ ∃ v, s.lang (litClass false) v ∧ CaseEq v w)
  | .nil, w, _ => by
    simp only [Seq.lang]
    constructor
    · rintro rfl; exact ⟨[], rfl, trivial⟩
    · rintro ⟨v, rfl, h⟩
      cases w with
      | nil => rfl
      | cons _ _ => exact h.elim
  | .cons i s, w, h => by
    simp only [Seq.print, isAscii_append] at h
    simp only [Seq.lang]
    constructor
    · rintro ⟨w1, w2, rfl, h1, h2⟩
      obtain ⟨v1, h3, h4⟩ := (Item.closure i w1 h.1).1 h1
      obtain ⟨v2, h5, h6⟩ := (Seq.closure s w2 h.2).1 h2
      exact ⟨v1 ++ v2, ⟨v1, v2, rfl, h3, h5⟩, h4.append h6⟩
    · rintro ⟨v, ⟨v1, v2, rfl, h1, h2⟩, h3⟩
      obtain ⟨w1, w2, rfl, h4, h5⟩ := h3.split
      exact ⟨w1, w2, rfl, (Item.closure i w1 h.1).2 ⟨v1, h1, h4⟩, (Seq.closure s w2 h.2).2 ⟨v2, h2, h5⟩⟩
theorem Alts.closure : ∀ (a : Alts) (w : List U8), IsAscii a.print →
    (a.lang (litClass true) w ↔ ∃ v, a.lang (litClass false) v ∧ CaseEq v w)
  | .one s, w, h => by simp only [Alts.lang]; exact Seq.closure s w h
  | .more s a, w, h => by
    simp only [Alts.print, isAscii_append] at h
    have h2 : IsAscii a.print := fun c hc => h.2 c (by simp [hc])
    simp only [Alts.lang, Seq.closure s w h.1, Alts.closure a w h2]
    constructor
    · rintro (⟨v, h1, h2⟩ | ⟨v, h1, h2⟩)
      · exact ⟨v, .inl h1, h2⟩
      · exact ⟨v, .inr h1, h2⟩
    · rintro ⟨v, h1 | h1, h2⟩
      · exact .inl ⟨v, h1, h2⟩
      · exact .inr ⟨v, h1, h2⟩
end

theorem sameLetter_other {c d : Char} (h : SameLetter c d) (hn : ¬ isLetter (BitVec.ofNat 8 c.toNat)) :
    c = d := by
  rcases h with h | ⟨h1, h2, h3⟩
  · exact h
  · exfalso
    apply hn
    simp only [casePair, isUpper, isLetter, isLower] at *
    omega

theorem SameLetter.special {c d : Char} (h : SameLetter c d) (hs : special c) : c = d := by
  refine sameLetter_other h ?_
  rcases hs with rfl | rfl | rfl <;> decide

theorem SameLetter.symm {c d : Char} (h : SameLetter c d) : SameLetter d c :=
  h.elim (fun h => .inl h.symm) (fun ⟨h1, h2, h3⟩ => .inr ⟨h2, h1, casePair_symm h3⟩)

theorem SameText.symm : ∀ {s t : Str}, SameText s t → SameText t s
  | [], [], _ => trivial
  | _ :: _, _ :: _, h => ⟨h.1.symm, h.2.symm⟩
  | [], _ :: _, h => h.elim
  | _ :: _, [], h => h.elim

theorem SameLetter.litClass_eq {c d : Char} (h : SameLetter c d) (hc : c.toNat < 128) :
    litClass true c = litClass true d := by
  rcases h with rfl | ⟨h1, h2, h3⟩
  · rfl
  · have hd : IsLitClass true c (litClass true d) := by
      have := litClass_spec true d (by omega)
      cases hx : Rescan.litClass true d with
      | ascii a =>
        rw [hx] at this
        refine ⟨this.1, fun b => ?_⟩
        rw [this.2 b]
        have e1 : (BitVec.ofNat 8 c.toNat).toNat = c.toNat := Nat.mod_eq_of_lt (by omega)
        have e2 : (BitVec.ofNat 8 d.toNat).toNat = d.toNat := Nat.mod_eq_of_lt (by omega)
        simp only [casePair, isUpper, e1, e2, true_and] at h3 ⊢
        omega
    exact isLitClass_unique (litClass_spec true c (by omega)) hd

theorem SameLetter.utf8Size {c d : Char} (h : SameLetter c d) : c.utf8Size = d.utf8Size := by
  rcases h with rfl | ⟨h1, h2, _⟩
  · rfl
  · have key : ∀ c : Char, c.toNat < 128 → c.utf8Size = 1 := by
      intro c h
      unfold Char.utf8Size
      rw [if_pos]
      show c.val ≤ 127
      rw [UInt32.le_iff_toNat_le]
      have : c.val.toNat = c.toNat := rfl
      rw [this]; simp; omega
    rw [key c h1, key d h2]

theorem SameText.utf8Len : ∀ {s t : Str}, SameText s t → utf8Len s = utf8Len t
  | [], [], _ => rfl
  | c :: s, d :: t, h => by
    have h1 := h.1.utf8Size
    have h2 := SameText.utf8Len h.2
    simp only [Rescan.utf8Len, List.map_cons, List.sum_cons] at *
    omega
  | [], _ :: _, h => h.elim
  | _ :: _, [], h => h.elim

theorem SameText.split : ∀ {s1 s2 t : Str}, SameText (s1 ++ s2) t →
    ∃ t1 t2, t = t1 ++ t2 ∧ SameText s1 t1 ∧ SameText s2 t2
  | [], _, t, h => ⟨[], t, rfl, trivial, h⟩
  | _ :: _, _, [], h => h.elim
  | _ :: s1, s2, d :: t, h => by
    obtain ⟨t1, t2, rfl, h1, h2⟩ := SameText.split (s1 := s1) h.2
    exact ⟨d :: t1, t2, rfl, ⟨h.1, h1⟩, h2⟩

theorem SameText.mem : ∀ {s t : Str} {d : Char}, SameText s t → ¬ isLetter (BitVec.ofNat 8 d.toNat) →
    d ∈ t → d ∈ s
  | [], [], _, _, _, h => h
  | c :: s, x :: t, d, h, hn, hd => by
    rcases List.mem_cons.1 hd with rfl | hd
    · rw [sameLetter_other h.1.symm hn]; simp
    · exact List.mem_cons_of_mem _ (SameText.mem h.2 hn hd)
  | [], _ :: _, _, h, _, _ => h.elim
  | _ :: _, [], _, h, _, _ => h.elim

theorem hasVerb_sameText {s t v rest : Str} (h : SameText s t) (hv : HasVerb s v rest) :
    ∃ v' rest', HasVerb t v' rest' := by
  obtain ⟨rfl, h2, h3⟩ := hv
  rw [List.append_assoc] at h
  obtain ⟨t1, t2, rfl, h4, h5⟩ := h.split
  obtain ⟨t3, t4, rfl, h6, h7⟩ := h5.split
  obtain ⟨t5, t6, rfl, h8, h9⟩ := h4.split
  have e1 : t5 = ['(', '*'] := by
    match t5, h8 with
    | [a, b], h => rw [← sameLetter_other h.1 (by decide), ← sameLetter_other h.2.1 (by decide)]
  have e2 : t3 = [')'] := by
    match t3, h6 with
    | [a], h => rw [← sameLetter_other h.1 (by decide)]
  subst e1 e2
  refine ⟨t6, t4, by simp, ?_, fun hm => h3 (h9.mem (by decide) hm)⟩
  rintro rfl
  cases v with
  | nil => exact h2 rfl
  | cons _ _ => exact h9.elim

theorem noVerb_sameText {s t : Str} (h : SameText s t) (hs : NoVerb s) : NoVerb t :=
  fun v rest hv => by
    obtain ⟨v', rest', h'⟩ := hasVerb_sameText h.symm hv
    exact hs _ _ h'

end Rescan.Spec

namespace Rescan.Context
open Spec

theorem main_nonascii_eq (pr : Profile) (ctx : Context) (c : Char) (cs : Str)
    (ha : ¬ c.toNat < 128) : ctx.main pr (c :: cs) = .panic "assertion failed: c.is_ascii()" := by
  unfold main
  split
  · rename_i heq; injection heq with h1 h2; subst h1; exact absurd (by decide) ha
  · rename_i heq; injection heq with h1 h2; subst h1; exact absurd (by decide) ha
  · rename_i heq; injection heq with h1 h2; subst h1; exact absurd (by decide) ha
  · rename_i c' p' _ _ _ heq
    injection heq with h1 h2
    subst h1 h2
    simp [ha, rassert]; rfl
  · simp_all

/-- All modes the context knows are caseless. -/
def AllCaseless (ctx : Context) : Prop :=
  ctx.mode.caseless = true ∧ ∀ v ∈ ctx.sequences, v.mode.caseless = true

theorem loop_sameText (pr : Profile) : ∀ (s t : Str) (ctx : Context) (p : Str), SameText s t →
    ctx.AllCaseless → (loop pr s ctx).bind finish = (loop pr t { ctx with p := p }).bind finish := by
  intro s
  induction s with
  | nil =>
    intro t ctx p h hc
    cases t with
    | nil => rfl
    | cons _ _ => exact h.elim
  | cons c cs ih =>
    intro t ctx p h hc
    cases t with
    | nil => exact h.elim
    | cons d ds =>
      have hl : utf8Len (c :: cs) = utf8Len (d :: ds) := SameText.utf8Len h
      rw [loop_cons, loop_cons]
      rcases char_kinds c with hk | hk | hk | ⟨hk, ha⟩ | hk
      · have := h.1.special (.inl hk)
        subst hk; subst this
        show (((ctx.pushSequence pr ('(' :: cs)).bind _).bind _).bind _
          = (((pushSequence pr { ctx with p := p } ('(' :: ds)).bind _).bind _).bind _
        unfold pushSequence
        rw [hl]
        cases u32Incr pr ctx.groupIndex with
        | ok gi =>
          simp only [Outcome.ok_bind]
          cases usizeSub pr (utf8Len ('(' :: ds)) ctx.ptrLen with
          | ok off =>
            exact ih ds _ ds h.2 ⟨hc.1, fun v hv => by
              rcases List.mem_cons.1 hv with rfl | hv
              · exact hc.1
              · exact hc.2 v hv⟩
          | err e => rfl
          | panic m => rfl
          | timeout => rfl
        | err e => rfl
        | panic m => rfl
        | timeout => rfl
      · have := h.1.special (.inr (.inl hk))
        subst hk; subst this
        cases hsq : ctx.sequences with
        | nil => rw [main_close_nil pr _ _ hsq, main_close_nil pr _ _ rfl]; rfl
        | cons v rest =>
          rw [main_close_cons pr _ _ v rest hsq, main_close_cons pr _ _ v rest rfl]
          have hm : ∀ x ∈ v :: rest, x.mode.caseless = true := hsq ▸ hc.2
          exact ih ds _ ds h.2 ⟨hm v (by simp), fun x hx => hm x (by simp [hx])⟩
      · have := h.1.special (.inr (.inr hk))
        subst hk; subst this
        rw [main_bar, main_bar]
        exact ih ds _ ds h.2 hc
      · have ha' : d.toNat < 128 := by
          rcases h.1 with rfl | h
          · exact ha
          · exact h.2.1
        have hk' : ¬ special d := fun hs => hk (by rw [← h.1.symm.special hs]; exact hs)
        rw [main_lit pr ctx c cs hk ha, main_lit pr _ d ds hk' ha']
        show _ = (loop pr ds { ctx with
          currentSeq := ctx.currentSeq.addComponent (.cls (litClass ctx.mode.caseless d)), p := ds }).bind _
        rw [hc.1, ← h.1.litClass_eq ha]
        exact ih ds { ctx with
          currentSeq := ctx.currentSeq.addComponent (.cls (litClass true c)), p := cs } ds h.2 hc
      · have : c = d := by
          rcases h.1 with e | ⟨h1, _⟩
          · exact e
          · exact absurd h1 hk
        subst this
        rw [main_nonascii_eq pr _ _ _ hk, main_nonascii_eq pr _ _ _ hk]; rfl

end Rescan.Context
