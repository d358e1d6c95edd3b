import Std.Data.String.ToNat
import Verif.Props.Dump
/-! # A dump determines the tree -/
namespace Rescan
open Spec Dump

mutual
/-- No sequence of the tree has a name or an unfinished alternation, and every class satisfies `Q`. -/
def Nice (Q : AsciiComponentClass → Prop) : Component → Prop
  | .cls (.ascii a) => Q a
  | .alternation a => NiceAlt Q a
  | .sequence q => NiceSeq Q q
def NiceAlt (Q : AsciiComponentClass → Prop) : ComponentAlternation → Prop
  | .mk cs => NiceSeqs Q cs
def NiceSeq (Q : AsciiComponentClass → Prop) : ComponentSequence → Prop
  | .mk cs a _ n => a = none ∧ n = none ∧ NiceComps Q cs
def NiceSeqs (Q : AsciiComponentClass → Prop) : List ComponentSequence → Prop
  | [] => True
  | s :: ss => NiceSeq Q s ∧ NiceSeqs Q ss
def NiceComps (Q : AsciiComponentClass → Prop) : List Component → Prop
  | [] => True
  | c :: cs => Nice Q c ∧ NiceComps Q cs
end

/-- What follows the lines of depth `d` and deeper. -/
def Stop (d : Nat) (X : Str) : Prop := X = [] ∨ ∃ k x Y, k < d ∧ x ≠ ' ' ∧ X = indent k ++ x :: Y

theorem Stop.mono {d e : Nat} {X : Str} (h : Stop d X) (hle : d ≤ e) : Stop e X := by
  rcases h with h | ⟨k, x, Y, h1, h2, h3⟩
  · exact .inl h
  · exact .inr ⟨k, x, Y, by omega, h2, h3⟩

theorem spaces_inj : ∀ (m n : Nat) (x y : Char) (X Y : Str), x ≠ ' ' → y ≠ ' ' →
    List.replicate m ' ' ++ x :: X = List.replicate n ' ' ++ y :: Y → m = n ∧ x = y ∧ X = Y := by
  intro m
  induction m with
  | zero =>
    intro n x y X Y hx hy h
    cases n with
    | zero => simpa using h
    | succ n =>
      rw [List.replicate_succ] at h
      simp at h
      exact absurd h.1 hx
  | succ m ih =>
    intro n x y X Y hx hy h
    cases n with
    | zero =>
      rw [List.replicate_succ] at h
      simp at h
      exact absurd h.1.symm hy
    | succ n =>
      rw [List.replicate_succ, List.replicate_succ] at h
      simp only [List.cons_append, List.cons.injEq, true_and] at h
      obtain ⟨h1, h2⟩ := ih n x y X Y hx hy h
      exact ⟨by omega, h2⟩

theorem indent_inj {d e : Nat} {x y : Char} {X Y : Str} (hx : x ≠ ' ') (hy : y ≠ ' ')
    (h : indent d ++ x :: X = indent e ++ y :: Y) : d = e ∧ x = y ∧ X = Y := by
  obtain ⟨h1, h2⟩ := spaces_inj _ _ x y X Y hx hy h
  exact ⟨by omega, h2⟩

theorem stop_not {d : Nat} {x : Char} {X : Str} (hx : x ≠ ' ') (h : Stop d (indent d ++ x :: X)) : False := by
  rcases h with h | ⟨k, y, Y, h1, h2, h3⟩
  · simp at h
  · have := indent_inj hx h2 h3
    omega

/-- Splitting at the first occurrence of a character. -/
theorem split_at (z : Char) : ∀ (s t S T : Str), z ∉ s → z ∉ t → s ++ z :: S = t ++ z :: T → s = t ∧ S = T := by
  intro s
  induction s with
  | nil =>
    intro t S T _ ht h
    cases t with
    | nil => simpa using h
    | cons b t => simp at h; exact absurd h.1 (fun e => ht (by simp [e]))
  | cons a s ih =>
    intro t S T hs ht h
    cases t with
    | nil => simp at h; exact absurd h.1 (fun e => hs (by simp [e]))
    | cons b t =>
      simp at h hs ht
      obtain ⟨h1, h2⟩ := ih t S T hs.2 ht.2 h.2
      exact ⟨by rw [h.1, h1], h2⟩

theorem digits_no (n : Nat) (z : Char) (hz : z.isDigit = false) : z ∉ (toString n).toList := by
  rw [show (toString n) = Nat.repr n from rfl, Nat.toList_repr]
  intro h
  have := Nat.isDigit_of_mem_toDigits (by decide) (by decide) h
  rw [this] at hz; cases hz

/-- The header of an unnamed sequence determines its index. -/
theorem seqHeader_inj {i j : Option Nat} {X Y : Str}
    (h : seqHeader i none ++ '\n' :: X = seqHeader j none ++ '\n' :: Y) : i = j ∧ X = Y := by
  unfold seqHeader at h
  cases i with
  | none =>
    cases j with
    | none => simpa using h
    | some m => simp at h
  | some n =>
    cases j with
    | none => simp at h
    | some m =>
      simp only [String.toList_append, List.append_nil, List.append_assoc] at h
      have h := List.append_cancel_left h
      have h := List.append_cancel_left h
      have h := split_at ')' _ _ _ _ (digits_no n ')' (by decide)) (digits_no m ')' (by decide)) h
      obtain ⟨h1, h2⟩ := h
      have h1 : Nat.repr n = Nat.repr m := String.toList_inj.1 h1
      rw [Nat.repr_injective h1]
      exact ⟨rfl, by simpa using h2⟩

theorem seqHeader_head (i : Option Nat) (n : Option String) : ∃ t, seqHeader i n = 'S' :: t := ⟨_, rfl⟩

theorem dumpSeq_head (text : CharReach → Str) (d : Nat) (q : ComponentSequence) :
    ∃ t, dumpSeq text d q = indent d ++ 'S' :: t := by
  cases q with
  | mk cs a i n =>
    rw [dumpSeq]
    obtain ⟨t, ht⟩ := seqHeader_head i n
    rw [ht]
    simp only [List.append_assoc, List.cons_append]
    exact ⟨_, rfl⟩

theorem dump_head (text : CharReach → Str) (d : Nat) (c : Component) :
    ∃ x t, x ≠ ' ' ∧ dump text d c = indent d ++ x :: t := by
  cases c with
  | cls k =>
    cases k with
    | ascii a => exact ⟨'A', _, by decide, by rw [dump, List.append_assoc]; rfl⟩
  | alternation a =>
    cases a with
    | mk cs => exact ⟨'A', _, by decide, by rw [dump, dumpAlt, List.append_assoc]; rfl⟩
  | sequence q =>
    obtain ⟨t, ht⟩ := dumpSeq_head text d q
    exact ⟨'S', t, by decide, by rw [dump, ht]⟩

theorem stop_comps (text : CharReach → Str) (d : Nat) (cs : List Component) {X : Str} (h : Stop d X) :
    Stop (d + 1) (dumpComps text d cs ++ X) := by
  cases cs with
  | nil => rw [dumpComps]; exact h.mono (by omega)
  | cons c cs =>
    obtain ⟨x, t, h1, h2⟩ := dump_head text d c
    rw [dumpComps, h2]
    simp only [List.append_assoc, List.cons_append]
    exact .inr ⟨d, x, _, by omega, h1, rfl⟩

theorem stop_seqs (text : CharReach → Str) (d : Nat) (cs : List ComponentSequence) {X : Str} (h : Stop d X) :
    Stop (d + 1) (dumpSeqs text d cs ++ X) := by
  cases cs with
  | nil => rw [dumpSeqs]; exact h.mono (by omega)
  | cons c cs =>
    obtain ⟨t, h2⟩ := dumpSeq_head text d c
    rw [dumpSeqs, h2]
    simp only [List.append_assoc, List.cons_append]
    exact .inr ⟨d, 'S', _, by omega, by decide, rfl⟩

section
variable {text : CharReach → Str} {Q : AsciiComponentClass → Prop}
  (hnl : ∀ a, Q a → '\n' ∉ text a.cr) (hinj : ∀ a b, Q a → Q b → text a.cr = text b.cr → a = b)

include hnl hinj
mutual
theorem dump_unique : ∀ (c c' : Component) (d : Nat) (X X' : Str), Nice Q c → Nice Q c' →
    Stop (d + 1) X → Stop (d + 1) X' → dump text d c ++ X = dump text d c' ++ X' → c = c' ∧ X = X'
  | .cls (.ascii a), .cls (.ascii b), d, X, X', hq, hq', _, _, h => by
    rw [dump, dump] at h
    simp only [List.append_assoc] at h
    have h := List.append_cancel_left (List.append_cancel_left (List.append_cancel_left h))
    obtain ⟨h1, h2⟩ := split_at '\n' _ _ _ _ (hnl a hq) (hnl b hq') h
    exact ⟨by rw [hinj a b hq hq' h1], by simpa using h2⟩
  | .alternation a, .alternation a', d, X, X', hq, hq', hX, hX', h => by
    obtain ⟨h1, h2⟩ := dumpAlt_unique a a' d X X' hq hq' hX hX' h
    exact ⟨by rw [h1], h2⟩
  | .sequence q, .sequence q', d, X, X', hq, hq', hX, hX', h => by
    obtain ⟨h1, h2⟩ := dumpSeq_unique q q' d X X' hq hq' hX hX' h
    exact ⟨by rw [h1], h2⟩
  | .cls (.ascii a), .alternation (.mk cs), d, X, X', _, _, _, _, h => by
    rw [dump, dump, dumpAlt] at h
    simp only [List.append_assoc] at h
    have := List.append_cancel_left h
    simp at this
  | .alternation (.mk cs), .cls (.ascii a), d, X, X', _, _, _, _, h => by
    rw [dump, dump, dumpAlt] at h
    simp only [List.append_assoc] at h
    have := List.append_cancel_left h
    simp at this
  | .cls (.ascii a), .sequence q, d, X, X', _, _, _, _, h => by
    obtain ⟨t, ht⟩ := dumpSeq_head text d q
    rw [dump, dump, ht] at h
    simp only [List.append_assoc] at h
    have := List.append_cancel_left h
    simp at this
  | .sequence q, .cls (.ascii a), d, X, X', _, _, _, _, h => by
    obtain ⟨t, ht⟩ := dumpSeq_head text d q
    rw [dump, dump, ht] at h
    simp only [List.append_assoc] at h
    have := List.append_cancel_left h
    simp at this
  | .alternation (.mk cs), .sequence q, d, X, X', _, _, _, _, h => by
    obtain ⟨t, ht⟩ := dumpSeq_head text d q
    rw [dump, dump, dumpAlt, ht] at h
    simp only [List.append_assoc] at h
    have := List.append_cancel_left h
    simp at this
  | .sequence q, .alternation (.mk cs), d, X, X', _, _, _, _, h => by
    obtain ⟨t, ht⟩ := dumpSeq_head text d q
    rw [dump, dump, dumpAlt, ht] at h
    simp only [List.append_assoc] at h
    have := List.append_cancel_left h
    simp at this
theorem dumpAlt_unique : ∀ (a a' : ComponentAlternation) (d : Nat) (X X' : Str), NiceAlt Q a → NiceAlt Q a' →
    Stop (d + 1) X → Stop (d + 1) X' → dumpAlt text d a ++ X = dumpAlt text d a' ++ X' → a = a' ∧ X = X'
  | .mk cs, .mk cs', d, X, X', hq, hq', hX, hX', h => by
    rw [dumpAlt, dumpAlt] at h
    simp only [List.append_assoc] at h
    have h := List.append_cancel_left (List.append_cancel_left h)
    obtain ⟨h1, h2⟩ := dumpSeqs_unique cs cs' (d + 1) X X' hq hq' hX hX' h
    exact ⟨by rw [h1], h2⟩
theorem dumpSeq_unique : ∀ (q q' : ComponentSequence) (d : Nat) (X X' : Str), NiceSeq Q q → NiceSeq Q q' →
    Stop (d + 1) X → Stop (d + 1) X' → dumpSeq text d q ++ X = dumpSeq text d q' ++ X' → q = q' ∧ X = X'
  | .mk cs a i n, .mk cs' a' i' n', d, X, X', hq, hq', hX, hX', h => by
    obtain ⟨rfl, rfl, hq⟩ := hq
    obtain ⟨rfl, rfl, hq'⟩ := hq'
    rw [dumpSeq, dumpSeq] at h
    simp only [List.append_assoc] at h
    replace h := seqHeader_inj (List.append_cancel_left h)
    obtain ⟨hi, h⟩ := h
    subst hi
    replace h : (if cs.isEmpty = true then indent (d + 1) ++ " <empty>\n".toList else dumpComps text (d + 1) cs) ++ X
      = (if cs'.isEmpty = true then indent (d + 1) ++ " <empty>\n".toList else dumpComps text (d + 1) cs') ++ X' := h
    cases cs with
    | nil =>
      cases cs' with
      | nil =>
        simp only [List.isEmpty_nil, if_true, List.append_assoc] at h
        exact ⟨rfl, List.append_cancel_left (List.append_cancel_left h)⟩
      | cons c cs' =>
        obtain ⟨x, t, h1, h2⟩ := dump_head text (d + 1) c
        simp only [List.isEmpty_nil, if_true, List.append_assoc, List.isEmpty_cons, Bool.false_eq_true, if_false] at h
        rw [dumpComps, h2] at h
        simp only [List.append_assoc, List.cons_append] at h
        have := List.append_cancel_left h
        simp at this
        exact absurd this.1.symm h1
    | cons c cs =>
      cases cs' with
      | nil =>
        obtain ⟨x, t, h1, h2⟩ := dump_head text (d + 1) c
        simp only [List.isEmpty_nil, if_true, List.append_assoc, List.isEmpty_cons, Bool.false_eq_true, if_false] at h
        rw [dumpComps, h2] at h
        simp only [List.append_assoc, List.cons_append] at h
        have := List.append_cancel_left h
        simp at this
        exact absurd this.1 h1
      | cons c' cs' =>
        simp only [List.isEmpty_cons, Bool.false_eq_true, if_false] at h
        obtain ⟨h1, h2⟩ := dumpComps_unique (c :: cs) (c' :: cs') (d + 1) X X' hq hq' hX hX' h
        exact ⟨by rw [h1], h2⟩
theorem dumpSeqs_unique : ∀ (cs cs' : List ComponentSequence) (d : Nat) (X X' : Str), NiceSeqs Q cs →
    NiceSeqs Q cs' → Stop d X → Stop d X' → dumpSeqs text d cs ++ X = dumpSeqs text d cs' ++ X' →
    cs = cs' ∧ X = X'
  | [], [], d, X, X', _, _, _, _, h => ⟨rfl, h⟩
  | [], c :: cs, d, X, X', _, _, hX, _, h => by
    obtain ⟨t, h2⟩ := dumpSeq_head text d c
    rw [dumpSeqs, dumpSeqs, h2] at h
    simp only [List.append_assoc, List.cons_append, List.nil_append] at h
    rw [h] at hX
    exact (stop_not (by decide) hX).elim
  | c :: cs, [], d, X, X', _, _, _, hX', h => by
    obtain ⟨t, h2⟩ := dumpSeq_head text d c
    rw [dumpSeqs, dumpSeqs, h2] at h
    simp only [List.append_assoc, List.cons_append, List.nil_append] at h
    rw [← h] at hX'
    exact (stop_not (by decide) hX').elim
  | c :: cs, c' :: cs', d, X, X', hq, hq', hX, hX', h => by
    rw [dumpSeqs, dumpSeqs, List.append_assoc, List.append_assoc] at h
    obtain ⟨h1, h2⟩ := dumpSeq_unique c c' d _ _ hq.1 hq'.1 (stop_seqs text d cs hX) (stop_seqs text d cs' hX') h
    obtain ⟨h3, h4⟩ := dumpSeqs_unique cs cs' d X X' hq.2 hq'.2 hX hX' h2
    exact ⟨by rw [h1, h3], h4⟩
theorem dumpComps_unique : ∀ (cs cs' : List Component) (d : Nat) (X X' : Str), NiceComps Q cs →
    NiceComps Q cs' → Stop d X → Stop d X' → dumpComps text d cs ++ X = dumpComps text d cs' ++ X' →
    cs = cs' ∧ X = X'
  | [], [], d, X, X', _, _, _, _, h => ⟨rfl, h⟩
  | [], c :: cs, d, X, X', _, _, hX, _, h => by
    obtain ⟨x, t, hx, h2⟩ := dump_head text d c
    rw [dumpComps, dumpComps, h2] at h
    simp only [List.append_assoc, List.cons_append, List.nil_append] at h
    rw [h] at hX
    exact (stop_not hx hX).elim
  | c :: cs, [], d, X, X', _, _, _, hX', h => by
    obtain ⟨x, t, hx, h2⟩ := dump_head text d c
    rw [dumpComps, dumpComps, h2] at h
    simp only [List.append_assoc, List.cons_append, List.nil_append] at h
    rw [← h] at hX'
    exact (stop_not hx hX').elim
  | c :: cs, c' :: cs', d, X, X', hq, hq', hX, hX', h => by
    rw [dumpComps, dumpComps, List.append_assoc, List.append_assoc] at h
    obtain ⟨h1, h2⟩ := dump_unique c c' d _ _ hq.1 hq'.1 (stop_comps text d cs hX) (stop_comps text d cs' hX') h
    obtain ⟨h3, h4⟩ := dumpComps_unique cs cs' d X X' hq.2 hq'.2 hX hX' h2
    exact ⟨by rw [h1, h3], h4⟩
end
end

/-! ## Trees of patterns -/

mutual
theorem nice_item {Q : AsciiComponentClass → Prop} {cls : Char → ComponentClass}
    (h : ∀ c : Char, c.toNat < 128 → ∀ a, cls c = .ascii a → Q a) : ∀ (i : Item) (k : Nat), IsAscii i.print →
    Nice Q (i.build cls k).1
  | .lit c, k, ha => by
    rw [Item.build]
    cases hc : cls c with
    | ascii a => exact h c (ha c (by simp [Item.print])) a hc
  | .group a, k, ha => by
    rw [Item.build]
    exact ⟨rfl, rfl, nice_alts h a (k + 1) (fun c hc => ha c (by simp [Item.print, hc]))⟩
theorem nice_seq {Q : AsciiComponentClass → Prop} {cls : Char → ComponentClass}
    (h : ∀ c : Char, c.toNat < 128 → ∀ a, cls c = .ascii a → Q a) : ∀ (s : Seq) (k : Nat), IsAscii s.print →
    NiceComps Q (s.build cls k).1
  | .nil, _, _ => trivial
  | .cons i s, k, ha => by
    rw [Seq.build]
    exact ⟨nice_item h i k (fun c hc => ha c (by simp [Seq.print, hc])),
      nice_seq h s _ (fun c hc => ha c (by simp [Seq.print, hc]))⟩
theorem nice_alts {Q : AsciiComponentClass → Prop} {cls : Char → ComponentClass}
    (h : ∀ c : Char, c.toNat < 128 → ∀ a, cls c = .ascii a → Q a) : ∀ (a : Alts) (k : Nat), IsAscii a.print →
    NiceComps Q (a.build cls k).1
  | .one s, k, ha => by rw [Alts.build]; exact nice_seq h s k (fun c hc => ha c (by simp [Alts.print, hc]))
  | .more s a, k, ha => by
    rw [Alts.build]
    exact ⟨⟨⟨rfl, rfl, nice_seq h s k (fun c hc => ha c (by simp [Alts.print, hc]))⟩,
      nice_branches h a _ (fun c hc => ha c (by simp [Alts.print, hc]))⟩, trivial⟩
theorem nice_branches {Q : AsciiComponentClass → Prop} {cls : Char → ComponentClass}
    (h : ∀ c : Char, c.toNat < 128 → ∀ a, cls c = .ascii a → Q a) : ∀ (a : Alts) (k : Nat), IsAscii a.print →
    NiceSeqs Q (a.branches cls k).1
  | .one s, k, ha => by
    rw [Alts.branches]
    exact ⟨⟨rfl, rfl, nice_seq h s k (fun c hc => ha c (by simp [Alts.print, hc]))⟩, trivial⟩
  | .more s a, k, ha => by
    rw [Alts.branches]
    exact ⟨⟨rfl, rfl, nice_seq h s k (fun c hc => ha c (by simp [Alts.print, hc]))⟩,
      nice_branches h a _ (fun c hc => ha c (by simp [Alts.print, hc]))⟩
end

theorem describe_no_newline : ∀ c : U8, '\n' ∉ describeChar c .text := by decide +kernel

theorem describe_inj {c d : U8} (h : describeChar c .text = describeChar d .text) : c = d :=
  (describe_cancel .text c d [] [] (by rw [h])).1

theorem firstByteText_no_newline (cr : CharReach) : '\n' ∉ firstByteText cr := by
  unfold firstByteText
  split
  · exact describe_no_newline _
  · simp

/-- Two classes of the same case sensitivity with the same text are equal. -/
theorem litClass_text_inj {k : Bool} {c d : Char} {a b : AsciiComponentClass} (ha : IsLitClass k c (.ascii a))
    (hb : IsLitClass k d (.ascii b)) (hc : c.toNat < 128) (hd : d.toNat < 128)
    (h : firstByteText a.cr = firstByteText b.cr) : a = b := by
  obtain ⟨hm, ha⟩ := ha
  obtain ⟨hm', hb⟩ := hb
  have ec : (BitVec.ofNat 8 c.toNat : U8).toNat = c.toNat := by simp; omega
  have ed : (BitVec.ofNat 8 d.toNat : U8).toNat = d.toNat := by simp; omega
  have hmem := BitField256.mem_members a.cr.test
  have hmem' := BitField256.mem_members b.cr.test
  unfold firstByteText at h
  cases hl : members a.cr.test with
  | nil =>
    have := (hmem (BitVec.ofNat 8 c.toNat)).2 ((ha _).2 (.inl ec))
    rw [hl] at this; cases this
  | cons x l =>
    cases hl' : members b.cr.test with
    | nil =>
      have := (hmem' (BitVec.ofNat 8 d.toNat)).2 ((hb _).2 (.inl ed))
      rw [hl'] at this; cases this
    | cons y l' =>
      rw [hl, hl'] at h
      have hxy := describe_inj h
      subst hxy
      have h1 := (ha x).1 ((hmem x).1 (by rw [hl]; simp))
      have h2 := (hb x).1 ((hmem' x).1 (by rw [hl']; simp))
      have hcr : a.cr = b.cr := by
        apply CharReach.ext_test
        intro z
        rw [Bool.eq_iff_iff, ha, hb]
        unfold casePair isUpper at *
        rw [ec] at *
        rw [ed] at *
        have hx := x.isLt
        have hz := z.isLt
        cases k
        · simp only [Bool.false_eq_true, false_and, or_false] at *
          omega
        · simp only [true_and] at *
          omega
      cases a; cases b
      simp only at hm hm' hcr
      rw [hm, hm', hcr]

end Rescan
