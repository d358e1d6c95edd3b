import Verif.Spec.Grammar
/-! # The grammar is unambiguous and describes exactly the balanced strings -/
namespace Rescan.Spec

/-! ## Prefix conditions -/

theorem prefixOk_nil (d : Nat) : PrefixOk d [] := by intro n; simp

theorem prefixOk_open (d : Nat) (s : Str) : PrefixOk d ('(' :: s) ↔ PrefixOk (d + 1) s := by
  constructor
  · intro h n
    have := h (n + 1)
    simp only [List.take_succ_cons, List.count_cons] at this
    simp at this; omega
  · intro h n
    cases n with
    | zero => simp
    | succ n =>
      have := h n
      simp only [List.take_succ_cons, List.count_cons]
      simp; omega

theorem prefixOk_close (d : Nat) (s : Str) : PrefixOk d (')' :: s) ↔ 0 < d ∧ PrefixOk (d - 1) s := by
  constructor
  · intro h
    have h0 := h 1
    simp at h0
    refine ⟨h0, fun n => ?_⟩
    have := h (n + 1)
    simp only [List.take_succ_cons, List.count_cons] at this
    simp at this; omega
  · rintro ⟨h0, h⟩ n
    cases n with
    | zero => simp
    | succ n =>
      have := h n
      simp only [List.take_succ_cons, List.count_cons]
      simp; omega

theorem prefixOk_other (d : Nat) (c : Char) (s : Str) (h1 : c ≠ '(') (h2 : c ≠ ')') :
    PrefixOk d (c :: s) ↔ PrefixOk d s := by
  have e1 : (c == '(') = false := by simp [h1]
  have e2 : (c == ')') = false := by simp [h2]
  constructor
  · intro h n
    have := h (n + 1)
    simp only [List.take_succ_cons, List.count_cons, e1, e2] at this
    simpa using this
  · intro h n
    cases n with
    | zero => simp
    | succ n =>
      have := h n
      simp only [List.take_succ_cons, List.count_cons, e1, e2]
      simpa using this

/-! ## Lists of items -/

/-- A sequence from a list of items. -/
def toSeq : List Item → Seq
  | [] => .nil
  | i :: is => .cons i (toSeq is)

/-- An alternation from its first branches and its last branch. -/
def toAlts : List (List Item) → List Item → Alts
  | [], l => .one (toSeq l)
  | s :: ss, l => .more (toSeq s) (toAlts ss l)

/-- Items of a sequence. -/
def Seq.items : Seq → List Item
  | .nil => []
  | .cons i s => i :: s.items

theorem toSeq_items : ∀ s : Seq, toSeq s.items = s
  | .nil => rfl
  | .cons i s => by simp [Seq.items, toSeq, toSeq_items s]

theorem toSeq_print (l : List Item) : (toSeq l).print = l.flatMap Item.print := by
  induction l with
  | nil => rfl
  | cons i l ih => simp [toSeq, Seq.print, ih]

theorem toSeq_wf (l : List Item) : (toSeq l).Wf ↔ ∀ i ∈ l, i.Wf := by
  induction l with
  | nil => simp [toSeq, Seq.Wf]
  | cons i l ih => simp [toSeq, Seq.Wf, ih]

theorem toAlts_print (d : List (List Item)) (l : List Item) :
    (toAlts d l).print = d.flatMap (fun s => s.flatMap Item.print ++ ['|']) ++ l.flatMap Item.print := by
  induction d with
  | nil => simp [toAlts, Alts.print, toSeq_print]
  | cons s d ih => simp [toAlts, Alts.print, toSeq_print, ih]

theorem toAlts_wf (d : List (List Item)) (l : List Item) :
    (toAlts d l).Wf ↔ (∀ s ∈ d, ∀ i ∈ s, i.Wf) ∧ ∀ i ∈ l, i.Wf := by
  induction d with
  | nil => simp [toAlts, Alts.Wf, toSeq_wf]
  | cons s d ih => simp [toAlts, Alts.Wf, toSeq_wf, ih, and_assoc]

/-! ## A reader for the grammar -/

/-- An alternation being read: finished branches and the current branch. -/
structure Frame where
  done : List (List Item)
  cur : List Item

namespace Frame
/-- The alternation read so far. -/
def alts (f : Frame) : Alts := toAlts f.done f.cur
/-- One more item. -/
def add (f : Frame) (i : Item) : Frame := ⟨f.done, f.cur ++ [i]⟩
/-- A new branch. -/
def bar (f : Frame) : Frame := ⟨f.done ++ [f.cur], []⟩
/-- All items are well formed. -/
def Wf (f : Frame) : Prop := (∀ s ∈ f.done, ∀ i ∈ s, i.Wf) ∧ ∀ i ∈ f.cur, i.Wf

theorem alts_print (f : Frame) : f.alts.print
    = f.done.flatMap (fun s => s.flatMap Item.print ++ ['|']) ++ f.cur.flatMap Item.print :=
  toAlts_print _ _
theorem add_print (f : Frame) (i : Item) : (f.add i).alts.print = f.alts.print ++ i.print := by
  simp [alts_print, add]
theorem bar_print (f : Frame) : f.bar.alts.print = f.alts.print ++ ['|'] := by
  simp [alts_print, bar]
theorem alts_wf (f : Frame) : f.alts.Wf ↔ f.Wf := toAlts_wf _ _
theorem add_wf (f : Frame) (i : Item) (h : f.Wf) (hi : i.Wf) : (f.add i).Wf := by
  refine ⟨h.1, fun j hj => ?_⟩
  simp only [add, List.mem_append, List.mem_singleton] at hj
  rcases hj with hj | rfl
  · exact h.2 j hj
  · exact hi
theorem bar_wf (f : Frame) (h : f.Wf) : f.bar.Wf := by
  refine ⟨fun s hs => ?_, fun i hi => by simp [bar] at hi⟩
  simp only [bar, List.mem_append, List.mem_singleton] at hs
  rcases hs with hs | rfl
  · exact h.1 s hs
  · exact h.2
end Frame

/-- Reads a pattern into a grammar tree; the stack holds the enclosing alternations. -/
def reader : List Frame → Frame → Str → Option Alts
  | st, f, [] => if st.isEmpty then some f.alts else none
  | st, f, c :: cs =>
    if c = '(' then reader (f :: st) ⟨[], []⟩ cs
    else if c = ')' then
      match st with
      | [] => none
      | g :: st => reader st (g.add (.group f.alts)) cs
    else if c = '|' then reader st f.bar cs
    else reader st (f.add (.lit c)) cs

theorem reader_nil (st : List Frame) (f : Frame) :
    reader st f [] = if st.isEmpty then some f.alts else none := by rw [reader.eq_def]

theorem reader_cons (st : List Frame) (f : Frame) (c : Char) (cs : Str) : reader st f (c :: cs) =
    if c = '(' then reader (f :: st) ⟨[], []⟩ cs
    else if c = ')' then
      match st with
      | [] => none
      | g :: st => reader st (g.add (.group f.alts)) cs
    else if c = '|' then reader st f.bar cs
    else reader st (f.add (.lit c)) cs := by rw [reader.eq_def]

/-- The text consumed for the enclosing alternations. -/
def stackPrint : List Frame → Str
  | [] => []
  | g :: st => stackPrint st ++ g.alts.print ++ ['(']

theorem reader_sound : ∀ (s : Str) (st : List Frame) (f : Frame) (a : Alts),
    reader st f s = some a → (∀ g ∈ st, g.Wf) → f.Wf →
    a.print = stackPrint st ++ f.alts.print ++ s ∧ a.Wf := by
  intro s
  induction s with
  | nil =>
    intro st f a h hst hf
    cases st with
    | nil =>
      simp only [reader_nil, List.isEmpty_nil, if_true, Option.some.injEq] at h
      subst h
      exact ⟨by simp [stackPrint], (Frame.alts_wf f).2 hf⟩
    | cons g st => simp [reader_nil] at h
  | cons c cs ih =>
    intro st f a h hst hf
    rw [reader_cons] at h
    split at h
    · rename_i hc; subst hc
      have hst' : ∀ g ∈ f :: st, g.Wf := by
        intro g hg
        rcases List.mem_cons.1 hg with hg | hg
        · rw [hg]; exact hf
        · exact hst g hg
      have := ih _ _ _ h hst' ⟨by simp, by simp⟩
      refine ⟨?_, this.2⟩
      rw [this.1]; simp [stackPrint, Frame.alts, toAlts, Alts.print, toSeq, Seq.print]
    · split at h
      · rename_i hc; subst hc
        cases st with
        | nil => simp at h
        | cons g st =>
          have := ih _ _ _ h (fun x hx => hst x (by simp [hx]))
            (Frame.add_wf g _ (hst g (by simp)) ((Frame.alts_wf f).2 hf))
          refine ⟨?_, this.2⟩
          rw [this.1, Frame.add_print]; simp [stackPrint, Item.print]
      · split at h
        · rename_i hc; subst hc
          have := ih _ _ _ h hst (Frame.bar_wf f hf)
          refine ⟨?_, this.2⟩
          rw [this.1, Frame.bar_print]; simp
        · rename_i h1 h2 h3
          have := ih _ _ _ h hst (Frame.add_wf f (.lit c) hf (by simp [Item.Wf, special, h1, h2, h3]))
          refine ⟨?_, this.2⟩
          rw [this.1, Frame.add_print]; simp [Item.print]

theorem reader_isSome : ∀ (s : Str) (st : List Frame) (f : Frame),
    (reader st f s).isSome = true ↔
      PrefixOk st.length s ∧ st.length + s.count '(' = s.count ')' := by
  intro s
  induction s with
  | nil =>
    intro st f
    cases st <;> simp [reader_nil, prefixOk_nil]
  | cons c cs ih =>
    intro st f
    rw [reader_cons]
    split
    · rename_i hc; subst hc
      rw [ih, prefixOk_open]
      simp [List.count_cons]
      intro _; omega
    · split
      · rename_i hc; subst hc
        rw [prefixOk_close]
        cases st with
        | nil => simp
        | cons g st =>
          simp only
          rw [ih]
          simp [List.count_cons]
          intro _; omega
      · rename_i h1 h2
        have e1 : (c == '(') = false := by simp [h1]
        have e2 : (c == ')') = false := by simp [h2]
        rw [prefixOk_other _ _ _ h1 h2]
        split
        · rw [ih]; simp [List.count_cons, e1, e2]
        · rw [ih]; simp [List.count_cons, e1, e2]

/-- Every balanced string is the text of a grammar tree. -/
theorem exists_tree (s : Str) (h : Balanced s) : ∃ a : Alts, a.Wf ∧ a.print = s := by
  have : (reader [] ⟨[], []⟩ s).isSome = true := by
    rw [reader_isSome]; exact ⟨h.1, by simpa using h.2⟩
  obtain ⟨a, ha⟩ := Option.isSome_iff_exists.1 this
  have := reader_sound s [] ⟨[], []⟩ a ha (by simp) ⟨by simp, by simp⟩
  exact ⟨a, this.2, by rw [this.1]; simp [stackPrint, Frame.alts, toAlts, Alts.print, toSeq, Seq.print]⟩

/-- A frame after reading the branches of an alternation. -/
def Frame.after (f : Frame) : Alts → Frame
  | .one s => ⟨f.done, f.cur ++ s.items⟩
  | .more s a => Frame.after ⟨f.done ++ [f.cur ++ s.items], []⟩ a

theorem after_alts : ∀ (a : Alts) (d : List (List Item)),
    (Frame.after ⟨d, []⟩ a).alts = (d.foldr (fun s r => Alts.more (toSeq s) r) a)
  | .one s, d => by
    simp only [Frame.after, List.nil_append, Frame.alts]
    induction d with
    | nil => simp [toAlts, toSeq_items]
    | cons x d ih => simp [toAlts, ih]
  | .more s a, d => by
    simp only [Frame.after, List.nil_append]
    rw [after_alts a]; simp [toSeq_items]

mutual
theorem reader_item : ∀ (i : Item) (st : List Frame) (f : Frame) (rest : Str), i.Wf →
    reader st f (i.print ++ rest) = reader st (f.add i) rest
  | .lit c, st, f, rest, h => by
    simp only [Item.Wf, special, not_or] at h
    simp only [Item.print, List.cons_append, List.nil_append]
    rw [reader_cons, if_neg h.1, if_neg h.2.1, if_neg h.2.2]
  | .group a, st, f, rest, h => by
    simp only [Item.print, List.cons_append, List.append_assoc, List.nil_append]
    rw [reader_cons, if_pos rfl, reader_alts a _ _ _ h, reader_cons, if_neg (by decide), if_pos rfl]
    simp only
    rw [after_alts a []]; rfl
theorem reader_seq : ∀ (s : Seq) (st : List Frame) (f : Frame) (rest : Str), s.Wf →
    reader st f (s.print ++ rest) = reader st ⟨f.done, f.cur ++ s.items⟩ rest
  | .nil, st, f, rest, h => by simp [Seq.print, Seq.items]
  | .cons i s, st, f, rest, h => by
    simp only [Seq.print, List.append_assoc]
    rw [reader_item i _ _ _ h.1, reader_seq s _ _ _ h.2]
    simp [Frame.add, Seq.items]
theorem reader_alts : ∀ (a : Alts) (st : List Frame) (f : Frame) (rest : Str), a.Wf →
    reader st f (a.print ++ rest) = reader st (f.after a) rest
  | .one s, st, f, rest, h => reader_seq s st f rest h
  | .more s a, st, f, rest, h => by
    simp only [Alts.print, List.append_assoc, List.cons_append]
    rw [reader_seq s _ _ _ h.1, reader_cons, if_neg (by decide), if_neg (by decide), if_pos rfl,
      reader_alts a _ _ _ h.2]
    rfl
end

theorem reader_print (a : Alts) (h : a.Wf) : reader [] ⟨[], []⟩ a.print = some a := by
  have := reader_alts a [] ⟨[], []⟩ [] h
  rw [List.append_nil] at this
  rw [this, reader, after_alts a []]; rfl

/-- The grammar is unambiguous. -/
theorem print_inj (a b : Alts) (ha : a.Wf) (hb : b.Wf) (h : a.print = b.print) : a = b := by
  have h1 := reader_print a ha
  rw [h, reader_print b hb] at h1
  injection h1 with h1; exact h1.symm

/-- The text of a grammar tree is balanced. -/
theorem print_balanced (a : Alts) (ha : a.Wf) : Balanced a.print := by
  have h := reader_print a ha
  have := (reader_isSome a.print [] ⟨[], []⟩).1 (by rw [h]; rfl)
  exact ⟨this.1, by simpa using this.2⟩

/-! ## Unfinished groups -/

theorem prefixOk_append (d e : Nat) (s t : Str) (hs : PrefixOk d s)
    (he : e + s.count ')' = d + s.count '(') (ht : PrefixOk e t) : PrefixOk d (s ++ t) := by
  intro n
  rw [List.take_append]
  simp only [List.count_append]
  by_cases h : n ≤ s.length
  · have : n - s.length = 0 := by omega
    rw [this]; simpa using hs n
  · rw [List.take_of_length_le (by omega)]
    have := ht (n - s.length); omega

theorem prefixOk_left {d : Nat} {s t : Str} (h : PrefixOk d (s ++ t)) : PrefixOk d s := by
  intro n
  by_cases hn : n ≤ s.length
  · have := h n
    rwa [List.take_append_of_le_length hn] at this
  · have := h s.length
    rw [List.take_left] at this
    rwa [List.take_of_length_le (by omega)]

theorem prefixOk_total {d : Nat} {s : Str} (h : PrefixOk d s) : s.count ')' ≤ d + s.count '(' := by
  have := h s.length; rwa [List.take_length] at this

theorem balanced_append {s t : Str} (hs : Balanced s) (ht : Balanced t) : Balanced (s ++ t) :=
  ⟨prefixOk_append 0 0 s t hs.1 (by have := hs.2; omega) ht.1,
    by rw [List.count_append, List.count_append, hs.2, ht.2]⟩

theorem balanced_group {s : Str} (hs : Balanced s) : Balanced ('(' :: s ++ [')']) := by
  have h2 := hs.2
  refine ⟨?_, by simp [List.count_append]; omega⟩
  rw [List.cons_append, prefixOk_open]
  refine prefixOk_append _ 1 _ _ ?_ (by omega) ((prefixOk_close 1 []).2 ⟨by omega, prefixOk_nil _⟩)
  intro n; have := hs.1 n; omega

theorem balanced_char {c : Char} (h1 : c ≠ '(') (h2 : c ≠ ')') : Balanced [c] :=
  ⟨(prefixOk_other 0 c [] h1 h2).2 (prefixOk_nil 0), by simp [List.count_cons, h1, h2]⟩

/-- A string that never closes too much is balanced or ends in a balanced string after an open
parenthesis. -/
theorem balanced_or_open : ∀ (n : Nat) (s : Str), s.length ≤ n → PrefixOk 0 s →
    Balanced s ∨ ∃ pre post, s = pre ++ '(' :: post ∧ Balanced post := by
  intro n
  induction n with
  | zero =>
    intro s hs _
    have : s = [] := List.length_eq_zero_iff.1 (by omega)
    subst this
    exact .inl ⟨prefixOk_nil 0, rfl⟩
  | succ n ih =>
    intro s hs hp
    rcases List.eq_nil_or_concat s with rfl | ⟨t, c, rfl⟩
    · exact .inl ⟨prefixOk_nil 0, rfl⟩
    · rw [List.concat_eq_append] at hs hp ⊢
      rw [List.length_append, List.length_singleton] at hs
      have hpt := prefixOk_left hp
      by_cases h1 : c = '('
      · subst h1; exact .inr ⟨t, [], rfl, prefixOk_nil 0, rfl⟩
      by_cases h2 : c = ')'
      · subst h2
        have htot := prefixOk_total hp
        rw [List.count_append, List.count_append] at htot
        simp at htot
        rcases ih t (by omega) hpt with hb | ⟨pre, post, rfl, hb⟩
        · have := hb.2; omega
        · have hg := balanced_group hb
          simp only [List.length_append, List.length_cons] at hs
          rcases ih pre (by omega) (prefixOk_left hpt) with hb' | ⟨pre', post', rfl, hb'⟩
          · left
            have := balanced_append hb' hg
            simpa using this
          · right
            refine ⟨pre', post' ++ ('(' :: post ++ [')']), by simp, balanced_append hb' hg⟩
      · rcases ih t (by omega) hpt with hb | ⟨pre, post, rfl, hb⟩
        · exact .inl (balanced_append hb (balanced_char h1 h2))
        · exact .inr ⟨pre, post ++ [c], by simp, balanced_append hb (balanced_char h1 h2)⟩

/-- The innermost open group is unique. -/
theorem open_unique {pre post pre' post' : Str} (h : pre ++ '(' :: post = pre' ++ '(' :: post')
    (hb : Balanced post) (hb' : Balanced post') : pre = pre' ∧ post = post' := by
  have key : ∀ {a b a' b' : Str}, a ++ '(' :: b = a' ++ '(' :: b' → Balanced b → Balanced b' →
      a.length < a'.length → False := by
    intro a b a' b' h hb hb' hlt
    -- `b = x ++ '(' :: b'`
    have : ∃ x, b = x ++ '(' :: b' := by
      rw [List.append_eq_append_iff] at h
      rcases h with ⟨y, h1, h2⟩ | ⟨y, h1, h2⟩
      · cases y with
        | nil => simp at h1; subst h1; omega
        | cons z y =>
          rw [List.cons_append] at h2
          injection h2 with _ h2
          exact ⟨y, h2⟩
      · rw [h1] at hlt; simp at hlt; omega
    obtain ⟨x, rfl⟩ := this
    have h1 := prefixOk_total (prefixOk_left hb.1)
    have h2 := hb.2
    have h3 := hb'.2
    simp [List.count_append] at h1 h2
    omega
  have hl : pre.length = pre'.length := by
    rcases Nat.lt_trichotomy pre.length pre'.length with h1 | h1 | h1
    · exact (key h hb hb' h1).elim
    · exact h1
    · exact (key h.symm hb' hb h1).elim
  have := List.append_inj h hl
  exact ⟨this.1, by injection this.2⟩

end Rescan.Spec
