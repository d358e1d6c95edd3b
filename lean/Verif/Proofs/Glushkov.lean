import Verif.Spec.Graph
import Verif.Spec.Grammar
/-! # Automata on positions

Glushkov's construction without graphs: how the automata of two parts with separate positions combine. -/
namespace Rescan.Glushkov

/-- An automaton on positions: whether it accepts the empty string, where it begins, where it may end, and
what may follow what. -/
structure Auto where
  null : Prop
  first : Nat → Prop
  last : Nat → Prop
  next : Nat → Nat → Prop

/-- What can be read after position `x`. -/
inductive Tail (reach : Nat → U8 → Prop) (a : Auto) : Nat → List U8 → Prop
  | stop (x : Nat) : a.last x → Tail reach a x []
  | step (x y : Nat) (b : U8) (w : List U8) : a.next x y → reach y b → Tail reach a y w → Tail reach a x (b :: w)

/-- The automaton accepts `w`. -/
def Acc (reach : Nat → U8 → Prop) (a : Auto) (w : List U8) : Prop :=
  (w = [] ∧ a.null) ∨ ∃ x b v, w = b :: v ∧ a.first x ∧ reach x b ∧ Tail reach a x v

/-- All positions are from `lo` to below `hi`. -/
structure Within (a : Auto) (lo hi : Nat) : Prop where
  first : ∀ x, a.first x → lo ≤ x ∧ x < hi
  last : ∀ x, a.last x → lo ≤ x ∧ x < hi
  next : ∀ x y, a.next x y → (lo ≤ x ∧ x < hi) ∧ (lo ≤ y ∧ y < hi)

/-- Nothing but the empty string. -/
def one : Auto := ⟨True, fun _ => False, fun _ => False, fun _ _ => False⟩
/-- Nothing at all. -/
def zero : Auto := ⟨False, fun _ => False, fun _ => False, fun _ _ => False⟩
/-- A single position. -/
def at_ (n : Nat) : Auto := ⟨False, fun x => x = n, fun x => x = n, fun _ _ => False⟩
/-- One after the other. -/
def cat (a b : Auto) : Auto :=
  ⟨a.null ∧ b.null, fun x => a.first x ∨ (a.null ∧ b.first x), fun x => (b.null ∧ a.last x) ∨ b.last x,
    fun x y => a.next x y ∨ b.next x y ∨ (a.last x ∧ b.first y)⟩
/-- Either. -/
def alt (a b : Auto) : Auto :=
  ⟨a.null ∨ b.null, fun x => a.first x ∨ b.first x, fun x => a.last x ∨ b.last x,
    fun x y => a.next x y ∨ b.next x y⟩

variable {reach : Nat → U8 → Prop}

theorem Tail.mono {a a' : Auto} (hl : ∀ x, a.last x → a'.last x) (hn : ∀ x y, a.next x y → a'.next x y)
    {x : Nat} {w : List U8} (h : Tail reach a x w) : Tail reach a' x w := by
  induction h with
  | stop x h => exact .stop x (hl x h)
  | step x y b w h1 h2 _ ih => exact .step x y b w (hn x y h1) h2 ih

theorem acc_one (w : List U8) : Acc reach one w ↔ w = [] := by
  constructor
  · rintro (⟨h, _⟩ | ⟨_, _, _, _, h, _⟩)
    · exact h
    · exact h.elim
  · intro h; exact .inl ⟨h, trivial⟩

theorem acc_zero (w : List U8) : ¬ Acc reach zero w := by
  rintro (⟨_, h⟩ | ⟨_, _, _, _, h, _⟩) <;> exact h

theorem acc_at (n : Nat) (w : List U8) : Acc reach (at_ n) w ↔ ∃ b, w = [b] ∧ reach n b := by
  constructor
  · rintro (⟨_, h⟩ | ⟨x, b, v, rfl, h, hr, ht⟩)
    · exact h.elim
    · cases h
      cases ht with
      | stop => exact ⟨b, rfl, hr⟩
      | step _ _ _ _ h => exact h.elim
  · rintro ⟨b, rfl, h⟩
    exact .inr ⟨n, b, [], rfl, rfl, h, .stop _ rfl⟩

theorem tail_alt_left {a b : Auto} {lo mid hi : Nat} (ha : Within a lo mid) (hb : Within b mid hi) {x : Nat}
    {w : List U8} (hx : x < mid) (h : Tail reach (alt a b) x w) : Tail reach a x w := by
  induction h with
  | stop x h =>
    rcases h with h | h
    · exact .stop x h
    · have := hb.last x h; omega
  | step x y c w h1 h2 _ ih =>
    rcases h1 with h1 | h1
    · exact .step x y c w h1 h2 (ih (ha.next x y h1).2.2)
    · have := hb.next x y h1; omega

theorem tail_alt_right {a b : Auto} {lo mid hi : Nat} (ha : Within a lo mid) (hb : Within b mid hi) {x : Nat}
    {w : List U8} (hx : mid ≤ x) (h : Tail reach (alt a b) x w) : Tail reach b x w := by
  induction h with
  | stop x h =>
    rcases h with h | h
    · have := ha.last x h; omega
    · exact .stop x h
  | step x y c w h1 h2 _ ih =>
    rcases h1 with h1 | h1
    · have := ha.next x y h1; omega
    · exact .step x y c w h1 h2 (ih (hb.next x y h1).2.1)

theorem acc_alt {a b : Auto} {lo mid hi : Nat} (ha : Within a lo mid) (hb : Within b mid hi) (w : List U8) :
    Acc reach (alt a b) w ↔ Acc reach a w ∨ Acc reach b w := by
  constructor
  · rintro (⟨h1, h2 | h2⟩ | ⟨x, c, v, h1, h2 | h2, h3, h4⟩)
    · exact .inl (.inl ⟨h1, h2⟩)
    · exact .inr (.inl ⟨h1, h2⟩)
    · exact .inl (.inr ⟨x, c, v, h1, h2, h3, tail_alt_left ha hb (ha.first x h2).2 h4⟩)
    · exact .inr (.inr ⟨x, c, v, h1, h2, h3, tail_alt_right ha hb (hb.first x h2).1 h4⟩)
  · rintro ((⟨h1, h2⟩ | ⟨x, c, v, h1, h2, h3, h4⟩) | (⟨h1, h2⟩ | ⟨x, c, v, h1, h2, h3, h4⟩))
    · exact .inl ⟨h1, .inl h2⟩
    · exact .inr ⟨x, c, v, h1, .inl h2, h3, h4.mono (fun _ => Or.inl) (fun _ _ => Or.inl)⟩
    · exact .inl ⟨h1, .inr h2⟩
    · exact .inr ⟨x, c, v, h1, .inr h2, h3, h4.mono (fun _ => Or.inr) (fun _ _ => Or.inr)⟩

theorem tail_cat_right {a b : Auto} {lo mid hi : Nat} (ha : Within a lo mid) (hb : Within b mid hi) {x : Nat}
    {w : List U8} (hx : mid ≤ x) (h : Tail reach (cat a b) x w) : Tail reach b x w := by
  induction h with
  | stop x h =>
    rcases h with ⟨_, h⟩ | h
    · have := ha.last x h; omega
    · exact .stop x h
  | step x y c w h1 h2 _ ih =>
    rcases h1 with h1 | h1 | ⟨h1, _⟩
    · have := ha.next x y h1; omega
    · exact .step x y c w h1 h2 (ih (hb.next x y h1).2.1)
    · have := ha.last x h1; omega

theorem tail_cat_left {a b : Auto} {lo mid hi : Nat} (ha : Within a lo mid) (hb : Within b mid hi) {x : Nat}
    {w : List U8} (hx : x < mid) (h : Tail reach (cat a b) x w) :
    ∃ w1 w2, w = w1 ++ w2 ∧ Tail reach a x w1 ∧ Acc reach b w2 := by
  induction h with
  | stop x h =>
    rcases h with ⟨h1, h⟩ | h
    · exact ⟨[], [], rfl, .stop x h, .inl ⟨rfl, h1⟩⟩
    · have := hb.last x h; omega
  | step x y c w h1 h2 h3 ih =>
    rcases h1 with h1 | h1 | ⟨h1, h4⟩
    · obtain ⟨w1, w2, rfl, h5, h6⟩ := ih (ha.next x y h1).2.2
      exact ⟨c :: w1, w2, rfl, .step x y c w1 h1 h2 h5, h6⟩
    · have := hb.next x y h1; omega
    · exact ⟨[], c :: w, rfl, .stop x h1, .inr ⟨y, c, w, rfl, h4, h2, tail_cat_right ha hb (hb.first y h4).1 h3⟩⟩

theorem tail_cat {a b : Auto} {x : Nat} {w1 w2 : List U8} (h1 : Tail reach a x w1) (h2 : Acc reach b w2) :
    Tail reach (cat a b) x (w1 ++ w2) := by
  induction h1 with
  | stop x h =>
    rcases h2 with ⟨rfl, hn⟩ | ⟨y, c, v, rfl, h3, h4, h5⟩
    · exact .stop x (.inl ⟨hn, h⟩)
    · exact .step x y c v (.inr (.inr ⟨h, h3⟩)) h4 (h5.mono (fun _ => Or.inr) (fun _ _ h => Or.inr (Or.inl h)))
  | step x y c w h3 h4 _ ih => exact .step x y c _ (.inl h3) h4 ih

theorem acc_cat {a b : Auto} {lo mid hi : Nat} (ha : Within a lo mid) (hb : Within b mid hi) (w : List U8) :
    Acc reach (cat a b) w ↔ ∃ w1 w2, w = w1 ++ w2 ∧ Acc reach a w1 ∧ Acc reach b w2 := by
  constructor
  · rintro (⟨rfl, h1, h2⟩ | ⟨x, c, v, rfl, h1 | ⟨h1, h2⟩, h3, h4⟩)
    · exact ⟨[], [], rfl, .inl ⟨rfl, h1⟩, .inl ⟨rfl, h2⟩⟩
    · obtain ⟨w1, w2, rfl, h5, h6⟩ := tail_cat_left ha hb (ha.first x h1).2 h4
      exact ⟨c :: w1, w2, rfl, .inr ⟨x, c, w1, rfl, h1, h3, h5⟩, h6⟩
    · exact ⟨[], c :: v, rfl, .inl ⟨rfl, h1⟩, .inr ⟨x, c, v, rfl, h2, h3, tail_cat_right ha hb (hb.first x h2).1 h4⟩⟩
  · rintro ⟨w1, w2, rfl, ⟨rfl, hn⟩ | ⟨x, c, v, rfl, h1, h2, h3⟩, h4⟩
    · rcases h4 with ⟨rfl, hm⟩ | ⟨x, c, v, rfl, h1, h2, h3⟩
      · exact .inl ⟨rfl, hn, hm⟩
      · exact .inr ⟨x, c, v, rfl, .inr ⟨hn, h1⟩, h2, h3.mono (fun _ => Or.inr) (fun _ _ h => Or.inr (Or.inl h))⟩
    · exact .inr ⟨x, c, v ++ w2, rfl, .inl h1, h2, tail_cat h3 h4⟩

theorem within_one (n : Nat) : Within one n n :=
  ⟨fun _ h => h.elim, fun _ h => h.elim, fun _ _ h => h.elim⟩
theorem within_zero (n : Nat) : Within zero n n :=
  ⟨fun _ h => h.elim, fun _ h => h.elim, fun _ _ h => h.elim⟩
theorem within_at (n : Nat) : Within (at_ n) n (n + 1) :=
  ⟨fun _ h => by cases h; omega, fun _ h => by cases h; omega, fun _ _ h => h.elim⟩
theorem within_cat {a b : Auto} {lo mid hi : Nat} (ha : Within a lo mid) (hb : Within b mid hi) (h1 : lo ≤ mid)
    (h2 : mid ≤ hi) : Within (cat a b) lo hi := by
  refine ⟨?_, ?_, ?_⟩
  · rintro x (h | ⟨_, h⟩)
    · have := ha.first x h; omega
    · have := hb.first x h; omega
  · rintro x (⟨_, h⟩ | h)
    · have := ha.last x h; omega
    · have := hb.last x h; omega
  · rintro x y (h | h | ⟨h, h'⟩)
    · have := ha.next x y h; omega
    · have := hb.next x y h; omega
    · have := ha.last x h; have := hb.first y h'; omega
theorem within_alt {a b : Auto} {lo mid hi : Nat} (ha : Within a lo mid) (hb : Within b mid hi) (h1 : lo ≤ mid)
    (h2 : mid ≤ hi) : Within (alt a b) lo hi := by
  refine ⟨?_, ?_, ?_⟩
  · rintro x (h | h)
    · have := ha.first x h; omega
    · have := hb.first x h; omega
  · rintro x (h | h)
    · have := ha.last x h; omega
    · have := hb.last x h; omega
  · rintro x y (h | h)
    · have := ha.next x y h; omega
    · have := hb.next x y h; omega

end Rescan.Glushkov
