import Verif.Props.Express
/-! # C116: putting a pattern into a pattern -/
namespace Rescan
open Spec

theorem count_prefix {x r a : Str} (hx : Balanced x) (h : x = r ++ a) : r.count ')' ≤ r.count '(' := by
  have := hx.1 r.length
  rw [h, List.take_left] at this
  omega

/-- A group which starts inside a balanced text ends inside it. -/
theorem split_inside {A p r x t q : Str} (hA : Balanced A) (h : A = p ++ '(' :: r) (hx : Balanced x)
    (he : r ++ t = x ++ ')' :: q) : ∃ q', r = x ++ ')' :: q' ∧ q = q' ++ t := by
  have hcon : ∀ a, x = r ++ a → False := by
    intro a ha
    have h1 := count_prefix hx ha
    have h2 := count_prefix hA h
    have h3 := hA.2
    rw [h] at h3
    simp only [List.count_append, List.count_cons] at h3
    simp at h3
    omega
  rcases List.append_eq_append_iff.1 he with ⟨a, ha, _⟩ | ⟨c, hc, hd⟩
  · exact (hcon a ha).elim
  · cases c with
    | nil => exact (hcon [] (by simpa using hc.symm)).elim
    | cons d c =>
      simp only [List.cons_append, List.cons.injEq] at hd
      exact ⟨c, by rw [hc, hd.1], hd.2⟩

/-- Two balanced texts before a `)` which closes nothing in them are equal. -/
theorem balanced_before {x y s t : Str} (hx : Balanced x) (hy : Balanced y)
    (h : x ++ ')' :: s = y ++ ')' :: t) : x = y ∧ s = t := by
  have key : ∀ {x y : Str} (c : Str), Balanced x → Balanced y → x = y ++ ')' :: c → False := by
    intro x y c hx hy h
    have h1 := count_prefix (r := y ++ [')']) (a := c) hx (by simp [h])
    have h2 := hy.2
    simp only [List.count_append, List.count_cons] at h1
    simp at h1
    omega
  rcases List.append_eq_append_iff.1 h with ⟨a, ha, hb⟩ | ⟨a, ha, hb⟩
  · cases a with
    | nil => simp at ha hb; exact ⟨ha.symm, hb⟩
    | cons d a =>
      simp only [List.cons_append, List.cons.injEq] at hb
      exact (key a hy hx (by rw [ha, ← hb.1])).elim
  · cases a with
    | nil => simp at ha hb; exact ⟨ha, hb.symm⟩
    | cons d a =>
      simp only [List.cons_append, List.cons.injEq] at hb
      exact (key a hx hy (by rw [ha, ← hb.1])).elim

theorem Seq.print_bal (s : Seq) (h : s.Wf) : Balanced s.print := print_balanced (.one s) h

theorem Item.print_bal (i : Item) (h : i.Wf) : Balanced i.print := by
  have := print_balanced (.one (.cons i .nil)) ⟨h, trivial⟩
  simpa [Alts.print, Seq.print] using this

/-- What is matched around a place: `K` are the strings which pass it by, `R` those before and after it. -/
def Around (R : List U8 → List U8 → Prop) (K : List U8 → Prop) (L : List U8 → Prop) (w : List U8) : Prop :=
  K w ∨ ∃ u l v, w = u ++ l ++ v ∧ R u v ∧ L l

mutual
theorem Item.place {cl : Bool} : ∀ (i : Item) (p x q : Str), i.Wf → IsAscii i.print → Balanced x →
    i.print = p ++ '(' :: (x ++ ')' :: q) →
    ∃ R K, (∃ u v, R u v) ∧ ∀ b : Alts, b.Wf → ∃ i' : Item, i'.Wf ∧
      i'.print = p ++ '(' :: (b.print ++ ')' :: q) ∧
      ∀ w, i'.lang (litClass cl) w ↔ Around R K (b.lang (litClass cl)) w
  | .lit c, p, x, q, _, _, _, h => by
    have := congrArg List.length h
    simp [Item.print] at this
    omega
  | .group a, p, x, q, hw, ha, hx, h => by
    simp only [Item.print, List.cons_append] at h
    cases p with
    | nil =>
      simp only [List.nil_append, List.cons.injEq, true_and] at h
      obtain ⟨rfl, rfl⟩ := balanced_before (print_balanced a hw) hx h
      refine ⟨fun u v => u = [] ∧ v = [], fun _ => False, ⟨[], [], rfl, rfl⟩, fun b hb =>
        ⟨.group b, hb, by simp [Item.print], fun w => ?_⟩⟩
      simp only [Item.lang, Around, false_or]
      constructor
      · intro h; exact ⟨[], w, [], by simp, ⟨rfl, rfl⟩, h⟩
      · rintro ⟨_, l, _, rfl, ⟨rfl, rfl⟩, h⟩; simpa using h
    | cons d p =>
      simp only [List.cons_append, List.cons.injEq] at h
      obtain ⟨rfl, h⟩ := h
      have hA : ∃ r, a.print = p ++ '(' :: r ∧ r ++ [')'] = x ++ ')' :: q := by
        rcases List.append_eq_append_iff.1 h with ⟨c, hc, hd⟩ | ⟨c, hc, hd⟩
        · cases c with
          | nil => simp at hd
          | cons e c => have := congrArg List.length hd; simp at this
        · cases c with
          | nil => have := congrArg List.length hd; simp at this
          | cons e c =>
            simp only [List.cons_append, List.cons.injEq] at hd
            exact ⟨c, by rw [hc, hd.1], hd.2.symm⟩
      obtain ⟨r, hr, hr2⟩ := hA
      obtain ⟨q', rfl, rfl⟩ := split_inside (print_balanced a hw) hr hx hr2
      obtain ⟨R, K, hR, hK⟩ := Alts.place (cl := cl) a p x q' hw
        (fun c hc => ha c (by simp [Item.print, hc])) hx hr
      refine ⟨R, K, hR, fun b hb => ?_⟩
      obtain ⟨a', h1, h2, h3⟩ := hK b hb
      exact ⟨.group a', h1, by simp [Item.print, h2], h3⟩
theorem Seq.place {cl : Bool} : ∀ (s : Seq) (p x q : Str), s.Wf → IsAscii s.print → Balanced x →
    s.print = p ++ '(' :: (x ++ ')' :: q) →
    ∃ R K, (∃ u v, R u v) ∧ ∀ b : Alts, b.Wf → ∃ s' : Seq, s'.Wf ∧
      s'.print = p ++ '(' :: (b.print ++ ')' :: q) ∧
      ∀ w, s'.lang (litClass cl) w ↔ Around R K (b.lang (litClass cl)) w
  | .nil, p, x, q, _, _, _, h => by simp [Seq.print] at h
  | .cons i s, p, x, q, hw, ha, hx, h => by
    simp only [Seq.print, isAscii_append] at h ha
    have hs : (∃ p', p = i.print ++ p' ∧ s.print = p' ++ '(' :: (x ++ ')' :: q)) ∨
        ∃ r, i.print = p ++ '(' :: r ∧ r ++ s.print = x ++ ')' :: q := by
      rcases List.append_eq_append_iff.1 h with ⟨c, hc, hd⟩ | ⟨c, hc, hd⟩
      · exact .inl ⟨c, hc, hd⟩
      · cases c with
        | nil => simp at hc hd; exact .inl ⟨[], by simp [hc], by simp [hd]⟩
        | cons e c =>
          simp only [List.cons_append, List.cons.injEq] at hd
          exact .inr ⟨c, by rw [hc, hd.1], hd.2.symm⟩
    rcases hs with ⟨p', rfl, hs⟩ | ⟨r, hr, hr2⟩
    · obtain ⟨R, K, ⟨u0, v0, hR⟩, hK⟩ := Seq.place (cl := cl) s p' x q hw.2 ha.2 hx hs
      obtain ⟨w0, hw0⟩ := Item.inhabited (cl := cl) i ha.1
      refine ⟨fun u v => ∃ u1 u2, u = u1 ++ u2 ∧ i.lang (litClass cl) u1 ∧ R u2 v,
        fun w => ∃ w1 w2, w = w1 ++ w2 ∧ i.lang (litClass cl) w1 ∧ K w2,
        ⟨_, v0, w0, u0, rfl, hw0, hR⟩, fun b hb => ?_⟩
      obtain ⟨s', h1, h2, h3⟩ := hK b hb
      refine ⟨.cons i s', ⟨hw.1, h1⟩, by simp [Seq.print, h2], fun w => ?_⟩
      simp only [Seq.lang, h3]
      constructor
      · rintro ⟨w1, w2, rfl, g1, g2 | ⟨u, l, v, rfl, g2, g3⟩⟩
        · exact .inl ⟨w1, w2, rfl, g1, g2⟩
        · exact .inr ⟨w1 ++ u, l, v, by simp, ⟨w1, u, rfl, g1, g2⟩, g3⟩
      · rintro (⟨w1, w2, rfl, g1, g2⟩ | ⟨_, l, v, rfl, ⟨w1, u, rfl, g1, g2⟩, g3⟩)
        · exact ⟨w1, w2, rfl, g1, .inl g2⟩
        · exact ⟨w1, u ++ l ++ v, by simp, g1, .inr ⟨u, l, v, rfl, g2, g3⟩⟩
    · obtain ⟨q', rfl, rfl⟩ := split_inside (Item.print_bal i hw.1) hr hx hr2
      obtain ⟨R, K, ⟨u0, v0, hR⟩, hK⟩ := Item.place (cl := cl) i p x q' hw.1 ha.1 hx hr
      obtain ⟨w0, hw0⟩ := Seq.inhabited (cl := cl) s ha.2
      refine ⟨fun u v => ∃ v1 v2, v = v1 ++ v2 ∧ R u v1 ∧ s.lang (litClass cl) v2,
        fun w => ∃ w1 w2, w = w1 ++ w2 ∧ K w1 ∧ s.lang (litClass cl) w2,
        ⟨u0, _, v0, w0, rfl, hR, hw0⟩, fun b hb => ?_⟩
      obtain ⟨i', h1, h2, h3⟩ := hK b hb
      refine ⟨.cons i' s, ⟨h1, hw.2⟩, by simp [Seq.print, h2], fun w => ?_⟩
      simp only [Seq.lang, h3]
      constructor
      · rintro ⟨w1, w2, rfl, g2 | ⟨u, l, v, rfl, g2, g3⟩, g1⟩
        · exact .inl ⟨w1, w2, rfl, g2, g1⟩
        · exact .inr ⟨u, l, v ++ w2, by simp, ⟨v, w2, rfl, g2, g1⟩, g3⟩
      · rintro (⟨w1, w2, rfl, g1, g2⟩ | ⟨u, l, _, rfl, ⟨v, w2, rfl, g1, g2⟩, g3⟩)
        · exact ⟨w1, w2, rfl, .inl g1, g2⟩
        · exact ⟨u ++ l ++ v, w2, by simp, .inr ⟨u, l, v, rfl, g1, g3⟩, g2⟩
theorem Alts.place {cl : Bool} : ∀ (a : Alts) (p x q : Str), a.Wf → IsAscii a.print → Balanced x →
    a.print = p ++ '(' :: (x ++ ')' :: q) →
    ∃ R K, (∃ u v, R u v) ∧ ∀ b : Alts, b.Wf → ∃ a' : Alts, a'.Wf ∧
      a'.print = p ++ '(' :: (b.print ++ ')' :: q) ∧
      ∀ w, a'.lang (litClass cl) w ↔ Around R K (b.lang (litClass cl)) w
  | .one s, p, x, q, hw, ha, hx, h => by
    obtain ⟨R, K, hR, hK⟩ := Seq.place (cl := cl) s p x q hw ha hx h
    refine ⟨R, K, hR, fun b hb => ?_⟩
    obtain ⟨s', h1, h2, h3⟩ := hK b hb
    exact ⟨.one s', h1, h2, h3⟩
  | .more s a, p, x, q, hw, ha, hx, h => by
    simp only [Alts.print, isAscii_append] at h ha
    have ha2 : IsAscii a.print := fun c hc => ha.2 c (by simp [hc])
    have hs : (∃ p', p = s.print ++ '|' :: p' ∧ a.print = p' ++ '(' :: (x ++ ')' :: q)) ∨
        ∃ r, s.print = p ++ '(' :: r ∧ r ++ '|' :: a.print = x ++ ')' :: q := by
      rcases List.append_eq_append_iff.1 h with ⟨c, hc, hd⟩ | ⟨c, hc, hd⟩
      · cases c with
        | nil => simp at hd
        | cons e c =>
          simp only [List.cons_append, List.cons.injEq] at hd
          exact .inl ⟨c, by rw [hc, hd.1], hd.2⟩
      · cases c with
        | nil => simp at hd
        | cons e c =>
          simp only [List.cons_append, List.cons.injEq] at hd
          exact .inr ⟨c, by rw [hc, hd.1], hd.2.symm⟩
    rcases hs with ⟨p', rfl, hs⟩ | ⟨r, hr, hr2⟩
    · obtain ⟨R, K, hR, hK⟩ := Alts.place (cl := cl) a p' x q hw.2 ha2 hx hs
      refine ⟨R, fun w => s.lang (litClass cl) w ∨ K w, hR, fun b hb => ?_⟩
      obtain ⟨a', h1, h2, h3⟩ := hK b hb
      refine ⟨.more s a', ⟨hw.1, h1⟩, by simp [Alts.print, h2], fun w => ?_⟩
      simp only [Alts.lang, h3, Around, or_assoc]
    · obtain ⟨q', rfl, rfl⟩ := split_inside (Seq.print_bal s hw.1) hr hx hr2
      obtain ⟨R, K, hR, hK⟩ := Seq.place (cl := cl) s p x q' hw.1 ha.1 hx hr
      refine ⟨R, fun w => a.lang (litClass cl) w ∨ K w, hR, fun b hb => ?_⟩
      obtain ⟨s', h1, h2, h3⟩ := hK b hb
      refine ⟨.more s' a, ⟨h1, hw.2⟩, by simp [Alts.print, h2], fun w => ?_⟩
      simp only [Alts.lang, h3, Around]
      exact ⟨fun h => h.elim (fun h => h.elim (fun h => .inl (.inr h)) .inr) (fun h => .inl (.inl h)),
        fun h => h.elim (fun h => h.elim .inr (fun h => .inl (.inl h))) (fun h => .inl (.inr h))⟩
end

/-! ## Control verbs -/

theorem first_close : ∀ t : Str, ')' ∈ t → ∃ v rest, t = v ++ ')' :: rest ∧ ')' ∉ v
  | [], h => by cases h
  | c :: t, h => by
    by_cases hc : c = ')'
    · exact ⟨[], t, by simp [hc], by simp⟩
    · obtain ⟨v, rest, h1, h2⟩ := first_close t (by simpa [Ne.symm hc] using h)
      exact ⟨c :: v, rest, by simp [h1], by simp [h2, Ne.symm hc]⟩

/-- Replacing a group leaves the control verb alone. -/
theorem body_replace {pre x y post b : Str} (hx : pre = [] → ∀ z, x = '*' :: z → z = [])
    (hy : pre = [] → ∀ z, y = '*' :: z → z = [])
    (h : IsBody (pre ++ '(' :: (x ++ ')' :: post)) b) :
    ∃ p, b = p ++ '(' :: (x ++ ')' :: post) ∧
      IsBody (pre ++ '(' :: (y ++ ')' :: post)) (p ++ '(' :: (y ++ ')' :: post)) := by
  have nil : ∀ (x : Str), (∀ z, x = '*' :: z → z = []) → NoVerb ('(' :: (x ++ ')' :: post)) := by
    rintro x hx v rest ⟨h1, h2, h3⟩
    simp only [List.cons_append, List.nil_append, List.append_assoc, List.cons.injEq, true_and] at h1
    cases x with
    | nil => simp at h1
    | cons c x =>
      simp only [List.cons_append, List.cons.injEq] at h1
      obtain ⟨rfl, h1⟩ := h1
      obtain rfl := hx x rfl
      cases v with
      | nil => exact h2 rfl
      | cons d v => simp at h1; exact h3 (by simp [← h1.1])
  rcases h with ⟨h, rfl⟩ | ⟨v, ⟨h1, h2, h3⟩, h4⟩
  · refine ⟨pre, rfl, .inl ⟨?_, rfl⟩⟩
    rcases pre with _ | ⟨c, _ | ⟨d, pre⟩⟩
    · exact nil y (hy rfl)
    · rintro v rest ⟨h1, _, _⟩; simp at h1
    · rintro v rest ⟨h1, h2, h3⟩
      simp only [List.cons_append, List.nil_append, List.append_assoc, List.cons.injEq] at h1
      obtain ⟨rfl, rfl, h1⟩ := h1
      obtain ⟨v1, r1, e1, e2⟩ := first_close (pre ++ '(' :: (x ++ ')' :: post)) (by simp)
      refine h v1 r1 ⟨by simp [e1], ?_, e2⟩
      rintro rfl
      cases pre with
      | nil => simp at e1
      | cons e pre =>
        simp at e1
        cases v with
        | nil => exact h2 rfl
        | cons f v => simp at h1; exact h3 (by simp [← h1.1, e1.1])
  · have hvo : '(' ∉ v := by rcases h4 with rfl | rfl | rfl <;> decide
    rcases pre with _ | ⟨c, _ | ⟨d, pre⟩⟩
    · exact absurd ⟨h1, h2, h3⟩ (nil x (hx rfl) v b)
    · simp at h1
    · simp only [List.cons_append, List.nil_append, List.append_assoc, List.cons.injEq] at h1
      obtain ⟨rfl, rfl, h1⟩ := h1
      rcases List.append_eq_append_iff.1 h1 with ⟨c, hc, hd⟩ | ⟨c, hc, hd⟩
      · cases c with
        | nil => simp at hd
        | cons e c =>
          simp only [List.cons_append, List.cons.injEq] at hd
          exact absurd (by rw [hc, ← hd.1]; simp) hvo
      · cases c with
        | nil => simp at hd
        | cons e c =>
          simp only [List.cons_append, List.cons.injEq] at hd
          refine ⟨c, hd.2, .inr ⟨v, ⟨?_, h2, h3⟩, h4⟩⟩
          rw [hc, ← hd.1]; simp

/-- C116: what a pattern with a group in it matches depends only on what the text in the group matches
by itself.  If `pre(x)post` is accepted, then around the group stand strings `R`, and strings `K` pass
it by, such that for every accepted `y` the pattern `pre(y)post` is accepted, and it matches the
strings of `K` and those of `y` between the two of `R`.  (Neither text may start with a control verb;
the `(` itself must not start one.) -/
theorem C116_replace (pre x post : Str) (mode : ParseMode) (L P : List U8 → Prop) (hv : NoVerb x)
    (hx : pre = [] → ∀ z, x = '*' :: z → z = []) (h1 : Denotes x mode L)
    (h2 : Denotes (pre ++ '(' :: (x ++ ')' :: post)) mode P) :
    ∃ (R : List U8 → List U8 → Prop) (K : List U8 → Prop), (∃ u v, R u v) ∧
      (∀ w, P w ↔ K w ∨ ∃ u l v, w = u ++ l ++ v ∧ R u v ∧ L l) ∧
      ∀ (y : Str) (M : List U8 → Prop), NoVerb y → (pre = [] → ∀ z, y = '*' :: z → z = []) →
        Denotes y mode M → Denotes (pre ++ '(' :: (y ++ ')' :: post)) mode
          (fun w => K w ∨ ∃ u l v, w = u ++ l ++ v ∧ R u v ∧ M l) := by
  obtain ⟨a, a1, a2, a3, a4⟩ := denotes_tree h1
  obtain ⟨c, c1, c2, c3, c4⟩ := denotes_tree h2
  have hax := isBody_noVerb a2 hv
  obtain ⟨p, hp, _⟩ := body_replace hx hx c2
  obtain ⟨R, K, hR, hK⟩ := Alts.place (cl := mode.caseless) c p x post c1 c3
    (hax ▸ print_balanced a a1) hp
  have around : ∀ {M N : List U8 → Prop}, (∀ w, M w ↔ N w) → ∀ w, Around R K M w ↔ Around R K N w := by
    intro M N h w; simp only [Around, h]
  have hall : ∀ (y : Str) (M : List U8 → Prop), NoVerb y → (pre = [] → ∀ z, y = '*' :: z → z = []) →
      Denotes y mode M → Denotes (pre ++ '(' :: (y ++ ')' :: post)) mode (Around R K M) := by
    intro y M hvy hy h3
    obtain ⟨b, b1, b2, b3, b4⟩ := denotes_tree h3
    have hby := isBody_noVerb b2 hvy
    obtain ⟨c', d1, d2, d3⟩ := hK b b1
    obtain ⟨p', hp', hb'⟩ := body_replace hx hy c2
    have hpp : p = p' := by
      rw [hp] at hp'; exact List.append_cancel_right hp'
    subst hpp
    refine tree_denotes c' d1 ?_ ?_ (fun w => by rw [d3, around b4])
    · rw [d2, hby]; exact hb'
    · rw [d2]
      rw [hp, isAscii_append] at c3
      intro e he
      simp only [List.mem_append, List.mem_cons] at he
      rcases he with he | rfl | he | rfl | he
      · exact c3.1 e he
      · decide
      · exact b3 e he
      · decide
      · exact c3.2 e (by simp [he])
  refine ⟨R, K, hR, fun w => ?_, hall⟩
  obtain ⟨e1, m1, g1, g2⟩ := h2
  obtain ⟨e2, m2, g3, g4⟩ := hall x L hv hx h1
  rw [g1] at g3
  injection g3 with g3
  injection g3 with g3 g5
  subst g3
  rw [← g2, g4]
  exact Iff.rfl

example : ∃ L P, Denotes "x|y".toList ParseMode.default L ∧
    Denotes ("(*UTF8)a|b(c|".toList ++ '(' :: ("x|y".toList ++ ')' :: "d)".toList)) ParseMode.default P := by
  obtain ⟨L, h1⟩ := denotes_of_ok (s := "x|y".toList) (mode := ParseMode.default) (by decide +kernel)
  obtain ⟨P, h2⟩ := denotes_of_ok (s := "(*UTF8)a|b(c|".toList ++ '(' :: ("x|y".toList ++ ')' :: "d)".toList))
    (mode := ParseMode.default) (by decide +kernel)
  exact ⟨L, P, h1, h2⟩

theorem denotes_unique {s : Str} {mode : ParseMode} {L M : List U8 → Prop} (h1 : Denotes s mode L)
    (h2 : Denotes s mode M) : ∀ w, L w ↔ M w := by
  obtain ⟨c, m, a1, a2⟩ := h1
  obtain ⟨d, n, b1, b2⟩ := h2
  rw [a1] at b1
  injection b1 with b1
  injection b1 with b1 _
  subst b1
  exact fun w => by rw [← a2, b2]

/-- C116: a text in a group may be replaced by one which matches the same strings, and the whole matches
the same strings; if it is replaced by one which matches more, the whole matches no less. -/
theorem C116_monotone (pre x y post : Str) (mode : ParseMode) (L M P Q : List U8 → Prop)
    (hvx : NoVerb x) (hvy : NoVerb y) (hx : pre = [] → ∀ z, x = '*' :: z → z = [])
    (hy : pre = [] → ∀ z, y = '*' :: z → z = []) (h1 : Denotes x mode L) (h2 : Denotes y mode M)
    (h3 : Denotes (pre ++ '(' :: (x ++ ')' :: post)) mode P)
    (h4 : Denotes (pre ++ '(' :: (y ++ ')' :: post)) mode Q) :
    ((∀ w, L w → M w) → ∀ w, P w → Q w) ∧ ((∀ w, L w ↔ M w) → ∀ w, P w ↔ Q w) := by
  obtain ⟨R, K, _, hP, hall⟩ := C116_replace pre x post mode L P hvx hx h1 h3
  have hQ := denotes_unique h4 (hall y M hvy hy h2)
  refine ⟨fun h w hw => ?_, fun h w => ?_⟩
  · rw [hQ]
    rcases (hP w).1 hw with hw | ⟨u, l, v, e, r, hl⟩
    · exact .inl hw
    · exact .inr ⟨u, l, v, e, r, h l hl⟩
  · rw [hQ, hP]
    simp only [h]

example : ∃ L M P Q, Denotes "x".toList ParseMode.default L ∧ Denotes "x|y".toList ParseMode.default M ∧
    Denotes ("a".toList ++ '(' :: ("x".toList ++ ')' :: "d".toList)) ParseMode.default P ∧
    Denotes ("a".toList ++ '(' :: ("x|y".toList ++ ')' :: "d".toList)) ParseMode.default Q ∧
    (∀ w, P w → Q w) ∧ NoVerb "x".toList := by
  have hd := fun s (h : (parse .release s ParseMode.default).isOk = true) =>
    denotes_of_ok (s := s) (mode := ParseMode.default) h
  obtain ⟨L, h1⟩ := hd "x".toList (by decide +kernel)
  obtain ⟨M, h2⟩ := hd "y".toList (by decide +kernel)
  have h5 := C80_union "x".toList "y".toList ParseMode.default L M (by rw [← controlVerb_none]; rfl) h1 h2
  obtain ⟨P, h3⟩ := hd ("a".toList ++ '(' :: ("x".toList ++ ')' :: "d".toList)) (by decide +kernel)
  obtain ⟨Q, h4⟩ := hd ("a".toList ++ '(' :: ("x|y".toList ++ ')' :: "d".toList)) (by decide +kernel)
  have hv : ∀ s : Str, controlVerb s = none → NoVerb s := fun s h => by rw [← controlVerb_none]; exact h
  exact ⟨L, _, P, Q, h1, h5, h3, h4,
    (C116_monotone "a".toList "x".toList "x|y".toList "d".toList ParseMode.default L _ P Q
      (hv _ rfl) (hv _ rfl) (by simp) (by simp) h1 h5 h3 h4).1 (fun _ => .inl), hv _ rfl⟩

end Rescan
