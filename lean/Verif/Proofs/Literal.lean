import Verif.Spec.ByteSet
import Verif.Model.Literal
import Verif.Proofs.CharReach
/-! # Lemmas about literals -/
namespace Rescan

/-- A three-way comparison that is a total order (its `eq` being equality). -/
structure TotalCmp {α : Type} (c : α → α → Ordering) : Prop where
  refl : ∀ a, c a a = .eq
  eq_of : ∀ a b, c a b = .eq → a = b
  swap : ∀ a b, c b a = (c a b).swap
  le_trans : ∀ a b d, c a b ≠ .gt → c b d ≠ .gt → c a d ≠ .gt

namespace Ue2Literal

theorem cmpBytes_total : TotalCmp cmpBytes where
  refl := by
    intro a
    induction a with
    | nil => rfl
    | cons x xs ih => unfold cmpBytes; rw [if_neg (by simp), if_neg (by simp)]; exact ih
  eq_of := by
    intro a
    induction a with
    | nil => intro b h; cases b with
      | nil => rfl
      | cons y ys => cases h
    | cons x xs ih =>
      intro b h
      cases b with
      | nil => cases h
      | cons y ys =>
        unfold cmpBytes at h
        split at h
        · cases h
        · split at h
          · cases h
          · next h1 h2 =>
            rw [BitVec.lt_def] at h1 h2
            rw [ih ys h, BitVec.eq_of_toNat_eq (by omega : x.toNat = y.toNat)]
  swap := by
    intro a
    induction a with
    | nil => intro b; cases b <;> rfl
    | cons x xs ih =>
      intro b
      cases b with
      | nil => rfl
      | cons y ys =>
        unfold cmpBytes
        by_cases h1 : x < y
        · have h2 : ¬ y < x := by rw [BitVec.lt_def] at *; omega
          simp [h1, h2]
        · by_cases h2 : y < x
          · simp [h1, h2]
          · simp only [h1, h2, if_false]; exact ih ys
  le_trans := by
    intro a
    induction a with
    | nil => intro b c _ _; cases c <;> simp [cmpBytes]
    | cons x xs ih =>
      intro b c h1 h2
      cases b with
      | nil => simp [cmpBytes] at h1
      | cons y ys =>
        cases c with
        | nil => simp [cmpBytes] at h2
        | cons z zs =>
          unfold cmpBytes at h1 h2 ⊢
          simp only [BitVec.lt_def] at *
          split at h1
          · split at h2
            · rw [if_pos (by omega)]; simp
            · split at h2
              · simp at h2
              · rw [if_pos (by omega)]; simp
          · split at h1
            · simp at h1
            · split at h2
              · rw [if_pos (by omega)]; simp
              · split at h2
                · simp at h2
                · rw [if_neg (by omega), if_neg (by omega)]; exact ih _ _ h1 h2

theorem cmpBools_total : TotalCmp cmpBools where
  refl := by
    intro a
    induction a with
    | nil => rfl
    | cons x xs ih => unfold cmpBools; cases x <;> exact ih
  eq_of := by
    intro a
    induction a with
    | nil => intro b h; cases b with
      | nil => rfl
      | cons y ys => cases h
    | cons x xs ih =>
      intro b h
      cases b with
      | nil => cases h
      | cons y ys =>
        unfold cmpBools at h
        cases x <;> cases y <;> simp at h
        · rw [ih ys h]
        · rw [ih ys h]
  swap := by
    intro a
    induction a with
    | nil => intro b; cases b <;> rfl
    | cons x xs ih =>
      intro b
      cases b with
      | nil => rfl
      | cons y ys =>
        unfold cmpBools
        cases x <;> cases y <;> simp [ih ys]
  le_trans := by
    intro a
    induction a with
    | nil => intro b c _ _; cases c <;> simp [cmpBools]
    | cons x xs ih =>
      intro b c h1 h2
      cases b with
      | nil => simp [cmpBools] at h1
      | cons y ys =>
        cases c with
        | nil => simp [cmpBools] at h2
        | cons z zs =>
          unfold cmpBools at h1 h2 ⊢
          cases x <;> cases y <;> cases z <;> simp at h1 h2 ⊢
          · exact ih _ _ h1 h2
          · exact ih _ _ h1 h2

theorem lexBefore_cons {α : Type} {less : α → α → Prop} (x y : α) (xs ys : List α)
    (hirr : ∀ a, ¬ less a a) :
    Spec.LexBefore less (x :: xs) (y :: ys) ↔ less x y ∨ (x = y ∧ Spec.LexBefore less xs ys) := by
  constructor
  · rintro (⟨z, zs, h⟩ | ⟨u, a, b, as, bs, h1, h2, hl⟩)
    · rw [List.cons_append, List.cons.injEq] at h
      exact Or.inr ⟨h.1.symm, Or.inl ⟨z, zs, h.2⟩⟩
    · cases u with
      | nil =>
        simp only [List.nil_append, List.cons.injEq] at h1 h2
        rw [h1.1, h2.1]; exact Or.inl hl
      | cons c u =>
        simp only [List.cons_append, List.cons.injEq] at h1 h2
        exact Or.inr ⟨h1.1.trans h2.1.symm, Or.inr ⟨u, a, b, as, bs, h1.2, h2.2, hl⟩⟩
  · rintro (hl | ⟨rfl, ⟨z, zs, h⟩ | ⟨u, a, b, as, bs, h1, h2, hl⟩⟩)
    · exact Or.inr ⟨[], x, y, xs, ys, rfl, rfl, hl⟩
    · exact Or.inl ⟨z, zs, by rw [h]; rfl⟩
    · exact Or.inr ⟨x :: u, a, b, as, bs, by rw [h1]; rfl, by rw [h2]; rfl, hl⟩

theorem lexBefore_nil {α : Type} {less : α → α → Prop} (xs : List α) :
    ¬ Spec.LexBefore less xs [] := by
  rintro (⟨z, zs, h⟩ | ⟨u, a, b, as, bs, h1, h2, hl⟩)
  · simp at h
  · simp at h2

theorem cmpBytes_lt : ∀ a b : List U8, cmpBytes a b = .lt ↔ Spec.LexBefore (· < ·) a b
  | [], [] => iff_of_false (by simp [cmpBytes]) (lexBefore_nil _)
  | [], y :: ys => iff_of_true rfl (Or.inl ⟨y, ys, rfl⟩)
  | _ :: _, [] => iff_of_false (by simp [cmpBytes]) (lexBefore_nil _)
  | x :: xs, y :: ys => by
    rw [lexBefore_cons _ _ _ _ (by intro a; simp), ← cmpBytes_lt xs ys]
    rw [show cmpBytes (x :: xs) (y :: ys) = if x < y then .lt else if y < x then .gt else cmpBytes xs ys from rfl]
    simp only [BitVec.lt_def]
    by_cases h1 : x.toNat < y.toNat
    · simp [h1]
    · by_cases h2 : y.toNat < x.toNat
      · have : x ≠ y := by rintro rfl; omega
        simp [h1, h2, this]
      · have : x = y := BitVec.eq_of_toNat_eq (by omega)
        simp [this]

theorem cmpBools_lt : ∀ a b : List Bool,
    cmpBools a b = .lt ↔ Spec.LexBefore (fun x y => x = false ∧ y = true) a b
  | [], [] => iff_of_false (by simp [cmpBools]) (lexBefore_nil _)
  | [], y :: ys => iff_of_true rfl (Or.inl ⟨y, ys, rfl⟩)
  | _ :: _, [] => iff_of_false (by simp [cmpBools]) (lexBefore_nil _)
  | x :: xs, y :: ys => by
    rw [lexBefore_cons _ _ _ _ (by intro a; cases a <;> simp), ← cmpBools_lt xs ys]
    rw [show cmpBools (x :: xs) (y :: ys) = if !x && y then .lt else if x && !y then .gt
      else cmpBools xs ys from rfl]
    cases x <;> cases y <;> simp

theorem cmp_total : TotalCmp cmp where
  refl := by intro a; unfold cmp; rw [cmpBytes_total.refl, ]; exact cmpBools_total.refl _
  eq_of := by
    intro a b h
    unfold cmp at h
    split at h
    · next h1 =>
      cases a; cases b
      rw [Ue2Literal.mk.injEq]
      exact ⟨cmpBytes_total.eq_of _ _ h1, cmpBools_total.eq_of _ _ h⟩
    · next h1 => exact absurd h h1
  swap := by
    intro a b
    unfold cmp
    rw [cmpBytes_total.swap a.s b.s]
    cases h : cmpBytes a.s b.s
    · rfl
    · exact cmpBools_total.swap _ _
    · rfl
  le_trans := by
    intro a b c h1 h2
    unfold cmp at *
    cases hab : cmpBytes a.s b.s <;> cases hbc : cmpBytes b.s c.s <;> rw [hab] at h1 <;> rw [hbc] at h2 <;>
      simp only at h1 h2
    · -- lt lt
      have := cmpBytes_total.le_trans a.s b.s c.s (by simp [hab]) (by simp [hbc])
      cases hac : cmpBytes a.s c.s
      · simp
      · have e := cmpBytes_total.eq_of _ _ hac
        have := cmpBytes_total.swap a.s b.s
        rw [e, hbc] at this; rw [e] at hab; rw [hab] at this; simp at this
      · exact absurd hac this
    · have e := cmpBytes_total.eq_of _ _ hbc
      rw [← e, hab]; simp
    · simp at h2
    · have e := cmpBytes_total.eq_of _ _ hab
      rw [e, hbc]; simp
    · have e := cmpBytes_total.eq_of _ _ hab
      rw [e, hbc]
      exact cmpBools_total.le_trans _ _ _ h1 h2
    · simp at h2
    · simp at h1
    · simp at h1
    · simp at h1

/-- The elements pushed by a list of `push` calls. -/
theorem push_fold (ps : List (U8 × Bool)) : ∀ l : Ue2Literal, l.s.length = l.nocase.length →
    let r := ps.foldl (fun l p => l.push p.1 p.2) l
    r.s = l.s ++ ps.map (fun p => if p.2 then mytoupper p.1 else p.1) ∧
    r.nocase = l.nocase ++ ps.map Prod.snd := by
  induction ps with
  | nil => intro l _; simp
  | cons q ps ih =>
    intro l hl
    have := ih (l.push q.1 q.2) (by unfold push; simp [hl])
    simp only [List.foldl_cons]
    refine ⟨?_, ?_⟩
    · rw [this.1]; unfold push; simp
    · rw [this.2]; unfold push; simp

end Ue2Literal

theorem mixed_fold (it : List Ue2LiteralElem) : ∀ s : Bool × Bool,
    it.foldl (fun (s : Bool × Bool) e =>
      if !ourisalpha e.c then s
      else if e.nocase then (s.1, true) else (true, s.2)) s
      = (s.1 || it.any (fun e => ourisalpha e.c && !e.nocase),
         s.2 || it.any (fun e => ourisalpha e.c && e.nocase)) := by
  induction it with
  | nil => intro s; simp
  | cons e it ih =>
    intro s
    rw [List.foldl_cons, ih, List.any_cons, List.any_cons]
    cases ourisalpha e.c <;> cases e.nocase <;> simp

theorem mixedSensitivity_eq (it : List Ue2LiteralElem) :
    mixedSensitivity it = (it.any (fun e => ourisalpha e.c && !e.nocase) &&
      it.any (fun e => ourisalpha e.c && e.nocase)) := by
  unfold mixedSensitivity
  rw [mixed_fold]; simp

end Rescan
