import Verif.Spec.Aliasing
import Verif.Proofs.Borrows
import Verif.Proofs.TreeBorrows
/-! # C104: the aliasing rules

C96 to C100 are about the code under two sets of rules.  Here the rules themselves are compared with their description. -/
namespace Rescan
namespace Borrows
open Spec.Stacked

theorem guarded_iff (calls : List Nat) (x : Item) : x.isProtected calls = true ↔ Guarded calls x := by
  unfold Item.isProtected Guarded
  cases x.protector with
  | none => simp
  | some c => simp

theorem usable_iff (k : Access) (x : Item) : x.perm.grants k = true ↔ Usable k x := by
  unfold Usable
  cases k <;> cases x.perm <;> simp [Perm.grants]

theorem granting_iff (t : Nat) (k : Access) : ∀ (s b : Stack) (g : Item) (a : Stack),
    granting t k s = some (b, g, a) ↔ Top t k s b g a := by
  have hnone : ∀ s : Stack, granting t k s = none ↔ ∀ x ∈ s, x.tag = t → ¬ Usable k x := by
    intro s
    induction s with
    | nil => simp [granting]
    | cons x s ih =>
      unfold granting
      cases hg : granting t k s with
      | some y =>
        obtain ⟨b, g, a⟩ := y
        rw [hg] at ih
        refine ⟨fun h => (by cases h), fun h => ?_⟩
        exact absurd (ih.2 fun y hy => h y (by simp [hy])) (by simp)
      | none =>
        have ih' := ih.1 hg
        simp only
        by_cases hx : x.tag = t ∧ x.perm.grants k = true
        · rw [if_pos hx]
          refine ⟨fun h => (by cases h), fun h => ?_⟩
          exact absurd ((usable_iff k x).1 hx.2) (h x (by simp) hx.1)
        · rw [if_neg hx]
          refine ⟨fun _ y hy ht => ?_, fun _ => rfl⟩
          rcases List.mem_cons.1 hy with h | h
          · subst h; exact fun hu => hx ⟨ht, (usable_iff k y).2 hu⟩
          · exact ih' y h ht
  intro s
  induction s with
  | nil =>
    intro b g a
    refine ⟨fun h => (by cases h), fun h => ?_⟩
    have := h.split
    cases b <;> cases this
  | cons x s ih =>
    intro b g a
    unfold granting
    cases hg : granting t k s with
    | some y =>
      obtain ⟨b', g', a'⟩ := y
      have h0 := (ih b' g' a').1 hg
      simp only [Option.some.injEq, Prod.mk.injEq]
      constructor
      · rintro ⟨h1, h2, h3⟩
        subst h1; subst h2; subst h3
        exact ⟨by rw [h0.split]; rfl, h0.tag, h0.usable, h0.top⟩
      · intro h
        cases b with
        | nil =>
          have hs := h.split
          injection hs with h1 h2
          subst h2
          refine absurd h0.usable (h.top g' ?_ h0.tag)
          rw [h0.split]; simp
        | cons y b =>
          have hs := h.split
          injection hs with h1 h2
          subst h1
          have := (ih b g a).2 ⟨h2, h.tag, h.usable, h.top⟩
          rw [hg] at this
          injection this with this
          injection this with h4 this
          injection this with h5 h6
          exact ⟨by rw [h4], h5, h6⟩
    | none =>
      have h0 := (hnone s).1 hg
      simp only
      by_cases hx : x.tag = t ∧ x.perm.grants k = true
      · rw [if_pos hx]
        simp only [Option.some.injEq, Prod.mk.injEq]
        constructor
        · rintro ⟨h1, h2, h3⟩
          subst h1; subst h2; subst h3
          exact ⟨rfl, hx.1, (usable_iff k x).1 hx.2, h0⟩
        · intro h
          cases b with
          | nil =>
            have hs := h.split
            injection hs with h1 h2
            exact ⟨rfl, h1, h2⟩
          | cons y b =>
            have hs := h.split
            injection hs with h1 h2
            exact absurd h.usable (h0 g (by rw [h2]; simp) h.tag)
      · rw [if_neg hx]
        refine ⟨fun h => (by cases h), fun h => ?_⟩
        cases b with
        | nil =>
          have hs := h.split
          injection hs with h1 h2
          subst h1
          exact absurd ⟨h.tag, (usable_iff k x).2 h.usable⟩ hx
        | cons y b =>
          have hs := h.split
          injection hs with h1 h2
          exact absurd h.usable (h0 g (by rw [h2]; simp) h.tag)

theorem allPassed_iff : ∀ a a' : Stack, AllPassed a a' ↔
    a' = a.map (fun x => if x.perm = .unique then { x with perm := .disabled } else x) := by
  intro a
  induction a with
  | nil =>
    intro a'
    refine ⟨fun h => (by cases h; rfl), fun h => ?_⟩
    subst h; exact .nil
  | cons x a ih =>
    intro a'
    constructor
    · intro h
      cases h with
      | cons hp h =>
        rw [(ih _).1 h]
        cases hp with
        | unique hu => simp [hu]
        | other hu => simp [hu]
    · intro h
      subst h
      refine .cons ?_ ((ih _).2 rfl)
      by_cases hu : x.perm = .unique
      · simp only [if_pos hu]; exact .unique x hu
      · simp only [if_neg hu]; exact .other x hu

/-- C104: under Stacked Borrows, a read through a pointer is defined exactly if the pointer has an item that allows reading and
no unique item above the topmost such one is protected; it disables the unique items above and changes nothing else. -/
theorem C104_read (calls : List Nat) (t : Nat) (s s' : Stack) :
    access calls t .read s = some s' ↔ ∃ b g a a', Top t .read s b g a ∧
      (∀ x ∈ a, x.perm = .unique → ¬ Guarded calls x) ∧ AllPassed a a' ∧ s' = b ++ g :: a' := by
  unfold access
  cases hg : granting t .read s with
  | none =>
    refine ⟨fun h => (by cases h), ?_⟩
    rintro ⟨b, g, a, a', h, _⟩
    rw [(granting_iff t .read s b g a).2 h] at hg
    cases hg
  | some y =>
    obtain ⟨b, g, a⟩ := y
    have h0 := (granting_iff t .read s b g a).1 hg
    simp only
    have hb : a.any (fun x => x.perm == .unique && x.isProtected calls) = true ↔
        ∃ x ∈ a, x.perm = .unique ∧ Guarded calls x := by
      simp [List.any_eq_true, guarded_iff]
    constructor
    · intro h
      split at h
      · cases h
      next hn =>
        injection h with h
        refine ⟨b, g, a, _, h0, fun x hx hu hp => hn (hb.2 ⟨x, hx, hu, hp⟩), (allPassed_iff a _).2 rfl, h.symm⟩
    · rintro ⟨b', g', a', a2, h1, h2, h3, h4⟩
      rw [(granting_iff t .read s b' g' a').2 h1] at hg
      injection hg with hg
      injection hg with e1 hg
      injection hg with e2 e3
      subst e1; subst e2; subst e3
      have hn : ¬ a'.any (fun x => x.perm == .unique && x.isProtected calls) = true := by
        rw [hb]; rintro ⟨x, hx, hu, hp⟩; exact h2 x hx hu hp
      rw [if_neg hn, h4, (allPassed_iff a' a2).1 h3]

example : access [] 1 .read [⟨0, .unique, none⟩, ⟨1, .sharedRW, none⟩, ⟨2, .unique, some 5⟩]
    = some [⟨0, .unique, none⟩, ⟨1, .sharedRW, none⟩, ⟨2, .disabled, some 5⟩] := by decide

theorem left_iff (g : Item) (a kept gone : Stack) : Left g a kept gone ↔ kept = keptByWrite g a ∧ gone = poppedByWrite g a := by
  unfold keptByWrite poppedByWrite
  by_cases hg : g.perm = .sharedRW
  · rw [if_pos hg, if_pos hg]
    constructor
    · intro h
      have h1 := h.split
      subst h1
      have h2 := h.row
      have h3 := h.broken hg
      clear h
      induction kept with
      | nil =>
        cases gone with
        | nil => exact ⟨rfl, rfl⟩
        | cons x rest =>
          have := h3 x rest rfl
          simp [this]
      | cons x kept ih =>
        have hx := h2 x (by simp)
        obtain ⟨i1, i2⟩ := ih (fun y hy => h2 y (by simp [hy]))
        simp only [List.cons_append, List.takeWhile_cons, List.dropWhile_cons, hx, beq_self_eq_true, if_true]
        exact ⟨by rw [← i1], i2⟩
    · rintro ⟨h1, h2⟩
      subst h1; subst h2
      refine ⟨(List.takeWhile_append_dropWhile ..).symm, fun h => absurd hg h, fun x hx => ?_, fun _ x rest h => ?_⟩
      · exact eq_of_beq (List.all_eq_true.1 (List.all_takeWhile (l := a) (p := fun x => x.perm == .sharedRW)) x hx)
      · intro hp
        have := List.head?_dropWhile_not (fun x : Item => x.perm == .sharedRW) a
        rw [h] at this
        simp [hp] at this
  · rw [if_neg hg, if_neg hg]
    constructor
    · intro h
      have hk := h.none hg
      subst hk
      exact ⟨rfl, h.split.symm⟩
    · rintro ⟨h1, h2⟩
      subst h1; subst h2
      exact ⟨rfl, fun _ => rfl, fun x hx => (by cases hx), fun h => absurd h hg⟩

/-- C104: a write is defined exactly if the pointer has an item that allows writing and no item above the topmost such one
that has to go is protected; it removes those items and changes nothing else. -/
theorem C104_write (calls : List Nat) (t : Nat) (s s' : Stack) :
    access calls t .write s = some s' ↔ ∃ b g a kept gone, Top t .write s b g a ∧ Left g a kept gone ∧
      (∀ x ∈ gone, ¬ Guarded calls x) ∧ s' = b ++ g :: kept := by
  unfold access
  cases hg : granting t .write s with
  | none =>
    refine ⟨fun h => (by cases h), ?_⟩
    rintro ⟨b, g, a, kept, gone, h, _⟩
    rw [(granting_iff t .write s b g a).2 h] at hg
    cases hg
  | some y =>
    obtain ⟨b, g, a⟩ := y
    have h0 := (granting_iff t .write s b g a).1 hg
    simp only
    have hb : (poppedByWrite g a).any (Item.isProtected calls) = true ↔ ∃ x ∈ poppedByWrite g a, Guarded calls x := by
      simp [List.any_eq_true, guarded_iff]
    constructor
    · intro h
      split at h
      · cases h
      next hn =>
        injection h with h
        exact ⟨b, g, a, _, _, h0, (left_iff g a _ _).2 ⟨rfl, rfl⟩, fun x hx hp => hn (hb.2 ⟨x, hx, hp⟩), h.symm⟩
    · rintro ⟨b', g', a', kept, gone, h1, h2, h3, h4⟩
      rw [(granting_iff t .write s b' g' a').2 h1] at hg
      injection hg with hg
      injection hg with e1 hg
      injection hg with e2 e3
      subst e1; subst e2; subst e3
      obtain ⟨k1, k2⟩ := (left_iff g' a' _ _).1 h2
      subst k1; subst k2
      have hn : ¬ (poppedByWrite g' a').any (Item.isProtected calls) = true := by
        rw [hb]; rintro ⟨x, hx, hp⟩; exact h3 x hx hp
      rw [if_neg hn, h4]

/-- C104: making a reference reads or writes through the old pointer and puts the new item on top; making one to a type that is
not `Unpin` accesses nothing and puts it above the items that a write would leave. -/
theorem C104_retag (calls : List Nat) (t : Nat) (x : Item) (s s' : Stack) :
    (∀ k, retag calls t (some k) x s = some s' ↔ ∃ s1, access calls t k s = some s1 ∧ s' = s1 ++ [x]) ∧
    (retag calls t none x s = some s' ↔ ∃ b g a kept gone, Top t .write s b g a ∧ Left g a kept gone ∧
      s' = b ++ g :: kept ++ x :: gone) := by
  constructor
  · intro k
    unfold retag
    simp only
    cases access calls t k s with
    | none => simp
    | some s1 => simp [eq_comm]
  · unfold retag
    simp only
    cases hg : granting t .write s with
    | none =>
      refine ⟨fun h => (by cases h), ?_⟩
      rintro ⟨b, g, a, kept, gone, h, _⟩
      rw [(granting_iff t .write s b g a).2 h] at hg
      cases hg
    | some y =>
      obtain ⟨b, g, a⟩ := y
      have h0 := (granting_iff t .write s b g a).1 hg
      simp only
      constructor
      · intro h
        injection h with h
        exact ⟨b, g, a, _, _, h0, (left_iff g a _ _).2 ⟨rfl, rfl⟩, h.symm⟩
      · rintro ⟨b', g', a', kept, gone, h1, h2, h4⟩
        rw [(granting_iff t .write s b' g' a').2 h1] at hg
        injection hg with hg
        injection hg with e1 hg
        injection hg with e2 e3
        subst e1; subst e2; subst e3
        obtain ⟨k1, k2⟩ := (left_iff g' a' _ _).1 h2
        subst k1; subst k2
        rw [h4]

example : Top 1 .read [⟨0, .unique, none⟩, ⟨1, .sharedRW, none⟩, ⟨2, .unique, some 5⟩] [⟨0, .unique, none⟩] ⟨1, .sharedRW, none⟩
    [⟨2, .unique, some 5⟩] := ⟨rfl, rfl, .inl ⟨rfl, by decide⟩, by simp⟩

/-- Reading past a unique item disables it; if it is protected, that is undefined. -/
example : access [] 1 .read [⟨0, .unique, none⟩, ⟨1, .sharedRW, none⟩, ⟨2, .unique, some 5⟩]
      = some [⟨0, .unique, none⟩, ⟨1, .sharedRW, none⟩, ⟨2, .disabled, some 5⟩] ∧
    access [5] 1 .read [⟨0, .unique, none⟩, ⟨1, .sharedRW, none⟩, ⟨2, .unique, some 5⟩] = none ∧
    access [5] 1 .write [⟨0, .unique, none⟩, ⟨1, .sharedRW, none⟩, ⟨2, .sharedRW, some 5⟩, ⟨3, .sharedRO, none⟩]
      = some [⟨0, .unique, none⟩, ⟨1, .sharedRW, none⟩, ⟨2, .sharedRW, some 5⟩] := by decide

end Borrows

namespace TreeBorrows
open Spec.Trees
open Borrows (Access)

theorem guarded_iff (calls : List Nat) (x : Node) : x.isProtected calls = true ↔ Guarded calls x := by
  unfold Node.isProtected Guarded
  cases x.protector with
  | none => simp
  | some c => simp

theorem step_iff {G C : Prop} {g c : Bool} (hg : g = true ↔ G) (hc : c = true ↔ C) (k : Access) (p p' : Perm) :
    step g c k p = some p' ↔ Becomes G C k p p' := by
  constructor
  · intro h
    cases c with
    | true =>
      have hC := hc.1 rfl
      cases k with
      | read =>
        have hp : p ≠ .disabled := by rintro rfl; cases h
        have : step g true .read p = some p := by cases p <;> first | rfl | exact absurd rfl hp
        rw [this] at h; injection h with h; subst h
        exact .read hC hp
      | write =>
        have hG : g = false → ¬ G := fun e hG => by rw [hg.2 hG] at e; cases e
        cases p <;> cases g <;> first | cases h
        · exact .write hC (.inl rfl)
        · exact .write hC (.inl rfl)
        · exact .write hC (.inr (.inr ⟨rfl, hG rfl⟩))
        · exact .write hC (.inr (.inl rfl))
        · exact .write hC (.inr (.inl rfl))
    | false =>
      have hC : ¬ C := fun hC => by have := hc.2 hC; cases this
      cases g with
      | true =>
        have hG := hg.1 rfl
        cases k <;> cases p <;> first | cases h
        · exact .conflict hC hG
        · exact .other hC (by decide) (by decide)
        · exact .other hC (by decide) (by decide)
        · exact .other hC (by decide) (by decide)
        · exact .disable hC (.inr rfl)
      | false =>
        have hG : ¬ G := fun hG => by have := hg.2 hG; cases this
        cases k <;> cases p <;> first | cases h
        · exact .keep hC hG
        · exact .other hC (by decide) (by decide)
        · exact .freeze hC hG
        · exact .other hC (by decide) (by decide)
        · exact .other hC (by decide) (by decide)
        all_goals exact .disable hC (.inl hG)
  · intro h
    cases h with
    | read h1 h2 =>
      rw [hc.2 h1]; cases p <;> first | rfl | exact absurd rfl h2
    | write h1 h2 =>
      rw [hc.2 h1]
      rcases h2 with h | h | ⟨h, h3⟩
      · subst h; rfl
      · subst h; rfl
      · subst h
        cases g with
        | true => exact absurd (hg.1 rfl) h3
        | false => rfl
    | conflict h1 h2 =>
      cases c with
      | true => exact absurd (hc.1 rfl) h1
      | false => rw [hg.2 h2]; rfl
    | keep h1 h2 =>
      cases c with
      | true => exact absurd (hc.1 rfl) h1
      | false =>
        cases g with
        | true => exact absurd (hg.1 rfl) h2
        | false => rfl
    | freeze h1 h2 =>
      cases c with
      | true => exact absurd (hc.1 rfl) h1
      | false =>
        cases g with
        | true => exact absurd (hg.1 rfl) h2
        | false => rfl
    | other h1 h2 h3 =>
      cases c with
      | true => exact absurd (hc.1 rfl) h1
      | false => cases p <;> first | rfl | exact absurd rfl h2 | exact absurd rfl h3
    | disable h1 h2 =>
      cases c with
      | true => exact absurd (hc.1 rfl) h1
      | false =>
        rcases h2 with h | h
        · cases g with
          | true => exact absurd (hg.1 rfl) h
          | false => cases p <;> rfl
        · subst h; rfl

theorem accessAll_iff (calls path : List Nat) (k : Access) (skip : Node → Bool) (Skip : Node → Prop)
    (hk : ∀ x, skip x = true ↔ Skip x) : ∀ s s' : Tree,
    accessAll calls path k skip s = some s' ↔ Nodes calls path k Skip s s' := by
  intro s
  induction s with
  | nil =>
    intro s'
    refine ⟨fun h => (by cases h; exact .nil), fun h => (by cases h; rfl)⟩
  | cons x s ih =>
    intro s'
    have hs := fun p => step_iff (guarded_iff calls x) (c := path.contains x.tag) (C := x.tag ∈ path) (by simp) k x.perm p
    unfold accessAll
    by_cases hx : skip x = true
    · rw [if_pos hx]
      constructor
      · intro h
        cases h2 : accessAll calls path k skip s with
        | none => rw [h2] at h; cases h
        | some ys =>
          rw [h2] at h
          cases h
          exact .skip ((hk x).1 hx) ((ih ys).1 h2)
      · intro h
        cases h with
        | skip h1 h2 => rw [(ih _).2 h2]
        | cons h1 _ _ => exact absurd ((hk x).1 hx) h1
    · rw [if_neg hx]
      constructor
      · intro h
        cases h1 : step (x.isProtected calls) (path.contains x.tag) k x.perm with
        | none => rw [h1] at h; cases h
        | some p =>
          cases h2 : accessAll calls path k skip s with
          | none => rw [h1, h2] at h; cases h
          | some ys =>
            rw [h1, h2] at h
            cases h
            exact .cons (fun h => hx ((hk x).2 h)) ((hs p).1 h1) ((ih ys).1 h2)
      · intro h
        cases h with
        | skip h1 _ => exact absurd ((hk x).2 h1) hx
        | cons _ h1 h2 => rw [(hs _).2 h1, (ih _).2 h2]

/-- C104: under Tree Borrows an access changes the permissions as described, node by node, or is undefined. -/
theorem C104_tree (calls : List Nat) (t : Nat) (k : Access) (s s' : Tree) :
    access calls t k s = some s' ↔ ∃ g, node t s = some g ∧ Nodes calls g.path k (fun _ => False) s s' := by
  unfold access
  cases node t s with
  | none => simp
  | some g => simp [accessAll_iff calls g.path k (fun _ => false) (fun _ => False) (by simp)]

/-- C104: making a pointer reads through the old one; the new node is below it. -/
theorem C104_tree_retag (calls : List Nat) (t t' : Nat) (perm : Perm) (c : Option Nat) (s s' : Tree) :
    retag calls t t' perm c s = some s' ↔ ∃ g s1, node t s = some g ∧ access calls t .read s = some s1 ∧
      s' = s1 ++ [⟨t', t' :: g.path, perm, c⟩] := by
  unfold retag
  cases node t s with
  | none => simp
  | some g =>
    cases access calls t .read s with
    | none => simp
    | some s1 => simp [eq_comm]

/-- C104: at the end of its protection a pointer is used once more, for writing if it was written through and otherwise for
reading; the pointers made from it take no notice. -/
theorem C104_tree_release (calls : List Nat) (t : Nat) (s s' : Tree) :
    releaseTag calls t s = some s' ↔ (node t s = none ∧ s' = s) ∨ ∃ g, node t s = some g ∧
      ((g.perm = .active ∧ Nodes calls g.path .write (fun x => t ∈ x.path ∧ x.tag ≠ t) s s') ∨
        (g.perm ≠ .active ∧ Nodes calls g.path .read (fun x => t ∈ x.path ∧ x.tag ≠ t) s s')) := by
  unfold releaseTag
  cases node t s with
  | none => simp [eq_comm]
  | some g =>
    simp only
    rw [accessAll_iff calls g.path _ _ (fun x => t ∈ x.path ∧ x.tag ≠ t) (by intro x; simp)]
    by_cases hg : g.perm = .active <;> simp [hg]

theorem becomes_age {G C : Prop} {k : Access} {p p' : Perm} (h : Becomes G C k p p') : age p ≤ age p' := by
  cases h with
  | read => exact Nat.le_refl _
  | write _ h => rcases h with h | h | ⟨h, _⟩ <;> subst h <;> decide
  | conflict => decide
  | keep => decide
  | freeze => decide
  | other => exact Nat.le_refl _
  | disable => cases p <;> decide

theorem nodes_age {calls path : List Nat} {k : Access} {Skip : Node → Prop} {s s' : Tree} (h : Nodes calls path k Skip s s') :
    s'.length = s.length ∧ ∀ (i : Nat) (x : Node), s[i]? = some x → ∃ y, s'[i]? = some y ∧ y.tag = x.tag ∧ y.path = x.path ∧
      y.protector = x.protector ∧ age x.perm ≤ age y.perm := by
  induction h with
  | nil => exact ⟨rfl, fun i x h => by cases h⟩
  | skip _ _ ih =>
    refine ⟨by simp [ih.1], fun i x h => ?_⟩
    cases i with
    | zero => exact ⟨_, rfl, by simp_all⟩
    | succ i => exact ih.2 i x h
  | cons _ hb _ ih =>
    refine ⟨by simp [ih.1], fun i x h => ?_⟩
    cases i with
    | zero =>
      simp only [List.getElem?_cons_zero, Option.some.injEq] at h
      subst h
      exact ⟨_, rfl, rfl, rfl, rfl, becomes_age hb⟩
    | succ i => exact ih.2 i x h

/-- C104: no access makes or removes a node, or changes what it descends from and which call protects it, and permissions only
go forward: reserved, conflicted, active, frozen, disabled. -/
theorem C104_tree_forward (calls : List Nat) (t : Nat) (k : Access) (s s' : Tree) (h : access calls t k s = some s') :
    s'.length = s.length ∧ ∀ (i : Nat) (x : Node), s[i]? = some x → ∃ y, s'[i]? = some y ∧ y.tag = x.tag ∧ y.path = x.path ∧
      y.protector = x.protector ∧ age x.perm ≤ age y.perm := by
  obtain ⟨g, _, hn⟩ := (C104_tree calls t k s s').1 h
  exact nodes_age hn

example := C104_tree_forward [] 1 .read
  [⟨0, [0], .active, none⟩, ⟨1, [1, 0], .reserved, none⟩, ⟨2, [2, 0], .active, none⟩]
  [⟨0, [0], .active, none⟩, ⟨1, [1, 0], .reserved, none⟩, ⟨2, [2, 0], .frozen, none⟩] (by decide)

theorem step_comm (g c d : Bool) (p : Perm) :
    (step g c .read p).bind (step g d .read) = (step g d .read p).bind (step g c .read) := by
  cases g <;> cases c <;> cases d <;> cases p <;> rfl

theorem accessAll_comm (calls p q : List Nat) : ∀ s : Tree,
    (accessAll calls p .read (fun _ => false) s).bind (accessAll calls q .read (fun _ => false))
      = (accessAll calls q .read (fun _ => false) s).bind (accessAll calls p .read (fun _ => false)) := by
  have key : ∀ (a : List Nat) (x : Node) (xs : Tree), accessAll calls a .read (fun _ => false) (x :: xs)
      = (step (x.isProtected calls) (a.contains x.tag) .read x.perm).bind fun r =>
          (accessAll calls a .read (fun _ => false) xs).map fun ys => { x with perm := r } :: ys := by
    intro a x xs
    rw [accessAll]
    simp only [Bool.false_eq_true, if_false]
    cases step (x.isProtected calls) (a.contains x.tag) .read x.perm with
    | none => rfl
    | some r => cases accessAll calls a .read (fun _ => false) xs <;> rfl
  have two : ∀ (a b : List Nat) (x : Node) (xs : Tree),
      (accessAll calls a .read (fun _ => false) (x :: xs)).bind (accessAll calls b .read (fun _ => false))
        = ((step (x.isProtected calls) (a.contains x.tag) .read x.perm).bind
            (step (x.isProtected calls) (b.contains x.tag) .read)).bind fun r =>
            ((accessAll calls a .read (fun _ => false) xs).bind (accessAll calls b .read (fun _ => false))).map
              fun ys => { x with perm := r } :: ys := by
    intro a b x xs
    rw [key]
    cases step (x.isProtected calls) (a.contains x.tag) .read x.perm with
    | none => rfl
    | some r =>
      cases h : accessAll calls a .read (fun _ => false) xs with
      | none => cases h2 : step (x.isProtected calls) (b.contains x.tag) .read r <;> simp [h2]
      | some ys =>
        simp only [Option.bind_some, Option.map_some]
        rw [key]
        rfl
  intro s
  induction s with
  | nil => rfl
  | cons x xs ih => rw [two, two, ih, step_comm]

theorem node_after {calls path : List Nat} {k : Access} (t : Nat) : ∀ {s s' : Tree},
    accessAll calls path k (fun _ => false) s = some s' → (node t s').map (·.path) = (node t s).map (·.path) := by
  intro s
  induction s with
  | nil => intro s' h; cases h; rfl
  | cons x s ih =>
    intro s' h
    have h := (accessAll_iff calls path k (fun _ => false) (fun _ => False) (by simp) _ _).1 h
    cases h with
    | skip hf _ => exact False.elim hf
    | cons _ h1 h2 =>
      have h2 := ih ((accessAll_iff calls path k (fun _ => false) (fun _ => False) (by simp) _ _).2 h2)
      unfold node at h2 ⊢
      rw [List.find?_cons, List.find?_cons]
      simp only
      by_cases hx : x.tag == t
      · rw [hx]; rfl
      · rw [Bool.eq_false_iff.2 hx]; exact h2

/-- C104: under Tree Borrows two reads may be swapped. -/
theorem C104_tree_reads (calls : List Nat) (t u : Nat) (s : Tree) :
    (access calls t .read s).bind (access calls u .read) = (access calls u .read s).bind (access calls t .read) := by
  have one : ∀ (a b : Nat), (access calls a .read s).bind (access calls b .read)
      = (node a s).bind fun g => (node b s).bind fun h =>
          (accessAll calls g.path .read (fun _ => false) s).bind (accessAll calls h.path .read (fun _ => false)) := by
    intro a b
    unfold access
    cases ha : node a s with
    | none => rfl
    | some g =>
      simp only [Option.bind_some]
      cases h1 : accessAll calls g.path .read (fun _ => false) s with
      | none => cases node b s <;> rfl
      | some s1 =>
        have hb := node_after b h1
        simp only [Option.bind_some]
        cases h2 : node b s1 with
        | none =>
          rw [h2] at hb
          cases h3 : node b s with
          | none => rfl
          | some h => rw [h3] at hb; cases hb
        | some h' =>
          rw [h2] at hb
          cases h3 : node b s with
          | none => rw [h3] at hb; cases hb
          | some h =>
            rw [h3] at hb
            simp only [Option.map_some, Option.some.injEq] at hb
            simp only [Option.bind_some]
            rw [hb]
  rw [one, one]
  cases node t s with
  | none => cases node u s <;> rfl
  | some g =>
    cases node u s with
    | none => rfl
    | some h => exact accessAll_comm calls g.path h.path s

/-- Two pointers made from one: reading through the first freezes the second, which was written through, and then neither may
write. -/
example : access [] 1 .read [⟨0, [0], .active, none⟩, ⟨1, [1, 0], .reserved, none⟩, ⟨2, [2, 0], .active, none⟩]
      = some [⟨0, [0], .active, none⟩, ⟨1, [1, 0], .reserved, none⟩, ⟨2, [2, 0], .frozen, none⟩] ∧
    access [] 2 .write [⟨0, [0], .active, none⟩, ⟨1, [1, 0], .reserved, none⟩, ⟨2, [2, 0], .frozen, none⟩] = none ∧
    access [7] 1 .read [⟨0, [0], .active, none⟩, ⟨1, [1, 0], .reserved, none⟩, ⟨2, [2, 0], .active, some 7⟩] = none ∧
    releaseTag [] 1 [⟨0, [0], .active, none⟩, ⟨1, [1, 0], .active, none⟩, ⟨2, [2, 1, 0], .frozen, none⟩, ⟨3, [3, 0], .frozen, none⟩]
      = some [⟨0, [0], .active, none⟩, ⟨1, [1, 0], .active, none⟩, ⟨2, [2, 1, 0], .frozen, none⟩, ⟨3, [3, 0], .disabled, none⟩]
    := by decide

end TreeBorrows

/-- Under Stacked Borrows reads may not be swapped. -/
example : (Borrows.access [] 0 .read [⟨0, .unique, none⟩, ⟨1, .unique, none⟩]).bind (Borrows.access [] 1 .read) = none ∧
    (Borrows.access [] 1 .read [⟨0, .unique, none⟩, ⟨1, .unique, none⟩]).bind (Borrows.access [] 0 .read)
      = some [⟨0, .unique, none⟩, ⟨1, .disabled, none⟩] := by decide

end Rescan
