import Verif.Proofs.Literal
/-! # C20-C22: literals -/
namespace Rescan

open Spec

namespace Ue2Literal

/-- The literal after a history of `push(c, nocase)` calls on an empty literal. -/
def ofPushes (ps : List (U8 × Bool)) : Ue2Literal := ps.foldl (fun l p => l.push p.1 p.2) default

/-- What a pushed byte is remembered as: upper-cased iff it is a lower-case letter pushed `nocase`. -/
def Remembered (p : U8 × Bool) (e : Ue2LiteralElem) : Prop :=
  e.nocase = p.2 ∧
    (p.2 = true ∧ isLower p.1 → e.c.toNat + 32 = p.1.toNat) ∧
    (¬ (p.2 = true ∧ isLower p.1) → e.c = p.1)

theorem remembered_upper (p : U8 × Bool) :
    Remembered p ⟨if p.2 then mytoupper p.1 else p.1, p.2⟩ := by
  refine ⟨rfl, ?_, ?_⟩
  · rintro ⟨h1, h2⟩; rw [if_pos h1]; exact mytoupper_lower _ h2
  · intro h
    cases hb : p.2
    · simp
    · rw [hb] at h; simp at h; rw [if_pos rfl]; exact mytoupper_other _ h

/-- C20: a literal records what was pushed. -/
theorem C20_records (ps : List (U8 × Bool)) :
    (ofPushes ps).len = ps.length ∧ ((ofPushes ps).isEmpty = true ↔ ps = []) ∧
    (ofPushes ps).iter.length = ps.length ∧
    (∀ (i : Nat) p, ps[i]? = some p → ∃ e, (ofPushes ps).iter[i]? = some e ∧ Remembered p e) ∧
    ((ofPushes ps).anyNocase = true ↔ ∃ p ∈ ps, p.2 = true) := by
  obtain ⟨h1, h2⟩ := push_fold ps default rfl
  have hs : (ofPushes ps).s = ps.map (fun p => if p.2 then mytoupper p.1 else p.1) := by
    unfold ofPushes; rw [h1]; rfl
  have hn : (ofPushes ps).nocase = ps.map Prod.snd := by
    unfold ofPushes; rw [h2]; rfl
  have hit : (ofPushes ps).iter = ps.map (fun p => ⟨if p.2 then mytoupper p.1 else p.1, p.2⟩) := by
    unfold iter; rw [hs, hn, List.zipWith_map, List.zipWith_self]
  refine ⟨by unfold len; rw [hs]; simp, ?_, by rw [hit]; simp, ?_, ?_⟩
  · unfold isEmpty; rw [hs]; cases ps <;> simp
  · intro i p hp
    refine ⟨_, by rw [hit, List.getElem?_map, hp]; rfl, remembered_upper p⟩
  · unfold anyNocase; rw [hn]; simp [List.any_eq_true]

example : (ofPushes [(0x61#8, true), (0x61#8, false)]).iter = [⟨0x41#8, true⟩, ⟨0x61#8, false⟩] := by
  decide

end Ue2Literal

/-- C21: a literal is mixed iff it has a case-sensitive letter and a case-insensitive one.  Being a
statement about which elements occur, it does not depend on their order or on non-letters. -/
theorem C21_mixed (it : List Ue2LiteralElem) :
    mixedSensitivity it = true ↔
      (∃ e ∈ it, isLetter e.c ∧ e.nocase = false) ∧ (∃ e ∈ it, isLetter e.c ∧ e.nocase = true) := by
  rw [mixedSensitivity_eq, Bool.and_eq_true, List.any_eq_true, List.any_eq_true]
  simp [ourisalpha_iff]

example : mixedSensitivity [⟨0x41#8, true⟩, ⟨0x31#8, false⟩] = false ∧
    mixedSensitivity [⟨0x41#8, true⟩, ⟨0x42#8, false⟩] = true := by decide

namespace Ue2Literal

/-- C22: the ordering is a total order; it distinguishes all literals. -/
theorem C22_total_order (a b c : Ue2Literal) :
    (a.cmp b = .eq ↔ a = b) ∧ b.cmp a = (a.cmp b).swap ∧
    (a.cmp b ≠ .gt → b.cmp c ≠ .gt → a.cmp c ≠ .gt) :=
  ⟨⟨cmp_total.eq_of a b, fun h => h ▸ cmp_total.refl a⟩, cmp_total.swap a b,
    cmp_total.le_trans a b c⟩

example : (⟨[0x41#8], [false]⟩ : Ue2Literal).cmp ⟨[0x41#8], [true]⟩ ≠ .gt ∧
    (⟨[0x41#8], [true]⟩ : Ue2Literal).cmp ⟨[0x41#8, 0x42#8], [true, false]⟩ ≠ .gt := by decide

/-- C22: which order it is: dictionary order of the bytes, then dictionary order of the case flags with
`false` before `true`. -/
theorem C22_order (a b : Ue2Literal) :
    a.cmp b = .lt ↔ LexBefore (· < ·) a.s b.s ∨
      (a.s = b.s ∧ LexBefore (fun x y => x = false ∧ y = true) a.nocase b.nocase) := by
  rw [← cmpBytes_lt, ← cmpBools_lt]
  unfold cmp
  cases h : cmpBytes a.s b.s
  · simp
  · simp [cmpBytes_total.eq_of _ _ h]
  · have hne : a.s ≠ b.s := fun e => by
      rw [e, cmpBytes_total.refl] at h; cases h
    simp [hne]

example : (ofPushes [(0x41#8, true)]).cmp (ofPushes [(0x42#8, false)]) = .lt ∧
    (ofPushes [(0x42#8, false)]).cmp (ofPushes [(0x41#8, false), (0x41#8, true)]) = .gt := by decide

/-- C22, full statement of the second part. -/
def EqAgreesWithCmp : Prop := ∀ a b : Ue2Literal, a.eq b = true ↔ a.cmp b = .eq

/-- C22: the second part is false of the code: `==` ignores case sensitivity.  The witnesses are
literals built with `push`. -/
theorem C22_false : ¬ EqAgreesWithCmp := by
  intro h
  have := h (ofPushes [(0x41#8, false)]) (ofPushes [(0x41#8, true)])
  revert this; decide

/-- C22, what holds (missing: literals that differ in case sensitivity only are `==` though ordered):
`==` is equality of the bytes; literals the ordering calls equal are `==`, and `==` literals of equal
case sensitivity are equal in the ordering. -/
theorem C22_eq_cmp_partial (a b : Ue2Literal) :
    (a.eq b = true ↔ a.s = b.s) ∧
    (a.cmp b = .eq → a.eq b = true) ∧ (a.eq b = true → a.nocase = b.nocase → a.cmp b = .eq) := by
  refine ⟨by simp [eq], fun h => ?_, fun h1 h2 => ?_⟩
  · rw [cmp_total.eq_of a b h]; unfold eq; simp
  · have : a = b := by
      cases a; cases b; unfold eq at h1; simp at h1 h2; rw [h1, h2]
    rw [this]; exact cmp_total.refl b

example : (ofPushes [(0x41#8, false)]).cmp (ofPushes [(0x41#8, true)]) = .lt ∧
    (ofPushes [(0x41#8, false)]).cmp (ofPushes [(0x41#8, false), (0x41#8, true)]) = .lt := by decide

end Ue2Literal
end Rescan
