import Verif.Proofs.CharReach
/-! # `fill_bitvector` and `Display` -/
namespace Rescan.CharReach

open Spec

theorem fillStep_release (bits : List U8) (pos : U8) :
    fillStep .release bits pos = .ok (bits.modify (pos.toNat / 8) (fun b => b ||| 1#8)) := by
  have h : ∀ pos : U8, shlOneChk .release (pos &&& 8#8) = .ok 1#8 := by decide +kernel
  unfold fillStep
  rw [h, Outcome.ok_bind]
  have : (pos / 8#8).toNat = pos.toNat / 8 := by simp
  rw [this]; rfl

theorem fillStep_debug (bits : List U8) (pos : U8) :
    fillStep .debug bits pos = if pos.getLsbD 3 then .panic "attempt to shift left with overflow"
      else .ok (bits.modify (pos.toNat / 8) (fun b => b ||| 1#8)) := by
  have h : ∀ pos : U8, shlOneChk .debug (pos &&& 8#8) =
      if pos.getLsbD 3 then .panic "attempt to shift left with overflow" else .ok 1#8 := by
    decide +kernel
  have h8 : (pos / 8#8).toNat = pos.toNat / 8 := by simp
  unfold fillStep
  rw [h]
  split
  · rfl
  · rw [Outcome.ok_bind, h8]; rfl

/-- What the loop leaves in byte `j`. -/
def fillByte (l : List U8) (j : Nat) (b : U8) : U8 :=
  if l.any (fun c => c.toNat / 8 == j) then b ||| 1#8 else b

theorem modify_fold (l : List U8) : ∀ (bits : List U8),
    (l.foldl (fun bits c => bits.modify (c.toNat / 8) (fun b => b ||| 1#8)) bits)
      = bits.mapIdx (fillByte l) := by
  induction l with
  | nil =>
    intro bits
    apply List.ext_getElem?
    intro j
    rw [List.getElem?_mapIdx]
    cases h : bits[j]? <;> simp [fillByte, h]
  | cons c l ih =>
    intro bits
    rw [List.foldl_cons, ih]
    apply List.ext_getElem?
    intro j
    rw [List.getElem?_mapIdx, List.getElem?_mapIdx, List.getElem?_modify]
    cases h : bits[j]? with
    | none => rfl
    | some b =>
      have hf : ∀ x : U8, fillByte (c :: l) j x
          = if (c.toNat / 8 == j || l.any (fun c => c.toNat / 8 == j)) then x ||| 1#8 else x := fun _ => rfl
      have hg : ∀ x : U8, fillByte l j x
          = if l.any (fun c => c.toNat / 8 == j) then x ||| 1#8 else x := fun _ => rfl
      show some (fillByte l j (if c.toNat / 8 = j then b ||| 1#8 else b)) = some (fillByte (c :: l) j b)
      rw [hf, hg]
      generalize l.any (fun c => c.toNat / 8 == j) = y
      by_cases h1 : c.toNat / 8 = j
      · cases y <;> simp [h1, BitVec.or_assoc]
      · simp [h1]

theorem foldlM_release (l : List U8) : ∀ bits : List U8,
    l.foldlM (fillStep .release) bits = .ok (bits.mapIdx (fillByte l)) := by
  intro bits
  rw [← modify_fold]
  induction l generalizing bits with
  | nil => rfl
  | cons c l ih =>
    rw [List.foldlM_cons, fillStep_release, Outcome.ok_bind, ih]; rfl

theorem foldlM_debug (l : List U8) : ∀ bits : List U8,
    l.foldlM (fillStep .debug) bits = if l.any (fun c => c.getLsbD 3)
      then .panic "attempt to shift left with overflow" else .ok (bits.mapIdx (fillByte l)) := by
  intro bits
  rw [← modify_fold]
  induction l generalizing bits with
  | nil => rfl
  | cons c l ih =>
    rw [List.foldlM_cons, fillStep_debug, List.any_cons]
    by_cases hc : c.getLsbD 3 = true
    · simp only [hc, if_true, Bool.true_or]; rfl
    · simp only [Bool.not_eq_true] at hc
      simp only [hc, Bool.false_or, Outcome.ok_bind, ih, List.foldl_cons, Bool.false_eq_true, if_false]

theorem fillByte_members (cr : CharReach) (j : Nat) (b : U8) :
    fillByte cr.memberSeq j b = if ∃ c, cr.test c = true ∧ c.toNat / 8 = j then b ||| 1#8 else b := by
  unfold fillByte
  have : (cr.memberSeq.any (fun c => c.toNat / 8 == j) = true) ↔
      ∃ c, cr.test c = true ∧ c.toNat / 8 = j := by
    rw [List.any_eq_true]; simp [mem_memberSeq]
  by_cases h : ∃ c, cr.test c = true ∧ c.toNat / 8 = j
  · rw [if_pos (this.2 h), if_pos h]
  · rw [if_neg (fun e => h (this.1 e)), if_neg h]

theorem char_inj_u8 (a b : U8) (h : Char.ofNat a.toNat = Char.ofNat b.toNat) : a = b := by
  have key : ∀ c : U8, (Char.ofNat c.toNat).toNat = c.toNat := by decide +kernel
  rw [← BitVec.toNat_inj, ← key a, ← key b, h]

theorem map_inj {α β : Type} (f : α → β) (hf : ∀ a b, f a = f b → a = b) :
    ∀ l1 l2 : List α, l1.map f = l2.map f → l1 = l2
  | [], [], _ => rfl
  | [], _ :: _, h => by simp at h
  | _ :: _, [], h => by simp at h
  | a :: l1, b :: l2, h => by
    rw [List.map_cons, List.map_cons, List.cons.injEq] at h
    rw [hf _ _ h.1, map_inj f hf l1 l2 h.2]

end Rescan.CharReach
