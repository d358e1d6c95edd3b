import Verif.Model.BitVecStore
/-! # Property C91: the case flags of a literal as bit-vec stores them -/
namespace Rescan
namespace BitStore

variable {ε : Type}

/-- Bit `i` of the blocks; zero beyond them. -/
def bitAt (s : List U32) (i : Nat) : Bool := (s[i / 32]?.getD 0#32).getLsbD (i % 32)

/-- The stored bits are `l`, and the rest of the last block is zero. -/
structure Stores (v : BitStore) (l : List Bool) : Prop where
  nbits : v.nbits = l.length
  blocks : v.storage.length = (l.length + 31) / 32
  bits : ∀ i, bitAt v.storage i = l[i]?.getD false

theorem shl_ok (p : Profile) (b : Nat) (h : b < 32) : (shlChk p 1#32 b : Outcome ε _) = .ok (1#32 <<< b) := by
  unfold shlChk
  rw [if_neg (by omega), Nat.mod_eq_of_lt h]

theorem flag_bit (b j : Nat) (h : b < 32) : (1#32 <<< b).getLsbD j = decide (j = b) := by
  rw [BitVec.getLsbD_shiftLeft, BitVec.getLsbD_one]
  by_cases e : j = b
  · subst e; simp [h]
  · by_cases hj : j < b
    · simp [hj, e]
    · have : ¬ j - b = 0 := by omega
      simp [e, this]

theorem block_test (x : U32) (b : Nat) (h : b < 32) : ((x &&& (1#32 <<< b)) != 0#32) = x.getLsbD b := by
  cases hx : x.getLsbD b with
  | true =>
    have : x &&& (1#32 <<< b) ≠ 0#32 := by
      intro e
      have := congrArg (fun y => y.getLsbD b) e
      simp [BitVec.getLsbD_and, flag_bit b b h, hx] at this
    simpa using this
  | false =>
    have : x &&& (1#32 <<< b) = 0#32 := by
      apply BitVec.eq_of_getLsbD_eq
      intro j hj
      rw [BitVec.getLsbD_and, flag_bit b j h]
      by_cases e : j = b
      · subst e; simp [hx]
      · simp [e]
    simp [this]

theorem stores_new : Stores new [] := ⟨rfl, rfl, fun i => by simp [bitAt, new]⟩

theorem stores_push (p : Profile) {v : BitStore} {l : List Bool} (h : Stores v l) (x : Bool)
    (hl : l.length + 1 < 2 ^ 64) : ∃ v', (push p v x : Outcome ε _) = .ok v' ∧ Stores v' (l ++ [x]) := by
  have hb : l.length % 32 < 32 := Nat.mod_lt _ (by decide)
  generalize hst : (if l.length % 32 = 0 then v.storage ++ [0#32] else v.storage) = st
  have hlen : st.length = (l.length + 1 + 31) / 32 := by
    rw [← hst]
    split
    · simp [h.blocks]; omega
    · rw [h.blocks]; omega
  have hst' : ∀ i, bitAt st i = l[i]?.getD false := by
    intro i
    rw [← hst, ← h.bits i]
    split
    · unfold bitAt
      by_cases hi : i / 32 < v.storage.length
      · rw [List.getElem?_append_left hi]
      · rw [List.getElem?_append_right (by omega), List.getElem?_eq_none (Nat.not_lt.mp hi)]
        cases i / 32 - v.storage.length with
        | zero => rfl
        | succ n => rfl
    · rfl
  have hw : l.length / 32 < st.length := by rw [hlen]; omega
  have hnew : st[l.length / 32]? = some st[l.length / 32] := List.getElem?_eq_getElem hw
  refine ⟨⟨st.set (l.length / 32) (if x then st[l.length / 32] ||| (1#32 <<< (l.length % 32))
    else st[l.length / 32] &&& ~~~ (1#32 <<< (l.length % 32))), l.length + 1⟩, ?_, ?_⟩
  · unfold push
    simp only [h.nbits, hst, if_pos hl]
    unfold set
    simp only [rassert, Nat.lt_succ_self, decide_true, if_true]
    show Outcome.bind (shlChk p 1#32 (l.length % 32)) _ = _
    rw [shl_ok p _ hb]
    show Outcome.bind (index st (l.length / 32)) _ = _
    unfold index
    rw [hnew]; rfl
  · refine ⟨by simp, by simp [hlen], fun i => ?_⟩
    have hi := hst' i
    unfold bitAt at hi ⊢
    simp only [List.getElem?_set]
    by_cases hblk : l.length / 32 = i / 32
    · rw [if_pos hblk, if_pos hw]
      rw [← hblk, hnew] at hi
      simp only [Option.getD_some] at hi ⊢
      have hval : (if x then st[l.length / 32] ||| (1#32 <<< (l.length % 32))
          else st[l.length / 32] &&& ~~~ (1#32 <<< (l.length % 32))).getLsbD (i % 32)
          = if i % 32 = l.length % 32 then x else st[l.length / 32].getLsbD (i % 32) := by
        have hi32 : i % 32 < 32 := Nat.mod_lt _ (by decide)
        cases x
        · simp only [Bool.false_eq_true, if_false, BitVec.getLsbD_and, BitVec.getLsbD_not, flag_bit _ _ hb]
          split <;> rename_i e <;> simp [e, hi32, hb]
        · simp only [if_true, BitVec.getLsbD_or, flag_bit _ _ hb]
          split <;> rename_i e <;> simp [e]
      rw [hval]
      by_cases e : i = l.length
      · subst e; simp
      · rw [if_neg (by omega), hi]
        by_cases hlt : i < l.length
        · rw [List.getElem?_append_left hlt]
        · rw [List.getElem?_eq_none (by omega), List.getElem?_eq_none (by simp; omega)]
    · rw [if_neg hblk, hi]
      by_cases hlt : i < l.length
      · rw [List.getElem?_append_left hlt]
      · have : i ≠ l.length := fun e => hblk (by rw [e])
        rw [List.getElem?_eq_none (by omega), List.getElem?_eq_none (by simp; omega)]

theorem stores_fold (p : Profile) : ∀ (r : List Bool) (v : BitStore) (l : List Bool), Stores v l →
    (l ++ r).length < 2 ^ 64 →
    ∃ v', (r.foldlM (fun v x => push p v x) v : Outcome ε _) = .ok v' ∧ Stores v' (l ++ r)
  | [], v, l, h, _ => ⟨v, rfl, by simpa using h⟩
  | x :: r, v, l, h, hl => by
    obtain ⟨v1, h1, h2⟩ := stores_push (ε := ε) p h x (by simp at hl; omega)
    obtain ⟨v2, h3, h4⟩ := stores_fold p r v1 (l ++ [x]) h2 (by simpa using hl)
    refine ⟨v2, ?_, by simpa using h4⟩
    simp only [List.foldlM_cons]
    rw [h1]; exact h3

theorem stores_get (p : Profile) {v : BitStore} {l : List Bool} (h : Stores v l) (i : Nat) :
    (get p v i : Outcome ε _) = .ok l[i]? := by
  unfold get
  rw [h.nbits]
  by_cases hi : l.length ≤ i
  · rw [if_pos hi, List.getElem?_eq_none hi]
  · rw [if_neg hi]
    have hw : i / 32 < v.storage.length := by rw [h.blocks]; omega
    have hbit := h.bits i
    unfold bitAt at hbit
    have hb : i % 32 < 32 := Nat.mod_lt _ (by decide)
    simp only [List.getElem?_eq_getElem hw, Option.getD_some] at hbit ⊢
    rw [shl_ok p _ hb]
    show Outcome.ok (some _) = _
    rw [block_test _ _ hb, hbit, List.getElem?_eq_getElem (Nat.not_le.mp hi)]; rfl

theorem stores_any {v : BitStore} {l : List Bool} (h : Stores v l) : v.any = l.any id := by
  unfold any
  rw [Bool.eq_iff_iff]
  simp only [Bool.not_eq_true', List.all_eq_false, List.any_eq_true, id_eq, exists_eq_right, beq_iff_eq]
  constructor
  · rintro ⟨w, hw, hne⟩
    obtain ⟨k, hk, rfl⟩ := List.getElem_of_mem hw
    have : ∃ j, j < 32 ∧ (v.storage[k]).getLsbD j = true := by
      apply Classical.byContradiction
      intro hno
      apply hne
      apply BitVec.eq_of_getLsbD_eq
      intro j hj
      cases hb : (v.storage[k]).getLsbD j with
      | false => simp
      | true => exact absurd ⟨j, hj, hb⟩ hno
    obtain ⟨j, hj, hb⟩ := this
    have hbit := h.bits (32 * k + j)
    unfold bitAt at hbit
    rw [show (32 * k + j) / 32 = k by omega, show (32 * k + j) % 32 = j by omega,
      List.getElem?_eq_getElem hk, Option.getD_some, hb] at hbit
    cases hg : l[32 * k + j]? with
    | none => rw [hg] at hbit; cases hbit
    | some y => rw [hg] at hbit; cases hbit; exact List.mem_of_getElem? hg
  · intro hm
    obtain ⟨i, hi, he⟩ := List.getElem_of_mem hm
    have hw : i / 32 < v.storage.length := by rw [h.blocks]; omega
    refine ⟨v.storage[i / 32], List.getElem_mem hw, fun e => ?_⟩
    have hbit := h.bits i
    unfold bitAt at hbit
    rw [List.getElem?_eq_getElem hw, Option.getD_some, e, List.getElem?_eq_getElem hi, Option.getD_some, he] at hbit
    simp at hbit

theorem stores_next (p : Profile) {v : BitStore} {l : List Bool} (h : Stores v l) (i : Nat) :
    (iterNext p v i : Outcome ε _) = .ok (l[i]?.map (fun x => (x, i + 1))) := by
  unfold iterNext
  rw [h.nbits]
  by_cases hi : i < l.length
  · rw [if_pos hi, stores_get p h i, List.getElem?_eq_getElem hi]; rfl
  · rw [if_neg hi, List.getElem?_eq_none (by omega)]; rfl

theorem cmpBools_same (x : Bool) (a b : List Bool) :
    Ue2Literal.cmpBools (x :: a) (x :: b) = Ue2Literal.cmpBools a b := by
  rw [Ue2Literal.cmpBools]; cases x <;> rfl

theorem stores_cmp (p : Profile) {a b : BitStore} {l m : List Bool} (ha : Stores a l) (hb : Stores b m) :
    ∀ (fuel i : Nat), (l.drop i).length < fuel →
      (cmpLoop p a b fuel i i : Outcome ε _) = .ok (Ue2Literal.cmpBools (l.drop i) (m.drop i))
  | 0, _, hf => absurd hf (Nat.not_lt_zero _)
  | fuel + 1, i, hf => by
    unfold cmpLoop
    rw [stores_next p ha i, stores_next p hb i]
    by_cases hi : i < l.length
    · rw [List.getElem?_eq_getElem hi, List.drop_eq_getElem_cons hi]
      by_cases hj : i < m.length
      · rw [List.getElem?_eq_getElem hj, List.drop_eq_getElem_cons hj]
        show (if l[i] = m[i] then cmpLoop p a b fuel (i + 1) (i + 1) else _) = _
        by_cases e : l[i] = m[i]
        · rw [if_pos e, stores_cmp p ha hb fuel (i + 1) (by simp at hf ⊢; omega)]
          rw [e, cmpBools_same]
        · rw [if_neg e]
          unfold Ue2Literal.cmpBools
          revert e
          cases l[i] <;> cases m[i] <;> intro e <;> first | rfl | exact absurd rfl e
      · rw [List.getElem?_eq_none (Nat.not_lt.mp hj), List.drop_eq_nil_of_le (Nat.not_lt.mp hj)]; rfl
    · rw [List.getElem?_eq_none (Nat.not_lt.mp hi), List.drop_eq_nil_of_le (Nat.not_lt.mp hi)]
      by_cases hj : i < m.length
      · rw [List.getElem?_eq_getElem hj, List.drop_eq_getElem_cons hj]; rfl
      · rw [List.getElem?_eq_none (Nat.not_lt.mp hj), List.drop_eq_nil_of_le (Nat.not_lt.mp hj)]; rfl

/-- **C91.** Pushing any flags (fewer than 2^64) never panics; afterwards there is one block per 32 flags
begun, each flag reads back, reading beyond them gives nothing, and the test for a set flag sees exactly the
flags pushed, no stray bit of the last block. -/
theorem C91_flags (p : Profile) (l : List Bool) (hl : l.length < 2 ^ 64) :
    ∃ v, (pushAll p l : Outcome ε _) = .ok v ∧ v.nbits = l.length ∧ v.storage.length = (l.length + 31) / 32 ∧
      (∀ i, (get p v i : Outcome ε _) = .ok l[i]?) ∧ (v.any = true ↔ true ∈ l) := by
  obtain ⟨v, h1, h2⟩ := stores_fold (ε := ε) p l new [] stores_new (by simpa using hl)
  have h2 : Stores v l := by simpa using h2
  refine ⟨v, h1, h2.nbits, h2.blocks, stores_get p h2, ?_⟩
  rw [stores_any h2]; simp

example : ∃ v, (pushAll .release (List.replicate 40 false ++ [true]) : Outcome Empty _) = .ok v ∧ v.any = true := by
  obtain ⟨v, h1, h2⟩ := C91_flags (ε := Empty) .release (List.replicate 40 false ++ [true]) (by decide)
  exact ⟨v, h1, h2.2.2.2.2 (by simp)⟩

/-- **C91.** Comparing two stored lists of flags never panics, ends after at most one step per flag of the
first and one more, and gives the order of the lists. -/
theorem C91_order (p : Profile) (l m : List Bool) (a b : BitStore) (hl : l.length < 2 ^ 64) (hm : m.length < 2 ^ 64)
    (ha : (pushAll p l : Outcome ε _) = .ok a) (hb : (pushAll p m : Outcome ε _) = .ok b) (fuel : Nat)
    (hf : l.length < fuel) :
    (cmp p fuel a b : Outcome ε _) = .ok (Ue2Literal.cmpBools l m) := by
  obtain ⟨a', h1, h2⟩ := stores_fold (ε := ε) p l new [] stores_new (by simpa using hl)
  obtain ⟨b', h3, h4⟩ := stores_fold (ε := ε) p m new [] stores_new (by simpa using hm)
  have e1 := ha.symm.trans h1
  have e2 := hb.symm.trans h3
  cases e1; cases e2
  exact stores_cmp p (by simpa using h2) (by simpa using h4) fuel 0 (by simpa using hf)

example : (cmp .debug 40 ⟨[0x1#32], 2⟩ ⟨[0x3#32], 2⟩ : Outcome Empty _) = .ok (Ue2Literal.cmpBools [true, false] [true, true]) :=
  C91_order .debug [true, false] [true, true] _ _ (by decide) (by decide) (by decide +kernel) (by decide +kernel) 40
    (by decide)

/-- **C91.** The number of flags is kept in 64 bits: one push beyond them panics instead of wrapping. -/
theorem C91_limit (p : Profile) (v : BitStore) (x : Bool) (h : 2 ^ 64 ≤ v.nbits + 1) :
    (push p v x : Outcome ε _) = .panic "Capacity overflow" := by
  unfold push
  simp only [if_neg (Nat.not_lt.mpr h)]

/-- 33 flags take two blocks. -/
example : (pushAll .debug (true :: List.replicate 31 false ++ [true]) : Outcome Empty _)
    = .ok ⟨[1#32, 1#32], 33⟩ := by decide +kernel
/-- A flag in the second block is compared after those of the first. -/
example : (do
    let a ← pushAll .release (List.replicate 32 false ++ [true])
    let b ← pushAll .release (List.replicate 32 false ++ [false, true])
    cmp .release 40 a b : Outcome Empty _) = .ok .gt := by decide +kernel
/-- The last push that does not fit. -/
example : (push .release ⟨[], 2 ^ 64 - 1⟩ true : Outcome Empty _) = .panic "Capacity overflow" :=
  C91_limit _ _ _ (by decide)

end BitStore
end Rescan
