import Verif.Model.Report
import Verif.Spec.History
import Verif.Proofs.BitField
/-! # Lemmas about the report manager -/
namespace Rescan

open Spec

/-! ## Association lists -/

theorem alookup_nil {α β : Type} [DecidableEq α] (k : α) : alookup ([] : List (α × β)) k = none := rfl

theorem alookup_cons {α β : Type} [DecidableEq α] (k k' : α) (v : β) (m : List (α × β)) :
    alookup ((k', v) :: m) k = if k' = k then some v else alookup m k := by
  unfold alookup
  rw [List.find?_cons]
  by_cases h : k' = k
  · simp [h]
  · have : (k' == k) = false := by simp [h]
    simp only [this, if_neg h]

/-! ## The abstract numbering service -/

namespace Spec

variable {α : Type} [DecidableEq α]

theorem assign_nodup (limit : Nat) (seen : List α) (k : α) (h : seen.Nodup) :
    (assign limit seen k).1.Nodup := by
  unfold assign
  split
  · exact h
  · split
    · exact h
    · next h1 _ =>
      rw [List.nodup_append]
      exact ⟨h, by simp, fun a ha b hb e => h1 (by simp at hb; rw [← hb, ← e]; exact ha)⟩

theorem assign_prefix (limit : Nat) (seen : List α) (k : α) : seen <+: (assign limit seen k).1 := by
  unfold assign
  split
  · exact List.prefix_refl _
  · split
    · exact List.prefix_refl _
    · exact List.prefix_append _ _

/-- An answered number is the position of the key from then on. -/
theorem assign_some (limit : Nat) (seen : List α) (k : α) (i : Nat) (h : (assign limit seen k).2 = some i) :
    (assign limit seen k).1[i]? = some k := by
  unfold assign at h ⊢
  split
  · next h1 =>
    rw [if_pos h1] at h
    simp only [Option.some.injEq] at h
    rw [← h, List.getElem?_eq_getElem (List.idxOf_lt_length_iff.2 h1)]
    rw [List.getElem_idxOf]
  · next h1 =>
    rw [if_neg h1] at h
    split
    · next h2 => rw [if_pos h2] at h; cases h
    · next h2 =>
      rw [if_neg h2] at h
      simp only [Option.some.injEq] at h
      rw [← h, List.getElem?_append_right (Nat.le_refl _)]; simp

theorem assignAll_nodup (limit : Nat) : ∀ (ks seen : List α), seen.Nodup →
    (assignAll limit seen ks).1.Nodup := by
  intro ks
  induction ks with
  | nil => intro seen h; exact h
  | cons k ks ih => intro seen h; exact ih _ (assign_nodup limit seen k h)

theorem assignAll_prefix (limit : Nat) : ∀ (ks seen : List α), seen <+: (assignAll limit seen ks).1 := by
  intro ks
  induction ks with
  | nil => intro seen; exact List.prefix_refl _
  | cons k ks ih => intro seen; exact (assign_prefix limit seen k).trans (ih _)

theorem prefix_getElem? {l1 l2 : List α} (h : l1 <+: l2) {i : Nat} {x : α} (hx : l1[i]? = some x) :
    l2[i]? = some x := by
  obtain ⟨t, rfl⟩ := h
  rw [List.getElem?_append_left (by rw [List.getElem?_eq_some_iff] at hx; exact hx.1)]; exact hx

theorem assignAll_length (limit : Nat) : ∀ (ks seen : List α),
    (assignAll limit seen ks).2.length = ks.length := by
  intro ks
  induction ks with
  | nil => intro seen; rfl
  | cons k ks ih => intro seen; simp only [assignAll, List.length_cons, ih]

/-- Every answered number is the position of its key in the final list. -/
theorem assignAll_some (limit : Nat) : ∀ (ks seen : List α) (j i : Nat) (k : α), ks[j]? = some k →
    (assignAll limit seen ks).2[j]? = some (some i) → (assignAll limit seen ks).1[i]? = some k := by
  intro ks
  induction ks with
  | nil => intro seen j i k h; simp at h
  | cons k' ks ih =>
    intro seen j i k hk hr
    cases j with
    | zero =>
      simp at hk
      subst hk
      simp only [assignAll, List.getElem?_cons_zero, Option.some.injEq] at hr
      exact prefix_getElem? (assignAll_prefix limit ks _) (assign_some limit seen k' i hr)
    | succ j =>
      simp only [assignAll, List.getElem?_cons_succ] at hk hr ⊢
      exact ih _ j i k hk hr

/-- Every key held at the end was held at the start or answered with its position. -/
theorem assignAll_range (limit : Nat) : ∀ (ks seen : List α) (i : Nat),
    i < (assignAll limit seen ks).1.length → i < seen.length ∨ some i ∈ (assignAll limit seen ks).2 := by
  intro ks
  induction ks with
  | nil => intro seen i h; exact Or.inl h
  | cons k ks ih =>
    intro seen i h
    rcases ih (assign limit seen k).1 i h with h1 | h1
    · unfold assign at h1
      split at h1
      · exact Or.inl h1
      · next hk =>
        split at h1
        · exact Or.inl h1
        · next hl =>
          rw [List.length_append, List.length_singleton] at h1
          by_cases hlt : i < seen.length
          · exact Or.inl hlt
          · right
            have : i = seen.length := by omega
            simp only [assignAll, List.mem_cons]
            left
            unfold assign
            rw [if_neg hk, if_neg hl, this]
    · exact Or.inr (List.mem_cons_of_mem _ h1)

theorem assignAll_append (limit : Nat) : ∀ (ks ks' seen : List α),
    assignAll limit seen (ks ++ ks') =
      ((assignAll limit (assignAll limit seen ks).1 ks').1,
        (assignAll limit seen ks).2 ++ (assignAll limit (assignAll limit seen ks).1 ks').2) := by
  intro ks
  induction ks with
  | nil => intro ks' seen; rfl
  | cons k ks ih => intro ks' seen; simp only [List.cons_append, assignAll, ih]

theorem assignAll_len_le (limit : Nat) : ∀ (ks seen : List α), seen.length ≤ limit →
    (assignAll limit seen ks).1.length ≤ limit := by
  intro ks
  induction ks with
  | nil => intro seen h; exact h
  | cons k ks ih =>
    intro seen h
    apply ih
    unfold assign
    split
    · exact h
    · split
      · exact h
      · rw [List.length_append, List.length_singleton]; omega

/-- The keys held are those held at the start and those answered. -/
theorem assignAll_mem (limit : Nat) : ∀ (ks seen : List α) (k : α), k ∈ (assignAll limit seen ks).1 ↔
    k ∈ seen ∨ ∃ j : Nat, ks[j]? = some k ∧ ∃ i, (assignAll limit seen ks).2[j]? = some (some i) := by
  intro ks
  induction ks with
  | nil => intro seen k; simp [assignAll]
  | cons k' ks ih =>
    intro seen k
    rw [show (assignAll limit seen (k' :: ks)).1 = (assignAll limit (assign limit seen k').1 ks).1 from rfl, ih]
    have hout : (assignAll limit seen (k' :: ks)).2
        = (assign limit seen k').2 :: (assignAll limit (assign limit seen k').1 ks).2 := rfl
    rw [hout]
    have hstep : k ∈ (assign limit seen k').1 ↔ k ∈ seen ∨ (k' = k ∧ ∃ i, (assign limit seen k').2 = some i) := by
      unfold assign
      split
      · next h1 =>
        constructor
        · exact Or.inl
        · rintro (h | ⟨rfl, _⟩)
          · exact h
          · exact h1
      · split
        · constructor
          · exact Or.inl
          · rintro (h | ⟨_, i, hi⟩)
            · exact h
            · cases hi
        · rw [List.mem_append, List.mem_singleton]
          constructor
          · rintro (h | h)
            · exact Or.inl h
            · exact Or.inr ⟨h.symm, _, rfl⟩
          · rintro (h | ⟨h, _⟩)
            · exact Or.inl h
            · exact Or.inr h.symm
    rw [hstep]
    constructor
    · rintro ((h | ⟨rfl, i, hi⟩) | ⟨j, hj, i, hi⟩)
      · exact Or.inl h
      · exact Or.inr ⟨0, rfl, i, by rw [List.getElem?_cons_zero, hi]⟩
      · exact Or.inr ⟨j + 1, by rw [List.getElem?_cons_succ]; exact hj, i,
          by rw [List.getElem?_cons_succ]; exact hi⟩
    · rintro (h | ⟨j, hj, i, hi⟩)
      · exact Or.inl (Or.inl h)
      · cases j with
        | zero =>
          rw [List.getElem?_cons_zero, Option.some.injEq] at hj hi
          exact Or.inl (Or.inr ⟨hj, i, hi⟩)
        | succ j =>
          rw [List.getElem?_cons_succ] at hj hi
          exact Or.inr ⟨j, hj, i, hi⟩

/-- A list without repetitions is no longer than one that has all its elements. -/
theorem nodup_length_le {d l : List α} (hd : d.Nodup) (h : ∀ x ∈ d, x ∈ l) : d.length ≤ l.length := by
  induction d generalizing l with
  | nil => simp
  | cons x d ih =>
    rw [List.nodup_cons] at hd
    have := ih (l := l.erase x) hd.2 (fun y hy => (List.mem_erase_of_ne (fun e => hd.1 (by rw [← e]; exact hy))).2
      (h y (List.mem_cons_of_mem _ hy)))
    rw [List.length_erase_of_mem (h x List.mem_cons_self)] at this
    have hx := List.length_pos_of_mem (h x List.mem_cons_self)
    rw [List.length_cons]; omega

end Spec

namespace ReportManager

theorem toU32_ok {ε : Type} (n : Nat) (msg : String) (h : n < 2 ^ 32) :
    toU32 (ε := ε) n msg = .ok n := by unfold toU32; rw [if_pos h]

/-- The two tables of internal reports describe one numbering. -/
def IdInv (rm : ReportManager) : Prop :=
  rm.reportIds.Nodup ∧
    ∀ r, alookup rm.reportIdToInternalMap r =
      if r ∈ rm.reportIds then some (rm.reportIds.idxOf r) else none

theorem idInv_new (g : Grey) : IdInv (new g) := ⟨List.nodup_nil, fun r => by simp [new, alookup_nil]⟩

def limitError : CompileError := CompileError.new .resourceLimit "Resource limit exceeded."

/-- The answer of `get_internal_id` as an abstract answer. -/
def ofAnswer : Option Nat → Except CompileError Nat
  | some i => .ok i
  | none => .error limitError

theorem getInternalId_spec (rm : ReportManager) (h : IdInv rm) (r : Report)
    (hl : rm.limitReportCount ≤ 2 ^ 32 ∨ r ∈ rm.reportIds ∨ rm.reportIds.length < 2 ^ 32) :
    ∃ rm', rm.getInternalId r
        = .ok (rm', ofAnswer (assign rm.limitReportCount rm.reportIds r).2) ∧
      IdInv rm' ∧ rm'.reportIds = (assign rm.limitReportCount rm.reportIds r).1 ∧
      rm'.limitReportCount = rm.limitReportCount ∧
      rm'.externalIdMap = rm.externalIdMap ∧ rm'.toExhaustibleKeyMap = rm.toExhaustibleKeyMap ∧
      rm'.globalExhaust = rm.globalExhaust := by
  unfold getInternalId
  rw [h.2 r]
  by_cases hm : r ∈ rm.reportIds
  · rw [if_pos hm]
    refine ⟨rm, ?_, h, ?_, rfl, rfl, rfl, rfl⟩ <;> simp [assign, hm, ofAnswer]
  · rw [if_neg hm]
    simp only
    by_cases hlim : rm.limitReportCount ≤ rm.numReports
    · rw [if_pos hlim]
      have : rm.limitReportCount ≤ rm.reportIds.length := hlim
      refine ⟨rm, ?_, h, ?_, rfl, rfl, rfl, rfl⟩ <;> simp [assign, hm, this, ofAnswer, limitError]
    · rw [if_neg hlim]
      have hlen : ¬ rm.limitReportCount ≤ rm.reportIds.length := hlim
      have hlen' : rm.reportIds.length < 2 ^ 32 := by
        rcases hl with hl | hl | hl
        · omega
        · exact absurd hl hm
        · exact hl
      rw [toU32_ok _ _ hlen', Outcome.ok_bind]
      simp only [assign, if_neg hm, if_neg hlen, ofAnswer]
      refine ⟨{ rm with
        reportIds := rm.reportIds ++ [r]
        reportIdToInternalMap := (r, rm.reportIds.length) :: rm.reportIdToInternalMap },
        rfl, ?_, rfl, rfl, rfl, rfl, rfl⟩
      refine ⟨?_, fun r' => ?_⟩
      · show (rm.reportIds ++ [r]).Nodup
        rw [List.nodup_append]
        exact ⟨h.1, by simp, fun a ha b hb e => hm (by simp at hb; rw [← hb, ← e]; exact ha)⟩
      · show alookup ((r, rm.reportIds.length) :: rm.reportIdToInternalMap) r' = _
        rw [alookup_cons, h.2 r']
        by_cases e : r = r'
        · subst e
          simp [List.idxOf_append, hm]
        · rw [if_neg e]
          by_cases hr' : r' ∈ rm.reportIds
          · rw [if_pos hr', if_pos (by simp [hr']), List.idxOf_append, if_pos hr']
          · rw [if_neg hr', if_neg (by simp [hr', Ne.symm e])]

/-- Running a history of `get_internal_id` calls. -/
def runIds (rm : ReportManager) : List Report → Outcome Empty (ReportManager × List (Except CompileError Nat))
  | [] => .ok (rm, [])
  | r :: rs => do
    let (rm1, a) ← rm.getInternalId r
    let (rm2, as) ← runIds rm1 rs
    return (rm2, a :: as)

theorem runIds_spec : ∀ (rs : List Report) (rm : ReportManager), IdInv rm →
    rm.limitReportCount ≤ 2 ^ 32 ∨ AtMost (2 ^ 32) (rm.reportIds ++ rs) →
    ∃ rm', runIds rm rs = .ok (rm', (assignAll rm.limitReportCount rm.reportIds rs).2.map ofAnswer) ∧
      IdInv rm' ∧ rm'.reportIds = (assignAll rm.limitReportCount rm.reportIds rs).1 ∧
      rm'.limitReportCount = rm.limitReportCount := by
  intro rs
  induction rs with
  | nil => intro rm h _; exact ⟨rm, rfl, h, rfl, rfl⟩
  | cons r rs ih =>
    intro rm h hl
    obtain ⟨rm1, h1, h2, h3, h4, -⟩ := getInternalId_spec rm h r (by
      by_cases hm : r ∈ rm.reportIds
      · exact .inr (.inl hm)
      rcases hl with hl | hl
      · exact .inl hl
      · have := hl (rm.reportIds ++ [r]) (List.nodup_append.2 ⟨h.1, by simp, fun a ha b hb e => hm (by
          simp at hb; rw [← hb, ← e]; exact ha)⟩) (fun x hx => by simp at hx ⊢; rcases hx with hx | hx <;> simp [hx])
        rw [List.length_append, List.length_singleton] at this
        exact .inr (.inr (by omega)))
    obtain ⟨rm2, g1, g2, g3, g4⟩ := ih rm1 h2 (by
      rw [h4, h3]
      rcases hl with hl | hl
      · exact .inl hl
      · refine .inr fun d hd hsub => hl d hd fun x hx => ?_
        have := hsub x hx
        unfold assign at this
        split at this
        · simp at this ⊢; rcases this with h | h <;> simp [h]
        · split at this <;> simp at this ⊢
          · rcases this with h | h <;> simp [h]
          · rcases this with h | h | h <;> simp [h])
    refine ⟨rm2, ?_, g2, ?_, by rw [g4, h4]⟩
    · unfold runIds
      rw [h1, Outcome.ok_bind]
      simp only
      rw [g1, Outcome.ok_bind, h3, h4]
      rfl
    · rw [g3, h3, h4]; rfl

/-! ## Exhaustion keys -/

/-- The key table is a numbering of `seen`. -/
def KeyInv (rm : ReportManager) (seen : List Nat) : Prop :=
  seen.Nodup ∧ rm.toExhaustibleKeyMap.length = seen.length ∧
    ∀ a : Nat, alookup rm.toExhaustibleKeyMap (a : Int) =
      if a ∈ seen then some (seen.idxOf a) else none

theorem keyInv_new (g : Grey) : KeyInv (new g) [] :=
  ⟨List.nodup_nil, rfl, fun a => by simp [new, alookup_nil]⟩

theorem getExhaustibleKey_spec {ε : Type} (rm : ReportManager) (seen : List Nat) (h : KeyInv rm seen)
    (limit : Nat) (hl : limit ≤ 2 ^ 32) (hs : seen.length < limit) (a : Nat) :
    ∃ rm' i, rm.getExhaustibleKey (ε := ε) a = .ok (rm', i) ∧
      (assign limit seen a).2 = some i ∧ KeyInv rm' (assign limit seen a).1 := by
  unfold getExhaustibleKey
  rw [h.2.1, toU32_ok _ _ (by omega), Outcome.ok_bind, h.2.2 a]
  by_cases hm : a ∈ seen
  · rw [if_pos hm]
    refine ⟨rm, _, rfl, ?_, ?_⟩
    · simp [assign, hm]
    · simp only [assign, if_pos hm]; exact h
  · rw [if_neg hm]
    refine ⟨_, _, rfl, ?_, ?_⟩
    · simp only [assign, if_neg hm, if_neg (show ¬ limit ≤ seen.length by omega)]
    · simp only [assign, if_neg hm, if_neg (show ¬ limit ≤ seen.length by omega)]
      refine ⟨?_, ?_, fun b => ?_⟩
      · rw [List.nodup_append]
        exact ⟨h.1, by simp, fun x hx y hy e => hm (by simp at hy; rw [← hy, ← e]; exact hx)⟩
      · simp [h.2.1]
      · rw [alookup_cons, h.2.2 b]
        by_cases e : a = b
        · subst e; simp [List.idxOf_append, hm]
        · rw [if_neg (by omega)]
          by_cases hb : b ∈ seen
          · rw [if_pos hb, if_pos (by simp [hb]), List.idxOf_append, if_pos hb]
          · rw [if_neg hb, if_neg (by simp [hb, Ne.symm e])]

/-- Running a history of `get_exhaustible_key` calls. -/
def runKeys (rm : ReportManager) : List Nat → Outcome Empty (ReportManager × List Nat)
  | [] => .ok (rm, [])
  | a :: as => do
    let (rm1, k) ← rm.getExhaustibleKey a
    let (rm2, ks) ← runKeys rm1 as
    return (rm2, k :: ks)

theorem runKeys_spec : ∀ (as : List Nat) (rm : ReportManager) (seen : List Nat), KeyInv rm seen →
    (∀ n < as.length, AtMost (2 ^ 32 - 1) (seen ++ as.take n)) →
    ∃ rm' ks, runKeys rm as = .ok (rm', ks) ∧ (assignAll (2 ^ 32) seen as).2 = ks.map some ∧
      KeyInv rm' (assignAll (2 ^ 32) seen as).1 := by
  intro as
  induction as with
  | nil => intro rm seen h _; exact ⟨rm, [], rfl, rfl, h⟩
  | cons a as ih =>
    intro rm seen h hl
    have h0 := hl 0 (by simp) seen h.1 (fun x hx => by simp [hx])
    obtain ⟨rm1, i, h1, h2, h3⟩ := getExhaustibleKey_spec (ε := Empty) rm seen h (2 ^ 32) (Nat.le_refl _) (by omega) a
    obtain ⟨rm2, ks, g1, g2, g3⟩ := ih rm1 _ h3 (by
      intro n hn d hd hsub
      refine hl (n + 1) (by simp; omega) d hd fun x hx => ?_
      have := hsub x hx
      unfold assign at this
      split at this
      · simp at this ⊢; rcases this with h | h <;> simp [h]
      · split at this <;> simp at this ⊢
        · rcases this with h | h <;> simp [h]
        · rcases this with h | h | h <;> simp [h])
    refine ⟨rm2, i :: ks, ?_, ?_, g3⟩
    · unfold runKeys; rw [h1, Outcome.ok_bind]; simp only; rw [g1, Outcome.ok_bind]; rfl
    · simp only [assignAll, h2, g2, List.map_cons]

/-- A manager that holds 2^32 reports and may hold more panics at a further one. -/
theorem runIds_panics : ∀ (rs : List Report) (rm : ReportManager), IdInv rm → rm.reportIds.length ≤ 2 ^ 32 →
    2 ^ 32 < rm.limitReportCount → ¬ AtMost (2 ^ 32) (rm.reportIds ++ rs) → (runIds rm rs).isPanic = true := by
  intro rs
  induction rs with
  | nil =>
    intro rm h hlen _ hno
    refine absurd (fun d hd hsub => Nat.le_trans (nodup_length_le hd fun x hx => ?_) hlen) hno
    simpa using hsub x hx
  | cons r rs ih =>
    intro rm h hlen hlim hno
    unfold runIds
    by_cases hr : r ∈ rm.reportIds ∨ rm.reportIds.length < 2 ^ 32
    · obtain ⟨rm1, h1, h2, h3, h4, -⟩ := getInternalId_spec rm h r (.inr hr)
      rw [h1, Outcome.ok_bind]
      simp only
      have : (runIds rm1 rs).isPanic = true := by
        refine ih rm1 h2 ?_ (by rw [h4]; exact hlim) fun hat => hno fun d hd hsub => hat d hd fun x hx => ?_
        · rw [h3]; unfold assign
          split
          · exact hlen
          · split
            · exact hlen
            · rw [List.length_append, List.length_singleton]
              rcases hr with hr | hr
              · contradiction
              · omega
        · have := hsub x hx
          rw [h3]; unfold assign
          split
          · next hm =>
            simp at this ⊢
            rcases this with h | rfl | h
            · exact .inl h
            · exact .inl hm
            · exact .inr h
          · rw [if_neg (by
              rcases hr with hr | hr
              · contradiction
              · omega)]
            simpa using this
      revert this
      cases runIds rm1 rs <;> intro hp <;> first | (cases hp; done) | rfl
    · have hr1 : r ∉ rm.reportIds := fun hm => hr (.inl hm)
      have hr2 : ¬ rm.reportIds.length < 2 ^ 32 := fun hm => hr (.inr hm)
      have : (rm.getInternalId r).isPanic = true := by
        unfold getInternalId
        rw [h.2 r, if_neg hr1]
        simp only
        rw [if_neg (show ¬ rm.numReports ≥ rm.limitReportCount by
          show ¬ rm.limitReportCount ≤ rm.reportIds.length; omega)]
        unfold toU32
        rw [if_neg hr2]
        rfl
      revert this
      cases rm.getInternalId r <;> intro hp <;> first | (cases hp; done) | rfl

/-- Asking for a key once there are 2^32 panics. -/
theorem runKeys_panics : ∀ (as : List Nat) (rm : ReportManager) (seen : List Nat), KeyInv rm seen →
    (∃ n < as.length, ¬ AtMost (2 ^ 32 - 1) (seen ++ as.take n)) → (runKeys rm as).isPanic = true := by
  intro as
  induction as with
  | nil => rintro rm seen h ⟨n, hn, -⟩; simp at hn
  | cons a as ih =>
    rintro rm seen h ⟨n, hn, hno⟩
    unfold runKeys
    by_cases hs : seen.length < 2 ^ 32
    · obtain ⟨rm1, i, h1, h2, h3⟩ := getExhaustibleKey_spec (ε := Empty) rm seen h (2 ^ 32) (Nat.le_refl _) hs a
      rw [h1, Outcome.ok_bind]
      simp only
      have : (runKeys rm1 as).isPanic = true := by
        cases n with
        | zero =>
          refine absurd (fun d hd hsub => ?_) hno
          have := nodup_length_le hd (fun x hx => by simpa using hsub x hx : ∀ x ∈ d, x ∈ seen)
          omega
        | succ n =>
          refine ih rm1 _ h3 ⟨n, by simpa using hn, fun hat => hno fun d hd hsub => hat d hd fun x hx => ?_⟩
          have := hsub x hx
          unfold assign
          split
          · next hm =>
            simp at this ⊢
            rcases this with h | rfl | h
            · exact .inl h
            · exact .inl hm
            · exact .inr h
          · rw [if_neg (by omega)]
            simpa using this
      revert this
      cases runKeys rm1 as <;> intro hp <;> first | (cases hp; done) | rfl
    · have : (rm.getExhaustibleKey (ε := Empty) a).isPanic = true := by
        unfold getExhaustibleKey toU32
        rw [h.2.1, if_neg hs]
        rfl
      revert this
      cases rm.getExhaustibleKey (ε := Empty) a <;> intro hp <;> first | (cases hp; done) | rfl

/-! ## External reports -/

/-- Running a history of `register_ext_report` calls. -/
def runReg (rm : ReportManager) : List (Nat × ExternalReportInfo) →
    ReportManager × List (Except CompileError Unit)
  | [] => (rm, [])
  | e :: es =>
    let r := rm.registerExtReport e.1 e.2
    let rest := runReg r.1 es
    (rest.1, r.2 :: rest.2)

/-- The registrations of a history that succeeded, given its results. -/
def succeeded (es : List (Nat × ExternalReportInfo)) (rs : List (Except CompileError Unit)) :
    List (Nat × ExternalReportInfo) :=
  ((es.zip rs).filter (fun x => x.2.isOk)).map Prod.fst

theorem isOk_except_ok {ε α : Type} (a : α) : (Except.ok a : Except ε α).isOk = true := rfl
theorem isOk_except_err {ε α : Type} (e : ε) : (Except.error e : Except ε α).isOk = false := rfl

/-- The tables after registrations `done` (in order) succeeded. -/
structure RegInv (rm : ReportManager) (done : List (Nat × ExternalReportInfo)) : Prop where
  first : ∀ id, alookup rm.externalIdMap id = firstFor done id
  agree : ∀ e ∈ done, ∀ i, firstFor done e.1 = some i → i.highlander = e.2.highlander
  exhaust : rm.globalExhaust = done.all (fun e => e.2.highlander)

theorem regInv_new (g : Grey) : RegInv (new g) [] :=
  ⟨fun _ => rfl, fun e h => by simp at h, rfl⟩

theorem firstFor_append (done : List (Nat × ExternalReportInfo)) (e : Nat × ExternalReportInfo) (id : Nat) :
    firstFor (done ++ [e]) id = (firstFor done id).or (if e.1 = id then some e.2 else none) := by
  unfold firstFor
  rw [List.find?_append, Option.map_or]
  congr 1
  by_cases h : e.1 = id
  · simp [h]
  · simp [h]

theorem firstFor_mem {done : List (Nat × ExternalReportInfo)} {id : Nat} {i : ExternalReportInfo}
    (h : firstFor done id = some i) : (id, i) ∈ done := by
  unfold firstFor at h
  rw [Option.map_eq_some_iff] at h
  obtain ⟨e, h1, h2⟩ := h
  have hm := List.mem_of_find?_eq_some h1
  have hp := List.find?_some h1
  simp at hp
  rw [← h2, ← hp]; exact hm

theorem firstFor_none {done : List (Nat × ExternalReportInfo)} {id : Nat}
    (h : firstFor done id = none) : ∀ e ∈ done, e.1 ≠ id := by
  unfold firstFor at h
  rw [Option.map_eq_none_iff, List.find?_eq_none] at h
  intro e he hid
  have := h e he
  simp [hid] at this

theorem register_ok (rm : ReportManager) (done : List (Nat × ExternalReportInfo)) (h : RegInv rm done)
    (id : Nat) (ext : ExternalReportInfo)
    (hok : ∀ i, firstFor done id = some i → i.highlander = ext.highlander) :
    (rm.registerExtReport id ext).2 = .ok () ∧
    RegInv (rm.registerExtReport id ext).1 (done ++ [(id, ext)]) := by
  have hall : (done ++ [(id, ext)]).all (fun e => e.2.highlander)
      = (rm.globalExhaust && ext.highlander) := by
    rw [List.all_append, h.exhaust]; simp
  have hag : ∀ e ∈ done ++ [(id, ext)], ∀ i, firstFor (done ++ [(id, ext)]) e.1 = some i →
      i.highlander = e.2.highlander := by
    intro e he i hi
    rw [firstFor_append] at hi
    rw [List.mem_append, List.mem_singleton] at he
    rcases he with he | he
    · cases hf : firstFor done e.1 with
      | none => exact absurd rfl (firstFor_none hf e he)
      | some j => rw [hf] at hi; simp at hi; subst hi; exact h.agree e he _ hf
    · subst he
      cases hf : firstFor done id with
      | none => simp [hf] at hi; rw [← hi]
      | some j => simp [hf] at hi; subst hi; exact hok _ hf
  unfold registerExtReport
  rw [h.first id]
  cases hf : firstFor done id with
  | none =>
    simp only
    refine ⟨trivial, ?_, hag, ?_⟩
    · intro id'
      have : alookup ((id, ext) :: rm.externalIdMap) id' = firstFor (done ++ [(id, ext)]) id' := by
        rw [alookup_cons, firstFor_append, h.first]
        by_cases e : id = id'
        · subst e; rw [if_pos rfl, hf]; simp
        · rw [if_neg e, if_neg e]; simp
      cases ext.highlander <;> exact this
    · rw [hall]
      cases ext.highlander <;> simp
  | some i =>
    simp only
    rw [if_neg (by simp [hok i hf])]
    refine ⟨rfl, ?_, hag, ?_⟩
    · intro id'
      have : alookup rm.externalIdMap id' = firstFor (done ++ [(id, ext)]) id' := by
        rw [firstFor_append, h.first]
        by_cases e : id = id'
        · subst e; rw [hf]; simp
        · rw [if_neg e]; simp
      cases ext.highlander <;> exact this
    · rw [hall]
      cases ext.highlander <;> simp

theorem register_err (rm : ReportManager) (done : List (Nat × ExternalReportInfo)) (h : RegInv rm done)
    (id : Nat) (ext i : ExternalReportInfo) (hf : firstFor done id = some i)
    (hne : i.highlander ≠ ext.highlander) :
    rm.registerExtReport id ext
      = (rm, .error (CompileError.withIndex ext.firstPatternIndex (conflictMessage id ext i))) := by
  unfold registerExtReport
  rw [h.first id, hf]
  simp only
  rw [if_pos hne]

theorem runReg_append (rm : ReportManager) (es es' : List (Nat × ExternalReportInfo)) :
    runReg rm (es ++ es') = ((runReg (runReg rm es).1 es').1,
      (runReg rm es).2 ++ (runReg (runReg rm es).1 es').2) := by
  induction es generalizing rm with
  | nil => rfl
  | cons e es ih => simp only [List.cons_append, runReg, ih]

theorem runReg_inv : ∀ (es : List (Nat × ExternalReportInfo)) (rm : ReportManager)
    (done : List (Nat × ExternalReportInfo)), RegInv rm done →
    RegInv (runReg rm es).1 (done ++ succeeded es (runReg rm es).2) := by
  intro es
  induction es with
  | nil => intro rm done h; simpa [runReg, succeeded] using h
  | cons e es ih =>
    intro rm done h
    simp only [runReg]
    by_cases hok : ∀ i, firstFor done e.1 = some i → i.highlander = e.2.highlander
    · obtain ⟨h1, h2⟩ := register_ok rm done h e.1 e.2 hok
      have := ih _ _ h2
      simp only [succeeded, List.zip_cons_cons, h1, List.filter_cons, isOk_except_ok, if_true,
        List.map_cons] at this ⊢
      rw [List.append_assoc] at this
      exact this
    · have : ∃ i, firstFor done e.1 = some i ∧ i.highlander ≠ e.2.highlander := by
        apply Classical.byContradiction
        intro hx; apply hok; intro i hi
        apply Classical.byContradiction
        intro hne; exact hx ⟨i, hi, hne⟩
      obtain ⟨i, hi, hne⟩ := this
      have h1 := register_err rm done h e.1 e.2 i hi hne
      rw [h1]
      have := ih _ _ h
      simp only [succeeded, List.zip_cons_cons, List.filter_cons, isOk_except_err,
        Bool.false_eq_true, if_false] at this ⊢
      exact this

/-- The first registration of an id always succeeds, so "first" and "first successful" agree. -/
theorem firstFor_succeeded : ∀ (es : List (Nat × ExternalReportInfo)) (rm : ReportManager)
    (done : List (Nat × ExternalReportInfo)), RegInv rm done → ∀ id,
    firstFor (done ++ succeeded es (runReg rm es).2) id = firstFor (done ++ es) id := by
  intro es
  induction es with
  | nil => intro rm done _ id; simp [runReg, succeeded]
  | cons e es ih =>
    intro rm done h id
    simp only [runReg]
    by_cases hok : ∀ i, firstFor done e.1 = some i → i.highlander = e.2.highlander
    · obtain ⟨h1, h2⟩ := register_ok rm done h e.1 e.2 hok
      have := ih _ _ h2 id
      simp only [succeeded, List.zip_cons_cons, h1, List.filter_cons, isOk_except_ok, if_true,
        List.map_cons] at this ⊢
      rw [List.append_assoc, List.append_assoc] at this
      exact this
    · have : ∃ i, firstFor done e.1 = some i ∧ i.highlander ≠ e.2.highlander := by
        apply Classical.byContradiction
        intro hx; apply hok; intro i hi
        apply Classical.byContradiction
        intro hne; exact hx ⟨i, hi, hne⟩
      obtain ⟨i, hi, hne⟩ := this
      have h1 := register_err rm done h e.1 e.2 i hi hne
      rw [h1]
      have := ih _ _ h id
      simp only [succeeded, List.zip_cons_cons, List.filter_cons, isOk_except_err,
        Bool.false_eq_true, if_false] at this ⊢
      rw [this]
      -- the failed entry is shadowed by the first one
      unfold firstFor at hi ⊢
      rw [List.find?_append, List.find?_append, List.find?_cons]
      by_cases he : e.1 = id
      · subst he
        rw [Option.map_eq_some_iff] at hi
        obtain ⟨x, hx, -⟩ := hi
        rw [hx]; simp
      · have : (e.1 == id) = false := by simp [he]
        rw [this]

end ReportManager
end Rescan
