import Verif.Props.DumpClass
/-! # Lemmas about describing classes under a length limit -/
namespace Rescan.Dump
open Spec

/-- The loop over the runs, when the limit is reached. -/
theorem rangesLoop_trunc (p : Profile) (fuel : Nat) (hf : 4 ≤ fuel) (maxLen : Nat) (out : CcOutput) :
    ∀ (cs : List U8) (s l : U8) (i : Nat) (acc : Str), s ≤ l → (l :: cs).Pairwise (· < ·) →
    i < maxLen → maxLen ≤ i + (runsFrom s l cs).dropLast.length →
    rangesLoop p fuel maxLen out s l i acc cs =
      .ok (acc ++ ((runsFrom s l cs).dropLast.take (maxLen - i)).flatMap (runText out) ++ "...]".toList, maxLen)
  | [], s, l, i, acc, _, _, h1, h2 => by
    simp [runsFrom] at h2; omega
  | c :: cs, s, l, i, acc, hsl, hp, h1, h2 => by
    have hp' : (c :: cs).Pairwise (· < ·) := (List.pairwise_cons.1 hp).2
    have hlc : l < c := (List.pairwise_cons.1 hp).1 c (by simp)
    rw [BitVec.lt_def] at hlc
    have hsl' := hsl
    rw [BitVec.le_def] at hsl'
    have hc := c.isLt
    unfold rangesLoop
    by_cases h : c ≠ l + 1#8
    · have hr : runsFrom s l (c :: cs) = (s, l) :: runsFrom c c cs := by
        rw [runsFrom, if_pos h]
      rw [hr] at h2 ⊢
      have hne := runsFrom_ne_nil cs c c
      have hd : ((s, l) :: runsFrom c c cs).dropLast = (s, l) :: (runsFrom c c cs).dropLast :=
        List.dropLast_cons_of_ne_nil hne
      rw [hd] at h2 ⊢
      rw [if_pos h, describeRange_run p fuel hf s l out hsl (by omega), Outcome.ok_bind]
      by_cases hmx : i + 1 = maxLen
      · subst hmx
        rw [if_pos rfl]
        simp [Pure.pure]
      · simp only [List.length_cons] at h2
        rw [if_neg hmx, rangesLoop_trunc p fuel hf maxLen out cs c c (i + 1) _ (BitVec.le_refl _) hp'
          (by omega) (by omega)]
        obtain ⟨k, hk⟩ : ∃ k, maxLen - i = k + 1 := ⟨maxLen - i - 1, by omega⟩
        rw [hk, show maxLen - (i + 1) = k by omega]
        simp
    · have hr : runsFrom s l (c :: cs) = runsFrom s c cs := by rw [runsFrom, if_neg h]
      rw [if_neg h]
      rw [hr] at h2 ⊢
      exact rangesLoop_trunc p fuel hf maxLen out cs s c i acc (by rw [BitVec.le_def]; omega) hp' h1 h2

/-- One step of the mnemonic loop writes one letter after a backslash. -/
theorem extractMnemonic_shape (cr : CharReach) (out : CcOutput) (t : Str) (r : CharReach)
    (h : extractMnemonic cr out = some (t, r)) : ∃ m, t = backslash out ++ [m] := by
  unfold extractMnemonic at h
  split at h
  · injection h with h; injection h with h; exact ⟨_, h.symm⟩
  · split at h
    · injection h with h; injection h with h; exact ⟨_, h.symm⟩
    · split at h
      · injection h with h; injection h with h; exact ⟨_, h.symm⟩
      · cases h

/-- The mnemonic loop under any limit, from what it does under a limit that is not reached. -/
theorem mnemonicLoop_limit (big : Nat) (out : CcOutput) : ∀ (fuel : Nat) (cr : CharReach) (i : Nat) (acc acc2 : Str)
    (rest : CharReach) (k : Nat), i + fuel < big →
    mnemonicLoop big out fuel cr i acc = .ok (.inr (acc2, rest, k)) →
    ∃ ms : List Char, acc2 = acc ++ ms.flatMap (fun m => backslash out ++ [m]) ∧ k = i + ms.length ∧
      ∀ n, mnemonicLoop n out fuel cr i acc =
        if i < n ∧ n ≤ i + ms.length then
          .ok (.inl (acc ++ (ms.take (n - i)).flatMap (fun m => backslash out ++ [m]) ++ "...]".toList))
        else .ok (.inr (acc2, rest, k))
  | 0, _, _, _, _, _, _, _, h => by unfold mnemonicLoop at h; cases h
  | fuel + 1, cr, i, acc, acc2, rest, k, hb, h => by
    unfold mnemonicLoop at h
    cases he : extractMnemonic cr out with
    | none =>
      rw [he] at h
      simp only at h
      injection h with h; injection h with h; injection h with h1 h; injection h with h2 h3
      subst h1 h2 h3
      refine ⟨[], by simp, by simp, fun n => ?_⟩
      unfold mnemonicLoop
      rw [he, if_neg (by simp)]
    | some x =>
      obtain ⟨t, r⟩ := x
      rw [he] at h
      simp only at h
      rw [if_neg (by omega)] at h
      obtain ⟨m, rfl⟩ := extractMnemonic_shape cr out t r he
      obtain ⟨ms, h1, h2, h3⟩ := mnemonicLoop_limit big out fuel r (i + 1) _ acc2 rest k (by omega) h
      refine ⟨m :: ms, by rw [h1]; simp, by rw [h2]; simp; omega, fun n => ?_⟩
      unfold mnemonicLoop
      rw [he]
      simp only
      by_cases hn : i + 1 = n
      · subst hn
        rw [if_pos rfl, if_pos (by simp)]
        simp
      · rw [if_neg hn, h3]
        by_cases hc : i + 1 < n ∧ n ≤ i + 1 + ms.length
        · rw [if_pos hc, if_pos (by simp; omega)]
          obtain ⟨j, hj⟩ : ∃ j, n - i = j + 1 := ⟨n - i - 1, by omega⟩
          rw [hj, show n - (i + 1) = j by omega]
          simp
        · rw [if_neg hc, if_neg (by simp; omega)]

theorem mnemonic_text_inj (out : CcOutput) : ∀ (a b : List Char),
    a.flatMap (fun m => backslash out ++ [m]) = b.flatMap (fun m => backslash out ++ [m]) → a = b
  | [], [], _ => rfl
  | [], y :: b, h => by cases out <;> simp [backslash] at h
  | x :: a, [], h => by cases out <;> simp [backslash] at h
  | x :: a, y :: b, h => by
    have : x = y ∧ a.flatMap (fun m => backslash out ++ [m]) = b.flatMap (fun m => backslash out ++ [m]) := by
      cases out <;> simpa [backslash] using h
    rw [this.1, mnemonic_text_inj out a b this.2]

/-- The mnemonic loop of `describe_class_int` under any limit. -/
theorem mnemonicLoop_any (out : CcOutput) (fuel : Nat) (hf : 4 ≤ fuel) (cr : CharReach) :
    ∃ rest : CharReach, (∀ c, rest.test c = restOf cr.test c) ∧ ∀ n, mnemonicLoop n out fuel cr 0 [] =
      if 0 < n ∧ n ≤ (mnemonics cr.test).length then
        .ok (.inl (((mnemonics cr.test).take n).flatMap (fun m => backslash out ++ [m]) ++ "...]".toList))
      else .ok (.inr ((mnemonics cr.test).flatMap (fun m => backslash out ++ [m]), rest,
        (mnemonics cr.test).length)) := by
  obtain ⟨rest, hr, h⟩ := mnemonicLoop_eq (fuel + 1) (by omega) out fuel hf cr
  refine ⟨rest, hr, fun n => ?_⟩
  obtain ⟨ms, h1, h2, h3⟩ := mnemonicLoop_limit (fuel + 1) out fuel cr 0 [] _ rest _ (by omega) h
  have : mnemonics cr.test = ms := mnemonic_text_inj out _ _ (by rw [h1]; simp)
  rw [h3 n]
  simp only [Nat.zero_add, Nat.sub_zero, List.nil_append, this]

end Rescan.Dump
