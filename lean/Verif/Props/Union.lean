import Verif.Props.OrderOfExpressions
/-! # C88: compiling two lists of expressions together -/
namespace Rescan
open Spec

/-- **C88.** Two (non-empty) lists of expressions compile together iff each compiles, they are not too many
together, and no literal of one has the id of a literal of the other with a different SINGLEMATCH flag. -/
theorem C88_success (p : Profile) (l₁ l₂ : List Expr) (mode : Mode) (g : Grey) (hs : Sane g)
    (h₁ : l₁ ≠ []) (h₂ : l₂ ≠ []) :
    (compileMultiInt p (texts (l₁ ++ l₂)) (flagSets (l₁ ++ l₂)) (matchIds (l₁ ++ l₂)) mode g).isOk = true ↔
      (compileMultiInt p (texts l₁) (flagSets l₁) (matchIds l₁) mode g).isOk = true ∧
      (compileMultiInt p (texts l₂) (flagSets l₂) (matchIds l₂) mode g).isOk = true ∧
      l₁.length + l₂.length ≤ g.limitPatternCount ∧
      (litsOn g = true → ∀ a ∈ l₁, ∀ b ∈ l₂, literalOf a ≠ none → literalOf b ≠ none → a.2.2 = b.2.2 →
        a.2.1.contains .SINGLEMATCH = b.2.1.contains .SINGLEMATCH) := by
  rw [C58_success_iff p _ _ _ mode g hs, C58_success_iff p _ _ _ mode g hs, C58_success_iff p _ _ _ mode g hs]
  simp only [given_unzip, no_conflict_iff, List.length_map, ne_eq, List.map_eq_nil_iff, List.length_append]
  constructor
  · rintro ⟨_, hn, hv, hc⟩
    exact ⟨⟨h₁, by omega, fun e he => hv e (List.mem_append_left _ he), fun ho a ha b hb =>
        hc ho a (List.mem_append_left _ ha) b (List.mem_append_left _ hb)⟩,
      ⟨h₂, by omega, fun e he => hv e (List.mem_append_right _ he), fun ho a ha b hb =>
        hc ho a (List.mem_append_right _ ha) b (List.mem_append_right _ hb)⟩,
      hn, fun ho a ha b hb => hc ho a (List.mem_append_left _ ha) b (List.mem_append_right _ hb)⟩
  · rintro ⟨⟨_, _, hv₁, hc₁⟩, ⟨_, _, hv₂, hc₂⟩, hn, hc⟩
    refine ⟨by simp [h₁], hn, fun e he => ?_, fun ho a ha b hb x y z => ?_⟩
    · rcases List.mem_append.1 he with he | he
      · exact hv₁ e he
      · exact hv₂ e he
    · rcases List.mem_append.1 ha with ha | ha <;> rcases List.mem_append.1 hb with hb | hb
      · exact hc₁ ho a ha b hb x y z
      · exact hc ho a ha b hb x y z
      · exact (hc ho b hb a ha y x z.symm).symm
      · exact hc₂ ho a ha b hb x y z

private abbrev left : List Expr := [("ab".toList, .empty, 1), ("a|b".toList, .empty, 7)]
private abbrev right : List Expr := [("Cde".toList, .SINGLEMATCH, 2)]
private abbrev clash : List Expr := [("x".toList, .SINGLEMATCH, 1)]

/-- Two lists that go together, and two that do not though each compiles. -/
example : Sane Grey.default ∧
    (compileMultiInt .debug (texts (left ++ right)) (flagSets (left ++ right)) (matchIds (left ++ right))
      .block Grey.default).isOk = true ∧
    (compileMultiInt .debug (texts clash) (flagSets clash) (matchIds clash) .block Grey.default).isOk = true ∧
    (compileMultiInt .debug (texts (left ++ clash)) (flagSets (left ++ clash)) (matchIds (left ++ clash))
      .block Grey.default).isOk = false :=
  ⟨sane_default, by decide +kernel, by decide +kernel, by decide +kernel⟩

/-- C88: what is recorded of the two lists together, from what is recorded of each: the smaller of the
widths, exhaustion of everything iff of both, exhaustion keys for the ids of either, and, unless poisoned,
tries that accept what the tries of either accept. -/
theorem C88_state (p : Profile) (l₁ l₂ : List Expr) (mode : Mode) (g : Grey) (hs : Sane g)
    (ng ng₁ ng₂ : Ng)
    (h : compileNg p (texts (l₁ ++ l₂)) (flagSets (l₁ ++ l₂)) (matchIds (l₁ ++ l₂)) mode g = .ok ng)
    (h₁ : compileNg p (texts l₁) (flagSets l₁) (matchIds l₁) mode g = .ok ng₁)
    (h₂ : compileNg p (texts l₂) (flagSets l₂) (matchIds l₂) mode g = .ok ng₂) :
    ng.minWidth.val = min ng₁.minWidth.val ng₂.minWidth.val ∧
    ng.rm.globalExhaust = (ng₁.rm.globalExhaust && ng₂.rm.globalExhaust) ∧
    (∀ id : Nat, (∃ k, alookup ng.rm.toExhaustibleKeyMap (id : Int) = some k) ↔
      (∃ k, alookup ng₁.rm.toExhaustibleKeyMap (id : Int) = some k) ∨
      ∃ k, alookup ng₂.rm.toExhaustibleKeyMap (id : Int) = some k) ∧
    (ng.smwr.poisoned = false → ng₁.smwr.poisoned = false ∧ ng₂.smwr.poisoned = false ∧ ∀ w,
      (Accepts ng.smwr.litTrie w ↔ Accepts ng₁.smwr.litTrie w ∨ Accepts ng₂.smwr.litTrie w) ∧
      (Accepts ng.smwr.litTrieNocase w ↔ Accepts ng₁.smwr.litTrieNocase w ∨ Accepts ng₂.smwr.litTrieNocase w)) := by
  by_cases hon : litsOn g = true
  case neg =>
    rw [Bool.not_eq_true] at hon
    rw [compileNg_idle hs hon h, compileNg_idle hs hon h₁, compileNg_idle hs hon h₂]
    refine ⟨(Nat.min_self _).symm, rfl, fun _ => (or_self_iff ..).symm, fun hp => ?_⟩
    have hp' : (!g.allowSmallWrite || decide ((texts (l₁ ++ l₂)).length > g.smallWriteMaxPatterns)) = false := hp
    rw [Bool.or_eq_false_iff, decide_eq_false_iff_not, List.length_map, List.length_append] at hp'
    have hpart : ∀ l : List Expr, l.length ≤ l₁.length + l₂.length →
        (Ng.new ⟨mode.isStreaming, mode.isVectored, g⟩ (texts l).length mode.somPrecision).smwr.poisoned = false := by
      intro l hl
      show (!g.allowSmallWrite || decide ((texts l).length > g.smallWriteMaxPatterns)) = false
      rw [Bool.or_eq_false_iff, decide_eq_false_iff_not, List.length_map]
      exact ⟨hp'.1, by omega⟩
    exact ⟨hpart l₁ (by omega), hpart l₂ (by omega), fun w => ⟨(or_self_iff ..).symm, (or_self_iff ..).symm⟩⟩
  have a0 := C47_min_width_partial p _ _ _ mode g hs hon ng h
  have a1 := C47_min_width_partial p _ _ _ mode g hs hon ng₁ h₁
  have a2 := C47_min_width_partial p _ _ _ mode g hs hon ng₂ h₂
  have b0 := C69_exhaust_partial p _ _ _ mode g hs hon ng h
  have b1 := C69_exhaust_partial p _ _ _ mode g hs hon ng₁ h₁
  have b2 := C69_exhaust_partial p _ _ _ mode g hs hon ng₂ h₂
  simp only [given_unzip] at a0 a1 a2 b0 b1 b2
  have hlw : ∀ (l : List Expr), l ⊆ l₁ ++ l₂ → ∀ ng' : Ng,
      ((∃ e ∈ l, literalOf e ≠ none) → ∃ e ∈ l, literalOf e ≠ none ∧ ∃ c m w,
        parse p e.1 (ParseMode.new e.2.1) = .ok (c, m) ∧ Lang c w ∧ w.length = ng'.minWidth.val) →
      (∃ e ∈ l, literalOf e ≠ none) → ng.minWidth.val ≤ ng'.minWidth.val := by
    intro l hsub ng' hx hl
    obtain ⟨e, he, hel, c, m, w, hw1, hw2, hw3⟩ := hx hl
    rw [← hw3]
    exact a0.1 e (hsub he) hel c m w hw1 hw2
  have hinf : ∀ (l : List Expr) (ng' : Ng), (ng'.minWidth = Depth.infinity ↔ ∀ e ∈ l, literalOf e = none) →
      (∃ e ∈ l, literalOf e ≠ none) ∨ ng'.minWidth = Depth.infinity := by
    intro l ng' hi
    by_cases hl : ∃ e ∈ l, literalOf e ≠ none
    · exact .inl hl
    · refine .inr (hi.2 fun e he => ?_)
      apply Classical.byContradiction
      exact fun hx => hl ⟨e, he, hx⟩
  have hs1 : l₁ ⊆ l₁ ++ l₂ := fun e he => List.mem_append_left _ he
  have hs2 : l₂ ⊆ l₁ ++ l₂ := fun e he => List.mem_append_right _ he
  have hmax : ng.minWidth.val ≤ Depth.infinity.val := by
    rcases hinf _ _ a0.2.2 with hl | he
    · have hok := (compileNg_ok hs h).2.2.2
      rw [hok.width]
      exact (foldl_min_spec _ _).1
    · rw [he]; exact Nat.le_refl _
  refine ⟨?_, ?_, ?_, ?_⟩
  · have u1 : ng.minWidth.val ≤ ng₁.minWidth.val := by
      rcases hinf _ _ a1.2.2 with hl | he
      · exact hlw l₁ hs1 ng₁ a1.2.1 hl
      · rw [he]; exact hmax
    have u2 : ng.minWidth.val ≤ ng₂.minWidth.val := by
      rcases hinf _ _ a2.2.2 with hl | he
      · exact hlw l₂ hs2 ng₂ a2.2.1 hl
      · rw [he]; exact hmax
    have u3 : ng₁.minWidth.val ≤ ng.minWidth.val ∨ ng₂.minWidth.val ≤ ng.minWidth.val := by
      rcases hinf _ _ a0.2.2 with hl | he
      · obtain ⟨e, he, hel, c, m, w, hw1, hw2, hw3⟩ := a0.2.1 hl
        rw [← hw3]
        rcases List.mem_append.1 he with he | he
        · exact .inl (a1.1 e he hel c m w hw1 hw2)
        · exact .inr (a2.1 e he hel c m w hw1 hw2)
      · have := a1.2.2.2 (fun e he' => a0.2.2.1 he e (hs1 he'))
        rw [this, he]
        exact .inl (Nat.le_refl _)
    omega
  · rw [Bool.eq_iff_iff, Bool.and_eq_true, b0.1, b1.1, b2.1]
    constructor
    · exact fun hx => ⟨fun e he => hx e (hs1 he), fun e he => hx e (hs2 he)⟩
    · rintro ⟨x, y⟩ e he
      rcases List.mem_append.1 he with he | he
      · exact x e he
      · exact y e he
  · intro id
    rw [b0.2.1, b1.2.1, b2.2.1]
    constructor
    · rintro ⟨e, he, hx⟩
      rcases List.mem_append.1 he with he | he
      · exact .inl ⟨e, he, hx⟩
      · exact .inr ⟨e, he, hx⟩
    · rintro (⟨e, he, hx⟩ | ⟨e, he, hx⟩)
      · exact ⟨e, hs1 he, hx⟩
      · exact ⟨e, hs2 he, hx⟩
  · intro hp
    have hpart : ∀ (l : List Expr) (ng' : Ng), l.Sublist (l₁ ++ l₂) →
        compileNg p (texts l) (flagSets l) (matchIds l) mode g = .ok ng' → ng'.smwr.poisoned = false := by
      intro l ng' hsub h'
      have hc : (shortOnes g.smallWriteLargestBuffer (callsOf (entriesFrom (litsOn g) 0 l))).Sublist
          (shortOnes g.smallWriteLargestBuffer (callsOf (entriesFrom (litsOn g) 0 (l₁ ++ l₂)))) := by
        rw [callsOf_entries, callsOf_entries]
        exact (hsub.filterMap _).filter _
      obtain ⟨n, hn⟩ := prefixCount_exists (strings (sensitiveOnes (shortOnes g.smallWriteLargestBuffer
        (callsOf (entriesFrom (litsOn g) 0 (l₁ ++ l₂))))))
      obtain ⟨m, hm⟩ := prefixCount_exists (strings (caselessOnes (shortOnes g.smallWriteLargestBuffer
        (callsOf (entriesFrom (litsOn g) 0 (l₁ ++ l₂))))))
      obtain ⟨n', hn'⟩ := prefixCount_exists (strings (sensitiveOnes (shortOnes g.smallWriteLargestBuffer
        (callsOf (entriesFrom (litsOn g) 0 l)))))
      obtain ⟨m', hm'⟩ := prefixCount_exists (strings (caselessOnes (shortOnes g.smallWriteLargestBuffer
        (callsOf (entriesFrom (litsOn g) 0 l)))))
      have e1 : n' ≤ n := prefixCount_mono hn' hn (fun _ hx => ((hc.filter _).map _).subset hx)
      have e2 : m' ≤ m := prefixCount_mono hm' hm (fun _ hx => ((hc.filter _).map _).subset hx)
      have a := C68_poisoned p _ _ _ mode g hs ng h n m (by rw [given_unzip]; exact hn)
        (by rw [given_unzip]; exact hm)
      have b := C68_poisoned p _ _ _ mode g hs ng' h' n' m' (by rw [given_unzip]; exact hn')
        (by rw [given_unzip]; exact hm')
      have hcl := hc.length_le
      have hll := hsub.length_le
      simp only [given_unzip, List.length_map] at a b
      rw [← Bool.not_eq_true, b]
      rw [← Bool.not_eq_true, a] at hp
      rintro (x | x | x | x | x)
      · exact hp (.inl x)
      · exact hp (.inr (.inl (by omega)))
      · exact hp (.inr (.inr (.inl (by omega))))
      · exact hp (.inr (.inr (.inr (.inl (by omega)))))
      · exact hp (.inr (.inr (.inr (.inr (by omega)))))
    have hp1 := hpart l₁ ng₁ (List.sublist_append_left _ _) h₁
    have hp2 := hpart l₂ ng₂ (List.sublist_append_right _ _) h₂
    refine ⟨hp1, hp2, fun w => ?_⟩
    have c0 := C68_tries p _ _ _ mode g hs hon ng h hp w
    have c1 := C68_tries p _ _ _ mode g hs hon ng₁ h₁ hp1 w
    have c2 := C68_tries p _ _ _ mode g hs hon ng₂ h₂ hp2 w
    simp only [given_unzip] at c0 c1 c2
    have hor : ∀ P : Expr → Prop, (∃ e ∈ l₁ ++ l₂, P e) ↔ (∃ e ∈ l₁, P e) ∨ ∃ e ∈ l₂, P e := by
      intro P
      constructor
      · rintro ⟨e, he, hx⟩
        rcases List.mem_append.1 he with he | he
        · exact .inl ⟨e, he, hx⟩
        · exact .inr ⟨e, he, hx⟩
      · rintro (⟨e, he, hx⟩ | ⟨e, he, hx⟩)
        · exact ⟨e, hs1 he, hx⟩
        · exact ⟨e, hs2 he, hx⟩
    exact ⟨c0.2.trans ((hor _).trans (or_congr c1.2.symm c2.2.symm)),
      c0.1.trans ((hor _).trans (or_congr c1.1.symm c2.1.symm))⟩

example : litsOn Grey.default = true ∧ ([left ++ right, left, right].map (fun l =>
    match compileNg .release (texts l) (flagSets l) (matchIds l) .block Grey.default with
    | .ok ng => some (ng.minWidth.val, ng.rm.globalExhaust, ng.smwr.poisoned, ng.smwr.litTrie.inner.nodes.length)
    | _ => none)) = [some (2, false, false, 6), some (2, false, false, 3), some (3, true, false, 4)] := by
  decide +kernel

end Rescan
