import Verif.Props.Express
import Verif.Props.OrderOfExpressions
import Verif.Props.CallStack
import Verif.Spec.WhichTries
/-! # C119: which tries compiling can make -/
namespace Rescan
open Spec

theorem litElem_facts : ∀ (cl : Bool) (b : U8), Plain b →
    Plain (litElem cl (Char.ofNat b.toNat)).1 ∧
    ((litElem cl (Char.ofNat b.toNat)).2 = true → cl = true ∧ isUpper (litElem cl (Char.ofNat b.toNat)).1) ∧
    (cl = true → ¬ isLower (litElem cl (Char.ofNat b.toNat)).1) ∧
    (cl = false → litElem cl (Char.ofNat b.toNat) = (b, false)) ∧
    (cl = true → ¬ isLower b → (litElem cl (Char.ofNat b.toNat)).1 = b ∧
      (isUpper b → (litElem cl (Char.ofNat b.toNat)).2 = true)) := by
  unfold isLower isUpper Plain litElem upperOf isLetter isUpper isLower
  decide +kernel

theorem litElem_char {cl : Bool} {c : Char} (h : c.toNat < 128) (hs : ¬ special c) :
    Plain (litElem cl c).1 ∧ ((litElem cl c).2 = true → cl = true ∧ isUpper (litElem cl c).1) ∧
    (cl = true → ¬ isLower (litElem cl c).1) := by
  have e : Char.ofNat (BitVec.ofNat 8 c.toNat).toNat = c := by
    have : (BitVec.ofNat 8 c.toNat).toNat = c.toNat := by simp; omega
    rw [this, Char.ofNat_toNat]
  have := litElem_facts cl (BitVec.ofNat 8 c.toNat) (by
    rw [plain_iff, e]; refine ⟨by simp; omega, hs⟩)
  rw [e] at this
  exact ⟨this.1, this.2.1, this.2.2.1⟩

/-- What the literal of an expression looks like. -/
theorem literal_facts {p : Profile} {n : Nat} {e : Expr} {l : List (U8 × Bool)} (hv : Valid p n e)
    (hl : literalOf e = some l) :
    l ≠ [] ∧ (∀ y ∈ l, Plain y.1) ∧
    ((∃ y ∈ l, y.2 = true) → (∃ y ∈ l, isUpper y.1) ∧ ∀ y ∈ l, ¬ isLower y.1) := by
  obtain ⟨_, _, body, hb, ha, _, _⟩ := hv
  unfold literalOf at hl
  rw [(bodyOf_some _ _).2 hb] at hl
  dsimp only at hl
  split at hl
  · cases hl
  · rename_i hc
    injection hl with hl
    subst hl
    have hmem : ∀ y ∈ litElems (e.2.1.contains .CASELESS) body, ∃ c, c.toNat < 128 ∧ ¬ special c ∧
        y = litElem (e.2.1.contains .CASELESS) c := by
      intro y hy
      obtain ⟨c, hc1, rfl⟩ := List.mem_map.1 hy
      obtain ⟨hc2, hc3⟩ := List.mem_filter.1 hc1
      refine ⟨c, ha c hc2, ?_, rfl⟩
      rintro (rfl | rfl | rfl)
      · simp at hc3
      · simp at hc3
      · exact hc (.inl hc2)
    refine ⟨?_, ?_, ?_⟩
    · intro hnil
      apply hc
      right
      intro c hc1
      unfold litElems at hnil
      rw [List.map_eq_nil_iff, List.filter_eq_nil_iff] at hnil
      have := hnil c hc1
      simp only [Bool.and_eq_true, bne_iff_ne, ne_eq, not_and, Decidable.not_not] at this
      by_cases h : c = '('
      · exact .inl h
      · exact .inr (this h)
    · intro y hy
      obtain ⟨c, h1, h2, rfl⟩ := hmem y hy
      exact (litElem_char h1 h2).1
    · rintro ⟨y, hy, hy2⟩
      obtain ⟨c, h1, h2, rfl⟩ := hmem y hy
      obtain ⟨h3, h4⟩ := (litElem_char h1 h2).2.1 hy2
      refine ⟨⟨_, hy, h4⟩, ?_⟩
      intro z hz
      obtain ⟨d, h5, h6, rfl⟩ := hmem z hz
      exact (litElem_char h5 h6).2.2 h3

/-- The expression for a string. -/
def exprFor (f : Flags) (w : List U8) : Expr := (textOf w, f, 0)

theorem textOf_chars {w : List U8} (h : ∀ b ∈ w, Plain b) :
    ∀ c ∈ textOf w, c.toNat < 128 ∧ c ≠ '(' ∧ c ≠ ')' ∧ c ≠ '|' := by
  intro c hc
  obtain ⟨b, hb, rfl⟩ := List.mem_map.1 hc
  have := (plain_iff b).1 (h b hb)
  rw [toNat_ofNat_byte]
  exact ⟨this.1, fun e => this.2 (.inl e), fun e => this.2 (.inr (.inl e)), fun e => this.2 (.inr (.inr e))⟩

theorem exprFor_literal {w : List U8} (f : Flags) (hne : w ≠ []) (h : ∀ b ∈ w, Plain b) :
    literalOf (exprFor f w) = some (w.map (fun b => litElem (f.contains .CASELESS) (Char.ofNat b.toNat))) := by
  have hch := textOf_chars h
  have hb : bodyOf (textOf w) = some (textOf w) :=
    (bodyOf_some _ _).2 (.inl ⟨noVerb_of_no_open (fun hx => (hch _ hx).2.1 rfl), rfl⟩)
  unfold literalOf exprFor
  dsimp only
  rw [hb]
  dsimp only
  rw [if_neg]
  · congr 1
    unfold litElems
    rw [List.filter_eq_self.2]
    · unfold textOf; rw [List.map_map]; rfl
    · intro c hc
      have := hch c hc
      simp [this.2.1, this.2.2.1]
  · rintro (hx | hx)
    · exact (hch _ hx).2.2.2 rfl
    · cases w with
      | nil => exact hne rfl
      | cons b w =>
        have h1 := hch (Char.ofNat b.toNat) (by simp [textOf])
        rcases hx (Char.ofNat b.toNat) (by simp [textOf]) with h2 | h2
        · exact h1.2.1 h2
        · exact h1.2.2.1 h2

theorem exprFor_valid (p : Profile) {w : List U8} (f : Flags) (hf : f.contains .QUIET = false)
    (hl : w.length ≤ 70) (h : ∀ b ∈ w, Plain b) : Valid p Grey.default.limitPatternLength (exprFor f w) := by
  have hch := textOf_chars h
  refine ⟨?_, ?_, textOf w, .inl ⟨noVerb_of_no_open (fun hx => (hch _ hx).2.1 rfl), rfl⟩,
    fun c hc => (hch c hc).1, ?_, ?_⟩
  · show utf8Len (textOf w) ≤ 16000
    rw [CallStack.utf8Len_ascii (fun c hc => (hch c hc).1)]
    unfold textOf; rw [List.length_map]; omega
  · rintro ⟨h1, _⟩
    rw [show (exprFor f w).2.1 = f from rfl, hf] at h1; cases h1
  · rw [← seqOf_print]; exact print_balanced (.one (seqOf w)) (seqOf_wf w h)
  · intro _ n hn
    exact absurd rfl (hch _ (List.mem_of_getElem? hn)).2.1

/-- The short literals handed to the small-write builder by the expressions. -/
abbrev shortCalls (l : List Expr) : List (Ue2Literal × Nat) :=
  shortOnes Grey.default.smallWriteLargestBuffer (callsOf (entriesFrom (litsOn Grey.default) 0 l))

theorem mem_strings (h : List (Ue2Literal × Nat)) (w : List U8) : w ∈ strings h ↔ ∃ r, (w, r) ∈ histOf h := by
  rw [← histOf_fst, List.mem_map]
  constructor
  · rintro ⟨⟨w, r⟩, h1, rfl⟩; exact ⟨r, h1⟩
  · rintro ⟨r, h1⟩; exact ⟨_, h1, rfl⟩

theorem mem_calls (l : List Expr) (w : List U8) :
    (w ∈ strings (caselessOnes (shortCalls l)) ↔ ∃ e ∈ l, ∃ ys, literalOf e = some ys ∧
      ys.length ≤ 70 ∧ (∃ y ∈ ys, y.2 = true) ∧ w = ys.map Prod.fst) ∧
    (w ∈ strings (sensitiveOnes (shortCalls l)) ↔ ∃ e ∈ l, ∃ ys, literalOf e = some ys ∧
      ys.length ≤ 70 ∧ (∀ y ∈ ys, y.2 = false) ∧ w = ys.map Prod.fst) := by
  rw [mem_strings, mem_strings]
  constructor
  · constructor
    · rintro ⟨r, hr⟩
      obtain ⟨_, x, hx, h1, h2, h3⟩ := (hist_iff _ _ _ _).1.1 hr
      obtain ⟨_, e, he, hl, _⟩ := mem_entries hx
      exact ⟨e, he, _, hl, h1, h2, h3⟩
    · rintro ⟨e, he, ys, hl, h1, h2, h3⟩
      obtain ⟨x, hx, rfl, _⟩ := entries_mem (g := Grey.default) rfl he hl
      exact ⟨0, (hist_iff _ _ _ _).1.2 ⟨rfl, x, hx, h1, h2, h3⟩⟩
  · constructor
    · rintro ⟨r, hr⟩
      obtain ⟨_, x, hx, h1, h2, h3⟩ := (hist_iff _ _ _ _).2.1 hr
      obtain ⟨_, e, he, hl, _⟩ := mem_entries hx
      exact ⟨e, he, _, hl, h1, h2, h3⟩
    · rintro ⟨e, he, ys, hl, h1, h2, h3⟩
      obtain ⟨x, hx, rfl, _⟩ := entries_mem (g := Grey.default) rfl he hl
      exact ⟨0, (hist_iff _ _ _ _).2.2 ⟨rfl, x, hx, h1, h2, h3⟩⟩

theorem sensitive_caseless_length (h : List (Ue2Literal × Nat)) :
    (strings (sensitiveOnes h)).length + (strings (caselessOnes h)).length = h.length := by
  unfold strings sensitiveOnes caselessOnes
  rw [List.length_map, List.length_map]
  induction h with
  | nil => rfl
  | cons x h ih =>
    simp only [List.filter_cons]
    cases hc : x.1.nocase.contains true <;>
      simp only [Bool.not_true, Bool.not_false, if_true, List.length_cons] at * <;>
      simp only [Bool.false_eq_true, if_false] <;> omega

theorem few_of {ws ws' : List (List U8)} (h : FewPrefixes ws) (hs : ∀ w ∈ ws', w ∈ ws) : FewPrefixes ws' := by
  obtain ⟨n, h1, h2⟩ := h
  obtain ⟨m, h3⟩ := prefixCount_exists ws'
  exact ⟨m, h3, Nat.le_trans (prefixCount_mono h3 h1 hs) h2⟩

/-- When the small-write builder is not poisoned. -/
theorem not_poisoned_iff {p : Profile} {es : List Str} {fs : List Flags} {ids : List Nat} {mode : Mode} {ng : Ng}
    (h : compileNg p es fs ids mode Grey.default = .ok ng) :
    ng.smwr.poisoned = false ↔ es.length ≤ 10000 ∧ (shortCalls (given es fs ids)).length ≤ 10000 ∧
      FewPrefixes (strings (sensitiveOnes (shortCalls (given es fs ids)))) ∧
      FewPrefixes (strings (caselessOnes (shortCalls (given es fs ids)))) := by
  obtain ⟨n, hn⟩ := prefixCount_exists (strings (sensitiveOnes (shortCalls (given es fs ids))))
  obtain ⟨m, hm⟩ := prefixCount_exists (strings (caselessOnes (shortCalls (given es fs ids))))
  have := C68_poisoned p es fs ids mode Grey.default sane_default ng h n m hn hm
  rw [← Bool.not_eq_true, this]
  have e1 : Grey.default.smallWriteMaxPatterns = 10000 := rfl
  have e2 : Grey.default.smallWriteMaxLiterals = 10000 := rfl
  have e3 : Grey.default.allowSmallWrite = true := rfl
  have e4 : FewPrefixes (strings (sensitiveOnes (shortCalls (given es fs ids)))) ↔ n ≤ 8000 :=
    ⟨fun ⟨k, h1, h2⟩ => prefixCount_unique h1 hn ▸ h2, fun h => ⟨n, hn, h⟩⟩
  have e5 : FewPrefixes (strings (caselessOnes (shortCalls (given es fs ids)))) ↔ m ≤ 8000 :=
    ⟨fun ⟨k, h1, h2⟩ => prefixCount_unique h1 hm ▸ h2, fun h => ⟨m, hm, h⟩⟩
  rw [e1, e2, e3, e4, e5]
  simp only [Bool.true_eq_false, false_or, not_or, Nat.not_lt, gt_iff_lt]

/-- The expressions storing the strings of two lists; an empty expression if there are none. -/
def exprsFor (A B : List (List U8)) : List Expr :=
  if A = [] ∧ B = [] then [([], .empty, 0)] else A.map (exprFor .empty) ++ B.map (exprFor .CASELESS)

theorem mem_exprsFor {A B : List (List U8)} {e : Expr} (h : e ∈ exprsFor A B) :
    e = exprFor .empty [] ∨ (∃ w ∈ A, e = exprFor .empty w) ∨ ∃ w ∈ B, e = exprFor .CASELESS w := by
  unfold exprsFor at h
  split at h
  · exact .inl (List.mem_singleton.1 h)
  · right
    rcases List.mem_append.1 h with h | h
    · obtain ⟨w, hw, rfl⟩ := List.mem_map.1 h; exact .inl ⟨w, hw, rfl⟩
    · obtain ⟨w, hw, rfl⟩ := List.mem_map.1 h; exact .inr ⟨w, hw, rfl⟩

theorem exprsFor_ne (A B : List (List U8)) : exprsFor A B ≠ [] := by
  unfold exprsFor
  split
  · simp
  · rename_i h
    intro e
    rw [List.append_eq_nil_iff, List.map_eq_nil_iff, List.map_eq_nil_iff] at e
    exact h e

theorem exprsFor_length {A B : List (List U8)} (h : A.length + B.length ≤ 10000) : (exprsFor A B).length ≤ 10000 := by
  unfold exprsFor
  split
  · simp
  · simpa using h

/-- The strings stored by these expressions. -/
theorem exprsFor_strings {A B : List (List U8)} (hA : ∀ w ∈ A, Storable w) (hB : ∀ w ∈ B, StorableNocase w)
    (w : List U8) :
    ((∃ e ∈ exprsFor A B, ∃ ys, literalOf e = some ys ∧ ys.length ≤ 70 ∧ (∃ y ∈ ys, y.2 = true) ∧
      w = ys.map Prod.fst) ↔ w ∈ B) ∧
    ((∃ e ∈ exprsFor A B, ∃ ys, literalOf e = some ys ∧ ys.length ≤ 70 ∧ (∀ y ∈ ys, y.2 = false) ∧
      w = ys.map Prod.fst) ↔ w ∈ A) := by
  have h0 : literalOf (exprFor .empty []) = none := by decide +kernel
  have hfa : Flags.empty.contains .CASELESS = false := by decide
  have hfb : Flags.CASELESS.contains .CASELESS = true := by decide
  have la : ∀ w ∈ A, literalOf (exprFor .empty w) = some (w.map (fun b => (b, false))) := by
    intro w hw
    rw [exprFor_literal _ (hA w hw).1 (hA w hw).2.2, hfa]
    congr 1
    exact List.map_congr_left fun b hb => (litElem_facts false b ((hA w hw).2.2 b hb)).2.2.2.1 rfl
  have lb : ∀ w ∈ B, ∃ ys, literalOf (exprFor .CASELESS w) = some ys ∧ ys.length = w.length ∧
      ys.map Prod.fst = w ∧ ∃ y ∈ ys, y.2 = true := by
    intro w hw
    obtain ⟨⟨h1, h2, h3⟩, ⟨b, h4, h5⟩, h6⟩ := hB w hw
    refine ⟨_, exprFor_literal _ h1 h3, by simp, ?_, ?_⟩
    · rw [hfb, List.map_map]
      conv => rhs; rw [← List.map_id w]
      exact List.map_congr_left fun b hb => ((litElem_facts true b (h3 b hb)).2.2.2.2 rfl (h6 b hb)).1
    · rw [hfb]
      exact ⟨_, List.mem_map.2 ⟨b, h4, rfl⟩, ((litElem_facts true b (h3 b h4)).2.2.2.2 rfl (h6 b h4)).2 h5⟩
  have ma : ∀ w ∈ A, exprFor .empty w ∈ exprsFor A B := by
    intro w hw
    unfold exprsFor
    rw [if_neg (fun h => by rw [h.1] at hw; cases hw)]
    exact List.mem_append_left _ (List.mem_map.2 ⟨w, hw, rfl⟩)
  have mb : ∀ w ∈ B, exprFor .CASELESS w ∈ exprsFor A B := by
    intro w hw
    unfold exprsFor
    rw [if_neg (fun h => by rw [h.2] at hw; cases hw)]
    exact List.mem_append_right _ (List.mem_map.2 ⟨w, hw, rfl⟩)
  have el : ∀ v : List U8, (v.map (fun b => (b, false))).map Prod.fst = v := by
    intro v; rw [List.map_map]; exact List.map_id v
  constructor
  · constructor
    · rintro ⟨e, he, ys, hl, h1, ⟨y, hy, hy2⟩, rfl⟩
      rcases mem_exprsFor he with rfl | ⟨v, hv, rfl⟩ | ⟨v, hv, rfl⟩
      · rw [h0] at hl; cases hl
      · rw [la v hv] at hl; injection hl with hl; subst hl
        obtain ⟨b, _, rfl⟩ := List.mem_map.1 hy
        cases hy2
      · obtain ⟨zs, h2, _, h3, _⟩ := lb v hv
        rw [h2] at hl; injection hl with hl; subst hl
        rw [h3]; exact hv
    · intro hw
      obtain ⟨zs, h2, h3, h4, h5⟩ := lb w hw
      exact ⟨_, mb w hw, zs, h2, by rw [h3]; exact (hB w hw).1.2.1, h5, h4.symm⟩
  · constructor
    · rintro ⟨e, he, ys, hl, h1, hy, rfl⟩
      rcases mem_exprsFor he with rfl | ⟨v, hv, rfl⟩ | ⟨v, hv, rfl⟩
      · rw [h0] at hl; cases hl
      · rw [la v hv] at hl; injection hl with hl; subst hl
        rw [el]; exact hv
      · obtain ⟨zs, h2, _, _, y, h3, h4⟩ := lb v hv
        rw [h2] at hl; injection hl with hl; subst hl
        rw [hy y h3] at h4; cases h4
    · intro hw
      exact ⟨_, ma w hw, _, la w hw, by simpa using (hA w hw).2.1, by simp, (el w).symm⟩

/-- C119: the pairs of sets of strings which the case-sensitive and the caseless trie can hold after
compiling with default settings, in any build and mode. -/
theorem C119_tries (p : Profile) (mode : Mode) (A B : List (List U8)) (hA : A.Nodup) (hB : B.Nodup) :
    (∃ es fs ids ng, compileNg p es fs ids mode Grey.default = .ok ng ∧ ng.smwr.poisoned = false ∧
      (∀ w, Accepts ng.smwr.litTrie w ↔ w ∈ A) ∧ (∀ w, Accepts ng.smwr.litTrieNocase w ↔ w ∈ B)) ↔
    (∀ w ∈ A, Storable w) ∧ (∀ w ∈ B, StorableNocase w) ∧ A.length + B.length ≤ 10000 ∧
      FewPrefixes A ∧ FewPrefixes B := by
  constructor
  · rintro ⟨es, fs, ids, ng, h, hp, h1, h2⟩
    obtain ⟨_, _, hval, _⟩ := compileNg_ok sane_default h
    have ht := C68_tries p es fs ids mode Grey.default sane_default rfl ng h hp
    obtain ⟨hq1, hq2, hq3, hq4⟩ := (not_poisoned_iff h).1 hp
    have hA' : ∀ w, w ∈ A ↔ w ∈ strings (sensitiveOnes (shortCalls (given es fs ids))) := by
      intro w; rw [(mem_calls _ w).2, ← h1, (ht w).2]; rfl
    have hB' : ∀ w, w ∈ B ↔ w ∈ strings (caselessOnes (shortCalls (given es fs ids))) := by
      intro w; rw [(mem_calls _ w).1, ← h2, (ht w).1]; rfl
    refine ⟨?_, ?_, ?_, few_of hq3 (fun w hw => (hA' w).1 hw), few_of hq4 (fun w hw => (hB' w).1 hw)⟩
    · intro w hw
      obtain ⟨e, he, ys, hl, h3, _, rfl⟩ := (mem_calls _ w).2.1 ((hA' w).1 hw)
      obtain ⟨h5, h6, _⟩ := literal_facts (hval e he) hl
      refine ⟨by simpa using h5, by simpa using h3, ?_⟩
      intro b hb
      obtain ⟨y, hy, rfl⟩ := List.mem_map.1 hb
      exact h6 y hy
    · intro w hw
      obtain ⟨e, he, ys, hl, h3, h4, rfl⟩ := (mem_calls _ w).1.1 ((hB' w).1 hw)
      obtain ⟨h5, h6, h7⟩ := literal_facts (hval e he) hl
      obtain ⟨⟨y, hy, hy2⟩, h8⟩ := h7 h4
      refine ⟨⟨by simpa using h5, by simpa using h3, ?_⟩, ⟨y.1, List.mem_map.2 ⟨y, hy, rfl⟩, hy2⟩, ?_⟩
      · intro b hb
        obtain ⟨y, hy, rfl⟩ := List.mem_map.1 hb
        exact h6 y hy
      · intro b hb
        obtain ⟨y, hy, rfl⟩ := List.mem_map.1 hb
        exact h8 y hy
    · have l1 := nodup_subset_length A _ hA (fun w hw => (hA' w).1 hw)
      have l2 := nodup_subset_length B _ hB (fun w hw => (hB' w).1 hw)
      have := sensitive_caseless_length (shortCalls (given es fs ids))
      omega
  · rintro ⟨hA1, hB1, hlen, hA2, hB2⟩
    refine ⟨texts (exprsFor A B), flagSets (exprsFor A B), matchIds (exprsFor A B), ?_⟩
    have hok := (C58_success_iff p (texts (exprsFor A B)) (flagSets (exprsFor A B)) (matchIds (exprsFor A B)) mode
      Grey.default sane_default).2 (by
        rw [given_unzip, no_conflict_iff]
        refine ⟨by simpa using exprsFor_ne A B, ?_, ?_, fun _ a ha b hb _ _ _ => ?_⟩
        · rw [List.length_map]
          exact Nat.le_trans (exprsFor_length hlen) (by decide)
        · intro e he
          rcases mem_exprsFor he with rfl | ⟨w, hw, rfl⟩ | ⟨w, hw, rfl⟩
          · exact exprFor_valid p _ (by decide) (by simp) (by simp)
          · exact exprFor_valid p _ (by decide) (hA1 w hw).2.1 (hA1 w hw).2.2
          · exact exprFor_valid p _ (by decide) (hB1 w hw).1.2.1 (hB1 w hw).1.2.2
        · have hs : ∀ e ∈ exprsFor A B, e.2.1.contains .SINGLEMATCH = false := by
            intro e he
            rcases mem_exprsFor he with rfl | ⟨w, hw, rfl⟩ | ⟨w, hw, rfl⟩
            · show Flags.empty.contains .SINGLEMATCH = false; decide
            · show Flags.empty.contains .SINGLEMATCH = false; decide
            · show Flags.CASELESS.contains .SINGLEMATCH = false; decide
          rw [hs a ha, hs b hb])
    rw [compileMultiInt_eq] at hok
    cases h : compileNg p (texts (exprsFor A B)) (flagSets (exprsFor A B)) (matchIds (exprsFor A B)) mode Grey.default with
    | err x => rw [h] at hok; cases hok
    | panic m => rw [h] at hok; cases hok
    | timeout => rw [h] at hok; cases hok
    | ok ng =>
      have hst := exprsFor_strings hA1 hB1
      have hp : ng.smwr.poisoned = false := by
        rw [not_poisoned_iff h, given_unzip]
        refine ⟨by rw [List.length_map]; exact exprsFor_length hlen, ?_, ?_, ?_⟩
        · have l1 := exprsFor_length hlen
          have l2 := entriesFrom_length (litsOn Grey.default) (exprsFor A B) 0
          have l3 : (shortCalls (exprsFor A B)).length ≤ (entriesFrom (litsOn Grey.default) 0 (exprsFor A B)).length := by
            refine Nat.le_trans (List.length_filter_le _ _) ?_
            unfold callsOf; rw [List.length_map]; exact Nat.le_refl _
          omega
        · exact few_of hA2 (fun w hw => (hst w).2.1 ((mem_calls _ w).2.1 hw))
        · exact few_of hB2 (fun w hw => (hst w).1.1 ((mem_calls _ w).1.1 hw))
      have ht := C68_tries p _ _ _ mode Grey.default sane_default rfl ng h hp
      rw [given_unzip] at ht
      exact ⟨ng, rfl, hp, fun w => (ht w).2.trans (hst w).2, fun w => (ht w).1.trans (hst w).1⟩

theorem few_example : FewPrefixes [[97, 98], [42]] ∧ FewPrefixes [[67, 49]] := by
  constructor
  · refine ⟨4, ⟨[[], [97], [97, 98], [42]], by decide, ?_, rfl⟩, by decide⟩
    intro w
    simp only [IsPrefixOfSome, List.mem_cons, List.not_mem_nil, or_false, exists_eq_or_imp, exists_eq_left,
      List.prefix_cons_iff, List.prefix_nil]
    constructor
    · rintro (rfl | rfl | rfl | rfl) <;> simp
    · rintro (rfl | (rfl | ⟨t, rfl, rfl | ⟨s, rfl, rfl⟩⟩) | rfl | ⟨t, rfl, rfl⟩) <;> simp
  · refine ⟨3, ⟨[[], [67], [67, 49]], by decide, ?_, rfl⟩, by decide⟩
    intro w
    simp only [IsPrefixOfSome, List.mem_cons, List.not_mem_nil, or_false, exists_eq_left,
      List.prefix_cons_iff, List.prefix_nil]
    constructor
    · rintro (rfl | rfl | rfl) <;> simp
    · rintro (rfl | rfl | ⟨t, rfl, rfl | ⟨s, rfl, rfl⟩⟩) <;> simp

instance (w : List U8) : Decidable (Storable w) := inferInstanceAs (Decidable (_ ∧ _))
instance (w : List U8) : Decidable (StorableNocase w) :=
  have : ∀ b, Decidable (isUpper b) := fun b => inferInstanceAs (Decidable (_ ∧ _))
  have : ∀ b, Decidable (isLower b) := fun b => inferInstanceAs (Decidable (_ ∧ _))
  inferInstanceAs (Decidable (_ ∧ _))

example : ∃ es fs ids ng, compileNg .debug es fs ids .vectored Grey.default = .ok ng ∧ ng.smwr.poisoned = false ∧
    (∀ w, Accepts ng.smwr.litTrie w ↔ w ∈ [[97, 98], [42]]) ∧ (∀ w, Accepts ng.smwr.litTrieNocase w ↔ w ∈ [[67, 49]]) :=
  (C119_tries .debug .vectored _ _ (by decide) (by decide)).2
    ⟨by decide, by decide, by decide, few_example.1, few_example.2⟩

example : ¬ ∃ es fs ids ng, compileNg .debug es fs ids .vectored Grey.default = .ok ng ∧ ng.smwr.poisoned = false ∧
    (∀ w, Accepts ng.smwr.litTrie w ↔ w ∈ []) ∧ (∀ w, Accepts ng.smwr.litTrieNocase w ↔ w ∈ [[67, 97]]) := fun h =>
  absurd ((C119_tries .debug .vectored _ _ (by decide) (by decide)).1 h).2.1 (by decide)

end Rescan
