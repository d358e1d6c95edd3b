import Verif.Props.Compiled
import Verif.Spec.Witness
/-! # C79: the order of the expressions -/
namespace Rescan
open Spec

/-- The three argument lists of a list of expressions. -/
abbrev texts (l : List Expr) : List Str := l.map (fun e => e.1)
/-- See `texts`. -/
abbrev flagSets (l : List Expr) : List Flags := l.map (fun e => e.2.1)
/-- See `texts`. -/
abbrev matchIds (l : List Expr) : List Nat := l.map (fun e => e.2.2)

theorem given_unzip : ∀ l : List Expr, given (texts l) (flagSets l) (matchIds l) = l
  | [] => rfl
  | e :: l => by
    show (e.1, e.2.1, e.2.2) :: given (texts l) (flagSets l) (matchIds l) = e :: l
    rw [given_unzip l]

/-- No conflict between members, whatever their positions. -/
theorem no_conflict_iff (l : List Expr) : (∀ i j, ¬ Conflict l i j) ↔
    ∀ a ∈ l, ∀ b ∈ l, literalOf a ≠ none → literalOf b ≠ none → a.2.2 = b.2.2 →
      a.2.1.contains .SINGLEMATCH = b.2.1.contains .SINGLEMATCH := by
  constructor
  · intro h a ha b hb h1 h2 h3
    apply Classical.byContradiction
    intro h4
    obtain ⟨i, hi⟩ := List.getElem?_of_mem ha
    obtain ⟨j, hj⟩ := List.getElem?_of_mem hb
    rcases Nat.lt_trichotomy i j with hij | hij | hij
    · exact h i j ⟨a, b, hij, hi, hj, h1, h2, h3, h4⟩
    · subst hij
      rw [hi] at hj; injection hj with hj; subst hj
      exact h4 rfl
    · exact h j i ⟨b, a, hij, hj, hi, h2, h1, h3.symm, fun e => h4 e.symm⟩
  · rintro h i j ⟨a, b, _, hi, hj, h1, h2, h3, h4⟩
    exact h4 (h a (List.mem_of_getElem? hi) b (List.mem_of_getElem? hj) h1 h2 h3)

/-- C79: whether compiling succeeds does not depend on the order of the expressions, nor on how often
one is repeated as long as the number of expressions stays within the limit. -/
theorem C79_success (p : Profile) (l l' : List Expr) (mode : Mode) (g : Grey) (hs : Sane g)
    (hmem : ∀ e, e ∈ l ↔ e ∈ l') (hlen : l.length ≤ g.limitPatternCount) (hlen' : l'.length ≤ g.limitPatternCount) :
    (compileMultiInt p (texts l) (flagSets l) (matchIds l) mode g).isOk
      = (compileMultiInt p (texts l') (flagSets l') (matchIds l') mode g).isOk := by
  rw [Bool.eq_iff_iff, C58_success_iff p _ _ _ mode g hs, C58_success_iff p _ _ _ mode g hs]
  simp only [given_unzip, no_conflict_iff, List.length_map, hmem, ne_eq, List.map_eq_nil_iff]
  have hne : l = [] ↔ l' = [] := by
    rw [List.eq_nil_iff_forall_not_mem, List.eq_nil_iff_forall_not_mem]
    simp only [hmem]
  rw [hne]
  simp only [hlen, hlen']

example := C79_success .debug [("ab".toList, .empty, 1), ("C|d".toList, .CASELESS, 2)]
  [("C|d".toList, .CASELESS, 2), ("ab".toList, .empty, 1), ("C|d".toList, .CASELESS, 2)] .block Grey.default sane_default
  (by intro e; simp only [List.mem_cons, List.not_mem_nil, or_false]; exact ⟨fun h => h.elim (.inr ∘ .inl) .inl,
    fun h => h.elim .inr (fun h => h.elim .inl .inr)⟩) (by decide) (by decide)

/-- C79: part of a list that compiles, compiles. -/
theorem C79_sublist (p : Profile) (l l' : List Expr) (mode : Mode) (g : Grey) (hs : Sane g)
    (hsub : ∀ e ∈ l', e ∈ l) (hne : l' ≠ []) (hlen : l'.length ≤ g.limitPatternCount)
    (h : (compileMultiInt p (texts l) (flagSets l) (matchIds l) mode g).isOk = true) :
    (compileMultiInt p (texts l') (flagSets l') (matchIds l') mode g).isOk = true := by
  rw [C58_success_iff p _ _ _ mode g hs] at h ⊢
  simp only [given_unzip, no_conflict_iff, List.length_map, ne_eq, List.map_eq_nil_iff] at h ⊢
  exact ⟨hne, hlen, fun e he => h.2.2.1 e (hsub e he), fun ho a ha b hb =>
    h.2.2.2 ho a (hsub a ha) b (hsub b hb)⟩

example := C79_sublist .debug [("ab".toList, .empty, 1), ("C|d".toList, .CASELESS, 2)]
  [("C|d".toList, .CASELESS, 2)] .block Grey.default sane_default (by simp) (by simp) (by decide) (by decide +kernel)

/-- C79: what is recorded does not depend on the order either: the minimum width, whether all
expressions are SINGLEMATCH, which ids have an exhaustion key, and (unless poisoned) the strings the
small-write tries accept. -/
theorem C79_state (p : Profile) (l l' : List Expr) (mode : Mode) (g : Grey) (hs : Sane g)
    (hmem : ∀ e, e ∈ l ↔ e ∈ l') (ng ng' : Ng)
    (h : compileNg p (texts l) (flagSets l) (matchIds l) mode g = .ok ng)
    (h' : compileNg p (texts l') (flagSets l') (matchIds l') mode g = .ok ng') :
    ng.minWidth = ng'.minWidth ∧ ng.rm.globalExhaust = ng'.rm.globalExhaust ∧
    (∀ id : Nat, (∃ k, alookup ng.rm.toExhaustibleKeyMap (id : Int) = some k) ↔
      ∃ k, alookup ng'.rm.toExhaustibleKeyMap (id : Int) = some k) ∧
    (ng.smwr.poisoned = false → ng'.smwr.poisoned = false → ∀ w,
      (Accepts ng.smwr.litTrie w ↔ Accepts ng'.smwr.litTrie w) ∧
      (Accepts ng.smwr.litTrieNocase w ↔ Accepts ng'.smwr.litTrieNocase w)) := by
  by_cases hon : litsOn g = true
  case neg =>
    rw [Bool.not_eq_true] at hon
    rw [compileNg_idle hs hon h, compileNg_idle hs hon h']
    exact ⟨rfl, rfl, fun _ => Iff.rfl, fun _ _ _ => ⟨Iff.rfl, Iff.rfl⟩⟩
  have a1 := C47_min_width_partial p _ _ _ mode g hs hon ng h
  have b1 := C47_min_width_partial p _ _ _ mode g hs hon ng' h'
  have a2 := C69_exhaust_partial p _ _ _ mode g hs hon ng h
  have b2 := C69_exhaust_partial p _ _ _ mode g hs hon ng' h'
  simp only [given_unzip, hmem] at a1 b1 a2 b2
  refine ⟨?_, ?_, fun id => (a2.2.1 id).trans (b2.2.1 id).symm, ?_⟩
  · by_cases hl : ∃ e ∈ l', literalOf e ≠ none
    · obtain ⟨e, he, hel, c, m, w, hw1, hw2, hw3⟩ := a1.2.1 hl
      obtain ⟨e', he', hel', c', m', w', hw1', hw2', hw3'⟩ := b1.2.1 hl
      have i1 := b1.1 e he hel c m w hw1 hw2
      have i2 := a1.1 e' he' hel' c' m' w' hw1' hw2'
      have : ng.minWidth.val = ng'.minWidth.val := by omega
      cases hx : ng.minWidth; cases hy : ng'.minWidth
      rw [hx, hy] at this
      exact congrArg _ this
    · have hn : ∀ e ∈ l', literalOf e = none := by
        intro e he
        apply Classical.byContradiction
        exact fun hx => hl ⟨e, he, hx⟩
      rw [a1.2.2.2 hn, b1.2.2.2 hn]
  · rw [Bool.eq_iff_iff, a2.1, b2.1]
  · intro hp hp' w
    have a3 := C68_tries p _ _ _ mode g hs hon ng h hp w
    have b3 := C68_tries p _ _ _ mode g hs hon ng' h' hp' w
    simp only [given_unzip, hmem] at a3 b3
    exact ⟨a3.2.trans b3.2.symm, a3.1.trans b3.1.symm⟩

example : litsOn Grey.default = true ∧
    (∃ ng, compileNg .debug (texts [("ab".toList, .empty, 1), ("C|d".toList, .CASELESS, 2)])
      (flagSets [("ab".toList, .empty, 1), ("C|d".toList, .CASELESS, 2)]) (matchIds [("ab".toList, .empty, 1), ("C|d".toList, .CASELESS, 2)]) .block Grey.default = .ok ng ∧ ng.smwr.poisoned = false) ∧
    ∃ ng, compileNg .debug (texts [("C|d".toList, .CASELESS, 2), ("ab".toList, .empty, 1), ("C|d".toList, .CASELESS, 2)])
      (flagSets [("C|d".toList, .CASELESS, 2), ("ab".toList, .empty, 1), ("C|d".toList, .CASELESS, 2)])
      (matchIds [("C|d".toList, .CASELESS, 2), ("ab".toList, .empty, 1), ("C|d".toList, .CASELESS, 2)]) .block Grey.default
      = .ok ng ∧ ng.smwr.poisoned = false :=
  ⟨rfl, Outcome.exists_ok (by decide +kernel), Outcome.exists_ok (by decide +kernel)⟩

theorem callsOf_entries (on : Bool) : ∀ (l : List Expr) (i : Nat), callsOf (entriesFrom on i l)
    = l.filterMap (fun e => (if on then literalOf e else none).map (fun es => (litOf es, 0)))
  | [], _ => rfl
  | e :: l, i => by
    rw [List.filterMap_cons, entriesFrom]
    cases h : (if on then literalOf e else none) with
    | none => exact callsOf_entries on l (i + 1)
    | some es =>
      show (litOf es, 0) :: callsOf (entriesFrom on (i + 1) l) = _
      rw [callsOf_entries on l (i + 1)]
      rfl

theorem prefixCount_perm {ws ws' : List (List U8)} {m n : Nat} (h : ws.Perm ws') (h1 : PrefixCount ws m)
    (h2 : PrefixCount ws' n) : m = n :=
  Nat.le_antisymm (prefixCount_mono h1 h2 (fun _ hx => h.mem_iff.1 hx))
    (prefixCount_mono h2 h1 (fun _ hx => h.mem_iff.2 hx))

/-- C79: whether the small-write builder is poisoned does not depend on the order of the expressions. -/
theorem C79_poisoned (p : Profile) (l l' : List Expr) (mode : Mode) (g : Grey) (hs : Sane g)
    (hperm : l.Perm l') (ng ng' : Ng)
    (h : compileNg p (texts l) (flagSets l) (matchIds l) mode g = .ok ng)
    (h' : compileNg p (texts l') (flagSets l') (matchIds l') mode g = .ok ng') :
    ng.smwr.poisoned = ng'.smwr.poisoned := by
  have hc : (shortOnes g.smallWriteLargestBuffer (callsOf (entriesFrom (litsOn g) 0 l))).Perm
      (shortOnes g.smallWriteLargestBuffer (callsOf (entriesFrom (litsOn g) 0 l'))) := by
    rw [callsOf_entries, callsOf_entries]
    exact (hperm.filterMap _).filter _
  obtain ⟨n, hn⟩ := prefixCount_exists (strings (sensitiveOnes (shortOnes g.smallWriteLargestBuffer
    (callsOf (entriesFrom (litsOn g) 0 l)))))
  obtain ⟨m, hm⟩ := prefixCount_exists (strings (caselessOnes (shortOnes g.smallWriteLargestBuffer
    (callsOf (entriesFrom (litsOn g) 0 l)))))
  obtain ⟨n', hn'⟩ := prefixCount_exists (strings (sensitiveOnes (shortOnes g.smallWriteLargestBuffer
    (callsOf (entriesFrom (litsOn g) 0 l')))))
  obtain ⟨m', hm'⟩ := prefixCount_exists (strings (caselessOnes (shortOnes g.smallWriteLargestBuffer
    (callsOf (entriesFrom (litsOn g) 0 l')))))
  have e1 : n = n' := prefixCount_perm ((hc.filter _).map _) hn hn'
  have e2 : m = m' := prefixCount_perm ((hc.filter _).map _) hm hm'
  have a := C68_poisoned p _ _ _ mode g hs ng h n m (by rw [given_unzip]; exact hn) (by rw [given_unzip]; exact hm)
  have b := C68_poisoned p _ _ _ mode g hs ng' h' n' m' (by rw [given_unzip]; exact hn')
    (by rw [given_unzip]; exact hm')
  simp only [given_unzip, List.length_map] at a b
  rw [Bool.eq_iff_iff, a, b, e1, e2, hc.length_eq, hperm.length_eq]

/-- The expressions `ab` and `C|d`, in either order. -/
example : Sane Grey.default ∧ litsOn Grey.default = true ∧
    (compileMultiInt .debug (texts [("ab".toList, .empty, 1), ("C|d".toList, .CASELESS, 2)])
      (flagSets [("ab".toList, .empty, 1), ("C|d".toList, .CASELESS, 2)])
      (matchIds [("ab".toList, .empty, 1), ("C|d".toList, .CASELESS, 2)]) .block Grey.default).isOk = true :=
  ⟨sane_default, rfl, by decide +kernel⟩

end Rescan
