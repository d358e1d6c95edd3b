import Verif.Props.Compiled
/-! # Property C86: the size of the small-write builder -/
namespace Rescan
open SmallWriteBuild Spec

/-- A call to the small-write builder. -/
inductive SwCall where
  | literal (l : Ue2Literal) (r : Nat)
  | expression (rm : ReportManager) (g : NgHolder) (expr : ExpressionInfo)

/-- One call. -/
def SwCall.run {ε : Type} (sw : SmallWriteBuild) : SwCall → Outcome ε SmallWriteBuild
  | .literal l r => sw.addLiteral l r
  | .expression rm g expr => sw.addExpression rm g expr

/-- The number of reports stored in a trie. -/
def storedReports (t : LitTrie) : Nat := (t.inner.nodes.map (fun v => v.reports.length)).sum

private theorem descend_size {ε : Type} (st st' : LitTrie × Nat) (c : U8) (h : LitTrie.descend (ε := ε) st c = .ok st') :
    st'.1.inner.nodes.length ≤ st.1.inner.nodes.length + 1 ∧ storedReports st'.1 = storedReports st.1 := by
  obtain ⟨t, u⟩ := st
  unfold LitTrie.descend at h
  simp only at h
  split at h
  · cases h; exact ⟨Nat.le_succ _, rfl⟩
  · cases hn : t.inner.addNode (ε := ε) ⟨c, []⟩ with
    | ok gn =>
      obtain ⟨g, n⟩ := gn
      rw [hn] at h
      have hg : g.nodes = t.inner.nodes ++ [⟨c, []⟩] := by
        unfold Graph.addNode at hn
        split at hn
        · cases hn
        · cases hn; rfl
      cases he : g.addEdge (ε := ε) u n with
      | ok g' =>
        have h2 : Outcome.bind (g.addEdge (ε := ε) u n) (fun g => .ok (({ t with inner := g } : LitTrie), n)) = .ok st' := h
        rw [he] at h2
        cases h2
        have hg' : g'.nodes = g.nodes := by
          unfold Graph.addEdge at he
          repeat' split at he
          all_goals first | (cases he; rfl) | cases he
        simp only [storedReports, hg', hg, List.map_append, List.map_cons, List.map_nil, List.length_append,
          List.length_cons, List.length_nil, List.sum_append, List.sum_cons, List.sum_nil]
        exact ⟨by omega, by omega⟩
      | err e => 
        have h2 : Outcome.bind (g.addEdge (ε := ε) u n) (fun g => .ok (({ t with inner := g } : LitTrie), n)) = .ok st' := h
        rw [he] at h2; cases h2
      | panic m => 
        have h2 : Outcome.bind (g.addEdge (ε := ε) u n) (fun g => .ok (({ t with inner := g } : LitTrie), n)) = .ok st' := h
        rw [he] at h2; cases h2
      | timeout => 
        have h2 : Outcome.bind (g.addEdge (ε := ε) u n) (fun g => .ok (({ t with inner := g } : LitTrie), n)) = .ok st' := h
        rw [he] at h2; cases h2
    | err e => rw [hn] at h; cases h
    | panic m => rw [hn] at h; cases h
    | timeout => rw [hn] at h; cases h

private theorem fold_size {ε : Type} : ∀ (bs : List U8) (st st' : LitTrie × Nat),
    bs.foldlM (LitTrie.descend (ε := ε)) st = .ok st' →
    st'.1.inner.nodes.length ≤ st.1.inner.nodes.length + bs.length ∧ storedReports st'.1 = storedReports st.1 := by
  intro bs
  induction bs with
  | nil => intro st st' h; cases h; exact ⟨Nat.le_refl _, rfl⟩
  | cons b bs ih =>
    intro st st' h
    have h2 : Outcome.bind (LitTrie.descend (ε := ε) st b) (fun s => bs.foldlM (LitTrie.descend (ε := ε)) s) = .ok st' := h
    cases hd : LitTrie.descend (ε := ε) st b with
    | ok s =>
      rw [hd] at h2
      have h3 := descend_size st s b hd
      have h4 := ih s st' h2
      simp only [List.length_cons]
      exact ⟨by omega, by omega⟩
    | err e => rw [hd] at h2; cases h2
    | panic m => rw [hd] at h2; cases h2
    | timeout => rw [hd] at h2; cases h2

private theorem setInsert_length (s : List Nat) (x : Nat) : (setInsert s x).length ≤ s.length + 1 := by
  unfold setInsert
  split <;> simp

private theorem modify_reports (r : Nat) : ∀ (ns : List LitTrieVertexProps) (u : Nat),
    ((ns.modify u (fun v => { v with reports := setInsert v.reports r })).map (fun v => v.reports.length)).sum ≤
      (ns.map (fun v => v.reports.length)).sum + 1 := by
  intro ns
  induction ns with
  | nil => intro u; cases u <;> simp
  | cons n ns ih =>
    intro u
    cases u with
    | zero =>
      have := setInsert_length n.reports r
      simp only [List.modify_zero_cons, List.map_cons, List.sum_cons]
      omega
    | succ u =>
      have := ih u
      simp only [List.modify_succ_cons, List.map_cons, List.sum_cons]
      omega

private theorem addToTrie_size {ε : Type} (l : Ue2Literal) (r : Nat) (t t' : LitTrie) (fits : Bool)
    (h : addToTrie (ε := ε) l r t = .ok (t', fits)) :
    t'.inner.nodes.length ≤ t.inner.nodes.length + l.s.length ∧ storedReports t' ≤ storedReports t + 1 ∧
    fits = decide (t'.inner.nodes.length ≤ 8000) := by
  unfold addToTrie at h
  have h2 : Outcome.bind ((l.iter.map (fun e => e.c)).foldlM (LitTrie.descend (ε := ε)) (t, t.root)) _ = .ok (t', fits) := h
  cases hf : (l.iter.map (fun e => e.c)).foldlM (LitTrie.descend (ε := ε)) (t, t.root) with
  | ok st =>
    rw [hf] at h2
    have hs := fold_size _ _ _ hf
    have hlen : (l.iter.map (fun e => e.c)).length ≤ l.s.length := by
      simp only [Ue2Literal.iter, List.length_map, List.length_zipWith]
      omega
    simp only [Outcome.bind] at h2
    split at h2
    · cases h2
      simp only [storedReports, List.length_modify] at hs ⊢
      have := modify_reports r st.1.inner.nodes st.2
      exact ⟨by omega, by omega, rfl⟩
    · cases h2
  | err e => rw [hf] at h2; cases h2
  | panic m => rw [hf] at h2; cases h2
  | timeout => rw [hf] at h2; cases h2

/-- What holds of every builder whose settings are `g`. -/
private structure Bounded (g : Grey) (sw : SmallWriteBuild) : Prop where
  grey : sw.grey = g
  size : sw.litTrie.inner.nodes.length ≤ 8000 + g.smallWriteLargestBuffer
  sizeN : sw.litTrieNocase.inner.nodes.length ≤ 8000 + g.smallWriteLargestBuffer
  one : sw.litTrie.inner.nodes.length ≤ 8000 ∨ sw.litTrieNocase.inner.nodes.length ≤ 8000
  count : sw.numLiterals ≤ g.smallWriteMaxLiterals + 1
  reports : storedReports sw.litTrie + storedReports sw.litTrieNocase ≤ sw.numLiterals
  clean : sw.poisoned = false → sw.litTrie.inner.nodes.length ≤ 8000 ∧
    sw.litTrieNocase.inner.nodes.length ≤ 8000 ∧ sw.numLiterals ≤ g.smallWriteMaxLiterals

private theorem bounded_new (np : Nat) (g : Grey) : Bounded g (SmallWriteBuild.new np g) := by
  constructor <;>
    simp [SmallWriteBuild.new, LitTrie.default, storedReports] <;> omega

private theorem bounded_poison {g : Grey} {sw : SmallWriteBuild} (h : Bounded g sw) :
    Bounded g { sw with poisoned := true } :=
  ⟨h.grey, h.size, h.sizeN, h.one, h.count, h.reports, fun e => nomatch e⟩

private theorem bounded_literal {ε : Type} {g : Grey} {sw sw' : SmallWriteBuild} (h : Bounded g sw)
    (l : Ue2Literal) (r : Nat) (e : sw.addLiteral (ε := ε) l r = .ok sw') : Bounded g sw' := by
  unfold SmallWriteBuild.addLiteral at e
  by_cases hp : sw.poisoned = true
  · rw [if_pos hp] at e; cases e; exact h
  rw [if_neg hp] at e
  have hc := h.clean (by simpa using hp)
  by_cases hl : l.len > sw.grey.smallWriteLargestBuffer
  · rw [if_pos hl] at e; cases e; exact h
  rw [if_neg hl] at e
  have hlen : l.s.length ≤ g.smallWriteLargestBuffer := by
    rw [h.grey] at hl; exact Nat.le_of_not_lt hl
  have hr := h.reports
  simp only at e
  by_cases hm : sw.numLiterals + 1 > sw.grey.smallWriteMaxLiterals
  · rw [if_pos hm] at e; cases e
    refine ⟨h.grey, h.size, h.sizeN, h.one, ?_, ?_, fun e => nomatch e⟩ <;> simp only <;> omega
  rw [if_neg hm, h.grey] at *
  by_cases hn : l.anyNocase = true
  · rw [if_pos hn] at e
    have e2 : Outcome.bind (addToTrie (ε := ε) l r sw.litTrieNocase) _ = .ok sw' := e
    cases ht : addToTrie (ε := ε) l r sw.litTrieNocase with
    | ok x =>
      obtain ⟨t, fits⟩ := x
      rw [ht] at e2
      cases e2
      obtain ⟨h1, h2, h3⟩ := addToTrie_size l r _ t fits ht
      refine ⟨rfl, h.size, ?_, Or.inl hc.1, ?_, ?_, fun hf => ?_⟩ <;> simp only at * <;> first | omega | skip
      subst h3
      exact ⟨hc.1, by simpa using hf, by omega⟩
    | err e => rw [ht] at e2; cases e2
    | panic m => rw [ht] at e2; cases e2
    | timeout => rw [ht] at e2; cases e2
  · rw [if_neg hn] at e
    have e2 : Outcome.bind (addToTrie (ε := ε) l r sw.litTrie) _ = .ok sw' := e
    cases ht : addToTrie (ε := ε) l r sw.litTrie with
    | ok x =>
      obtain ⟨t, fits⟩ := x
      rw [ht] at e2
      cases e2
      obtain ⟨h1, h2, h3⟩ := addToTrie_size l r _ t fits ht
      refine ⟨rfl, ?_, h.sizeN, Or.inr hc.2.1, ?_, ?_, fun hf => ?_⟩ <;> simp only at * <;> first | omega | skip
      subst h3
      exact ⟨by simpa using hf, hc.2.1, by omega⟩
    | err e => rw [ht] at e2; cases e2
    | panic m => rw [ht] at e2; cases e2
    | timeout => rw [ht] at e2; cases e2

private theorem bounded_expression {ε : Type} {g : Grey} {sw sw' : SmallWriteBuild} (h : Bounded g sw)
    (rm : ReportManager) (gr : NgHolder) (expr : ExpressionInfo)
    (e : sw.addExpression (ε := ε) rm gr expr = .ok sw') : Bounded g sw' := by
  unfold SmallWriteBuild.addExpression at e
  split at e
  · cases e; exact h
  split at e
  · cases e; exact bounded_poison h
  split at e
  · cases e; exact bounded_poison h
  have e2 : Outcome.bind (anyMinLength (ε := ε) rm gr.allReports) _ = .ok sw' := e
  cases ht : anyMinLength (ε := ε) rm gr.allReports with
  | ok b =>
    rw [ht] at e2
    cases b
    · cases e2
    · cases e2; exact bounded_poison h
  | err e => rw [ht] at e2; cases e2
  | panic m => rw [ht] at e2; cases e2
  | timeout => rw [ht] at e2; cases e2

/-- **C86.** After any sequence of calls the builder is small, whatever the literals and graphs: each trie has
at most 8000 vertices and one literal more, at most one of them has more than 8000, at most one literal is
counted beyond the limit, and no more reports are stored than literals counted.  Not poisoned, it is within
all limits. -/
theorem C86_bounded {ε : Type} (np : Nat) (g : Grey) (calls : List SwCall) (sw : SmallWriteBuild)
    (h : calls.foldlM (SwCall.run (ε := ε)) (SmallWriteBuild.new np g) = .ok sw) :
    sw.litTrie.inner.nodes.length ≤ 8000 + g.smallWriteLargestBuffer ∧
    sw.litTrieNocase.inner.nodes.length ≤ 8000 + g.smallWriteLargestBuffer ∧
    (sw.litTrie.inner.nodes.length ≤ 8000 ∨ sw.litTrieNocase.inner.nodes.length ≤ 8000) ∧
    sw.numLiterals ≤ g.smallWriteMaxLiterals + 1 ∧
    storedReports sw.litTrie + storedReports sw.litTrieNocase ≤ sw.numLiterals ∧
    (sw.poisoned = false → sw.litTrie.inner.nodes.length ≤ 8000 ∧
      sw.litTrieNocase.inner.nodes.length ≤ 8000 ∧ sw.numLiterals ≤ g.smallWriteMaxLiterals) := by
  have key : ∀ (calls : List SwCall) (s : SmallWriteBuild), Bounded g s →
      calls.foldlM (SwCall.run (ε := ε)) s = .ok sw → Bounded g sw := by
    intro calls
    induction calls with
    | nil => intro s hs e; cases e; exact hs
    | cons c cs ih =>
      intro s hs e
      have e2 : Outcome.bind (SwCall.run (ε := ε) s c) (fun s => cs.foldlM (SwCall.run (ε := ε)) s) = .ok sw := e
      cases hd : SwCall.run (ε := ε) s c with
      | ok s' =>
        rw [hd] at e2
        refine ih s' ?_ e2
        cases c with
        | literal l r => exact bounded_literal hs l r hd
        | expression rm gr expr => exact bounded_expression hs rm gr expr hd
      | err e => rw [hd] at e2; cases e2
      | panic m => rw [hd] at e2; cases e2
      | timeout => rw [hd] at e2; cases e2
  have hb := key calls _ (bounded_new np g) h
  exact ⟨hb.size, hb.sizeN, hb.one, hb.count, hb.reports, hb.clean⟩

/-- Two literals, one of them caseless, with a limit of one: the second is counted but not stored. -/
example : ∃ sw, [SwCall.literal ⟨[0x61#8, 0x62#8], [false, false]⟩ 7, .literal ⟨[0x41#8], [true]⟩ 8].foldlM
      (SwCall.run (ε := Empty)) (SmallWriteBuild.new 1 { Grey.default with smallWriteMaxLiterals := 1 }) = .ok sw ∧
    sw.numLiterals = 2 ∧ sw.poisoned = true ∧ sw.litTrie.inner.nodes.length = 3 ∧
    storedReports sw.litTrie = 1 ∧ sw.litTrieNocase.inner.nodes.length = 1 := ⟨_, rfl, by decide +kernel⟩

private theorem addLiterals_foldlM {ε : Type} : ∀ (h : List (Ue2Literal × Nat)) (sw : SmallWriteBuild),
    addLiterals (ε := ε) h sw = (h.map (fun x => SwCall.literal x.1 x.2)).foldlM (SwCall.run (ε := ε)) sw := by
  intro h
  induction h with
  | nil => intro sw; rfl
  | cons x h ih =>
    intro sw
    obtain ⟨l, r⟩ := x
    show Outcome.bind (sw.addLiteral l r) _ = Outcome.bind (sw.addLiteral l r) _
    congr 1
    funext sw
    exact ih sw

private theorem addLiteral_count {ε : Type} (sw sw' : SmallWriteBuild) (l : Ue2Literal) (r : Nat)
    (e : sw.addLiteral (ε := ε) l r = .ok sw') : sw'.numLiterals ≤ sw.numLiterals + 1 := by
  unfold SmallWriteBuild.addLiteral at e
  split at e
  · cases e; exact Nat.le_succ _
  split at e
  · cases e; exact Nat.le_succ _
  simp only at e
  split at e
  · cases e; exact Nat.le_refl _
  split at e
  · have e2 : Outcome.bind (addToTrie (ε := ε) l r sw.litTrieNocase) _ = .ok sw' := e
    cases ht : addToTrie (ε := ε) l r sw.litTrieNocase <;> rw [ht] at e2 <;> cases e2
    exact Nat.le_refl _
  · have e2 : Outcome.bind (addToTrie (ε := ε) l r sw.litTrie) _ = .ok sw' := e
    cases ht : addToTrie (ε := ε) l r sw.litTrie <;> rw [ht] at e2 <;> cases e2
    exact Nat.le_refl _

private theorem addLiterals_count {ε : Type} : ∀ (h : List (Ue2Literal × Nat)) (sw sw' : SmallWriteBuild),
    addLiterals (ε := ε) h sw = .ok sw' → sw'.numLiterals ≤ sw.numLiterals + h.length := by
  intro h
  induction h with
  | nil => intro sw sw' e; cases e; exact Nat.le_refl _
  | cons x h ih =>
    intro sw sw' e
    obtain ⟨l, r⟩ := x
    have e2 : Outcome.bind (sw.addLiteral (ε := ε) l r) (fun sw => addLiterals h sw) = .ok sw' := e
    cases hd : sw.addLiteral (ε := ε) l r with
    | ok s =>
      rw [hd] at e2
      have := addLiteral_count sw s l r hd
      have := ih s sw' e2
      simp only [List.length_cons]
      omega
    | err e => rw [hd] at e2; cases e2
    | panic m => rw [hd] at e2; cases e2
    | timeout => rw [hd] at e2; cases e2

/-- C86, end to end: whatever the expressions, a finished compilation holds at most 16000 trie vertices and one
literal more, and one internal report; it has counted no more literals than there are expressions, and at most
one beyond the limit. -/
theorem C86_compiled (p : Profile) (es : List Str) (fs : List Flags) (ids : List Nat) (mode : Mode)
    (g : Grey) (hs : Sane g) (ng : Ng) (h : compileNg p es fs ids mode g = .ok ng) :
    ng.smwr.litTrie.inner.nodes.length + ng.smwr.litTrieNocase.inner.nodes.length
      ≤ 16000 + g.smallWriteLargestBuffer ∧
    ng.rm.reportIds.length ≤ 1 ∧ ng.smwr.numLiterals ≤ es.length ∧
    ng.smwr.numLiterals ≤ g.smallWriteMaxLiterals + 1 := by
  obtain ⟨_, _, _, hok⟩ := compileNg_ok hs h
  have hl := hok.smwr
  have hc := addLiterals_count _ _ _ hl
  rw [addLiterals_foldlM] at hl
  obtain ⟨h1, h2, h3, h4, _, _⟩ := C86_bounded es.length g _ _ hl
  have hn : ((given es fs ids)).length ≤ es.length := by
    simp only [given, List.length_zip]; omega
  have he := entriesFrom_length (litsOn g) (given es fs ids) 0
  refine ⟨by omega, ?_, ?_, h4⟩
  · rw [hok.ids]; split <;> simp
  · simp only [callsOf, List.length_map, SmallWriteBuild.new] at hc
    omega

example : (match compileNg .release ["aB".toList, "Cd".toList, "a|b".toList] [Flags.empty, Flags.CASELESS, Flags.empty]
    [0, 1, 2] .block Grey.default with
    | .ok ng => some (ng.smwr.numLiterals, ng.smwr.litTrie.inner.nodes.length,
      ng.smwr.litTrieNocase.inner.nodes.length, ng.rm.reportIds.length) | _ => none) = some (2, 3, 3, 1) := by
  decide +kernel

end Rescan
