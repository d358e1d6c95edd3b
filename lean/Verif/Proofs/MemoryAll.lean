import Verif.Proofs.MemoryGraph
import Verif.Props.Resources
/-! # The memory of an expression and of everything -/
namespace Rescan.Memory

open Rescan.Spec

/-! ## An expression -/

theorem shortcutLiteral_uses (p : Profile) (ng : Ng) (pe : ParsedExpression) (n k : Nat) (hl : (leaves pe.component).length ≤ n)
    (hlit : ∀ lit, Rescan.walkComponent p constructLiteralVisitor Ue2Literal.default pe.component = .ok lit → lit.len ≤ n)
    (hk : ownedNg ng + 4 * n + 5 + message (Rescan.shortcutLiteral p ng pe) ≤ k) :
    Uses (shortcutLiteral p ng pe) (Rescan.shortcutLiteral p ng pe) (ownedNg ng) (fun x => ownedNg x.1) (ownedNg ng) k := by
  unfold shortcutLiteral
  unfold Rescan.shortcutLiteral at *
  split
  · exact Uses.pure rfl
  rename_i h0
  rw [if_neg h0] at hk
  have h1 := walkComponent_uses p pe.component Ue2Literal.default (2 * n)
    (by have : ownedLiteral Ue2Literal.default = 0 := rfl
        omega)
  have h2 := Uses.weaken (Uses.frame (ownedNg ng) h1) (show 2 * n + ownedNg ng ≤ k by omega)
  have h3 : Uses _ _ (ownedNg ng) _ _ _ := Uses.cast h2 rfl
    (show ownedLiteral Ue2Literal.default + ownedNg ng = ownedNg ng from Nat.zero_add _) (fun _ _ => rfl) (fun _ => rfl) (Nat.le_refl _)
  let g : Outcome NotLiteral Ue2Literal → Res (Ng × Bool) := fun o => match o with
    | .err _ => .ok (ng, false)
    | .panic m => .panic m
    | .timeout => .timeout
    | .ok lit =>
      if lit.isEmpty then .ok (ng, false)
      else do
        let index ← ReportManager.toU32 pe.expr.index
          "called `Result::unwrap()` on an `Err` value: TryFromIntError(())"
        ng.addLiteral p lit index pe.expr.report pe.expr.highlander pe.expr.som pe.expr.quiet
  refine Uses.thenDo (g := g) h3 ?_ ?_
    (fun x _ => Uses.panic (by omega)) ⟨rfl, rfl⟩
  · intro lit hw
    have hn := hlit lit hw
    have hb : ownedLiteral lit ≤ 2 * n := by
      rw [hw] at h1
      exact Uses.bound h1 (tame_walkComponent _ _ _) (Nat.zero_le _)
    rw [hw] at hk
    simp only [g] at hk ⊢
    refine Uses.dropAfter ?_
    split
    · exact Uses.pure (by dsimp only; omega)
    · rename_i he
      rw [if_neg he] at hk
      refine Uses.bind (s := fun _ => ownedLiteral lit + ownedNg ng) (Uses.cast (Uses.ret fun e => toU32_noerr _ _ e) rfl rfl
        (fun _ _ => rfl) (fun _ => Nat.add_comm ..) (Nat.le_refl _)) fun i hi => ?_
      rw [message_bind_ok hi] at hk
      have := Uses.frame (ownedLiteral lit) (ngAddLiteral_uses p ng lit i pe.expr.report pe.expr.highlander pe.expr.som pe.expr.quiet
        (k - ownedLiteral lit) (by omega))
      exact Uses.cast this rfl (by omega) (fun _ _ => rfl) (fun _ => rfl) (by omega)
  · intro e _
    exact Uses.pure (by change 0 + ownedNg ng + 0 = ownedNg ng; omega)

/-- A literal that is not taken leaves the `Ng` alone. -/
theorem addLiteral_false {p : Profile} {ng ng' : Ng} {lit : Ue2Literal} {i r : Nat} {hl : Bool} {som : SomType} {q : Bool}
    (h : ng.addLiteral p lit i r hl som q = .ok (ng', false)) : ng' = ng := by
  rw [addLiteral_eq] at h
  obtain ⟨_, _, h⟩ := bind_eq_ok h
  split at h
  · cases h; rfl
  split at h
  · cases h; rfl
  obtain ⟨_, _, h⟩ := bind_eq_ok h
  obtain ⟨_, _, h⟩ := bind_eq_ok h
  split at h
  · cases h
  · obtain ⟨_, _, h⟩ := bind_eq_ok h
    cases h

theorem shortcutLiteral_false {p : Profile} {ng ng' : Ng} {pe : ParsedExpression}
    (h : Rescan.shortcutLiteral p ng pe = .ok (ng', false)) : ng' = ng := by
  unfold Rescan.shortcutLiteral at h
  split at h
  · cases h; rfl
  split at h
  · cases h; rfl
  · cases h
  · cases h
  · split at h
    · cases h; rfl
    · obtain ⟨_, _, h⟩ := bind_eq_ok h
      exact addLiteral_false h

theorem parsedNew_uses (p : Profile) (i : Nat) (e : Str) (f : Flags) (id : Nat) (k : Nat)
    (hk : 2 * e.length + 2 + message (ParsedExpression.new p i e f id) ≤ k) :
    Uses (parsedNew p i e f id) (ParsedExpression.new p i e f id) 0 (fun pe => ownedComponent pe.component) 0 k := by
  unfold parsedNew
  unfold ParsedExpression.new at *
  dsimp only at hk ⊢
  split
  · rename_i h
    rw [if_pos h] at hk
    change _ + ownedError _ ≤ _ at hk
    exact Uses.fail (by omega)
  · rename_i h
    rw [if_neg h] at hk
    exact Uses.bind (parse_uses p e _ k (message_fits hk)) fun x _ => Uses.pure rfl

theorem addExpression_uses (p : Profile) (ng : Ng) (i : Nat) (e : Str) (f : Flags) (id k : Nat)
    (hk : ownedNg ng + (if utf8Len e ≤ ng.cc.grey.limitPatternLength then 6 * e.length + 20 else 0)
      + message (Rescan.addExpression p ng i e f id) ≤ k) :
    Uses (addExpression p ng i e f id) (Rescan.addExpression p ng i e f id) (ownedNg ng) ownedNg (ownedNg ng) k := by
  unfold addExpression
  unfold Rescan.addExpression at *
  split
  · rename_i h
    rw [if_pos h] at hk
    change _ + ownedError _ ≤ _ at hk
    exact Uses.fail (by omega)
  rename_i h
  rw [if_neg h, if_pos (by omega)] at hk
  have hm := message_fits hk
  have h1 := Uses.frame (ownedNg ng) (parsedNew_uses p i e f id (k - ownedNg ng) (by omega))
  refine Uses.bind (s := fun pe => ownedComponent pe.component + ownedNg ng) (Uses.cast h1 rfl (Nat.zero_add _) (fun _ _ => rfl)
    (fun _ => Nat.zero_add _) (by omega)) fun pe hpe => ?_
  rw [message_bind_ok hpe, CallStack.prefilter_id] at hk
  dsimp only
  rw [CallStack.prefilter_id]
  obtain ⟨m, hparse, _⟩ := parsedExpression_ok hpe
  have ht := parse_owned hparse
  have hleaf := CallStack.leaves_le hparse
  refine Uses.dropAfter ?_
  have hm2 := message_fits hk
  have h2 := Uses.frame (ownedComponent pe.component) (shortcutLiteral_uses p ng pe e.length (k - ownedComponent pe.component) hleaf
    (fun lit hw => Work.literal_len hparse hw) (by omega))
  refine Uses.bind (s := fun x => ownedNg x.1 + ownedComponent pe.component) (Uses.cast h2 rfl (by omega) (fun _ _ => rfl)
    (fun _ => rfl) (by omega)) fun x hx => ?_
  rw [message_bind_ok hx] at hk
  obtain ⟨ng1, b⟩ := x
  cases b with
  | true => exact Uses.pure rfl
  | false =>
    have hng : ng1 = ng := shortcutLiteral_false hx
    subst hng
    dsimp only
    simp only [Bool.false_eq_true, if_false] at hk ⊢
    refine Uses.bind (Uses.cast (Uses.frame (ownedNg ng1 + ownedComponent pe.component)
      (buildGraph_uses (ε := CompileError) p pe _ (Nat.le_refl _))) rfl (by omega) (fun _ _ => rfl) (fun _ => Nat.zero_add _)
        (by omega)) fun b _ => ?_
    refine Uses.dropAfter (Uses.pure ?_)
    have : ownedNg (ng1.addGraph b.expr b.graph) = ownedNg ng1 := by unfold Ng.addGraph; split <;> rfl
    omega

/-! ## How an `Ng` grows -/

/-- A vertex for every edge, and one more. -/
def Tree (t : LitTrie) : Prop := t.inner.nodes.length = t.inner.edges.length + 1

theorem descend_shape {ε : Type} {st st' : LitTrie × Nat} {c : U8} (h : LitTrie.descend (ε := ε) st c = .ok st') (ht : Tree st.1) :
    Tree st'.1 ∧ storedReports st'.1 = storedReports st.1 := by
  obtain ⟨t, u⟩ := st
  unfold LitTrie.descend at h
  dsimp only at h
  split at h
  · cases h; exact ⟨ht, rfl⟩
  · obtain ⟨⟨g, v⟩, h1, h⟩ := bind_eq_ok h
    obtain ⟨g', h2, h⟩ := bind_eq_ok h
    cases h
    obtain ⟨rfl, rfl⟩ := addNode_ok h1
    have := addEdge_ok h2
    subst this
    unfold Tree storedReports at *
    simp only [List.length_append, List.length_cons, List.length_nil, List.map_append, List.map_cons, List.map_nil,
      List.sum_append, List.sum_cons, List.sum_nil] at *
    exact ⟨by omega, by omega⟩

theorem descendAll_shape {ε : Type} : ∀ (cs : List U8) {st st' : LitTrie × Nat},
    cs.foldlM (LitTrie.descend (ε := ε)) st = .ok st' → Tree st.1 → Tree st'.1 ∧ storedReports st'.1 = storedReports st.1
  | [], st, st', h, ht => by rw [List.foldlM_nil] at h; cases h; exact ⟨ht, rfl⟩
  | c :: cs, st, st', h, ht => by
    rw [List.foldlM_cons] at h
    obtain ⟨s1, h1, h⟩ := bind_eq_ok h
    obtain ⟨t1, e1⟩ := descend_shape h1 ht
    obtain ⟨t2, e2⟩ := descendAll_shape cs h t1
    exact ⟨t2, e2.trans e1⟩

theorem addToTrie_shape {ε : Type} {lit : Ue2Literal} {r : Nat} {t t' : LitTrie} {b : Bool}
    (h : Rescan.addToTrie (ε := ε) lit r t = .ok (t', b)) (ht : Tree t) : Tree t' ∧ storedReports t' ≤ storedReports t + 1 := by
  unfold Rescan.addToTrie at h
  obtain ⟨⟨t1, u⟩, h1, h⟩ := bind_eq_ok h
  obtain ⟨s1, s2⟩ := descendAll_shape _ h1 ht
  dsimp only at h s1 s2
  split at h
  · rename_i hu
    cases h
    have := sum_modify r t1.inner.nodes u t1.inner.nodes[u] (List.getElem?_eq_getElem hu)
    unfold Tree storedReports at *
    dsimp only
    rw [List.length_modify, this]
    refine ⟨s1, ?_⟩
    split <;> omega
  · cases h

/-- The reports in the manager and in the tries. -/
def weight (ng : Ng) : Nat := ownedReports ng.rm + (storedReports ng.smwr.litTrie + storedReports ng.smwr.litTrieNocase)

theorem smallAddLiteral_shape {ε : Type} {sw sw' : SmallWriteBuild} {lit : Ue2Literal} {r : Nat}
    (h : sw.addLiteral (ε := ε) lit r = .ok sw') (h1 : Tree sw.litTrie) (h2 : Tree sw.litTrieNocase) :
    Tree sw'.litTrie ∧ Tree sw'.litTrieNocase ∧ storedReports sw'.litTrie + storedReports sw'.litTrieNocase
      ≤ storedReports sw.litTrie + storedReports sw.litTrieNocase + 1 := by
  unfold SmallWriteBuild.addLiteral at h
  split at h
  · cases h; exact ⟨h1, h2, by omega⟩
  split at h
  · cases h; exact ⟨h1, h2, by omega⟩
  dsimp only at h
  split at h
  · cases h; exact ⟨h1, h2, by dsimp only; omega⟩
  split at h
  · obtain ⟨⟨t, b⟩, ht, h⟩ := bind_eq_ok h
    cases h
    obtain ⟨a1, a2⟩ := addToTrie_shape ht h2
    exact ⟨h1, a1, by dsimp only; omega⟩
  · obtain ⟨⟨t, b⟩, ht, h⟩ := bind_eq_ok h
    cases h
    obtain ⟨a1, a2⟩ := addToTrie_shape ht h1
    exact ⟨a1, h2, by dsimp only; omega⟩

/-- What holds of the `Ng` after `i` patterns with `tot` characters. -/
structure Kept (np : Nat) (g : Grey) (i tot : Nat) (ng : Ng) : Prop where
  grey : ng.cc.grey = g
  owned : ownedNg ng ≤ 2 + 5 * i + 2 * tot
  weight : weight ng ≤ 5 * i
  tree : Tree ng.smwr.litTrie
  treeNocase : Tree ng.smwr.litTrieNocase
  calls : ∃ calls : List SwCall, calls.foldlM (SwCall.run (ε := CompileError)) (SmallWriteBuild.new np g) = .ok ng.smwr

theorem ownedNg_eq (ng : Ng) : ownedNg ng = weight ng + (ng.smwr.litTrie.inner.nodes.length + ng.smwr.litTrie.inner.edges.length
    + (ng.smwr.litTrieNocase.inner.nodes.length + ng.smwr.litTrieNocase.inner.edges.length)) := by
  unfold ownedNg weight ownedTrie ownedGraph storedReports
  omega

theorem Kept.most {np : Nat} {g : Grey} {i tot : Nat} {ng : Ng} (h : Kept np g i tot ng) :
    ownedNg ng ≤ 2 + 5 * i + 2 * min tot (16000 + g.smallWriteLargestBuffer) := by
  obtain ⟨calls, hc⟩ := h.calls
  obtain ⟨b1, b2, b3, _⟩ := C86_bounded np g calls ng.smwr hc
  have h1 := h.owned
  have h2 := h.weight
  have h3 := h.tree
  have h4 := h.treeNocase
  have h5 := ownedNg_eq ng
  unfold Tree at h3 h4
  omega

theorem Kept.new (np : Nat) (g : Grey) (a b : Bool) (n : Nat) : Kept np g 0 0 (Ng.new ⟨a, b, g⟩ np n) where
  grey := rfl
  owned := Nat.le_refl 2
  weight := Nat.le_refl 0
  tree := rfl
  treeNocase := rfl
  calls := ⟨[], rfl⟩

/-- What `add_literal` does to the `Ng`, if it takes the literal. -/
theorem ngAddLiteral_ok {p : Profile} {ng ng' : Ng} {lit : Ue2Literal} {i r : Nat} {hl : Bool} {som : SomType} {q b : Bool}
    (h : ng.addLiteral p lit i r hl som q = .ok (ng', b)) : ng' = ng ∨ (ng'.cc = ng.cc ∧
      ownedReports ng'.rm ≤ ownedReports ng.rm + 4 ∧ ∃ id, ng.smwr.addLiteral (ε := CompileError) lit id = .ok ng'.smwr) := by
  rw [addLiteral_eq] at h
  obtain ⟨_, _, h⟩ := bind_eq_ok h
  split at h
  · cases h; exact .inl rfl
  split at h
  · cases h; exact .inl rfl
  obtain ⟨rm, hrm, h⟩ := bind_eq_ok h
  obtain ⟨x, hx, h⟩ := bind_eq_ok h
  split at h
  · cases h
  · obtain ⟨sw, hsw, h⟩ := bind_eq_ok h
    cases h
    refine .inr ⟨rfl, ?_, _, hsw⟩
    obtain ⟨b1, b2⟩ := registerOf_owned hrm
    have b3 := reportOf_grow b2 hx
    dsimp only
    omega

theorem foldlM_snoc {ε α β : Type} {f : β → α → Outcome ε β} {x : α} : ∀ {xs : List α} {b c d : β},
    xs.foldlM f b = .ok c → f c x = .ok d → (xs ++ [x]).foldlM f b = .ok d
  | [], b, c, d, h, hd => by
    cases h
    show (f b x).bind _ = _
    rw [hd]; rfl
  | y :: xs, b, c, d, h, hd => by
    obtain ⟨a, ha, h⟩ := bind_eq_ok (show (f b y).bind _ = _ from h)
    show (f b y).bind _ = _
    rw [ha]
    exact foldlM_snoc h hd

theorem shortcut_kept {p : Profile} {np : Nat} {g : Grey} {i tot : Nat} {ng ng' : Ng} {pe : ParsedExpression} {b : Bool} {n : Nat}
    (hlit : ∀ lit, Rescan.walkComponent p constructLiteralVisitor Ue2Literal.default pe.component = .ok lit → lit.len ≤ n)
    (h : Rescan.shortcutLiteral p ng pe = .ok (ng', b)) (hk : Kept np g i tot ng) : Kept np g (i + 1) (tot + n) ng' := by
  have same : Kept np g (i + 1) (tot + n) ng :=
    ⟨hk.grey, by have := hk.owned; omega, by have := hk.weight; omega, hk.tree, hk.treeNocase, hk.calls⟩
  unfold Rescan.shortcutLiteral at h
  split at h
  · cases h; exact same
  split at h
  · cases h; exact same
  · cases h
  · cases h
  · rename_i lit hw
    split at h
    · cases h; exact same
    · obtain ⟨j, _, h⟩ := bind_eq_ok h
      have hg := ngAddLiteral_grow h
      have hn := hlit lit hw
      rcases ngAddLiteral_ok h with rfl | ⟨hcc, hrm, id, hsw⟩
      · exact same
      · obtain ⟨s1, s2, s3⟩ := smallAddLiteral_shape hsw hk.tree hk.treeNocase
        refine ⟨by rw [hcc]; exact hk.grey, by have := hk.owned; omega, ?_, s1, s2, ?_⟩
        · have := hk.weight
          unfold weight at *
          omega
        · obtain ⟨calls, hc⟩ := hk.calls
          refine ⟨calls ++ [.literal lit id], ?_⟩
          exact foldlM_snoc hc hsw

theorem addExpression_kept {p : Profile} {np : Nat} {g : Grey} {i j tot : Nat} {ng ng' : Ng} {e : Str} {f : Flags} {id : Nat}
    (h : Rescan.addExpression p ng j e f id = .ok ng') (hk : Kept np g i tot ng) :
    utf8Len e ≤ g.limitPatternLength ∧ Kept np g (i + 1) (tot + e.length) ng' := by
  unfold Rescan.addExpression at h
  split at h
  · cases h
  rename_i hl
  rw [hk.grey] at hl
  refine ⟨by omega, ?_⟩
  obtain ⟨pe, hpe, h⟩ := bind_eq_ok h
  dsimp only at h
  rw [CallStack.prefilter_id] at h
  obtain ⟨m, hparse, _⟩ := parsedExpression_ok hpe
  obtain ⟨⟨ng1, b⟩, h1, h⟩ := bind_eq_ok h
  have k1 := shortcut_kept (fun lit hw => Work.literal_len hparse hw) h1 hk
  cases b with
  | true => cases h; exact k1
  | false =>
    obtain ⟨b, hb, h⟩ := bind_eq_ok h
    cases h
    have : (ng1.addGraph b.expr b.graph).smwr = ng1.smwr ∧ (ng1.addGraph b.expr b.graph).rm = ng1.rm ∧
        (ng1.addGraph b.expr b.graph).cc = ng1.cc := by
      unfold Ng.addGraph; split <;> exact ⟨rfl, rfl, rfl⟩
    obtain ⟨e1, e2, e3⟩ := this
    refine ⟨by rw [e3]; exact k1.grey, ?_, ?_, by rw [e1]; exact k1.tree, by rw [e1]; exact k1.treeNocase, by rw [e1]; exact k1.calls⟩
    · unfold ownedNg; rw [e1, e2]; exact k1.owned
    · unfold weight; rw [e1, e2]; exact k1.weight

/-! ## Everything -/

theorem addAll_uses (p : Profile) (np : Nat) (g : Grey) : ∀ (xs : List (Str × Flags × Nat)) (i tot : Nat) (ng : Ng) (k : Nat),
    Kept np g i tot ng →
    1 + (2 + 5 * (i + xs.length) + 2 * min (tot + (lengths g (xs.map Prod.fst)).sum) (16000 + g.smallWriteLargestBuffer))
      + (6 * (lengths g (xs.map Prod.fst)).foldr max 0 + 20) + raised p i ng xs ≤ k →
    Uses (addAll p i ng xs) (Rescan.addAll p i ng xs) (1 + ownedNg ng) (fun x => 1 + ownedNg x) 0 k
  | [], i, tot, ng, k, _, _ => by
    rw [addAll, Rescan.addAll]
    exact Uses.pure rfl
  | (e, f, id) :: xs, i, tot, ng, k, hkept, hk => by
    rw [addAll, Rescan.addAll]
    have hm := hkept.most
    rw [List.map_cons, List.length_cons] at hk
    have hl : lengths g (e :: xs.map Prod.fst) = (if utf8Len e ≤ g.limitPatternLength then [e.length] else [])
        ++ lengths g (xs.map Prod.fst) := by
      unfold lengths
      split
      · rename_i h; rw [List.filter_cons_of_pos (by simpa using h), List.map_cons]; rfl
      · rename_i h; rw [List.filter_cons_of_neg (by simpa using h)]; rfl
    rw [hl] at hk
    have hadd : Uses (addExpression p ng i e f id) (Rescan.addExpression p ng i e f id) (1 + ownedNg ng) (fun x => 1 + ownedNg x)
        (1 + ownedNg ng) k := by
      have h1 : ownedNg ng + (if utf8Len e ≤ ng.cc.grey.limitPatternLength then 6 * e.length + 20 else 0)
          + message (Rescan.addExpression p ng i e f id) ≤ k - 1 := by
        rw [hkept.grey]
        have h2 : message (Rescan.addExpression p ng i e f id) ≤ raised p i ng ((e, f, id) :: xs) := by
          rw [raised]
          cases Rescan.addExpression p ng i e f id <;> first | exact Nat.le_refl _ | exact Nat.zero_le _
        split at hk <;> rename_i hc
        · rw [if_pos hc]
          simp only [List.cons_append, List.nil_append, List.sum_cons, List.foldr_cons] at hk
          omega
        · rw [if_neg hc]
          rw [List.nil_append] at hk
          omega
      exact Uses.cast (Uses.frame 1 (addExpression_uses p ng i e f id (k - 1) h1)) rfl (by omega) (fun _ _ => by omega)
        (fun _ => by omega) (by omega)
    let gg : Res Ng → Res Ng := fun o => match o with
      | .ok ng => Rescan.addAll p (i + 1) ng xs
      | .panic m => .panic m
      | .timeout => .timeout
      | .err e => do
        let idx ← ReportManager.toU32 i
          "called `Result::unwrap()` on an `Err` value: TryFromIntError(())"
        let e ← e.setExpressionIndex p idx
        .err e
    refine Uses.thenDo (g := gg) hadd ?_ ?_
      (fun x _ => Uses.then (Uses.free (Nat.le_refl _)) (Uses.panic (Nat.sub_self _))) ⟨rfl, rfl⟩
    · intro ng' hng
      obtain ⟨hlen, hkept'⟩ := addExpression_kept hng hkept
      rw [raised, hng, if_pos hlen] at hk
      simp only [List.cons_append, List.nil_append, List.sum_cons, List.foldr_cons] at hk
      exact addAll_uses p np g xs (i + 1) (tot + e.length) ng' k hkept' (by omega)
    · intro x hx
      refine Uses.bind (s := fun _ => 1 + ownedNg ng + ownedError x) (d := 0)
        (Uses.onError (Uses.cast (Uses.ret (a := 1 + ownedNg ng + ownedError x) fun e => toU32_noerr _ _ e) rfl rfl (fun _ _ => rfl) (fun _ => by omega)
          (Nat.le_refl _))) fun idx _ => ?_
      refine Uses.bind (s := fun _ => 1 + ownedNg ng + ownedError x) (d := 0)
        (Uses.onError (Uses.cast (Uses.ret (a := 1 + ownedNg ng + ownedError x) fun e => ?_) rfl rfl (fun _ _ => rfl) (fun _ => by omega) (Nat.le_refl _))) fun y hy => ?_
      · unfold CompileError.setExpressionIndex rdebugAssert
        intro h
        split at h <;> cases h
      · have hr : ownedError y = ownedError x := by
          unfold CompileError.setExpressionIndex at hy
          obtain ⟨_, _, hy⟩ := bind_eq_ok hy
          cases hy
          rfl
        refine Uses.then (Uses.free (by omega)) (Uses.err ?_)
        change _ = 0 + ownedError y
        omega

theorem lengths_izip (g : Grey) : ∀ (es : List Str) (fs : List Flags) (ids : List Nat),
    (lengths g ((izip es fs ids).map Prod.fst)).sum ≤ (lengths g es).sum ∧
    (lengths g ((izip es fs ids).map Prod.fst)).foldr max 0 ≤ (lengths g es).foldr max 0 ∧
    (izip es fs ids).length ≤ es.length
  | [], _, _ => by simp [izip]
  | e :: es, [], _ => by simp [izip, lengths]
  | e :: es, f :: fs, [] => by simp [izip, lengths]
  | e :: es, f :: fs, i :: is => by
    obtain ⟨h1, h2, h3⟩ := lengths_izip g es fs is
    rw [izip, List.map_cons, List.length_cons, List.length_cons]
    unfold lengths at *
    dsimp only
    by_cases h : utf8Len e ≤ g.limitPatternLength
    · rw [List.filter_cons_of_pos (by simpa using h), List.filter_cons_of_pos (by simpa using h)]
      simp only [List.map_cons, List.sum_cons, List.foldr_cons]
      exact ⟨by omega, by omega, by omega⟩
    · rw [List.filter_cons_of_neg (by simpa using h), List.filter_cons_of_neg (by simpa using h)]
      exact ⟨h1, h2, by omega⟩

theorem compileMultiInt_uses (p : Profile) (es : List Str) (fs : List Flags) (ids : List Nat) (mode : Mode) (g : Grey) (k : Nat)
    (hk : memoryFor g es + raisedBy p es fs ids mode g ≤ k) :
    Uses (compileMultiInt p es fs ids mode g) (Rescan.compileMultiInt p es fs ids mode g) 0 (fun _ => 0) 0 k := by
  unfold compileMultiInt Rescan.compileMultiInt Rescan.compileNg
  unfold raisedBy at hk
  split
  · rename_i h
    rw [if_pos h] at hk
    exact Uses.fail (by change 0 + utf8Len _ ≤ _; dsimp only [CompileError.new]; omega)
  rename_i h
  rw [if_neg h] at hk
  split
  · rename_i h
    rw [if_pos h] at hk
    exact Uses.fail (by change 0 + utf8Len _ ≤ _; dsimp only [CompileError.new]; omega)
  rename_i h
  rw [if_neg h] at hk
  unfold memoryFor at hk
  obtain ⟨h1, h2, h3⟩ := lengths_izip g es fs ids
  refine Uses.then (Uses.alloc (by omega)) (Uses.then (Uses.alloc (by omega)) (Uses.then (Uses.alloc (by omega)) ?_))
  dsimp only
  have := addAll_uses p es.length g (izip es fs ids) 0 0 _ k (Kept.new es.length g mode.isStreaming mode.isVectored mode.somPrecision)
    (by omega)
  refine Uses.bind (s := fun x => 1 + ownedNg x) (Uses.cast this rfl rfl (fun _ _ => rfl) (fun _ => rfl) (Nat.le_refl _)) fun ng _ => ?_
  exact Uses.then (Uses.free (Nat.le_refl _)) (Uses.pure (by omega))

end Rescan.Memory
