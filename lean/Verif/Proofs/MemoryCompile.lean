import Verif.Proofs.MemoryParse
import Verif.Proofs.WorkCompile
/-! # The memory of compiling -/
namespace Rescan.Memory

open Rescan.Spec

variable {ε : Type}

/-! ## The literal -/

theorem preLiteralClass_ok {lit l : Ue2Literal} {c : AsciiComponentClass} (h : Rescan.preLiteralClass lit c = .ok l) :
    ∃ f b, l = lit.push f b := by
  unfold Rescan.preLiteralClass at h
  dsimp only at h
  split at h
  · obtain ⟨f, _, h⟩ := bind_eq_ok h
    cases h
    exact ⟨_, _, rfl⟩
  · obtain ⟨b, _, h⟩ := bind_eq_ok h
    split at h
    · obtain ⟨f, _, h⟩ := bind_eq_ok h
      cases h
      exact ⟨_, _, rfl⟩
    · cases h

theorem owned_push (lit : Ue2Literal) (f : U8) (b : Bool) :
    ownedLiteral (lit.push f b) = ownedLiteral lit + (if lit.nocase.length % 32 = 0 then 1 else 0) + 1 := by
  simp only [ownedLiteral, Ue2Literal.push, List.length_append, List.length_singleton]
  split <;> omega

theorem preLiteralClass_uses (lit : Ue2Literal) (c : AsciiComponentClass) (k : Nat) (hk : ownedLiteral lit + 2 ≤ k) :
    Uses (preLiteralClass lit c) (Rescan.preLiteralClass lit c) (ownedLiteral lit) ownedLiteral 0 k := by
  unfold preLiteralClass
  cases h : Rescan.preLiteralClass lit c with
  | ok l =>
    obtain ⟨f, b, rfl⟩ := preLiteralClass_ok h
    have := owned_push lit f b
    simp only
    split
    · rename_i h0
      rw [if_pos h0] at this
      exact Uses.then (Uses.alloc (by omega)) (Uses.then (Uses.alloc (by omega)) (Uses.pure (by omega)))
    · rename_i h0
      rw [if_neg h0] at this
      exact Uses.then (Uses.alloc (by omega)) (Uses.pure (by omega))
  | err e => exact Uses.then (Uses.free (Nat.le_refl _)) (Uses.err (by change _ = 0 + 0; omega))
  | panic t => exact Uses.then (Uses.free (Nat.le_refl _)) (Uses.panic (by omega))
  | timeout => exact Uses.timeout

theorem walkSequence_plain (p : Profile) (lit : Ue2Literal) (cs : List Component) (a : Option ComponentAlternation)
    (i : Option Nat) (n : Option String) :
    Rescan.walkComponentSequence p constructLiteralVisitor lit (.mk cs a i n) =
      (rdebugAssert p a.isNone "assertion failed: c.alternation.is_none()").bind fun _ =>
        Rescan.walkComponents p constructLiteralVisitor lit (.mk cs a i n) cs := by
  rw [Rescan.walkComponentSequence]
  show (rdebugAssert p a.isNone _).bind _ = _
  congr 1
  funext _
  show (Rescan.walkComponents p constructLiteralVisitor lit (.mk cs a i n) cs).bind (fun s => .ok s) = _
  cases Rescan.walkComponents p constructLiteralVisitor lit (.mk cs a i n) cs <;> rfl

theorem walkComponents_plain (p : Profile) (lit : Ue2Literal) (s : ComponentSequence) (c : Component) (cs : List Component) :
    Rescan.walkComponents p constructLiteralVisitor lit s (c :: cs) =
      (Rescan.walkComponent p constructLiteralVisitor lit c).bind fun l =>
        Rescan.walkComponents p constructLiteralVisitor l s cs := by
  rw [Rescan.walkComponents]
  show (Rescan.walkComponent p constructLiteralVisitor lit c).bind _ = _
  congr 1
  funext l
  split <;> rfl

mutual
theorem walkComponent_uses (p : Profile) : ∀ (c : Component) (lit : Ue2Literal) (k : Nat),
    ownedLiteral lit + 2 * (leaves c).length ≤ k →
    Uses (walkComponent p lit c) (Rescan.walkComponent p constructLiteralVisitor lit c) (ownedLiteral lit) ownedLiteral 0 k
  | .alternation (.mk ss), lit, k, _ => by
    rw [walkComponent, Rescan.walkComponent, Rescan.walkComponentAlternation]
    exact Uses.then (Uses.free (Nat.le_refl _)) (Uses.err (by change _ = 0 + 0; omega))
  | .cls (.ascii a), lit, k, hk => by
    rw [walkComponent, Rescan.walkComponent, Rescan.walkComponentClass]
    have : (do
        let s ← constructLiteralVisitor.preAsciiComponentClass lit a
        let s ← constructLiteralVisitor.duringAsciiComponentClass s a
        constructLiteralVisitor.postAsciiComponentClass s a) = Rescan.preLiteralClass lit a := by
      show (Rescan.preLiteralClass lit a).bind (fun s => .ok s) = _
      cases Rescan.preLiteralClass lit a <;> rfl
    rw [this]
    exact preLiteralClass_uses lit a k (by rw [leaves] at hk; exact hk)
  | .sequence s, lit, k, hk => by
    rw [walkComponent, Rescan.walkComponent]
    exact walkSequence_uses p s lit k (by rw [leaves] at hk; exact hk)
theorem walkSequence_uses (p : Profile) : ∀ (s : ComponentSequence) (lit : Ue2Literal) (k : Nat),
    ownedLiteral lit + 2 * (leavesSeq s).length ≤ k →
    Uses (walkSequence p lit s) (Rescan.walkComponentSequence p constructLiteralVisitor lit s) (ownedLiteral lit) ownedLiteral 0 k
  | .mk cs a i n, lit, k, hk => by
    rw [walkSequence, walkSequence_plain]
    refine Uses.bind (s := fun _ => ownedLiteral lit) (Uses.onError (Uses.cast
      (Uses.ret (a := ownedLiteral lit) fun e => by unfold rdebugAssert; split <;> exact nofun)
      rfl rfl (fun _ _ => rfl) (fun _ => (Nat.zero_add _).symm) (Nat.le_refl _))) fun _ _ => ?_
    exact walkComponents_uses p cs (.mk cs a i n) lit k (by rw [leavesSeq] at hk; exact hk)
theorem walkComponents_uses (p : Profile) : ∀ (cs : List Component) (s : ComponentSequence) (lit : Ue2Literal) (k : Nat),
    ownedLiteral lit + 2 * (leavesAll cs).length ≤ k →
    Uses (walkComponents p lit cs) (Rescan.walkComponents p constructLiteralVisitor lit s cs) (ownedLiteral lit) ownedLiteral 0 k
  | [], s, lit, k, _ => by
    rw [walkComponents, Rescan.walkComponents]
    exact Uses.pure rfl
  | c :: cs, s, lit, k, hk => by
    rw [leavesAll, List.length_append] at hk
    rw [walkComponents, walkComponents_plain]
    have h1 := walkComponent_uses p c lit (ownedLiteral lit + 2 * (leaves c).length) (Nat.le_refl _)
    refine Uses.bind (Uses.weaken h1 (by omega)) fun l hl => ?_
    have hb : ownedLiteral l ≤ ownedLiteral lit + 2 * (leaves c).length := by
      rw [hl] at h1
      exact Uses.bound h1 (tame_walkComponent p c lit) (by omega)
    exact walkComponents_uses p cs s l k (by omega)
end

/-! ## Tries -/

theorem ownedGraph_addNode {N : Type} (f : N → List Nat) (g : Graph N) (n : N) (hn : f n = []) :
    ownedGraph f { g with nodes := g.nodes ++ [n] } = ownedGraph f g + 1 := by
  simp [ownedGraph, hn]
  omega

theorem addNode_ok {N : Type} {g g' : Graph N} {n : N} {v : Nat} (h : g.addNode (ε := ε) n = .ok (g', v)) :
    g' = { g with nodes := g.nodes ++ [n] } ∧ v = g.nodes.length := by
  unfold Graph.addNode at h
  split at h
  · cases h
  · cases h; exact ⟨rfl, rfl⟩

theorem addEdge_ok {N : Type} {g g' : Graph N} {a b : Nat} (h : g.addEdge (ε := ε) a b = .ok g') :
    g' = { g with edges := (a, b) :: g.edges } := by
  unfold Graph.addEdge at h
  split at h
  · cases h
  · split at h
    · cases h; rfl
    · cases h

theorem addNode_noerr {N : Type} {g : Graph N} {n : N} (e : ε) : g.addNode (ε := ε) n ≠ .err e := by
  unfold Graph.addNode; split <;> exact nofun

theorem addEdge_noerr {N : Type} {g : Graph N} {a b : Nat} (e : ε) : g.addEdge (ε := ε) a b ≠ .err e := by
  unfold Graph.addEdge; split; · exact nofun
  split <;> exact nofun

variable [Owned ε]

omit [Owned ε] in
theorem descend_mono {st st' : LitTrie × Nat} {c : U8} (h : LitTrie.descend (ε := ε) st c = .ok st') :
    ownedTrie st.1 ≤ ownedTrie st'.1 := by
  obtain ⟨t, u⟩ := st
  unfold LitTrie.descend at h
  dsimp only at h
  split at h
  · cases h; exact Nat.le_refl _
  · obtain ⟨⟨g, v⟩, h1, h⟩ := bind_eq_ok h
    obtain ⟨g', h2, h⟩ := bind_eq_ok h
    cases h
    obtain ⟨rfl, rfl⟩ := addNode_ok h1
    rw [addEdge_ok h2]
    simp [ownedTrie, ownedGraph]
    omega

omit [Owned ε] in
theorem descendAll_mono : ∀ (cs : List U8) {st st' : LitTrie × Nat}, cs.foldlM (LitTrie.descend (ε := ε)) st = .ok st' →
    ownedTrie st.1 ≤ ownedTrie st'.1
  | [], st, st', h => by rw [List.foldlM_nil] at h; cases h; exact Nat.le_refl _
  | c :: cs, st, st', h => by
    rw [List.foldlM_cons] at h
    obtain ⟨s1, h1, h⟩ := bind_eq_ok h
    exact Nat.le_trans (descend_mono h1) (descendAll_mono cs h)

theorem descend_uses (st : LitTrie × Nat) (c : U8) (k : Nat) (hk : ownedTrie st.1 + 2 ≤ k) :
    Uses (descend st c : H ε _) (LitTrie.descend st c) (ownedTrie st.1) (fun x => ownedTrie x.1) (ownedTrie st.1) k := by
  obtain ⟨t, u⟩ := st
  unfold descend LitTrie.descend
  dsimp only
  cases hf : t.findChild u c with
  | some v => exact Uses.pure rfl
  | none =>
    refine Uses.bind (s := fun _ => ownedTrie t) (Uses.ret fun e => addNode_noerr e) fun x hx => ?_
    obtain ⟨g, v⟩ := x
    obtain ⟨hg, rfl⟩ := addNode_ok hx
    have h1 := ownedGraph_addNode LitTrieVertexProps.reports t.inner ⟨c, []⟩ rfl
    rw [← hg] at h1
    refine Uses.then (Uses.alloc (by dsimp only at hk; omega)) ?_
    refine Uses.bind (s := fun _ => ownedTrie t + 1) (Uses.onError (Uses.ret fun e => addEdge_noerr e)) fun g' hg' => ?_
    have h2 : ownedGraph LitTrieVertexProps.reports g' = ownedGraph LitTrieVertexProps.reports g + 1 := by
      rw [addEdge_ok hg']
      simp only [ownedGraph, List.length_cons]
      omega
    refine Uses.then (Uses.alloc (by dsimp only at hk; omega)) (Uses.pure ?_)
    simp only [ownedTrie] at *
    omega

theorem descendAll_uses : ∀ (cs : List U8) (st : LitTrie × Nat) (k : Nat), ownedTrie st.1 + 2 * cs.length ≤ k →
    Uses (descendAll cs st : H ε _) (cs.foldlM LitTrie.descend st) (ownedTrie st.1)
      (fun x => ownedTrie x.1) (ownedTrie st.1) k
  | [], st, k, _ => by
    rw [descendAll, List.foldlM_nil]
    exact Uses.pure rfl
  | c :: cs, st, k, hk => by
    rw [List.length_cons] at hk
    rw [descendAll, List.foldlM_cons]
    have h1 := descend_uses (ε := ε) st c (ownedTrie st.1 + 2) (Nat.le_refl _)
    refine Uses.bind (Uses.weaken h1 (by omega)) fun st' hst => ?_
    rw [hst] at h1
    have := Uses.bound h1 (tame_descend st c) (by omega)
    have hm := descend_mono hst
    refine Uses.onError (Uses.cast (descendAll_uses cs st' k (by omega)) rfl rfl (fun _ _ => rfl) (fun _ => ?_) (Nat.le_refl _))
    omega

omit [Owned ε] in
theorem sum_modify (r : Nat) : ∀ (ns : List LitTrieVertexProps) (u : Nat) (v : LitTrieVertexProps), ns[u]? = some v →
    ((ns.modify u (fun v => { v with reports := setInsert v.reports r })).map (fun v => v.reports.length)).sum =
      (ns.map (fun v => v.reports.length)).sum + (if r ∈ v.reports then 0 else 1)
  | [], u, v, h => by simp at h
  | n :: ns, 0, v, h => by
    simp only [List.getElem?_cons_zero, Option.some.injEq] at h
    subst h
    simp only [List.modify_zero_cons, List.map_cons, List.sum_cons, setInsert]
    split <;> simp <;> omega
  | n :: ns, u + 1, v, h => by
    have := sum_modify r ns u v (by simpa using h)
    simp only [List.modify_succ_cons, List.map_cons, List.sum_cons, this]
    omega

theorem addToTrie_uses (lit : Ue2Literal) (r : Nat) (t : LitTrie) (k : Nat) (hk : ownedTrie t + 2 * lit.len + 1 ≤ k) :
    Uses (addToTrie lit r t : H ε _) (Rescan.addToTrie lit r t) (ownedTrie t) (fun x => ownedTrie x.1) (ownedTrie t) k := by
  unfold addToTrie Rescan.addToTrie
  have hl := Work.iter_length lit
  have h1 := descendAll_uses (ε := ε) (lit.iter.map (fun e => e.c)) (t, t.root) (ownedTrie t + 2 * lit.len)
    (by dsimp only; omega)
  refine Uses.bind (Uses.weaken h1 (by omega)) fun st hst => ?_
  rw [hst] at h1
  have hb := Uses.bound h1 (tame_descendAll _ _) (by dsimp only; omega)
  obtain ⟨t', u⟩ := st
  dsimp only at hb ⊢
  cases hv : t'.inner.nodes[u]? with
  | none =>
    have : ¬ u < t'.inner.nodes.length := by
      rw [List.getElem?_eq_none_iff] at hv; omega
    rw [if_neg this]
    exact Uses.onError (Uses.panic (by have := descendAll_mono _ hst; dsimp only at this ⊢; omega))
  | some v =>
    have : u < t'.inner.nodes.length := by
      rw [List.getElem?_eq_some_iff] at hv; exact hv.1
    rw [if_pos this]
    have hs := sum_modify r t'.inner.nodes u v hv
    dsimp only
    split
    · rename_i hc
      have hc : ¬ r ∈ v.reports := by simpa using hc
      rw [if_neg hc] at hs
      refine Uses.then (Uses.alloc (by omega)) (Uses.pure ?_)
      simp only [ownedTrie, ownedGraph, List.length_modify] at *
      omega
    · rename_i hc
      have hc : r ∈ v.reports := by simpa using hc
      rw [if_pos hc] at hs
      refine Uses.pure ?_
      simp only [ownedTrie, ownedGraph, List.length_modify] at *
      omega

/-- Both tries. -/
def ownedTries (sw : SmallWriteBuild) : Nat := ownedTrie sw.litTrie + ownedTrie sw.litTrieNocase

theorem smallAddLiteral_uses (sw : SmallWriteBuild) (lit : Ue2Literal) (r f k : Nat)
    (hk : ownedTries sw + f + 2 * lit.len + 1 ≤ k) :
    Uses (smallAddLiteral sw lit r : H ε _) (sw.addLiteral lit r) (ownedTries sw + f) (fun x => ownedTries x + f)
      (ownedTries sw + f) k := by
  unfold smallAddLiteral SmallWriteBuild.addLiteral
  split
  · exact Uses.pure rfl
  split
  · exact Uses.pure rfl
  dsimp only
  split
  · exact Uses.pure rfl
  split
  · refine Uses.bind (s := fun x => ownedTrie x.1 + (ownedTrie sw.litTrie + f)) (Uses.cast
      (Uses.frame (ownedTrie sw.litTrie + f) (addToTrie_uses (ε := ε) lit r sw.litTrieNocase _ (Nat.le_refl _)))
      rfl (by unfold ownedTries; omega) (fun _ _ => rfl) (fun _ => by unfold ownedTries; omega) (by unfold ownedTries at hk; omega))
      fun x _ => Uses.pure (by simp only [ownedTries]; omega)
  · refine Uses.bind (s := fun x => ownedTrie x.1 + (ownedTrie sw.litTrieNocase + f)) (Uses.cast
      (Uses.frame (ownedTrie sw.litTrieNocase + f) (addToTrie_uses (ε := ε) lit r sw.litTrie _ (Nat.le_refl _)))
      rfl (by unfold ownedTries; omega) (fun _ _ => rfl) (fun _ => by unfold ownedTries; omega) (by unfold ownedTries at hk; omega))
      fun x _ => Uses.pure (by simp only [ownedTries]; omega)

/-! ## The report manager and the `Ng` -/

omit [Owned ε] in
theorem register_owned (rm : ReportManager) (id : Nat) (ext : ExternalReportInfo) {rm' : ReportManager}
    (h : rm.registerExtReport id ext = (rm', .ok ())) :
    ownedReports rm' = ownedReports rm + (if (alookup rm.externalIdMap id).isNone then 1 else 0) := by
  unfold ReportManager.registerExtReport at h
  dsimp only at h
  cases hl : alookup rm.externalIdMap id with
  | none =>
    rw [hl] at h
    injection h with h _
    rw [← h]
    split <;> simp [ownedReports] <;> omega
  | some eri =>
    rw [hl] at h
    dsimp only at h
    split at h
    · injection h with _ h; cases h
    · injection h with h _
      rw [← h]
      split <;> simp [ownedReports]

theorem registerExtReport_uses (rm : ReportManager) (id : Nat) (ext : ExternalReportInfo) (f k : Nat)
    (hk : ownedReports rm + f + 1 ≤ k)
    (hm : ∀ rm' e, rm.registerExtReport id ext = (rm', .error e) → ownedReports rm + f + ownedError e ≤ k) :
    Uses (registerExtReport rm id ext)
      (match rm.registerExtReport id ext with | (_, .error e) => .err e | (rm', .ok ()) => .ok rm')
      (ownedReports rm + f) (fun x => ownedReports x + f) (ownedReports rm + f) k := by
  unfold registerExtReport
  cases h : rm.registerExtReport id ext with
  | mk rm' x =>
    cases x with
    | error e => exact Uses.fail (hm rm' e h)
    | ok u =>
      have := register_owned rm id ext h
      dsimp only
      split
      · rename_i hc
        rw [if_pos hc] at this
        exact Uses.then (Uses.alloc (by omega)) (Uses.pure (by omega))
      · rename_i hc
        rw [if_neg hc] at this
        exact Uses.pure (by omega)

omit [Owned ε] in
theorem toU32_noerr (n : Nat) (m : String) (e : ε) : ReportManager.toU32 n m ≠ .err e := by
  unfold ReportManager.toU32; split <;> exact nofun

omit [Owned ε] in
theorem key_noerr (rm : ReportManager) (a : Nat) (e : ε) : rm.getExhaustibleKey a ≠ .err e := by
  unfold ReportManager.getExhaustibleKey
  cases h : ReportManager.toU32 (ε := ε) rm.toExhaustibleKeyMap.length "too many expressions" with
  | ok n =>
    show (match alookup rm.toExhaustibleKeyMap (a : Int) with | some k => _ | none => _) ≠ _
    split <;> exact nofun
  | err e => exact absurd h (toU32_noerr _ _ e)
  | panic _ => exact nofun
  | timeout => exact nofun

omit [Owned ε] in
theorem key_owned {rm rm' : ReportManager} {a k : Nat} (h : rm.getExhaustibleKey (ε := ε) a = .ok (rm', k)) :
    ownedReports rm' = ownedReports rm + (if (alookup rm.toExhaustibleKeyMap (a : Int)).isNone then 1 else 0) := by
  unfold ReportManager.getExhaustibleKey at h
  obtain ⟨n, _, h⟩ := bind_eq_ok h
  cases hl : alookup rm.toExhaustibleKeyMap (a : Int) with
  | none =>
    rw [hl] at h
    cases h
    simp [ownedReports]
    omega
  | some v =>
    rw [hl] at h
    cases h
    simp

theorem getExhaustibleKey_uses (old rm : ReportManager) (a f k : Nat) (ho : ownedReports old ≤ ownedReports rm)
    (hk : ownedReports rm + f + 1 ≤ k) :
    Uses (getExhaustibleKey old rm a : H ε _) (rm.getExhaustibleKey a) (ownedReports rm + f) (fun x => ownedReports x.1 + f)
      (ownedReports old + f) k := by
  unfold getExhaustibleKey
  have e : rm.getExhaustibleKey (ε := ε) a = rm.getExhaustibleKey a >>= fun x => .ok (x.1, x.2) := by
    show _ = (rm.getExhaustibleKey a).bind _
    cases rm.getExhaustibleKey (ε := ε) a <;> rfl
  refine Uses.cast (s := fun x => ownedReports x.1 + f) (Uses.bind (s := fun _ => ownedReports rm + f)
    (Uses.onError (Uses.cast (Uses.ret (a := ownedReports rm + f) fun e => key_noerr rm a e) rfl rfl (fun _ _ => rfl)
      (fun _ => by omega) (Nat.le_refl _))) fun x hx => ?_) e.symm rfl (fun _ _ => rfl) (fun _ => rfl) (Nat.le_refl k)
  have := key_owned hx
  dsimp only
  split
  · rename_i hc
    rw [if_pos hc] at this
    exact Uses.then (Uses.alloc (by omega)) (Uses.pure (by dsimp only; omega))
  · rename_i hc
    rw [if_neg hc] at this
    exact Uses.pure (by dsimp only; omega)

omit [Owned ε] in
theorem internal_owned {rm rm' : ReportManager} {r : Report} {id : Nat} (h : Ng.lift (rm.getInternalId r) = .ok (rm', .ok id)) :
    ownedReports rm' = ownedReports rm + (if (alookup rm.reportIdToInternalMap r).isNone then 2 else 0) := by
  unfold ReportManager.getInternalId at h
  cases hl : alookup rm.reportIdToInternalMap r with
  | some v => rw [hl] at h; cases h; simp
  | none =>
    rw [hl] at h
    dsimp only at h
    split at h
    · cases h
    · cases h2 : ReportManager.toU32 (ε := Empty) rm.reportIds.length "too many reports" with
      | ok n => rw [h2] at h; cases h; simp [ownedReports]; omega
      | err e => exact e.elim
      | panic _ => rw [h2] at h; cases h
      | timeout => rw [h2] at h; cases h

/-- What `get_internal_id` comes to. -/
def internalOf (rm : ReportManager) (r : Report) : Res (ReportManager × Nat) :=
  (Ng.lift (rm.getInternalId r)).bind fun
    | (_, .error e) => .err e
    | (rm', .ok id) => .ok (rm', id)

theorem getInternalId_uses (old rm : ReportManager) (r : Report) (f k : Nat) (ho : ownedReports old ≤ ownedReports rm)
    (hk : ownedReports rm + f + 2 ≤ k) (hm : ownedReports rm + f + message (internalOf rm r) ≤ k) :
    Uses (getInternalId old rm r) (internalOf rm r) (ownedReports rm + f) (fun x => ownedReports x.1 + f)
      (ownedReports old + f) k := by
  unfold getInternalId
  unfold internalOf at *
  refine Uses.bind (s := fun _ => ownedReports rm + f) (Uses.onError (Uses.cast (Uses.ret (a := ownedReports rm + f) fun e => ?_)
    rfl rfl (fun _ _ => rfl) (fun _ => by omega) (Nat.le_refl _))) fun x hx => ?_
  · cases rm.getInternalId r with
    | err e => exact e.elim
    | _ => exact nofun
  · rw [hx] at hm
    obtain ⟨rm', x⟩ := x
    cases x with
    | error e =>
      refine Uses.onError ?_
      change _ + ownedError e ≤ _ at hm
      rw [show ownedReports old + f + (ownedReports rm - ownedReports old) = ownedReports rm + f by omega]
      exact Uses.fail hm
    | ok id =>
      have := internal_owned hx
      dsimp only
      split
      · rename_i hc
        rw [if_pos hc] at this
        exact Uses.then (Uses.alloc (by omega)) (Uses.then (Uses.alloc (by omega)) (Uses.pure (by dsimp only; omega)))
      · rename_i hc
        rw [if_neg hc] at this
        exact Uses.pure (by dsimp only; omega)

/-- What `register_ext_report` comes to. -/
def registerOf (rm : ReportManager) (id : Nat) (ext : ExternalReportInfo) : Res ReportManager :=
  match rm.registerExtReport id ext with
  | (_, .error e) => .err e
  | (rm', .ok ()) => .ok rm'

/-- The key of a `highlander` expression. -/
def keyOf (rm : ReportManager) (r : Nat) (hl : Bool) : Res (ReportManager × Option Nat) :=
  if hl then rm.getExhaustibleKey r >>= fun x => .ok (x.1, some x.2) else .ok (rm, none)

/-- The report of an expression. -/
def reportOf (p : Profile) (ng : Ng) (lit : Ue2Literal) (r : Nat) (hl : Bool) (som : SomType) (q : Bool) (rm : ReportManager) :
    Res (ReportManager × RoseBuild × Nat) :=
  match som with
  | .none => keyOf rm r hl >>= fun x => internalOf x.1 (makeECallback r 0 x.2 q) >>= fun y => .ok (y.1, ng.rose, y.2)
  | _ => rdebugAssert p (!hl) "assertion failed: !highlander" >>= fun _ =>
    internalOf rm (makeSomRelativeCallback r 0 lit.len) >>= fun y => .ok (y.1, { ng.rose with hasSom := true }, y.2)

omit [Owned ε] in
theorem addLiteral_eq (p : Profile) (ng : Ng) (lit : Ue2Literal) (i r : Nat) (hl : Bool) (som : SomType) (q : Bool) :
    ng.addLiteral p lit i r hl som q =
      (rdebugAssert p (!lit.isEmpty) "assertion failed: !literal.is_empty()" >>= fun _ =>
      if (!ng.cc.grey.shortcutLiterals) = true then .ok (ng, false)
      else if mixedSensitivity lit.iter = true then .ok (ng, false)
      else registerOf ng.rm r ⟨hl, i⟩ >>= fun rm => reportOf p ng lit r hl som q rm >>= fun x =>
        match Depth.tryFrom lit.len with
        | none => .err (CompileError.new .other "depth overflow")
        | some d => ng.smwr.addLiteral lit x.2.2 >>= fun smwr =>
          .ok ({ ng with minWidth := Depth.min ng.minWidth d, rm := x.1, rose := x.2.1.add false false lit [x.2.2],
                         smwr := smwr }, true)) := by
  unfold Ng.addLiteral
  show (rdebugAssert p _ _).bind _ = (rdebugAssert p _ _).bind _
  congr 1
  funext _
  split
  · rfl
  split
  · rfl
  unfold registerOf
  cases ng.rm.registerExtReport r ⟨hl, i⟩ with
  | mk rm x =>
    cases x with
    | error e => rfl
    | ok u =>
      simp only
      show Outcome.bind _ _ = Outcome.bind (reportOf p ng lit r hl som q rm) _
      unfold reportOf keyOf internalOf
      have fin : ∀ (rm : ReportManager) (rose : RoseBuild) (re : Report)
          (f : ReportManager × RoseBuild × Except CompileError Nat → Res (Ng × Bool))
          (g : ReportManager × RoseBuild × Nat → Res (Ng × Bool)),
          (∀ rm e, f (rm, rose, .error e) = .err e) → (∀ rm id, f (rm, rose, .ok id) = g (rm, rose, id)) →
          Outcome.bind ((Ng.lift (rm.getInternalId re)).bind fun x => .ok (x.1, rose, x.2)) f =
            Outcome.bind (Outcome.bind ((Ng.lift (rm.getInternalId re)).bind fun
              | (_, .error e) => (.err e : Res (ReportManager × Nat))
              | (rm', .ok id) => .ok (rm', id)) fun y => .ok (y.1, rose, y.2)) g := by
        intro rm rose re f g h1 h2
        cases Ng.lift (rm.getInternalId re) with
        | ok x =>
          obtain ⟨rm', x⟩ := x
          cases x with
          | error e => exact h1 rm' e
          | ok id => exact h2 rm' id
        | err e => rfl
        | panic t => rfl
        | timeout => rfl
      cases som with
      | none =>
        cases hl with
        | false => exact fin rm _ _ _ _ (fun _ _ => rfl) (fun _ _ => rfl)
        | true =>
          cases hk : rm.getExhaustibleKey (ε := CompileError) r with
          | ok x =>
            simp only [if_true, hk]
            exact fin x.1 _ _ _ _ (fun _ _ => rfl) (fun _ _ => rfl)
          | err e => simp only [if_true, hk]; rfl
          | panic t => simp only [if_true, hk]; rfl
          | timeout => simp only [if_true, hk]; rfl
      | left =>
        cases hd : rdebugAssert (ε := CompileError) p (!hl) "assertion failed: !highlander" with
        | ok x =>
          simp only [hd]
          exact fin rm _ _ _ _ (fun _ _ => rfl) (fun _ _ => rfl)
        | err e => simp only [hd]; rfl
        | panic t => simp only [hd]; rfl
        | timeout => simp only [hd]; rfl

omit [Owned ε] in
theorem rdebugAssert_noerr (p : Profile) (b : Bool) (m : String) (e : ε) : rdebugAssert p b m ≠ .err e := by
  unfold rdebugAssert; split <;> exact nofun

/-- The middle of `add_literal`. -/
def reportRun (p : Profile) (ng : Ng) (lit : Ue2Literal) (r : Nat) (hl : Bool) (som : SomType) (q : Bool) (rm : ReportManager) :
    H CompileError (ReportManager × RoseBuild × Nat) :=
  match som with
  | .none => do
    let (rm, ekey) ← (show H CompileError (ReportManager × Option Nat) from
      if hl then do
        let (rm, k) ← getExhaustibleKey ng.rm rm r
        return (rm, some k)
      else return (rm, none))
    let re := makeECallback r 0 ekey q
    let (rm, id) ← getInternalId ng.rm rm re
    return (rm, ng.rose, id)
  | _ => do
    onError (ownedReports rm - ownedReports ng.rm) (ret (rdebugAssert p (!hl) "assertion failed: !highlander"))
    let re := makeSomRelativeCallback r 0 lit.len
    let (rm, id) ← getInternalId ng.rm rm re
    return (rm, { ng.rose with hasSom := true }, id)

theorem tame_reportRun (p : Profile) (ng : Ng) (lit : Ue2Literal) (r : Nat) (hl : Bool) (som : SomType) (q : Bool)
    (rm : ReportManager) : Tame (reportRun p ng lit r hl som q rm) := by
  unfold reportRun
  split
  · refine Tame.bind ?_ fun y => (tame_getInternalId _ _ _).bind fun z => ?_
    · split
      · exact (tame_getExhaustibleKey _ _ _).bind fun _ => Tame.pure _
      · exact Tame.pure _
    · exact Tame.pure _
  · exact (Tame.onError _ (Tame.ret _)).bind fun _ => (tame_getInternalId _ _ _).bind fun z => Tame.pure _

theorem reportRun_uses (p : Profile) (ng : Ng) (lit : Ue2Literal) (r : Nat) (hl : Bool) (som : SomType) (q : Bool)
    (rm : ReportManager) (f k : Nat) (h1 : ownedReports ng.rm ≤ ownedReports rm) (hk : ownedReports rm + f + 3 ≤ k)
    (hm : ownedReports rm + 1 + f + message (reportOf p ng lit r hl som q rm) ≤ k) :
    Uses (reportRun p ng lit r hl som q rm) (reportOf p ng lit r hl som q rm) (ownedReports rm + f)
      (fun x => ownedReports x.1 + f) (ownedReports ng.rm + f) k := by
  unfold reportRun
  unfold reportOf at *
  cases som with
  | none =>
    dsimp only at hm ⊢
    have hkey : Uses (show H CompileError (ReportManager × Option Nat) from
        if hl then do
          let (rm, k) ← getExhaustibleKey ng.rm rm r
          return (rm, some k)
        else return (rm, none)) (keyOf rm r hl) (ownedReports rm + f) (fun x => ownedReports x.1 + f)
        (ownedReports ng.rm + f) (ownedReports rm + f + 1) := by
      unfold keyOf
      split
      · exact Uses.bind (getExhaustibleKey_uses ng.rm rm r f _ h1 (by omega)) fun x _ => Uses.pure rfl
      · exact Uses.pure rfl
    refine Uses.bind (Uses.weaken hkey (by omega)) fun x hx => ?_
    rw [message_bind_ok hx] at hm
    rw [hx] at hkey
    have b1 := Uses.bound hkey (by
      split
      · exact (tame_getExhaustibleKey _ _ _).bind fun _ => Tame.pure _
      · exact Tame.pure _) (by omega)
    have b2 : ownedReports rm ≤ ownedReports x.1 := by
      unfold keyOf at hx
      split at hx
      · obtain ⟨y, hy, hx⟩ := bind_eq_ok hx
        cases hx
        have := key_owned hy
        dsimp only
        omega
      · cases hx; exact Nat.le_refl _
    have hm2 := message_fits hm
    exact Uses.bind (getInternalId_uses ng.rm x.1 _ f k (by omega) (by omega) (by omega)) fun y _ => Uses.pure rfl
  | left =>
    dsimp only at hm ⊢
    refine Uses.bind (s := fun _ => ownedReports rm + f) (Uses.onError (Uses.cast
      (Uses.ret (a := ownedReports rm + f) fun e => rdebugAssert_noerr _ _ _ e) rfl rfl (fun _ _ => rfl) (fun _ => by omega)
      (Nat.le_refl _))) fun x hx => ?_
    rw [message_bind_ok hx] at hm
    have hm2 := message_fits hm
    exact Uses.bind (getInternalId_uses ng.rm rm _ f k (by omega) (by omega) (by omega)) fun y _ => Uses.pure rfl

omit [Owned ε] in
theorem internalOf_mono {rm rm' : ReportManager} {r : Report} {id : Nat} (h : internalOf rm r = .ok (rm', id)) :
    ownedReports rm ≤ ownedReports rm' := by
  unfold internalOf at h
  obtain ⟨x, hx, h⟩ := bind_eq_ok h
  obtain ⟨rm1, x⟩ := x
  cases x with
  | error e => cases h
  | ok id' =>
    cases h
    have := internal_owned hx
    omega

omit [Owned ε] in
theorem keyOf_mono {rm rm' : ReportManager} {r : Nat} {hl : Bool} {k : Option Nat} (h : keyOf rm r hl = .ok (rm', k)) :
    ownedReports rm ≤ ownedReports rm' := by
  unfold keyOf at h
  split at h
  · obtain ⟨y, hy, hx⟩ := bind_eq_ok h
    cases hx
    have := key_owned hy
    omega
  · cases h; exact Nat.le_refl _

omit [Owned ε] in
theorem reportOf_mono {p : Profile} {ng : Ng} {lit : Ue2Literal} {r : Nat} {hl : Bool} {som : SomType} {q : Bool}
    {rm : ReportManager} {x : ReportManager × RoseBuild × Nat} (h : reportOf p ng lit r hl som q rm = .ok x) :
    ownedReports rm ≤ ownedReports x.1 := by
  unfold reportOf at h
  cases som with
  | none =>
    obtain ⟨y, hy, h⟩ := bind_eq_ok h
    obtain ⟨z, hz, h⟩ := bind_eq_ok h
    cases h
    have := keyOf_mono hy
    have := internalOf_mono hz
    dsimp only; omega
  | left =>
    obtain ⟨y, hy, h⟩ := bind_eq_ok h
    obtain ⟨z, hz, h⟩ := bind_eq_ok h
    cases h
    exact internalOf_mono hz

omit [Owned ε] in
theorem registerOf_owned {rm rm' : ReportManager} {r : Nat} {ext : ExternalReportInfo} (h : registerOf rm r ext = .ok rm') :
    ownedReports rm' ≤ ownedReports rm + 1 ∧ ownedReports rm ≤ ownedReports rm' := by
  unfold registerOf at h
  cases hr : rm.registerExtReport r ext with
  | mk rm' x =>
    rw [hr] at h
    cases x with
    | error e => cases h
    | ok u =>
      cases h
      have := register_owned _ _ _ hr
      split at this <;> omega

omit [Owned ε] in
theorem reportOf_grow {p : Profile} {ng : Ng} {lit : Ue2Literal} {r : Nat} {hl : Bool} {som : SomType} {q : Bool}
    {rm : ReportManager} {x : ReportManager × RoseBuild × Nat} (h1 : ownedReports ng.rm ≤ ownedReports rm)
    (h : reportOf p ng lit r hl som q rm = .ok x) : ownedReports x.1 ≤ ownedReports rm + 3 := by
  have := reportRun_uses p ng lit r hl som q rm 0 (ownedReports rm + 3) h1 (by omega) (by rw [h]; change _ + 0 ≤ _; omega)
  rw [h] at this
  have h3 := Uses.bound this (tame_reportRun _ _ _ _ _ _ _ _) (by omega)
  exact h3

theorem ngAddLiteral_uses (p : Profile) (ng : Ng) (lit : Ue2Literal) (i r : Nat) (hl : Bool) (som : SomType) (q : Bool) (k : Nat)
    (hk : ownedNg ng + 2 * lit.len + 5 + message (ng.addLiteral p lit i r hl som q) ≤ k) :
    Uses (ngAddLiteral p ng lit i r hl som q) (ng.addLiteral p lit i r hl som q) (ownedNg ng) (fun x => ownedNg x.1)
      (ownedNg ng) k := by
  have hng : ownedNg ng = ownedReports ng.rm + ownedTries ng.smwr := by unfold ownedNg ownedTries; omega
  unfold ngAddLiteral
  rw [addLiteral_eq] at *
  refine Uses.bind (s := fun _ => ownedNg ng) (Uses.ret fun e => rdebugAssert_noerr _ _ _ e) fun x hx => ?_
  rw [message_bind_ok hx] at hk
  split
  · exact Uses.pure rfl
  rename_i h1
  rw [if_neg h1] at hk
  split
  · exact Uses.pure rfl
  rename_i h2
  rw [if_neg h2] at hk
  have hm := message_fits hk
  have hreg : ∀ K, ownedNg ng + 1 + message (registerOf ng.rm r ⟨hl, i⟩) ≤ K →
      Uses (registerExtReport ng.rm r ⟨hl, i⟩) (registerOf ng.rm r ⟨hl, i⟩) (ownedReports ng.rm + ownedTries ng.smwr)
      (fun x => ownedReports x + ownedTries ng.smwr) (ownedReports ng.rm + ownedTries ng.smwr) K := by
    intro K hK
    refine registerExtReport_uses ng.rm r ⟨hl, i⟩ (ownedTries ng.smwr) K (by omega) fun rm' e he => ?_
    unfold registerOf at hK
    rw [he] at hK
    change _ + ownedError e ≤ _ at hK
    omega
  rw [hng]
  refine Uses.bind (hreg k (by omega)) fun rm hrm => ?_
  rw [message_bind_ok hrm] at hk
  have b1 := registerOf_owned hrm
  have hm2 := message_fits hk
  refine Uses.bind (reportRun_uses p ng lit r hl som q rm (ownedTries ng.smwr) k (by omega) (by omega) (by omega)) fun x hx => ?_
  rw [message_bind_ok hx] at hk
  have b2 := reportOf_mono hx
  have b3 := reportOf_grow b1.2 hx
  obtain ⟨rm', rose, id⟩ := x
  dsimp only at b2 b3 hk ⊢
  refine Uses.then (Uses.alloc (by omega)) (Uses.then (Uses.free (by omega)) ?_)
  cases hd : Depth.tryFrom lit.len with
  | none =>
    rw [hd] at hk
    change _ + ownedError _ ≤ _ at hk
    refine Uses.onError ?_
    refine Uses.cast (Uses.fail (a := ownedReports rm' + ownedTries ng.smwr) (k := k) (s := fun _ => 0) ?_) rfl (by omega)
      (fun _ h => nomatch h) (fun _ => by omega) (Nat.le_refl _)
    omega
  | some d =>
    dsimp only
    refine Uses.bind (s := fun x => ownedTries x + ownedReports rm') (Uses.onError (Uses.cast
      (smallAddLiteral_uses (ε := CompileError) ng.smwr lit id (ownedReports rm') k (by omega))
      rfl (by omega) (fun _ _ => rfl) (fun _ => by omega) (Nat.le_refl _))) fun sw _ => Uses.pure ?_
    unfold ownedNg ownedTries
    dsimp only
    omega

/-- A literal adds at most five elements and two for each of its bytes. -/
theorem ngAddLiteral_grow {p : Profile} {ng ng' : Ng} {lit : Ue2Literal} {i r : Nat} {hl : Bool} {som : SomType} {q b : Bool}
    (h : ng.addLiteral p lit i r hl som q = .ok (ng', b)) : ownedNg ng' ≤ ownedNg ng + 2 * lit.len + 5 := by
  have := ngAddLiteral_uses p ng lit i r hl som q (ownedNg ng + 2 * lit.len + 5) (by rw [h]; exact Nat.le_refl _)
  rw [h] at this
  exact Uses.bound (x := (ng', b)) this (tame_ngAddLiteral _ _ _ _ _ _ _ _) (by omega)

end Rescan.Memory
