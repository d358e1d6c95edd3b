import Verif.Model.StoredCompiler
import Verif.Props.Stored
import Verif.Props.Bytes
import Verif.Props.Tree
import Verif.Proofs.Compile
/-! # Property C93: the compiler on the stored forms -/
namespace Rescan.Stored

open Rescan.Petgraph Rescan.Spec

variable {ε : Type}

/-- Both runs succeed with related results, or both end in the same way without a result. -/
inductive Agree {α β : Type} (R : α → β → Prop) : Outcome ε α → Outcome ε β → Prop
  | ok {a : α} {b : β} (h : R a b) : Agree R (.ok a) (.ok b)
  | err (e : ε) : Agree R (.err e) (.err e)
  | panic (m : String) : Agree R (.panic m) (.panic m)
  | timeout : Agree R .timeout .timeout

theorem Agree.bind {α β α' β' : Type} {R : α → β → Prop} {Q : α' → β' → Prop} {x : Outcome ε α} {y : Outcome ε β}
    {f : α → Outcome ε α'} {g : β → Outcome ε β'} (h : Agree R x y) (hf : ∀ a b, R a b → Agree Q (f a) (g b)) :
    Agree Q (x.bind f) (y.bind g) := by
  cases h with
  | ok h => exact hf _ _ h
  | err e => exact .err e
  | panic m => exact .panic m
  | timeout => exact .timeout

theorem Agree.mono {α β : Type} {R Q : α → β → Prop} {x : Outcome ε α} {y : Outcome ε β} (h : Agree R x y)
    (hq : ∀ a b, R a b → Q a b) : Agree Q x y := by
  cases h with
  | ok h => exact .ok (hq _ _ h)
  | err e => exact .err e
  | panic m => exact .panic m
  | timeout => exact .timeout

theorem Agree.refl {α : Type} (x : Outcome ε α) : Agree Eq x x := by
  cases x with
  | ok a => exact .ok rfl
  | err e => exact .err e
  | panic m => exact .panic m
  | timeout => exact .timeout

theorem Agree.eq {α : Type} {x y : Outcome ε α} (h : Agree Eq x y) : x = y := by
  cases h with
  | ok h => rw [h]
  | err e => rfl
  | panic m => rfl
  | timeout => rfl

theorem Same.agree {α β : Type} {R : α → β → Prop} {x : Outcome ε α} {y : Outcome ε β} (h : Same R x y) :
    Agree R x y := by
  cases h with
  | ok h => exact .ok h
  | panic m => exact .panic m

/-! ## The literal of a tree -/

theorem count_small (b : BitField256) (k : Nat) (hk : k < 2 ^ 32) :
    (BitVec.ofNat 32 b.count = BitVec.ofNat 32 k) ↔ b.count = k := by
  have h0 := Checked.countOnes_le b.bits[0]
  have h1 := Checked.countOnes_le b.bits[1]
  have h2 := Checked.countOnes_le b.bits[2]
  have h3 := Checked.countOnes_le b.bits[3]
  have hc : b.count < 2 ^ 32 := by unfold BitField256.count; omega
  constructor
  · intro h
    have := congrArg BitVec.toNat h
    simpa [BitVec.toNat_ofNat, Nat.mod_eq_of_lt hc, Nat.mod_eq_of_lt hk] using this
  · intro h; rw [h]

theorem isCaselessChar_eq (p : Profile) (cr : CharReach) :
    (isCaselessChar p cr : Outcome ε _) = cr.isCaselessChar := by
  unfold isCaselessChar CharReach.isCaselessChar CharReach.count CharReach.findFirst CharReach.findNext
  rw [Checked.count_eq, Checked.findFirst_eq]
  show (if BitVec.ofNat 32 cr.bits.count ≠ BitVec.ofNat 32 2 then _ else _) = _
  by_cases h : cr.bits.count = 2
  · rw [if_neg (by simpa using (count_small _ 2 (by decide)).mpr h), if_neg (by simpa using h)]
    cases cr.bits.findFirst with
    | none => rfl
    | some f =>
      show Outcome.bind (Checked.findNext p cr.bits f) _ = Outcome.bind (Outcome.expect (cr.bits.findNext f) _) _
      rw [Checked.findNext_eq]
      cases cr.bits.findNext f with
      | none => rfl
      | some s =>
        show Outcome.bind (Checked.mytoupper p s) _ = _
        rw [Checked.mytoupper_eq]; rfl
  · rw [if_pos (by simpa using fun e => h ((count_small _ 2 (by decide)).mp e)), if_pos h]; rfl

/-- The literals agree, and the plain one has grown by at most `n`. -/
def Grown (l : Ue2Literal) (n : Nat) (v : Lit) (l' : Ue2Literal) : Prop := IsLit v l' ∧ l'.s.length ≤ l.s.length + n

theorem preLiteralClass_agree (p : Profile) {v : Lit} {l : Ue2Literal} (h : IsLit v l) (c : AsciiComponentClass)
    (hl : l.s.length + 1 < 2 ^ 64) :
    Agree (Grown l 1) (preLiteralClass p v c) (Rescan.preLiteralClass l c) := by
  have hpush : ∀ f nc, Agree (Grown l 1) (v.push p f nc : Outcome NotLiteral _) (.ok (l.push f nc)) := by
    intro f nc
    obtain ⟨v', h1, h2⟩ := isLit_push (ε := NotLiteral) p h f nc hl
    rw [h1]
    exact .ok ⟨h2, by simp [Ue2Literal.push]⟩
  unfold preLiteralClass Rescan.preLiteralClass CharReach.count CharReach.findFirst
  rw [Checked.count_eq, Checked.findFirst_eq]
  show Agree _ (if BitVec.ofNat 32 c.cr.bits.count = BitVec.ofNat 32 1 then _ else _) _
  dsimp only
  by_cases h1 : c.cr.bits.count = 1
  · rw [if_pos ((count_small _ 1 (by decide)).mpr h1), if_pos h1]
    cases c.cr.bits.findFirst with
    | none => exact .panic _
    | some f => exact hpush f false
  · rw [if_neg (fun e => h1 ((count_small _ 1 (by decide)).mp e)), if_neg h1]
    have e2 : ((BitVec.ofNat 32 c.cr.bits.count = 2#32) ↔ c.cr.bits.count = 2) := count_small _ 2 (by decide)
    have hcond : (if BitVec.ofNat 32 c.cr.bits.count = 2#32 then isCaselessChar p c.cr else pure false)
        = (if c.cr.bits.count = 2 then c.cr.isCaselessChar else pure false : Outcome NotLiteral Bool) := by
      rw [isCaselessChar_eq]
      by_cases h2 : c.cr.bits.count = 2
      · rw [if_pos (e2.mpr h2), if_pos h2]
      · rw [if_neg (fun e => h2 (e2.mp e)), if_neg h2]
    show Agree _ (Outcome.bind (if BitVec.ofNat 32 c.cr.bits.count = 2#32 then _ else _) _)
      (Outcome.bind (if c.cr.bits.count = 2 then _ else _) _)
    rw [hcond]
    refine Agree.bind (Agree.refl _) ?_
    rintro a _ rfl
    cases a with
    | false => exact .err _
    | true =>
      cases c.cr.bits.findFirst with
      | none => exact .panic _
      | some f => exact hpush f true

mutual
/-- The number of classes of a tree. -/
def leaves : Component → Nat
  | .alternation _ => 0
  | .cls _ => 1
  | .sequence s => leavesSeq s
/-- The number of classes of a sequence; an alternation counts nothing, since the walk ends there. -/
def leavesSeq : ComponentSequence → Nat
  | .mk cs _ _ _ => leavesAll cs
/-- The number of classes of some trees. -/
def leavesAll : List Component → Nat
  | [] => 0
  | c :: cs => leaves c + leavesAll cs
end

mutual
theorem walk_agree (p : Profile) {v : Lit} {l : Ue2Literal} (h : IsLit v l) : ∀ (c : Component),
    l.s.length + leaves c < 2 ^ 64 →
    Agree (Grown l (leaves c)) (walkComponent p (constructLiteralVisitor p) v c)
      (walkComponent p Rescan.constructLiteralVisitor l c)
  | .alternation (.mk cs), _ => by
    unfold walkComponent walkComponentAlternation
    exact .err _
  | .cls (.ascii c), hl => by
    unfold walkComponent walkComponentClass
    show Agree _ (Outcome.bind (preLiteralClass p v c) _) (Outcome.bind (Rescan.preLiteralClass l c) _)
    exact Agree.bind (preLiteralClass_agree p h c hl) (fun a b hab => .ok hab)
  | .sequence s, hl => by
    unfold walkComponent leaves
    exact walkSeq_agree p h s hl
theorem walkSeq_agree (p : Profile) {v : Lit} {l : Ue2Literal} (h : IsLit v l) : ∀ (s : ComponentSequence),
    l.s.length + leavesSeq s < 2 ^ 64 →
    Agree (Grown l (leavesSeq s)) (walkComponentSequence p (constructLiteralVisitor p) v s)
      (walkComponentSequence p Rescan.constructLiteralVisitor l s)
  | .mk cs alt ci cn, hl => by
    unfold walkComponentSequence leavesSeq
    refine Agree.bind (Agree.refl _) (fun a b _ => ?_)
    show Agree _ (Outcome.bind (walkComponents p _ v _ cs) _) (Outcome.bind (walkComponents p _ l _ cs) _)
    exact Agree.bind (walkAll_agree p h (.mk cs alt ci cn) cs hl) (fun a b hab => .ok hab)
theorem walkAll_agree (p : Profile) {v : Lit} {l : Ue2Literal} (h : IsLit v l) (s : ComponentSequence) :
    ∀ (cs : List Component), l.s.length + leavesAll cs < 2 ^ 64 →
    Agree (Grown l (leavesAll cs)) (walkComponents p (constructLiteralVisitor p) v s cs)
      (walkComponents p Rescan.constructLiteralVisitor l s cs)
  | [], _ => by
    unfold walkComponents
    exact .ok ⟨h, by simp [leavesAll]⟩
  | c :: cs, hl => by
    unfold leavesAll at hl ⊢
    unfold walkComponents
    refine Agree.bind (walk_agree p h c (by omega)) (fun v1 l1 h1 => ?_)
    have := walkAll_agree p h1.1 s cs (by have := h1.2; omega)
    have hm : ∀ a b, Grown l1 (leavesAll cs) a b → Grown l (leaves c + leavesAll cs) a b :=
      fun a b hab => ⟨hab.1, by have := hab.2; have := h1.2; omega⟩
    have key : Agree (Grown l (leaves c + leavesAll cs)) (walkComponents p (constructLiteralVisitor p) v1 s cs)
        (walkComponents p Rescan.constructLiteralVisitor l1 s cs) := this.mono hm
    by_cases hb : (!cs.isEmpty) = true
    · simp only [if_pos hb]; exact key
    · simp only [if_neg hb]; exact key
end

mutual
theorem item_leaves (cls : Char → ComponentClass) : ∀ (i : Item) (k : Nat),
    leaves (i.build cls k).1 ≤ i.print.length
  | .lit c, k => by simp [Item.build, leaves, Item.print]
  | .group a, k => by
    have h := alts_leaves cls a (k + 1)
    simp only [Item.build, leaves, leavesSeq, Item.print, List.length_append, List.length_cons, List.length_nil]
    omega
theorem seq_leaves (cls : Char → ComponentClass) : ∀ (s : Seq) (k : Nat),
    leavesAll (s.build cls k).1 ≤ s.print.length
  | .nil, k => by simp [Seq.build, leavesAll, Seq.print]
  | .cons i s, k => by
    have h1 := item_leaves cls i k
    have h2 := seq_leaves cls s (i.build cls k).2
    simp only [Seq.build, leavesAll, Seq.print, List.length_append]
    omega
theorem alts_leaves (cls : Char → ComponentClass) : ∀ (a : Alts) (k : Nat),
    leavesAll (a.build cls k).1 ≤ a.print.length
  | .one s, k => by
    simp only [Alts.build, Alts.print]
    exact seq_leaves cls s k
  | .more s a, k => by
    simp [Alts.build, leavesAll, leaves]
end

theorem parse_leaves {pr : Profile} {ptr : Str} {mode : ParseMode} {c : Component} {m : ParseMode}
    (h : parse pr ptr mode = .ok (c, m)) : leaves c ≤ utf8Len ptr := by
  obtain ⟨a, _, hb, _, rfl⟩ := parse_tree h
  obtain ⟨v, hv, _⟩ := isBody_len hb
  have h1 := alts_leaves (litClass mode.caseless) a 1
  have h2 : a.print.length ≤ ptr.length := by rw [hv]; simp
  have := length_le_utf8Len ptr
  simp only [Alts.root, leaves, leavesSeq]
  omega

/-! ## The report of a literal -/

theorem mixedLoop_eq (p : Profile) {v : Lit} {l : Ue2Literal} (h : IsLit v l) : ∀ (fuel k : Nat) (cs nc : Bool),
    l.iter.length < fuel + k → fuel ≠ 0 →
    (mixedLoop p v fuel k cs nc : Outcome ε _) = .ok ((l.iter.drop k).foldl
      (fun (s : Bool × Bool) e => if !Rescan.ourisalpha e.c then s
        else if e.nocase then (s.1, true) else (true, s.2)) (cs, nc))
  | 0, _, _, _, _, h0 => absurd rfl h0
  | fuel + 1, k, cs, nc, hf, _ => by
    have hlen : l.iter.length = l.s.length := by
      simp only [Ue2Literal.iter, List.length_zipWith, h.len, Nat.min_self]
    unfold mixedLoop
    rw [isLit_next p h]
    by_cases hk : k < l.iter.length
    · rw [List.getElem?_eq_getElem hk, if_pos (by omega), List.drop_eq_getElem_cons hk, List.foldl_cons]
      have ih := fun cs nc => mixedLoop_eq p h fuel (k + 1) cs nc (by omega) (by omega)
      show Outcome.bind (Checked.ourisalpha p l.iter[k].c) _ = _
      rw [Checked.ourisalpha_eq]
      show (if (!Rescan.ourisalpha l.iter[k].c) = true then _ else _) = _
      by_cases ha : (!Rescan.ourisalpha l.iter[k].c) = true
      · rw [if_pos ha, if_pos ha]; exact ih cs nc
      · rw [if_neg ha, if_neg ha]
        by_cases hn : l.iter[k].nocase = true
        · rw [if_pos hn, if_pos hn]; exact ih cs true
        · rw [if_neg hn, if_neg hn]; exact ih true nc
    · rw [List.getElem?_eq_none (by omega), if_neg (by omega), List.drop_eq_nil_of_le (by omega)]; rfl

theorem mixedSensitivity_eq (p : Profile) {v : Lit} {l : Ue2Literal} (h : IsLit v l) :
    (mixedSensitivity p v : Outcome ε _) = .ok (Rescan.mixedSensitivity l.iter) := by
  have hlen : l.iter.length = l.s.length := by
    simp only [Ue2Literal.iter, List.length_zipWith, h.len, Nat.min_self]
  unfold mixedSensitivity Rescan.mixedSensitivity
  rw [mixedLoop_eq p h (v.s.length + 1) 0 false false (by rw [h.s, hlen]; omega) (Nat.succ_ne_zero _)]
  rfl

/-- The stored `Ng` is the `Ng`. -/
structure IsNg (s : Ng) (n : Rescan.Ng) : Prop where
  minWidth : s.minWidth = n.minWidth
  rm : s.rm = n.rm
  cc : s.cc = n.cc
  smwr : IsBuild s.smwr n.smwr
  rose : s.rose = n.rose

theorem ngAddLiteral_agree (p : Profile) {s : Ng} {n : Rescan.Ng} (h : IsNg s n) {v : Lit} {l : Ue2Literal}
    (hl : IsLit v l) (i r : Nat) (hi : Bool) (som : SomType) (q : Bool) :
    Agree (fun x y => IsNg x.1 y.1 ∧ x.2 = y.2) (s.addLiteral p v i r hi som q) (n.addLiteral p l i r hi som q) := by
  unfold Ng.addLiteral Rescan.Ng.addLiteral Ue2Literal.isEmpty Ue2Literal.len
  rw [h.cc, h.rm, h.rose, hl.s]
  refine Agree.bind (Agree.refl _) (fun _ _ _ => ?_)
  split
  · exact .ok ⟨h, rfl⟩
  rw [mixedSensitivity_eq p hl]
  show Agree _ (if Rescan.mixedSensitivity l.iter = true then _ else _) _
  split
  · exact .ok ⟨h, rfl⟩
  generalize n.rm.registerExtReport r ⟨hi, i⟩ = x
  obtain ⟨rm, x⟩ := x
  cases x with
  | error e => exact .err e
  | ok u =>
  refine Agree.bind (Agree.refl _) ?_
  rintro ⟨rm, rose, id⟩ _ rfl
  dsimp only
  cases id with
  | error e => exact .err e
  | ok id =>
  dsimp only
  generalize Depth.tryFrom l.s.length = d
  cases d with
  | none => exact .err _
  | some d =>
  refine Agree.bind (addLiteral_same p hl _ h.smwr).agree (fun a b hab => ?_)
  exact .ok ⟨⟨by rw [h.minWidth], rfl, rfl, hab, rfl⟩, rfl⟩

theorem shortcutLiteral_agree (p : Profile) {s : Ng} {n : Rescan.Ng} (h : IsNg s n) (pe : ParsedExpression)
    (hl : leaves pe.component < 2 ^ 64) :
    Agree (fun x y => IsNg x.1 y.1 ∧ x.2 = y.2) (shortcutLiteral p s pe) (Rescan.shortcutLiteral p n pe) := by
  unfold shortcutLiteral Rescan.shortcutLiteral Ue2Literal.isEmpty
  rw [h.cc]
  split
  · exact .ok ⟨h, rfl⟩
  have hw := walk_agree p isLit_default pe.component (by simpa [Ue2Literal.default] using hl)
  generalize walkComponent p (constructLiteralVisitor p) Lit.default pe.component = x at hw
  generalize walkComponent p Rescan.constructLiteralVisitor Ue2Literal.default pe.component = y at hw
  cases hw with
  | err e => exact .ok ⟨h, rfl⟩
  | panic m => exact .panic m
  | timeout => exact .timeout
  | @ok v l hv =>
    dsimp only
    rw [hv.1.s]
    split
    · exact .ok ⟨h, rfl⟩
    · refine Agree.bind (Agree.refl _) ?_
      rintro i _ rfl
      exact ngAddLiteral_agree p h hv.1 _ _ _ _ _

/-! ## The NFA graph -/

/-- The stored graph is the graph. -/
structure IsHolder (s : Holder) (h : NgHolder) : Prop where
  inner : Holds s.inner h.inner
  start : s.start = h.start
  startDs : s.startDs = h.startDs
  accept : s.accept = h.accept
  acceptEod : s.acceptEod = h.acceptEod

/-- The stored builder is the builder. -/
structure IsNfa (s : NfaBuilder) (b : Rescan.NfaBuilder) : Prop where
  graph : IsHolder s.graph b.graph
  expr : s.expr = b.expr

/-- The stored state is the state. -/
structure IsGbs (s : GlushkovBuildState) (b : Rescan.GlushkovBuildState) : Prop where
  startState : s.startState = b.startState
  startDotStarState : s.startDotStarState = b.startDotStarState
  acceptState : s.acceptState = b.acceptState
  acceptEodState : s.acceptEodState = b.acceptEodState
  builder : IsNfa s.builder b.builder
  successors : s.successors = b.successors

theorem newHolder_agree : Agree IsHolder (Holder.new : Outcome ε _) NgHolder.new := by
  let d := NfaGraphVertexProps.default
  let f : NfaGraphVertexProps → NfaGraphVertexProps := fun v => { v with charReach := v.charReach.setAll }
  let ts : List (Step NfaGraphVertexProps) :=
    [.node d, .node d, .node d, .node d, .edge 0 1, .edge 1 1, .edge 2 3, .weight 0 f, .weight 1 f]
  have key : ∃ s h, (Holder.new : Outcome ε _) = .ok s ∧ (NgHolder.new : Outcome ε _) = .ok h ∧ IsHolder s h :=
    ⟨_, _, rfl, rfl, made_holds (ts := ts) ⟨rfl, rfl⟩, rfl, rfl, rfl, rfl⟩
  obtain ⟨s, h, h1, h2, h3⟩ := key
  rw [h1, h2]
  exact .ok h3

theorem newNfa_agree (e : ExpressionInfo) : Agree IsNfa (NfaBuilder.new e : Outcome ε _) (Rescan.NfaBuilder.new e) := by
  unfold NfaBuilder.new Rescan.NfaBuilder.new
  exact Agree.bind newHolder_agree (fun _ _ h => .ok ⟨h, rfl⟩)

theorem makePosition_agree {s : NfaBuilder} {b : Rescan.NfaBuilder} (h : IsNfa s b) :
    Agree (fun x y => IsNfa x.1 y.1 ∧ x.2 = y.2) (s.makePosition : Outcome ε _) b.makePosition := by
  unfold NfaBuilder.makePosition Rescan.NfaBuilder.makePosition NgHolder.addVertex
  have hn := same_addNode (ε := ε) h.graph.inner NfaGraphVertexProps.default
  show Agree _ (Outcome.bind (s.graph.inner.addNode _) _) (Outcome.bind (Outcome.bind (b.graph.inner.addNode _) _) _)
  generalize s.graph.inner.addNode (ε := ε) NfaGraphVertexProps.default = x at hn
  generalize b.graph.inner.addNode (ε := ε) NfaGraphVertexProps.default = y at hn
  cases hn with
  | panic m => exact .panic m
  | ok hab => exact .ok ⟨⟨⟨hab.1, h.graph.start, h.graph.startDs, h.graph.accept, h.graph.acceptEod⟩, h.expr⟩, hab.2⟩

theorem addCharReach_agree {s : NfaBuilder} {b : Rescan.NfaBuilder} (h : IsNfa s b) (pos : Nat) (cr : CharReach) :
    Agree IsNfa (s.addCharReach pos cr : Outcome ε _) (b.addCharReach pos cr) :=
  Agree.bind (same_modify (ε := ε) h.graph.inner pos _).agree (fun _ _ hab =>
    .ok ⟨⟨hab, h.graph.start, h.graph.startDs, h.graph.accept, h.graph.acceptEod⟩, h.expr⟩)

theorem getAssertFlag_eq {s : NfaBuilder} {b : Rescan.NfaBuilder} (h : IsNfa s b) (pos : Nat) :
    (s.getAssertFlag pos : Outcome ε _) = b.getAssertFlag pos := by
  unfold NfaBuilder.getAssertFlag Rescan.NfaBuilder.getAssertFlag Graph.weight
  rw [← h.graph.inner.nodes, List.getElem?_map]
  cases s.graph.inner.nodes[pos]? <;> rfl

theorem connectSuccessors_agree (p : Profile) {s : GlushkovBuildState} {b : Rescan.GlushkovBuildState} (h : IsGbs s b)
    (from_ : PositionInfo) (tolist : List PositionInfo) :
    Agree IsGbs (s.connectSuccessors p from_ tolist : Outcome ε _) (b.connectSuccessors p from_ tolist) := by
  unfold GlushkovBuildState.connectSuccessors Rescan.GlushkovBuildState.connectSuccessors
  have hf : (s.filterEdges from_ tolist : Outcome ε _) = b.filterEdges from_ tolist := by
    unfold GlushkovBuildState.filterEdges Rescan.GlushkovBuildState.filterEdges
    rw [getAssertFlag_eq h.builder, h.startDotStarState, h.startState, h.acceptEodState]
  refine Agree.bind (Agree.refl _) (fun _ _ _ => ?_)
  rw [hf]
  refine Agree.bind (Agree.refl _) ?_
  rintro t _ rfl
  dsimp only
  rw [h.acceptState]
  split
  · refine Agree.bind (makePosition_agree h.builder) ?_
    rintro ⟨s', v⟩ ⟨b', v'⟩ ⟨hb, rfl : v = v'⟩
    exact .ok ⟨h.startState, h.startDotStarState, rfl, h.acceptEodState, hb, by simp only [h.successors]⟩
  · exact .ok ⟨h.startState, h.startDotStarState, h.acceptState, h.acceptEodState, h.builder, by rw [h.successors]⟩

theorem connectRegions_agree (p : Profile) (firsts : List PositionInfo) : ∀ (lasts : List PositionInfo)
    {s : GlushkovBuildState} {b : Rescan.GlushkovBuildState}, IsGbs s b →
    Agree IsGbs (s.connectRegions p lasts firsts : Outcome ε _) (b.connectRegions p lasts firsts)
  | [], s, b, h => .ok h
  | x :: xs, s, b, h => by
    unfold GlushkovBuildState.connectRegions Rescan.GlushkovBuildState.connectRegions
    rw [List.foldlM_cons, List.foldlM_cons]
    exact Agree.bind (connectSuccessors_agree p h x firsts) (fun _ _ h' => connectRegions_agree p firsts xs h')

theorem newGbs_agree (p : Profile) {s : NfaBuilder} {b : Rescan.NfaBuilder} (h : IsNfa s b) :
    Agree IsGbs (GlushkovBuildState.new p s : Outcome ε _) (Rescan.GlushkovBuildState.new p b) := by
  unfold GlushkovBuildState.new Rescan.GlushkovBuildState.new
  dsimp only
  rw [h.graph.start, h.graph.startDs, h.graph.accept, h.graph.acceptEod]
  exact connectRegions_agree p _ _ ⟨rfl, rfl, rfl, rfl, h, rfl⟩

theorem noteClass_agree {s : GlushkovBuildState} {b : Rescan.GlushkovBuildState} (h : IsGbs s b)
    (c : AsciiComponentClass) : Agree IsGbs (s.noteClass c : Outcome ε _) (b.noteClass c) := by
  unfold GlushkovBuildState.noteClass Rescan.GlushkovBuildState.noteClass
  refine Agree.bind (makePosition_agree h.builder) ?_
  rintro ⟨s', v⟩ ⟨b', v'⟩ ⟨hb, rfl : v = v'⟩
  refine Agree.bind (addCharReach_agree hb v c.cr) (fun _ _ hab => ?_)
  exact .ok ⟨h.startState, h.startDotStarState, h.acceptState, h.acceptEodState, hab, h.successors⟩

mutual
theorem note_agree : ∀ (c : Component) {s : GlushkovBuildState} {b : Rescan.GlushkovBuildState}, IsGbs s b →
    Agree IsGbs (s.noteComponent c : Outcome ε _) (b.noteComponent c)
  | .alternation (.mk cs), s, b, h => by
    unfold GlushkovBuildState.noteComponent Rescan.GlushkovBuildState.noteComponent
    exact noteSeqs_agree cs h
  | .cls (.ascii c), s, b, h => by
    unfold GlushkovBuildState.noteComponent Rescan.GlushkovBuildState.noteComponent
    exact noteClass_agree h c
  | .sequence q, s, b, h => by
    unfold GlushkovBuildState.noteComponent Rescan.GlushkovBuildState.noteComponent
    exact noteSeq_agree q h
theorem noteSeq_agree : ∀ (q : ComponentSequence) {s : GlushkovBuildState} {b : Rescan.GlushkovBuildState}, IsGbs s b →
    Agree IsGbs (s.noteSequence q : Outcome ε _) (b.noteSequence q)
  | .mk cs _ _ _, s, b, h => by
    unfold GlushkovBuildState.noteSequence Rescan.GlushkovBuildState.noteSequence
    exact noteAll_agree cs h
theorem noteSeqs_agree : ∀ (qs : List ComponentSequence) {s : GlushkovBuildState} {b : Rescan.GlushkovBuildState},
    IsGbs s b → Agree IsGbs (s.noteSequences qs : Outcome ε _) (b.noteSequences qs)
  | [], s, b, h => by
    unfold GlushkovBuildState.noteSequences Rescan.GlushkovBuildState.noteSequences
    exact .ok h
  | q :: qs, s, b, h => by
    unfold GlushkovBuildState.noteSequences Rescan.GlushkovBuildState.noteSequences
    exact Agree.bind (noteSeq_agree q h) (fun _ _ h' => noteSeqs_agree qs h')
theorem noteAll_agree : ∀ (cs : List Component) {s : GlushkovBuildState} {b : Rescan.GlushkovBuildState}, IsGbs s b →
    Agree IsGbs (s.noteComponents cs : Outcome ε _) (b.noteComponents cs)
  | [], s, b, h => by
    unfold GlushkovBuildState.noteComponents Rescan.GlushkovBuildState.noteComponents
    exact .ok h
  | c :: cs, s, b, h => by
    unfold GlushkovBuildState.noteComponents Rescan.GlushkovBuildState.noteComponents
    exact Agree.bind (note_agree c h) (fun _ _ h' => noteAll_agree cs h')
end

theorem buildGraph_agree (p : Profile) (pe : ParsedExpression) :
    Agree IsNfa (buildGraph p pe : Outcome ε _) (Rescan.buildGraph p pe) := by
  unfold buildGraph Rescan.buildGraph
  refine Agree.bind (newNfa_agree pe.expr) (fun s b h => ?_)
  refine Agree.bind (newGbs_agree p h) (fun s b h => ?_)
  refine Agree.bind (note_agree pe.component h) (fun s b h => ?_)
  exact .ok h.builder

/-! ## The compiler -/

theorem newParsed_eq (p : Profile) (i : Nat) (e : Str) (f : Flags) (id : Nat) :
    newParsed p i (encode e) f id = ParsedExpression.new p i e f id := by
  unfold newParsed ParsedExpression.new
  simp only [C89_parse]

theorem addExpression_agree (p : Profile) {s : Ng} {n : Rescan.Ng} (h : IsNg s n) (i : Nat) (e : Str) (f : Flags)
    (id : Nat) (he : utf8Len e < 2 ^ 64) :
    Agree IsNg (addExpression p s i (encode e) f id) (Rescan.addExpression p n i e f id) := by
  unfold addExpression Rescan.addExpression
  rw [newParsed_eq, (C89_utf8.2.2 e).2, h.cc]
  split
  · exact .err _
  cases hp : ParsedExpression.new p i e f id with
  | err e => exact .err e
  | panic m => exact .panic m
  | timeout => exact .timeout
  | ok pe =>
    obtain ⟨m, hparse, _⟩ := parsedExpression_ok hp
    have hl := parse_leaves hparse
    have hpe : (if pe.expr.prefilter then { pe with component := prefilterTree pe.component } else pe) = pe := by
      split <;> rfl
    simp only [bind, Outcome.ok_bind, Outcome.bind, hpe]
    refine Agree.bind (shortcutLiteral_agree p h pe (by omega)) ?_
    rintro ⟨s', d⟩ ⟨n', d'⟩ ⟨h', rfl : d = d'⟩
    dsimp only
    split
    · exact .ok h'
    · refine Agree.bind (buildGraph_agree p _) (fun a b hab => ?_)
      refine .ok ?_
      unfold Ng.addGraph Rescan.Ng.addGraph
      rw [hab.expr]
      split
      · exact ⟨h'.minWidth, h'.rm, h'.cc, h'.smwr, by rw [h'.rose]⟩
      · exact h'

theorem addAll_agree (p : Profile) : ∀ (xs : List (Str × Flags × Nat)) (i : Nat) {s : Ng} {n : Rescan.Ng}, IsNg s n →
    (∀ x ∈ xs, utf8Len x.1 < 2 ^ 64) →
    Agree IsNg (addAll p i s (xs.map (fun x => (encode x.1, x.2)))) (Rescan.addAll p i n xs)
  | [], i, s, n, h, _ => .ok h
  | (e, f, id) :: xs, i, s, n, h, hx => by
    rw [List.map_cons]
    unfold addAll Rescan.addAll
    have ha := addExpression_agree p h i e f id (hx (e, f, id) (by simp))
    dsimp only
    generalize addExpression p s i (encode e) f id = x at ha
    generalize Rescan.addExpression p n i e f id = y at ha
    cases ha with
    | err e => exact (Agree.refl _).bind (fun a b hab => hab ▸ (Agree.refl _).bind (fun a b hab => hab ▸ .err _))
    | panic m => exact .panic m
    | timeout => exact .timeout
    | ok h' => exact addAll_agree p xs (i + 1) h' (fun x hx' => hx x (by simp [hx']))

theorem izip_encode : ∀ (es : List Str) (fs : List Flags) (ids : List Nat),
    izip (es.map encode) fs ids = (Rescan.izip es fs ids).map (fun x => (encode x.1, x.2))
  | [], _, _ => by simp [izip, Rescan.izip]
  | e :: es, [], _ => by simp [izip, Rescan.izip]
  | e :: es, f :: fs, [] => by simp [izip, Rescan.izip]
  | e :: es, f :: fs, i :: ids => by simp [izip, Rescan.izip, izip_encode es fs ids]

theorem izip_mem : ∀ (es : List Str) (fs : List Flags) (ids : List Nat), ∀ x ∈ Rescan.izip es fs ids, x.1 ∈ es
  | [], _, _, x, h => by simp [Rescan.izip] at h
  | e :: es, [], _, x, h => by simp [Rescan.izip] at h
  | e :: es, f :: fs, [], x, h => by simp [Rescan.izip] at h
  | e :: es, f :: fs, i :: ids, x, h => by
    simp only [Rescan.izip, List.mem_cons] at h
    rcases h with rfl | h
    · simp
    · simp [izip_mem es fs ids x h]

/-- **C93.** Compiling any patterns, as the UTF-8 bytes they are, on blocks, linked lists and checked arithmetic ends
just as on plain lists: with the same failure, or with an `Ng` that has the same minimum width, reports and settings,
the same counts and flags of the small-write builder, and tries that look the same. -/
theorem C93_ng (p : Profile) (es : List Str) (fs : List Flags) (ids : List Nat) (mode : Mode) (g : Grey)
    (he : ∀ e ∈ es, utf8Len e < 2 ^ 64) :
    Agree (fun s n => s.minWidth = n.minWidth ∧ s.rm = n.rm ∧ s.cc = n.cc ∧ s.rose = n.rose ∧
        s.smwr.numLiterals = n.smwr.numLiterals ∧ s.smwr.poisoned = n.smwr.poisoned ∧
        Looks s.smwr.litTrie n.smwr.litTrie ∧ Looks s.smwr.litTrieNocase n.smwr.litTrieNocase)
      (compileNg p (es.map encode) fs ids mode g) (Rescan.compileNg p es fs ids mode g) := by
  unfold compileNg Rescan.compileNg
  rw [List.length_map, List.isEmpty_map]
  split
  · exact .err _
  split
  · exact .err _
  obtain ⟨w, h1, h2⟩ := new_build (ε := CompileError) es.length g
  rw [izip_encode]
  unfold Ng.new
  show Agree _ (Outcome.bind (Outcome.bind (Build.new es.length g) _) _) _
  rw [h1]
  exact (addAll_agree p (Rescan.izip es fs ids) 0 ⟨rfl, rfl, rfl, h2, rfl⟩
    (fun x hx => he _ (izip_mem es fs ids x hx))).mono (fun a b h =>
      ⟨h.minWidth, h.rm, h.cc, h.rose, h.smwr.numLiterals, h.smwr.poisoned, looks h.smwr.litTrie,
        looks h.smwr.litTrieNocase⟩)

example := C93_ng .release ["ab".toList, "c".toList, "a|b".toList] [⟨0⟩, Flags.CASELESS, ⟨0⟩] [1, 2, 3] .block Grey.default (by decide +kernel)

/-- **C93.** In particular the outcome of compilation is the same. -/
theorem C93_compile (p : Profile) (es : List Str) (fs : List Flags) (ids : List Nat) (mode : Mode) (g : Grey)
    (he : ∀ e ∈ es, utf8Len e < 2 ^ 64) :
    compileMultiInt p (es.map encode) fs ids mode g = Rescan.compileMultiInt p es fs ids mode g := by
  unfold compileMultiInt Rescan.compileMultiInt Rescan.build
  refine Agree.eq (Agree.bind (C93_ng p es fs ids mode g he) (fun a b h => ?_))
  rw [h.2.2.2.1]
  exact Agree.refl _

example := C93_compile .debug ["ab".toList, "c".toList, "a|b".toList] [⟨0⟩, Flags.CASELESS, ⟨0⟩] [1, 2, 3] .block Grey.default (by decide +kernel)

/-- **C93.** So every `&[&str]` — any well-formed UTF-8, of at most `isize::MAX` bytes each — compiles as the texts it
encodes. -/
theorem C93_str (p : Profile) (bs : List (List U8)) (fs : List Flags) (ids : List Nat) (mode : Mode) (g : Grey)
    (h : ∀ b ∈ bs, Utf8 b ∧ b.length < 2 ^ 63) :
    compileMultiInt p bs fs ids mode g = Rescan.compileMultiInt p (bs.map Bytes.decode) fs ids mode g := by
  have henc : ∀ b ∈ bs, encode (Bytes.decode b) = b := by
    intro b hb
    obtain ⟨s, rfl⟩ := (C89_utf8.1 b).1 (h b hb).1
    rw [(C89_utf8.2.2 s).1]
  have hm : (bs.map Bytes.decode).map encode = bs := by
    rw [List.map_map]
    exact (List.map_congr_left henc).trans (List.map_id bs)
  have := C93_compile p (bs.map Bytes.decode) fs ids mode g (by
    intro e he
    obtain ⟨b, hb, rfl⟩ := List.mem_map.1 he
    rw [← (C89_utf8.2.2 (Bytes.decode b)).2, henc b hb]
    have := (h b hb).2
    omega)
  rwa [hm] at this

example : Utf8 (encode "a|é".toList) ∧ (encode "a|é".toList).length < 2 ^ 63 := ⟨(C89_utf8.1 _).2 ⟨_, rfl⟩, by decide +kernel⟩

/-- **C93.** Building the NFA graph of any tree: the same failure, or the same weights and, from any index, the same
neighbours. -/
theorem C93_graph (p : Profile) (pe : ParsedExpression) :
    Agree (fun s b => s.expr = b.expr ∧ s.graph.inner.nodes.map Node.weight = b.graph.inner.nodes ∧
        (∀ v fuel, b.graph.inner.edges.length < fuel →
          (s.graph.inner.collect (s.graph.inner.neighborsOut v) fuel : Outcome ε _) = .ok (b.graph.inner.outgoing v) ∧
          (s.graph.inner.collect (s.graph.inner.neighborsIn v) fuel : Outcome ε _) = .ok (b.graph.inner.incoming v)) ∧
        s.graph.start = b.graph.start ∧ s.graph.startDs = b.graph.startDs ∧ s.graph.accept = b.graph.accept ∧
        s.graph.acceptEod = b.graph.acceptEod)
      (buildGraph p pe : Outcome ε _) (Rescan.buildGraph p pe) :=
  (buildGraph_agree p pe).mono (fun _ _ h => ⟨h.expr, h.graph.inner.nodes,
    fun v fuel hf => holds_neighbors h.graph.inner v fuel hf, h.graph.start, h.graph.startDs, h.graph.accept,
    h.graph.acceptEod⟩)

/-- **C93.** The state in which that graph is built has the same special states and successors of every position. -/
theorem C93_state (p : Profile) (pe : ParsedExpression) :
    Agree (fun (s : GlushkovBuildState) (b : Rescan.GlushkovBuildState) => s.startState = b.startState ∧
        s.startDotStarState = b.startDotStarState ∧ s.acceptState = b.acceptState ∧
        s.acceptEodState = b.acceptEodState ∧ s.successors = b.successors)
      (do
        let s ← NfaBuilder.new pe.expr
        let s ← GlushkovBuildState.new p s
        s.noteComponent pe.component : Outcome ε _)
      (do
        let b ← Rescan.NfaBuilder.new pe.expr
        let b ← Rescan.GlushkovBuildState.new p b
        b.noteComponent pe.component) := by
  refine Agree.bind (newNfa_agree pe.expr) (fun s b h => ?_)
  refine Agree.bind (newGbs_agree p h) (fun s b h => ?_)
  exact (note_agree pe.component h).mono (fun s b h =>
    ⟨h.startState, h.startDotStarState, h.acceptState, h.acceptEodState, h.successors⟩)

/-! Concrete cases: a literal, a caseless literal and an alternation compile; a non-ASCII pattern panics. -/
example : (compileMultiInt .release (["ab".toList, "c".toList, "a|b".toList].map encode)
    [⟨0⟩, Flags.CASELESS, ⟨0⟩] [1, 2, 3] .block Grey.default).isOk = true := by decide +kernel
example : (compileMultiInt .release [encode "é".toList] [⟨0⟩] [1] .block Grey.default).isPanic = true := by
  decide +kernel
example : (match ParsedExpression.new .release 0 "a(b|c)".toList ⟨0⟩ 7 with
    | .ok pe => (match (buildGraph .release pe : Outcome Empty _) with
      | .ok b => b.graph.inner.nodes.length
      | _ => 0)
    | _ => 0) = 7 := by decide +kernel

end Rescan.Stored
