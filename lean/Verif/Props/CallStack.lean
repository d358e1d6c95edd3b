import Verif.Proofs.CallStack
import Verif.Props.Expression
import Verif.Props.Borrows
import Verif.Proofs.Utf8
/-! # C101: how deep calls are nested -/
namespace Rescan
open Spec CallStack

/-! ## Nothing but more room makes a difference -/

namespace CallStack
variable {ε α β : Type}

/-- With little room `m` overflows or gives `o`; room for `k` calls is enough. -/
structure Within (m : S ε α) (o : Outcome ε α) (k : Nat) : Prop where
  sound : ∀ d, m d = none ∨ m d = some o
  enough : ∀ d, k ≤ d → m d = some o

theorem Needs.within {m : S ε α} {o : Outcome ε α} {j k : Nat} (h : Needs m o j) (hk : j ≤ k) : Within m o k :=
  ⟨h.sound, fun d hd => h.enough d (by omega)⟩

theorem Soft.within {m : S ε α} {o : Outcome ε α} {k : Nat} (h : Soft m o k) : Within m o k :=
  ⟨h.sound, h.enough⟩

theorem Within.ret (o : Outcome ε α) (k : Nat) : Within (CallStack.ret o) o k :=
  (Needs.ret o).within (Nat.zero_le _)

theorem Within.bind {m : S ε α} {o : Outcome ε α} {k : Nat} {f : α → S ε β} {g : α → Outcome ε β} (h : Within m o k)
    (hf : ∀ a, o = .ok a → Within (f a) (g a) k) : Within (S.bind m f) (o.bind g) k := by
  refine ⟨?_, ?_⟩
  · intro d
    unfold S.bind
    rcases h.sound d with e | e
    · rw [e]; exact .inl rfl
    · rw [e]
      cases o with
      | ok a => exact (hf a rfl).sound d
      | _ => exact .inr rfl
  · intro d hd
    unfold S.bind
    rw [h.enough d hd]
    cases o with
    | ok a => exact (hf a rfl).enough d hd
    | _ => rfl

theorem Within.thenDrop {m : S ε α} {o : Outcome ε α} {k : Nat} {drop : S Empty Unit} (h : Within m o k)
    (hd : Within drop (.ok ()) k) : Within (CallStack.thenDrop m drop) o k := by
  refine ⟨?_, ?_⟩
  · intro d
    unfold CallStack.thenDrop
    rcases h.sound d with e | e
    · rw [e]; exact .inl rfl
    · rw [e]
      rcases hd.sound d with e' | e'
      · rw [e']; exact .inl rfl
      · rw [e']; exact .inr rfl
  · intro d hk
    unfold CallStack.thenDrop
    rw [h.enough d hk]
    dsimp only
    rw [hd.enough d hk]; rfl

theorem Within.thenDo {δ : Type} {m : S ε α} {o : Outcome ε α} {k : Nat} (h : Within m o k)
    (f : Outcome ε α → Outcome δ β) : Within (CallStack.thenDo m f) (f o) k := by
  refine ⟨fun d => ?_, fun d hd => ?_⟩
  · unfold CallStack.thenDo
    rcases h.sound d with e | e <;> rw [e]
    · exact .inl rfl
    · exact .inr rfl
  · unfold CallStack.thenDo
    rw [h.enough d hd]; rfl

theorem shortcutLiteral_within (p : Profile) (ng : Ng) (pe : ParsedExpression) (k : Nat) (hf : Finalized pe.component)
    (hk : nested 3 pe.component ≤ k) : Within (shortcutLiteral p ng pe) (Rescan.shortcutLiteral p ng pe) k := by
  have hw := walkComponent_needs p constructLiteralVisitor pe.component Ue2Literal.default hf
  unfold shortcutLiteral Rescan.shortcutLiteral
  by_cases ha : (!ng.cc.grey.allowLiteral) = true
  · rw [if_pos ha, if_pos ha]; exact Within.ret _ _
  · rw [if_neg ha, if_neg ha]
    exact (hw.within hk).thenDo _

theorem buildGraph_needs (p : Profile) (pe : ParsedExpression) (hf : Finalized pe.component) :
    Needs (ε := ε) (buildGraph p pe) (Rescan.buildGraph p pe) (nested 3 pe.component) := by
  show Needs (S.bind (ret (NfaBuilder.new pe.expr)) fun b => S.bind (ret (GlushkovBuildState.new p b)) fun bs =>
      S.bind (noteComponent bs pe.component) fun bs => ret (.ok bs.builder))
    ((NfaBuilder.new pe.expr).bind fun b => (GlushkovBuildState.new p b).bind fun bs =>
      (bs.noteComponent pe.component).bind fun bs => .ok bs.builder) _
  exact Needs.mono (Needs.bind (j := max 0 (max (nested 3 pe.component) 0)) (Needs.ret _) fun b =>
    Needs.bind (Needs.ret _) fun bs => Needs.bind (noteComponent_needs pe.component bs hf) fun _ => Needs.ret _) (by omega)

theorem parsedNew_soft (p : Profile) (index : Nat) (e : Str) (f : Flags) (id k : Nat) (hk : 5 * e.length + 14 ≤ 3 * k) :
    Soft (parsedNew p index e f id) (ParsedExpression.new p index e f id) k := by
  unfold parsedNew ParsedExpression.new
  dsimp only
  by_cases hq : f.contains (Flags.QUIET.or .SOM_LEFTMOST) = true
  · rw [if_pos hq, if_pos hq]; exact Soft.ret _ _
  · rw [if_neg hq, if_neg hq]
    exact Soft.bind (parse_soft p e _ k hk).1 fun a _ => Soft.ret _ _

theorem parsedNew_tree {p : Profile} {index : Nat} {e : Str} {f : Flags} {id : Nat} {pe : ParsedExpression}
    (h : ParsedExpression.new p index e f id = .ok pe) :
    Finalized pe.component ∧ 3 * nested 3 pe.component ≤ 5 * e.length + 14 := by
  obtain ⟨m, hm, _⟩ := parsedExpression_ok h
  exact ⟨parse_finalized hm, (parse_soft p e _ (5 * e.length + 14) (by omega)).2 _ _ hm⟩

theorem prefilter_id (pe : ParsedExpression) :
    (if pe.expr.prefilter = true then { pe with component := prefilterTree pe.component } else pe) = pe := by
  split <;> rfl

theorem addExpression_within (p : Profile) (ng : Ng) (i : Nat) (e : Str) (f : Flags) (id k : Nat)
    (hk : utf8Len e ≤ ng.cc.grey.limitPatternLength → 5 * e.length + 14 ≤ 3 * k) :
    Within (addExpression p ng i e f id) (Rescan.addExpression p ng i e f id) k := by
  unfold addExpression Rescan.addExpression
  by_cases hl : utf8Len e > ng.cc.grey.limitPatternLength
  · rw [if_pos hl, if_pos hl]; exact Within.ret _ _
  · rw [if_neg hl, if_neg hl]
    have hk := hk (by omega)
    refine Within.bind (parsedNew_soft p i e f id k hk).within ?_
    intro pe hpe
    dsimp only
    rw [prefilter_id]
    obtain ⟨hf, hn⟩ := parsedNew_tree hpe
    have h1 := nested_one pe.component
    refine Within.thenDrop (Within.bind (shortcutLiteral_within p ng pe k hf (by omega)) ?_)
      ((dropComponent_needs pe.component).within (by omega))
    rintro ⟨ng', done⟩ _
    dsimp only
    cases done with
    | true => exact Within.ret _ _
    | false => exact Within.bind ((buildGraph_needs p pe hf).within (by omega)) fun b _ => Within.ret _ _

theorem addExpression_cc {p : Profile} {ng ng' : Ng} {i : Nat} {e : Str} {f : Flags} {id : Nat}
    (h : Rescan.addExpression p ng i e f id = .ok ng') : ng'.cc = ng.cc := by
  unfold Rescan.addExpression at h
  split at h
  · cases h
  · obtain ⟨pe, _, h⟩ := bind_eq_ok h
    dsimp only at h
    rw [prefilter_id] at h
    obtain ⟨⟨ng1, done⟩, hs, h⟩ := bind_eq_ok h
    have hcc : ng1.cc = ng.cc := by
      unfold Rescan.shortcutLiteral at hs
      split at hs
      · cases hs; rfl
      · split at hs
        · cases hs; rfl
        · cases hs
        · cases hs
        · split at hs
          · cases hs; rfl
          · obtain ⟨idx, _, hs⟩ := bind_eq_ok hs
            exact Borrows.addLiteral_cc _ _ _ _ _ _ _ _ _ _ hs
    dsimp only at h
    split at h
    · cases h; exact hcc
    · obtain ⟨b, _, h⟩ := bind_eq_ok h
      cases h
      unfold Ng.addGraph
      split <;> exact hcc

theorem addAll_within (p : Profile) (k : Nat) : ∀ (xs : List (Str × Flags × Nat)) (i : Nat) (ng : Ng),
    (∀ x ∈ xs, utf8Len x.1 ≤ ng.cc.grey.limitPatternLength → 5 * x.1.length + 14 ≤ 3 * k) →
    Within (addAll p i ng xs) (Rescan.addAll p i ng xs) k
  | [], i, ng, _ => Within.ret _ _
  | (e, f, id) :: xs, i, ng, h => by
    have h1 := addExpression_within p ng i e f id k (h _ List.mem_cons_self)
    have h2 : ∀ ng', Rescan.addExpression p ng i e f id = .ok ng' →
        Within (addAll p (i + 1) ng' xs) (Rescan.addAll p (i + 1) ng' xs) k := by
      intro ng' hn
      refine addAll_within p k xs (i + 1) ng' fun x hx => ?_
      rw [addExpression_cc hn]
      exact h x (List.mem_cons_of_mem _ hx)
    refine ⟨fun d => ?_, fun d hd => ?_⟩
    · simp only [addAll, Rescan.addAll]
      rcases h1.sound d with e' | e'
      · rw [e']; exact .inl rfl
      · rw [e']
        cases ho : Rescan.addExpression p ng i e f id with
        | ok ng' => exact (h2 ng' ho).sound d
        | _ => exact .inr rfl
    · simp only [addAll, Rescan.addAll]
      rw [h1.enough d hd]
      cases ho : Rescan.addExpression p ng i e f id with
      | ok ng' => exact (h2 ng' ho).enough d hd
      | _ => rfl

theorem izip_mem {e : Str} {f : Flags} {id : Nat} : ∀ {es : List Str} {fs : List Flags} {ids : List Nat},
    (e, f, id) ∈ izip es fs ids → e ∈ es
  | [], _, _, h => by simp [izip] at h
  | _ :: _, [], _, h => by simp [izip] at h
  | _ :: _, _ :: _, [], h => by simp [izip] at h
  | a :: es, b :: fs, c :: ids, h => by
    simp only [izip, List.mem_cons] at h
    rcases h with h | h
    · cases h; exact List.mem_cons_self
    · exact List.mem_cons_of_mem _ (izip_mem h)

theorem compileMultiInt_within (p : Profile) (es : List Str) (fs : List Flags) (ids : List Nat) (mode : Mode) (g : Grey)
    (k : Nat) (h : ∀ e ∈ es, utf8Len e ≤ g.limitPatternLength → 5 * e.length + 14 ≤ 3 * k) :
    Within (compileMultiInt p es fs ids mode g) (Rescan.compileMultiInt p es fs ids mode g) k := by
  unfold compileMultiInt Rescan.compileMultiInt compileNg
  by_cases he : es.isEmpty = true
  · rw [if_pos he, if_pos he]; exact Within.ret _ _
  · rw [if_neg he, if_neg he]
    by_cases hl : es.length > g.limitPatternCount
    · rw [if_pos hl, if_pos hl]; exact Within.ret _ _
    · rw [if_neg hl, if_neg hl]
      refine Within.bind (addAll_within p k _ 0 _ ?_) fun ng _ => Within.ret _ _
      rintro ⟨e, f, id⟩ hx
      exact h e (izip_mem hx)

/-! ## Trees and texts -/

mutual
/-- How many groups of an item are around each other. -/
def itemNest : Item → Nat
  | .lit _ => 0
  | .group a => altsNest a + 1
/-- The same for a sequence. -/
def seqNest : Seq → Nat
  | .nil => 0
  | .cons i s => max (itemNest i) (seqNest s)
/-- The same for alternatives. -/
def altsNest : Alts → Nat
  | .one s => seqNest s
  | .more s a => max (seqNest s) (altsNest a)
end

theorem openGroups_ge : ∀ (s : Str) (d : Nat), d ≤ openGroups d s
  | [], d => Nat.le_refl d
  | c :: s, d => by
    rw [openGroups]
    split
    · have := openGroups_ge s (d + 1); omega
    · split
      · omega
      · exact openGroups_ge s d

mutual
theorem open_item : ∀ (i : Item) (d : Nat) (t : Str), i.Wf →
    openGroups d (i.print ++ t) = max (d + itemNest i) (openGroups d t)
  | .lit c, d, t, h => by
    have h1 : c ≠ '(' := fun e => h (.inl e)
    have h2 : c ≠ ')' := fun e => h (.inr (.inl e))
    rw [Item.print, List.cons_append, List.nil_append, openGroups, if_neg h1, if_neg h2, itemNest]
    have := openGroups_ge t d; omega
  | .group a, d, t, h => by
    rw [Item.print, itemNest, List.cons_append, List.cons_append, openGroups, if_pos rfl, List.append_assoc,
      open_alts a (d + 1) _ h, List.cons_append, List.nil_append, openGroups, if_neg (by decide), if_pos rfl]
    have := openGroups_ge t d
    simp only [Nat.add_sub_cancel]; omega
theorem open_seq : ∀ (s : Seq) (d : Nat) (t : Str), s.Wf →
    openGroups d (s.print ++ t) = max (d + seqNest s) (openGroups d t)
  | .nil, d, t, _ => by
    rw [Seq.print, seqNest, List.nil_append]
    have := openGroups_ge t d; omega
  | .cons i s, d, t, h => by
    rw [Seq.print, seqNest, List.append_assoc, open_item i d _ h.1, open_seq s d t h.2]; omega
theorem open_alts : ∀ (a : Alts) (d : Nat) (t : Str), a.Wf →
    openGroups d (a.print ++ t) = max (d + altsNest a) (openGroups d t)
  | .one s, d, t, h => by rw [Alts.print, altsNest]; exact open_seq s d t h
  | .more s a, d, t, h => by
    rw [Alts.print, altsNest, List.append_assoc, open_seq s d _ h.1, List.cons_append, openGroups, if_neg (by decide),
      if_neg (by decide), open_alts a d t h.2]
    omega
end

mutual
theorem nested_item (cls : Char → ComponentClass) : ∀ (i : Item) (k : Nat),
    2 * itemNest i ≤ nested 3 (i.build cls k).1 ∧ nested 3 (i.build cls k).1 ≤ 5 * itemNest i + 3
  | .lit c, k => by simp [Item.build, nested, itemNest]
  | .group a, k => by
    have := nested_alts cls a (k + 1)
    simp only [Item.build, nested, nestedSeq, itemNest]; omega
theorem nested_seq (cls : Char → ComponentClass) : ∀ (s : Seq) (k : Nat),
    2 * seqNest s ≤ nestedAll 3 (s.build cls k).1 ∧ nestedAll 3 (s.build cls k).1 ≤ 5 * seqNest s + 3
  | .nil, k => by simp [Seq.build, nestedAll, seqNest]
  | .cons i s, k => by
    have h1 := nested_item cls i k
    have h2 := nested_seq cls s (i.build cls k).2
    simp only [Seq.build, nestedAll, seqNest]; omega
theorem nested_alts (cls : Char → ComponentClass) : ∀ (a : Alts) (k : Nat),
    2 * altsNest a ≤ nestedAll 3 (a.build cls k).1 ∧ nestedAll 3 (a.build cls k).1 ≤ 5 * altsNest a + 6
  | .one s, k => by
    have := nested_seq cls s k
    simp only [Alts.build, altsNest]; omega
  | .more s a, k => by
    have h1 := nested_seq cls s k
    have h2 := nested_branches cls a (s.build cls k).2
    simp only [Alts.build, altsNest, nestedAll, nested, nestedSeqs, nestedSeq]; omega
theorem nested_branches (cls : Char → ComponentClass) : ∀ (a : Alts) (k : Nat),
    2 * altsNest a ≤ nestedSeqs 3 (a.branches cls k).1 ∧ nestedSeqs 3 (a.branches cls k).1 ≤ 5 * altsNest a + 4
  | .one s, k => by
    have := nested_seq cls s k
    simp only [Alts.branches, altsNest, nestedSeqs, nestedSeq]; omega
  | .more s a, k => by
    have h1 := nested_seq cls s k
    have h2 := nested_branches cls a (s.build cls k).2
    simp only [Alts.branches, altsNest, nestedSeqs, nestedSeq]; omega
end

/-- The grammar tree of `parens`. -/
def parensTree : Nat → Alts
  | 0 => .one .nil
  | k + 1 => .one (.cons (.group (parensTree k)) .nil)

theorem replicate_snoc {α : Type} (n : Nat) (a : α) : List.replicate (n + 1) a = List.replicate n a ++ [a] := by
  exact List.replicate_succ'

theorem parensTree_print : ∀ k, (parensTree k).print = parens k ∧ (parensTree k).Wf
  | 0 => ⟨rfl, trivial⟩
  | k + 1 => by
    obtain ⟨h1, h2⟩ := parensTree_print k
    refine ⟨?_, h2, trivial⟩
    rw [parensTree, Alts.print, Seq.print, Seq.print, Item.print, h1]
    unfold parens
    rw [List.replicate_succ (n := k) (a := '('), replicate_snoc k ')']
    simp

theorem parensTree_nested (cls : Char → ComponentClass) : ∀ k j,
    nestedAll 3 ((parensTree k).build cls j).1 = 2 * k ∧ nestedAll 1 ((parensTree k).build cls j).1 = 2 * k
  | 0, j => by simp [parensTree, Alts.build, Seq.build, nestedAll]
  | k + 1, j => by
    have := parensTree_nested cls k (j + 1)
    simp only [parensTree, Alts.build, Seq.build, Item.build, nestedAll, nested, nestedSeq]; omega

/-- The grammar tree of `bars`. -/
def barsTree : Nat → Alts
  | 0 => .more .nil (.one (.cons (.lit 'a') .nil))
  | k + 1 => .more .nil (.one (.cons (.group (barsTree k)) .nil))

theorem barsTree_print : ∀ k, (barsTree k).print = bars k ∧ (barsTree k).Wf
  | 0 => ⟨rfl, trivial, (by decide : ¬ special 'a'), trivial⟩
  | k + 1 => by
    obtain ⟨h1, h2⟩ := barsTree_print k
    refine ⟨?_, trivial, h2, trivial⟩
    simp only [barsTree, Alts.print, Seq.print, Item.print, h1]
    unfold bars
    rw [List.replicate_succ (n := k) (a := ['|', '(']), replicate_snoc k ')']
    simp

theorem barsTree_nested (cls : Char → ComponentClass) : ∀ k j,
    nestedAll 3 ((barsTree k).build cls j).1 = 5 * k + 6
  | 0, j => by simp [barsTree, Alts.build, Alts.branches, Seq.build, Item.build, nestedAll, nested, nestedSeqs, nestedSeq]
  | k + 1, j => by
    have := barsTree_nested cls k (j + 1)
    simp only [barsTree, Alts.build, Alts.branches, Seq.build, Item.build, nestedAll, nested, nestedSeqs, nestedSeq]
    omega

theorem parens_length (k : Nat) : (parens k).length = 2 * k := by simp [parens]; omega
theorem bars_length (k : Nat) : (bars k).length = 3 * k + 2 := by
  simp [bars, List.length_flatten]; omega

theorem parens_ascii (k : Nat) : IsAscii (parens k) := by
  intro c hc
  simp only [parens, List.mem_append, List.mem_replicate] at hc
  rcases hc with ⟨_, rfl⟩ | ⟨_, rfl⟩ <;> decide

theorem bars_ascii (k : Nat) : IsAscii (bars k) := by
  intro c hc
  simp only [bars, List.mem_append, List.mem_replicate, List.mem_flatten, List.mem_cons, List.not_mem_nil, or_false] at hc
  rcases hc with (⟨l, ⟨_, rfl⟩, hc⟩ | hc) | ⟨_, rfl⟩
  · simp only [List.mem_cons, List.not_mem_nil, or_false] at hc
    rcases hc with rfl | rfl <;> decide
  · rcases hc with rfl | rfl <;> decide
  · decide

theorem utf8Len_ascii {s : Str} (h : IsAscii s) : utf8Len s = s.length := by
  induction s with
  | nil => rfl
  | cons c s ih =>
    have h1 := h c List.mem_cons_self
    have h2 := ih fun x hx => h x (List.mem_cons_of_mem _ hx)
    unfold utf8Len at h2 ⊢
    rw [List.map_cons, List.sum_cons, h2, List.length_cons]
    have : c.utf8Size = 1 := by rw [Bytes.utf8Size_eq, if_pos h1]
    omega

theorem parens_body (k : Nat) : IsBody (parens k) (parens k) := by
  refine .inl ⟨?_, rfl⟩
  rintro v rest ⟨h, _⟩
  have h1 : '*' ∈ parens k := by rw [h]; simp
  simp only [parens, List.mem_append, List.mem_replicate] at h1
  rcases h1 with ⟨_, h1⟩ | ⟨_, h1⟩ <;> exact absurd h1 (by decide)

theorem bars_body (k : Nat) : IsBody (bars k) (bars k) := by
  refine .inl ⟨?_, rfl⟩
  rintro v rest ⟨h, _⟩
  have h1 : '*' ∈ bars k := by rw [h]; simp
  simp only [bars, List.mem_append, List.mem_replicate, List.mem_flatten, List.mem_cons, List.not_mem_nil, or_false] at h1
  rcases h1 with (⟨l, ⟨_, rfl⟩, h1⟩ | h1) | ⟨_, h1⟩
  · simp at h1
  · rcases h1 with h1 | h1 <;> exact absurd h1 (by decide)
  · exact absurd h1 (by decide)

theorem parens_parse (k : Nat) (mode : ParseMode) : ∃ c m, Rescan.parse .release (parens k) mode = .ok (c, m) ∧
    nested 3 c = 2 * k + 2 := by
  obtain ⟨h1, h2⟩ := parensTree_print k
  obtain ⟨m, h⟩ := C30_parse_print (parens k) mode (parensTree k) (litClass mode.caseless)
    (fun c hc => litClass_spec _ c (by omega)) h2 (by rw [h1]; exact parens_ascii k) (by rw [h1]; exact parens_body k)
  refine ⟨_, m, h, ?_⟩
  rw [Alts.root, nested, nestedSeq, (parensTree_nested _ k 1).1]

theorem bars_parse (k : Nat) (mode : ParseMode) : ∃ c m, Rescan.parse .release (bars k) mode = .ok (c, m) ∧
    nested 3 c = 5 * k + 8 := by
  obtain ⟨h1, h2⟩ := barsTree_print k
  obtain ⟨m, h⟩ := C30_parse_print (bars k) mode (barsTree k) (litClass mode.caseless)
    (fun c hc => litClass_spec _ c (by omega)) h2 (by rw [h1]; exact bars_ascii k) (by rw [h1]; exact bars_body k)
  refine ⟨_, m, h, ?_⟩
  rw [Alts.root, nested, nestedSeq, barsTree_nested _ k 1]

/-! ## Exactly how much room -/

theorem bind_none {m : S ε α} {f : α → S ε β} {d : Nat} (h : m d = none) : S.bind m f d = none := by
  unfold S.bind; rw [h]

theorem bind_ok {m : S ε α} {f : α → S ε β} {d : Nat} {a : α} (h : m d = some (.ok a)) : S.bind m f d = f a d := by
  unfold S.bind; rw [h]

theorem leaves_le {p : Profile} {ptr : Str} {mode m : ParseMode} {c : Component}
    (h : Rescan.parse p ptr mode = .ok (c, m)) : (leaves c).length ≤ ptr.length := by
  obtain ⟨a, hw, hb, _, rfl⟩ := parse_tree h
  obtain ⟨v, hv, _⟩ := isBody_len hb
  have hl : a.print.length ≤ ptr.length := by rw [hv]; simp
  rw [Alts.root, leaves, leavesSeq, Alts.leaves_eq _ a 1 hw, List.length_map]
  exact Nat.le_trans (List.length_filter_le _ _) hl

theorem addExpression_exact (p : Profile) (ng : Ng) (i : Nat) (e : Str) (f : Flags) (id : Nat) (c : Component)
    (m : ParseMode) (hl : utf8Len e ≤ ng.cc.grey.limitPatternLength) (hlen : e.length < 2 ^ 32 - 4)
    (hq : f.contains (Flags.QUIET.or .SOM_LEFTMOST) = false)
    (hp : Rescan.parse p e (ParseMode.new (f.and Flags.QUIET.not)) = .ok (c, m)) (d : Nat) :
    addExpression p ng i e f id d =
      if nested 3 c ≤ d then some (Rescan.addExpression p ng i e f id) else none := by
  have hf := parse_finalized hp
  have hsoft := (parsedNew_soft p i e f id (5 * e.length + 14) (by omega)).free
  have hleaf := leaves_le hp
  have hng : ¬ (utf8Len e > ng.cc.grey.limitPatternLength) := by omega
  unfold addExpression Rescan.addExpression
  rw [if_neg hng, if_neg hng]
  obtain ⟨pe, hpe, hc⟩ : ∃ pe, ParsedExpression.new p i e f id = .ok pe ∧ pe.component = c := by
    unfold ParsedExpression.new
    dsimp only
    rw [hq, if_neg (by decide)]
    show ∃ pe, Outcome.bind (Rescan.parse p e (ParseMode.new (f.and Flags.QUIET.not))) _ = _ ∧ _
    rw [hp]
    exact ⟨_, rfl, rfl⟩
  subst hc
  show S.bind (parsedNew p i e f id) _ d = if _ then some (Outcome.bind (ParsedExpression.new p i e f id) _) else none
  unfold S.bind
  rw [hpe] at hsoft ⊢
  rw [hsoft rfl d]
  dsimp only [Outcome.bind]
  rw [prefilter_id]
  have h1 := nested_one pe.component
  by_cases hd : nested 3 pe.component ≤ d
  · rw [if_pos hd]
    refine (Within.thenDrop (k := nested 3 pe.component) (Within.bind (shortcutLiteral_within p ng pe _ hf (Nat.le_refl _)) ?_)
      ((dropComponent_needs pe.component).within h1)).enough d hd
    rintro ⟨ng', done⟩ _
    dsimp only
    cases done with
    | true => exact Within.ret _ _
    | false => exact Within.bind ((buildGraph_needs p pe hf).within (Nat.le_refl _)) fun b _ => Within.ret _ _
  · rw [if_neg hd]
    have hb : buildGraph (ε := CompileError) p pe d = none := by
      obtain ⟨b, hb, _⟩ := buildGraph_eq (ε := CompileError) p pe (by omega)
      exact (buildGraph_needs p pe hf).least (by rw [hb]; rfl) d (by omega)
    have hin : ∀ {γ : Type} (k : Ng → NfaBuilder → S CompileError γ) (r : Ng → S CompileError γ),
        (shortcutLiteral p ng pe d = none ∨ shortcutLiteral p ng pe d = some (.ok (ng, false))) →
        S.bind (shortcutLiteral p ng pe) (fun x => if x.2 = true then r x.1 else S.bind (buildGraph p pe) (k x.1)) d
          = none := by
      intro γ k r h
      rcases h with h | h
      · exact bind_none h
      · rw [bind_ok h, if_neg (by show ¬ (false = true); decide)]
        exact bind_none hb
    unfold thenDrop
    have hs : shortcutLiteral p ng pe d = none ∨ shortcutLiteral p ng pe d = some (.ok (ng, false)) := by
      obtain ⟨a, _, hbody, _, _⟩ := parse_tree hp
      have hlit := C37_literal p p e a.print _ _ _ hp hbody
      have hw := walkComponent_needs p constructLiteralVisitor pe.component Ue2Literal.default hf
      unfold shortcutLiteral
      by_cases ha : (!ng.cc.grey.allowLiteral) = true
      · rw [if_pos ha]; exact .inr rfl
      · rw [if_neg ha]
        unfold thenDo
        rcases hw.sound d with h | h
        · rw [h]; exact .inl rfl
        · by_cases hbar : '|' ∈ a.print
          · rw [if_pos hbar] at hlit
            rw [h, hlit]; exact .inr rfl
          · rw [if_neg hbar] at hlit
            have := hw.least (by rw [hlit]; rfl) d (by omega)
            rw [this] at h; cases h
    have := hin (fun ng (b : NfaBuilder) => ret (.ok (ng.addGraph b.expr b.graph))) (fun ng => ret (.ok ng)) hs
    split
    · rfl
    · rename_i heq
      exact absurd (heq.symm.trans this) (by simp)

theorem addExpression_ok {p : Profile} {ng ng' : Ng} {i : Nat} {e : Str} {f : Flags} {id : Nat}
    (h : Rescan.addExpression p ng i e f id = .ok ng') :
    utf8Len e ≤ ng.cc.grey.limitPatternLength ∧ f.contains (Flags.QUIET.or .SOM_LEFTMOST) = false ∧
      ∃ c m, Rescan.parse p e (ParseMode.new (f.and Flags.QUIET.not)) = .ok (c, m) := by
  unfold Rescan.addExpression at h
  split at h
  · cases h
  · obtain ⟨pe, hpe, _⟩ := bind_eq_ok h
    obtain ⟨m, hm, hq, _⟩ := parsedExpression_ok hpe
    exact ⟨by omega, hq, _, _, hm⟩

theorem addAll_exact (p : Profile) (d : Nat) : ∀ (xs : List (Str × Flags × Nat)) (i : Nat) (ng ng' : Ng),
    ng.cc.grey.limitPatternLength < 2 ^ 32 - 4 → Rescan.addAll p i ng xs = .ok ng' →
    (addAll p i ng xs d = some (.ok ng') ↔ ∀ x ∈ xs, ∀ c m,
      Rescan.parse p x.1 (ParseMode.new (x.2.1.and Flags.QUIET.not)) = .ok (c, m) → nested 3 c ≤ d)
  | [], i, ng, ng', _, h => by
    cases h
    exact ⟨fun _ _ hx => absurd hx List.not_mem_nil, fun _ => rfl⟩
  | (e, f, id) :: xs, i, ng, ng', hl, h => by
    rw [Rescan.addAll] at h
    cases ho : Rescan.addExpression p ng i e f id with
    | ok ng1 =>
      rw [ho] at h
      obtain ⟨h1, h2, c, m, h3⟩ := addExpression_ok ho
      have hlen := length_le_utf8Len e
      have hex := addExpression_exact p ng i e f id c m h1 (by omega) h2 h3 d
      have ih := addAll_exact p d xs (i + 1) ng1 ng' (by rw [addExpression_cc ho]; exact hl) h
      have hall : (∀ x ∈ (e, f, id) :: xs, ∀ c m,
          Rescan.parse p x.1 (ParseMode.new (x.2.1.and Flags.QUIET.not)) = .ok (c, m) → nested 3 c ≤ d) ↔
          nested 3 c ≤ d ∧ ∀ x ∈ xs, ∀ c m,
          Rescan.parse p x.1 (ParseMode.new (x.2.1.and Flags.QUIET.not)) = .ok (c, m) → nested 3 c ≤ d := by
        constructor
        · intro h
          exact ⟨h _ List.mem_cons_self c m h3, fun x hx => h x (List.mem_cons_of_mem _ hx)⟩
        · rintro ⟨ha, hb⟩ x hx c' m' hp
          rcases List.mem_cons.1 hx with rfl | hx
          · rw [h3] at hp; cases hp; exact ha
          · exact hb x hx c' m' hp
      rw [hall, ← ih]
      rw [ho] at hex
      simp only [addAll]
      rw [hex]
      by_cases hd : nested 3 c ≤ d
      · rw [if_pos hd]
        exact ⟨fun h => ⟨hd, h⟩, fun h => h.2⟩
      · rw [if_neg hd]
        exact ⟨fun h => absurd h (by simp), fun h => absurd h.1 hd⟩
    | err e =>
      rw [ho] at h
      obtain ⟨_, _, h⟩ := bind_eq_ok h
      obtain ⟨_, _, h⟩ := bind_eq_ok h
      cases h
    | panic m => rw [ho] at h; cases h
    | timeout => rw [ho] at h; cases h

/-! ## Rejected patterns -/

/-- The loop of the parser, on the text still to be read. -/
def loopS (pr : Profile) : Str → Context → S CompileError Context
  | [], ctx => ret (.ok ctx)
  | c :: cs, ctx => match ctx.main pr (c :: cs) with
    | .ok ctx' => loopS pr cs ctx'
    | r => thenDrop (ret r) (dropContext ctx)

theorem mainLoop_loopS (pr : Profile) : ∀ (s : Str) (ctx : Context) (n : Nat), ctx.p = s → s.length ≤ n →
    mainLoop pr n ctx = loopS pr s ctx := by
  intro s
  induction s with
  | nil => intro ctx n h _; unfold mainLoop loopS; simp [h]
  | cons c cs ih =>
    intro ctx n h hn
    cases n with
    | zero => simp at hn
    | succ n =>
      unfold mainLoop loopS
      simp only [h, List.isEmpty_cons, Bool.false_eq_true, if_false]
      cases hm : ctx.main pr (c :: cs) with
      | ok ctx' => exact ih ctx' n (Context.main_p pr ctx ctx' c cs hm) (by simpa using hn)
      | err e => rfl
      | panic m => rfl
      | timeout => rfl

theorem loopS_ok {pr : Profile} {c : Char} {cs : Str} {ctx ctx' : Context} (h : ctx.main pr (c :: cs) = .ok ctx') :
    loopS pr (c :: cs) ctx = loopS pr cs ctx' := by rw [loopS, h]

theorem loopS_parens : ∀ (k : Nat) (ctx : Context) (rest : Str), ctx.groupIndex < 2 ^ 32 →
    ∃ ctx', loopS .release (parens k ++ rest) ctx = loopS .release rest ctx' ∧ ctx'.sequences = ctx.sequences ∧
      nestedAll 1 ctx'.currentSeq.children = max (nestedAll 1 ctx.currentSeq.children) (2 * k) ∧
      ctx'.currentSeq.alternation = ctx.currentSeq.alternation ∧ ctx'.groupIndex < 2 ^ 32
  | 0, ctx, rest, hg => ⟨ctx, rfl, rfl, by omega, rfl, hg⟩
  | k + 1, ctx, rest, hg => by
    have hp : parens (k + 1) ++ rest = '(' :: (parens k ++ ')' :: rest) := by
      unfold parens
      rw [List.replicate_succ (n := k) (a := '('), replicate_snoc k ')']
      simp
    obtain ⟨ctx', h1, h2, h3, h4, h5⟩ := loopS_parens k (ctx.opened (parens k ++ ')' :: rest)
      (Context.offsetOf (utf8Len ('(' :: (parens k ++ ')' :: rest))) ctx.ptrLen)) (')' :: rest) (Nat.mod_lt _ (by decide))
    have hm := Context.main_close_cons .release ctx' rest _ _ (by rw [h2]; rfl)
    rw [hp, loopS_ok (Context.main_open_release ctx _ hg), h1, loopS_ok hm]
    refine ⟨_, rfl, rfl, ?_, rfl, h5⟩
    have e1 : (ctx.opened (parens k ++ ')' :: rest)
        (Context.offsetOf (utf8Len ('(' :: (parens k ++ ')' :: rest))) ctx.ptrLen)).currentSeq
        = .mk [] none (some ctx.groupIndex) none := rfl
    rw [e1] at h3 h4
    cases hc : ctx'.currentSeq with
    | mk ch al ci cn =>
      rw [hc] at h3 h4
      cases hs : ctx.currentSeq with
      | mk ch0 al0 ci0 cn0 =>
        simp only [ComponentSequence.children, ComponentSequence.alternation, nestedAll] at h3 h4
        subst h4
        simp only [ComponentSequence.addComponent, ComponentSequence.children, ComponentSequence.finalize,
          ComponentSequence.alternation, nestedAll_append, nestedAll, nested, nestedSeq]
        omega

theorem parens_noVerb (k : Nat) (t : Str) (h : ∀ r, t ≠ '*' :: r) (h' : ∀ r, t ≠ '(' :: '*' :: r) :
    IsBody (parens k ++ t) (parens k ++ t) := by
  refine .inl ⟨?_, rfl⟩
  rintro v r ⟨e, _⟩
  cases k with
  | zero => exact h' _ e
  | succ k =>
    have h2 := congrArg (fun l => l[1]?) e
    cases k with
    | zero => simp [parens] at h2
    | succ k => simp [parens, List.replicate_succ] at h2

theorem parse_after (k : Nat) (t : Str) (mode : ParseMode) (hb : IsBody (parens k ++ t) (parens k ++ t)) :
    ∃ ctx m, ctx.sequences = [] ∧ nestedAll 1 ctx.currentSeq.children = 2 * k ∧ ctx.currentSeq.alternation = none ∧
      ctx.groupIndex < 2 ^ 32 ∧ ∀ d, parse .release (parens k ++ t) mode d =
        S.bind (loopS .release t ctx) (fun c => S.bind (finish c) fun s => ret (.ok (.sequence s, m))) d := by
  obtain ⟨m, _, hr, _⟩ := parse_isBody hb .release mode
  obtain ⟨ctx, h1, h2, h3, h4, h5⟩ := loopS_parens k (Context.new (parens k ++ t) (parens k ++ t) m)
    t (by show 1 < 2 ^ 32; decide)
  have e1 : (Context.new (parens k ++ t) (parens k ++ t) m).currentSeq.children = [] := rfl
  have e2 : (Context.new (parens k ++ t) (parens k ++ t) m).currentSeq.alternation = none := rfl
  rw [e1, nestedAll] at h3
  refine ⟨ctx, m, h2, by omega, h4.trans e2, h5, fun d => ?_⟩
  show S.bind (ret (readControlVerbs (parens k ++ t) 0 mode)) _ d = _
  rw [hr]
  show S.bind (mainLoop .release _ (Context.new _ _ m)) _ d = _
  rw [mainLoop_loopS .release (parens k ++ t) _ _ rfl (Nat.le_refl _), h1]
  rfl

theorem parse_overflow {ptr : Str} {mode : ParseMode} {d K : Nat} (h1 : d < K → parse .release ptr mode d = none)
    (h2 : K ≤ d → parse .release ptr mode d ≠ none) :
    parse .release ptr mode d = if K ≤ d then some (Rescan.parse .release ptr mode) else none := by
  split
  · rcases (parse_soft .release ptr mode (5 * ptr.length + 14) (by omega)).1.sound d with h | h
    · exact absurd h (h2 ‹_›)
    · exact h
  · exact h1 (by omega)

theorem bind_drop {drop : S Empty Unit} {K d : Nat} (hn : Needs drop (.ok ()) K) (o : Outcome ε α) (ho : o.isOk = false)
    (f : α → S ε β) : (d < K → S.bind (thenDrop (ret o) drop) f d = none) ∧
      (K ≤ d → S.bind (thenDrop (ret o) drop) f d ≠ none) := by
  refine ⟨fun h => ?_, fun h => ?_⟩
  · refine bind_none ?_
    show (drop d).map _ = none
    rw [hn.least rfl d h]; rfl
  · have : thenDrop (ret o) drop d = some o := by
      show (drop d).map _ = some o
      rw [hn.enough d h]; rfl
    unfold S.bind
    rw [this]
    cases o with
    | ok a => cases ho
    | _ => exact fun h => by cases h

theorem parse_stop (k : Nat) (c : Char) (rest : Str) (mode : ParseMode) (d : Nat) (h1 : c ≠ '*') (h1' : c ≠ '(')
    (hm : ∀ ctx : Context, ctx.sequences = [] → (ctx.main .release (c :: rest)).isOk = false) :
    parse .release (parens k ++ c :: rest) mode d =
      if 2 * k + 1 ≤ d then some (Rescan.parse .release (parens k ++ c :: rest) mode) else none := by
  obtain ⟨ctx, m, h2, h3, h4, h5, h6⟩ := parse_after k (c :: rest) mode
    (parens_noVerb k _ (fun r h => h1 (List.cons.inj h).1) (fun r h => h1' (List.cons.inj h).1))
  have hneed : Needs (dropContext ctx) (.ok ()) (2 * k + 1) := by
    unfold dropContext
    rw [h2]
    refine Needs.mono (Needs.bind (g := fun _ => .ok ()) (Needs.ret _) fun _ => dropSequence_needs ctx.currentSeq) ?_
    cases hc : ctx.currentSeq with
    | mk ch al ci cn =>
      rw [hc] at h3 h4
      simp only [ComponentSequence.children, ComponentSequence.alternation] at h3 h4
      subst h4
      rw [nestedSeq]; omega
  have ho := hm ctx h2
  generalize hm' : ctx.main .release (c :: rest) = o at ho
  have hl : loopS .release (c :: rest) ctx = thenDrop (ret o) (dropContext ctx) := by
    rw [loopS, hm']
    cases o with
    | ok a => cases ho
    | _ => rfl
  rw [hl] at h6
  have := bind_drop (d := d) hneed o ho (fun c => S.bind (finish c) fun s => ret (.ok (Component.sequence s, m)))
  exact parse_overflow (fun h => (h6 d).trans (this.1 h)) (fun h => by rw [h6 d]; exact this.2 h)

theorem parse_extra (k : Nat) (rest : Str) (mode : ParseMode) (d : Nat) :
    parse .release (parens k ++ ')' :: rest) mode d =
      if 2 * k + 1 ≤ d then some (Rescan.parse .release (parens k ++ ')' :: rest) mode) else none :=
  parse_stop k ')' rest mode d (by decide) (by decide) fun ctx h => by rw [Context.main_close_nil _ ctx rest h]; rfl

theorem parse_nonascii (k : Nat) (c : Char) (hc : 128 ≤ c.toNat) (rest : Str) (mode : ParseMode) (d : Nat) :
    parse .release (parens k ++ c :: rest) mode d =
      if 2 * k + 1 ≤ d then some (Rescan.parse .release (parens k ++ c :: rest) mode) else none := by
  refine parse_stop k c rest mode d ?_ ?_ fun ctx _ => ?_
  · rintro rfl; exact absurd hc (by decide)
  · rintro rfl; exact absurd hc (by decide)
  · have := Context.main_nonascii .release ctx c rest (by omega)
    cases h : ctx.main .release (c :: rest) with
    | ok a => rw [h] at this; cases this
    | _ => rfl

theorem parse_pending (k : Nat) (rest : Str) (mode : ParseMode) (d : Nat) :
    parse .release (parens k ++ '|' :: ')' :: rest) mode d =
      if 2 * k + 3 ≤ d then some (Rescan.parse .release (parens k ++ '|' :: ')' :: rest) mode) else none := by
  obtain ⟨ctx, m, h2, h3, h4, h5, h6⟩ := parse_after k ('|' :: ')' :: rest) mode
    (parens_noVerb k _ (fun r h => by cases h) (fun r h => by cases h))
  have hl : loopS .release ('|' :: ')' :: rest) ctx =
      thenDrop (ret (.err (CompileError.new .locatedParse "Unmatched parentheses")))
        (dropContext { ctx with currentSeq := ctx.currentSeq.addAlternation, p := ')' :: rest }) := by
    rw [loopS_ok (Context.main_bar .release ctx _), loopS, Context.main_close_nil _ _ _ (by exact h2)]
  have hneed : Needs (dropContext { ctx with currentSeq := ctx.currentSeq.addAlternation, p := ')' :: rest }) (.ok ())
      (2 * k + 3) := by
    unfold dropContext
    dsimp only
    rw [h2]
    refine Needs.mono (Needs.bind (g := fun _ => .ok ()) (Needs.ret _) fun _ =>
      dropSequence_needs ctx.currentSeq.addAlternation) ?_
    cases hc : ctx.currentSeq with
    | mk ch al ci cn =>
      rw [hc] at h3 h4
      simp only [ComponentSequence.children, ComponentSequence.alternation] at h3 h4
      subst h4
      simp only [ComponentSequence.addAlternation, ComponentSequence.alternation, ComponentSequence.children, nestedSeq,
        nestedAll, nestedSeqs, List.nil_append]
      omega
  rw [hl] at h6
  have := bind_drop (d := d) hneed (.err (CompileError.new .locatedParse "Unmatched parentheses")) rfl
    (fun c => S.bind (finish c) fun s => ret (.ok (Component.sequence s, m)))
  exact parse_overflow (fun h => (h6 d).trans (this.1 h)) (fun h => by rw [h6 d]; exact this.2 h)

theorem parse_open (k : Nat) (mode : ParseMode) (d : Nat) :
    parse .release (parens k ++ ['(']) mode d =
      if 2 * k + 1 ≤ d then some (Rescan.parse .release (parens k ++ ['(']) mode) else none := by
  obtain ⟨ctx, m, h2, h3, h4, h5, h6⟩ := parse_after k ['('] mode
    (parens_noVerb k _ (fun r h => by cases h) (fun r h => by cases h))
  have hl : loopS .release ['('] ctx = ret (.ok (ctx.opened [] (Context.offsetOf (utf8Len ['(']) ctx.ptrLen))) := by
    rw [loopS_ok (Context.main_open_release ctx _ h5)]; rfl
  have hneed : Needs (dropContext (ctx.opened [] (Context.offsetOf (utf8Len ['(']) ctx.ptrLen))) (.ok ()) (2 * k + 1) := by
    unfold dropContext Context.opened
    dsimp only
    rw [h2]
    refine Needs.mono (j := max (max (nestedSeq 1 ctx.currentSeq) 0) (nestedSeq 1 (.mk [] none (some ctx.groupIndex) none)))
      (Needs.bind (g := fun _ => .ok ()) (Needs.bind (g := fun _ => .ok ()) (dropSequence_needs ctx.currentSeq) fun _ =>
        Needs.ret _) fun _ => dropSequence_needs _) ?_ |>.mono ?_
    · rfl
    cases hc : ctx.currentSeq with
    | mk ch al ci cn =>
      rw [hc] at h3 h4
      simp only [ComponentSequence.children, ComponentSequence.alternation] at h3 h4
      subst h4
      simp only [nestedSeq, nestedAll]; omega
  rw [hl] at h6
  have h7 : ∀ d, parse .release (parens k ++ ['(']) mode d =
      S.bind (finish (ctx.opened [] (Context.offsetOf (utf8Len ['(']) ctx.ptrLen)))
        (fun s => ret (.ok (.sequence s, m))) d := fun d => (h6 d).trans (bind_ok rfl)
  obtain ⟨e, he⟩ : ∃ e, Context.finish (ctx.opened [] (Context.offsetOf (utf8Len ['(']) ctx.ptrLen)) = .err e := ⟨_, rfl⟩
  have hfin : finish (ctx.opened [] (Context.offsetOf (utf8Len ['(']) ctx.ptrLen)) =
      thenDrop (ret (.err e)) (dropContext (ctx.opened [] (Context.offsetOf (utf8Len ['(']) ctx.ptrLen))) := by
    unfold finish; rw [he]
  rw [hfin] at h7
  have := bind_drop (d := d) hneed (.err e) rfl (fun s => ret (.ok (Component.sequence s, m)))
  exact parse_overflow (fun h => (h7 d).trans (this.1 h)) (fun h => by rw [h7 d]; exact this.2 h)

end CallStack

/-! ## C101 -/

/-- C101: limited room makes compiling overflow or makes no difference, whatever is compiled; and if `5 * n + 14 ≤ 3 * d`,
where `n` is the number of characters of the longest expression within the length limit, room for `d` calls is enough. -/
theorem C101_enough (p : Profile) (es : List Str) (fs : List Flags) (ids : List Nat) (mode : Mode) (g : Grey) (d : Nat) :
    (CallStack.compileMultiInt p es fs ids mode g d = none ∨
      CallStack.compileMultiInt p es fs ids mode g d = some (compileMultiInt p es fs ids mode g)) ∧
    ((∀ e ∈ es, utf8Len e ≤ g.limitPatternLength → 5 * e.length + 14 ≤ 3 * d) →
      CallStack.compileMultiInt p es fs ids mode g d = some (compileMultiInt p es fs ids mode g)) := by
  refine ⟨?_, fun h => (compileMultiInt_within p es fs ids mode g d h).enough d (Nat.le_refl _)⟩
  refine (compileMultiInt_within p es fs ids mode g (5 * g.limitPatternLength + 14) fun e _ h => ?_).sound d
  have := length_le_utf8Len e
  omega

example : (∀ e ∈ ["a|".toList, "b)".toList], utf8Len e ≤ Grey.default.limitPatternLength → 5 * e.length + 14 ≤ 3 * 8) ∧
    (CallStack.compileMultiInt .debug ["a|".toList, "b)".toList] [⟨0⟩, ⟨0⟩] [0, 0] .block Grey.default 8).isSome = true ∧
    CallStack.compileMultiInt .debug ["a|".toList, "b)".toList] [⟨0⟩, ⟨0⟩] [0, 0] .block Grey.default 7 = none := by
  decide +kernel

/-- C101, for the functions of the interface: with room for 26672 calls compiling never overflows. -/
theorem C101_default (p : Profile) (es : List Str) (fs : List Flags) (ids : List Nat) (mode : Mode) (d : Nat)
    (h : 26672 ≤ d) : CallStack.compileMulti p es fs ids mode d = some (compileMulti p es fs ids mode) := by
  refine (C101_enough p es fs ids mode Grey.default d).2 fun e _ hl => ?_
  have := length_le_utf8Len e
  have : Grey.default.limitPatternLength = 16000 := rfl
  omega

example : CallStack.compileMulti .release [bars 5332, parens 8001] [⟨0⟩, ⟨0⟩] [0, 1] .block 26672 =
    some (compileMulti .release [bars 5332, parens 8001] [⟨0⟩, ⟨0⟩] [0, 1] .block) :=
  C101_default _ _ _ _ _ _ (by decide)

/-- C101, exactly: what compiles with all the room there is does so with room for `d` calls iff no tree of one of its
expressions is deeper, and otherwise overflows. -/
theorem C101_exact (p : Profile) (es : List Str) (fs : List Flags) (ids : List Nat) (mode : Mode) (g : Grey)
    (hg : g.limitPatternLength < 2 ^ 32 - 4) (db : Database) (h : compileMultiInt p es fs ids mode g = .ok db) (d : Nat) :
    ((∀ x ∈ es.zip (fs.zip ids), ∀ c m, parse p x.1 (ParseMode.new (x.2.1.and Flags.QUIET.not)) = .ok (c, m) →
        nested 3 c ≤ d) → CallStack.compileMultiInt p es fs ids mode g d = some (.ok db)) ∧
    ((∃ x ∈ es.zip (fs.zip ids), ∃ c m, parse p x.1 (ParseMode.new (x.2.1.and Flags.QUIET.not)) = .ok (c, m) ∧
        d < nested 3 c) → CallStack.compileMultiInt p es fs ids mode g d = none) := by
  have hiff : CallStack.compileMultiInt p es fs ids mode g d = some (.ok db) ↔
      ∀ x ∈ es.zip (fs.zip ids), ∀ c m, parse p x.1 (ParseMode.new (x.2.1.and Flags.QUIET.not)) = .ok (c, m) →
        nested 3 c ≤ d := by
    unfold compileMultiInt compileNg at h
    unfold CallStack.compileMultiInt
    by_cases he : es.isEmpty = true
    · rw [if_pos he] at h; cases h
    · rw [if_neg he] at h ⊢
      by_cases hl : es.length > g.limitPatternCount
      · rw [if_pos hl] at h; cases h
      · rw [if_neg hl] at h ⊢
        obtain ⟨ng', hng, h⟩ := bind_eq_ok h
        cases h
        have hx := addAll_exact p d (izip es fs ids) 0 (Ng.new ⟨mode.isStreaming, mode.isVectored, g⟩ es.length mode.somPrecision)
          ng' hg hng
        rw [izip_eq] at hx hng ⊢
        rw [← hx]
        have hs := (addAll_within p (5 * g.limitPatternLength + 14) (es.zip (fs.zip ids)) 0
          (Ng.new ⟨mode.isStreaming, mode.isVectored, g⟩ es.length mode.somPrecision)
          (fun x _ hx => by
            have := length_le_utf8Len x.1
            have hx : utf8Len x.1 ≤ g.limitPatternLength := hx
            omega)).sound d
        rw [hng] at hs
        show S.bind (CallStack.addAll p 0 _ _) (fun ng => ret (.ok (build ng))) d = _ ↔ _
        rcases hs with hs | hs
        · rw [bind_none hs, hs]
          exact ⟨fun h => absurd h (by simp), fun h => absurd h (by simp)⟩
        · rw [bind_ok hs, hs]
          exact ⟨fun _ => rfl, fun _ => rfl⟩
  refine ⟨hiff.2, ?_⟩
  rintro ⟨x, hx, c, m, hp, hlt⟩
  rcases (C101_enough p es fs ids mode g d).1 with h' | h'
  · exact h'
  · rw [h] at h'
    have := hiff.1 h' x hx c m hp
    omega

example : (compileMultiInt .release ["(a)".toList, "x(a|(b))".toList] [⟨0⟩, ⟨0⟩] [0, 1] .block Grey.default).isOk = true ∧
    (match parse .release "x(a|(b))".toList ParseMode.default with
      | .ok (c, _) => nested 3 c
      | _ => 0) = 12 ∧
    (CallStack.compileMultiInt .release ["(a)".toList, "x(a|(b))".toList] [⟨0⟩, ⟨0⟩] [0, 1] .block Grey.default 12).isSome
      = true ∧
    CallStack.compileMultiInt .release ["(a)".toList, "x(a|(b))".toList] [⟨0⟩, ⟨0⟩] [0, 1] .block Grey.default 11 = none := by
  decide +kernel

/-- C101, by the pattern: if at most `n` groups of an accepted pattern are open at once, its tree is no less than
`2 * n + 2` and no more than `5 * n + 8` calls deep; nor is it more than 5 calls for every 3 characters, and 14/3. -/
theorem C101_nesting (p : Profile) (ptr body : Str) (mode m : ParseMode) (c : Component) (hb : IsBody ptr body)
    (h : parse p ptr mode = .ok (c, m)) :
    2 * openGroups 0 body + 2 ≤ nested 3 c ∧ nested 3 c ≤ 5 * openGroups 0 body + 8 ∧
      3 * nested 3 c ≤ 5 * ptr.length + 14 := by
  refine ⟨?_, ?_, (parse_soft p ptr mode (5 * ptr.length + 14) (by omega)).2 c m h⟩
  all_goals
    obtain ⟨a, hw, hb', _, rfl⟩ := parse_tree h
    have := isBody_unique hb hb'
    subst this
    have ho := open_alts a 0 [] hw
    have hn := nested_alts (litClass mode.caseless) a 1
    rw [List.append_nil, openGroups] at ho
    rw [ho, Alts.root, nested, nestedSeq]
    omega

example : openGroups 0 "x(a|(b))(c)".toList = 2 ∧
    (match parse .release "x(a|(b))(c)".toList ParseMode.default with
      | .ok (c, _) => nested 3 c
      | _ => 0) = 12 := by decide +kernel

/-- C101, the extremes: `k` groups around each other need `2 * k + 2` calls, and if each is the second of two
alternatives `5 * k + 8`. -/
theorem C101_extremes (k : Nat) (mode : ParseMode) :
    (∃ c m, parse .release (parens k) mode = .ok (c, m) ∧ nested 3 c = 2 * k + 2 ∧ openGroups 0 (parens k) = k) ∧
    (∃ c m, parse .release (bars k) mode = .ok (c, m) ∧ nested 3 c = 5 * k + 8 ∧ openGroups 0 (bars k) = k ∧
      (bars k).length = 3 * k + 2) := by
  have key : ∀ a : Alts, a.Wf → openGroups 0 a.print = altsNest a := by
    intro a hw
    have := open_alts a 0 [] hw
    rw [List.append_nil, openGroups] at this
    omega
  constructor
  · obtain ⟨c, m, h1, h2⟩ := parens_parse k mode
    refine ⟨c, m, h1, h2, ?_⟩
    rw [← (parensTree_print k).1, key _ (parensTree_print k).2]
    clear h1 h2
    induction k with
    | zero => rfl
    | succ k ih => simp only [parensTree, altsNest, seqNest, itemNest, ih]; omega
  · obtain ⟨c, m, h1, h2⟩ := bars_parse k mode
    refine ⟨c, m, h1, h2, ?_, bars_length k⟩
    rw [← (barsTree_print k).1, key _ (barsTree_print k).2]
    clear h1 h2
    induction k with
    | zero => rfl
    | succ k ih => simp only [barsTree, altsNest, seqNest, itemNest, ih]; omega

example : bars 2 = "|(|(|a))".toList ∧ parens 2 = "(())".toList := by decide

/-- C101: no number of calls that is less than 16002 is enough for all that compiles.  A release build compiles
`((…))`, of `k ≤ 8000` groups, but overflows if there is room for fewer than `2 * k + 2` calls. -/
theorem C101_overflow (k : Nat) (hk : k ≤ 8000) (f : Flags) (hf : ¬ QuietSom f) (mode : Mode) (d : Nat) :
    compile .release (parens k) f mode = .ok ⟨⟨.fullRose, recorded mode⟩⟩ ∧
    CallStack.compile .release (parens k) f mode d =
      if 2 * k + 2 ≤ d then some (.ok ⟨⟨.fullRose, recorded mode⟩⟩) else none := by
  have hv : Valid .release 16000 (parens k, f, 0) := by
    refine ⟨?_, hf, parens k, parens_body k, parens_ascii k, ?_, fun h => by cases h⟩
    · show utf8Len (parens k) ≤ 16000
      rw [utf8Len_ascii (parens_ascii k), parens_length]; omega
    · have := (C29_accepted_iff_balanced (parens k) (parens k) ParseMode.default (parens_body k) (parens_ascii k)).1
      obtain ⟨c, m, h, _⟩ := parens_parse k ParseMode.default
      exact this (by rw [h]; rfl)
  have hok := (C55_compile_iff .release (parens k) f mode).2 hv
  refine ⟨hok, ?_⟩
  have hex := C101_exact .release [parens k] [f] [0] mode Grey.default (by decide) _ hok d
  obtain ⟨c, m, hp, hn⟩ := parens_parse k (ParseMode.new (f.and Flags.QUIET.not))
  by_cases hd : 2 * k + 2 ≤ d
  · rw [if_pos hd]
    refine hex.1 ?_
    intro x hx c' m' hp'
    have hx := List.mem_singleton.1 hx
    subst hx
    rw [show parse .release _ _ = _ from hp] at hp'
    cases hp'; omega
  · rw [if_neg hd]
    exact hex.2 ⟨_, List.mem_singleton.2 rfl, c, m, hp, by omega⟩

example : CallStack.compile .release (parens 8000) ⟨0⟩ .block 16001 = none := by
  rw [(C101_overflow 8000 (by decide) _ (by unfold QuietSom; decide) _ _).2, if_neg (by decide)]

/-- C101: patterns that are refused may overflow too, when what was read of them is dropped: `((…)))`, `((…))|)` and
`((…))(` need the calls that dropping the groups takes, wherever they are kept by then.  So does `((…))é`, which panics,
since unwinding drops them. -/
theorem C101_refused (k : Nat) (rest : Str) (mode : ParseMode) (d : Nat) :
    (CallStack.parse .release (parens k ++ ')' :: rest) mode d =
      if 2 * k + 1 ≤ d then some (parse .release (parens k ++ ')' :: rest) mode) else none) ∧
    (CallStack.parse .release (parens k ++ '|' :: ')' :: rest) mode d =
      if 2 * k + 3 ≤ d then some (parse .release (parens k ++ '|' :: ')' :: rest) mode) else none) ∧
    (CallStack.parse .release (parens k ++ ['(']) mode d =
      if 2 * k + 1 ≤ d then some (parse .release (parens k ++ ['(']) mode) else none) ∧
    (∀ c : Char, 128 ≤ c.toNat → CallStack.parse .release (parens k ++ c :: rest) mode d =
      if 2 * k + 1 ≤ d then some (parse .release (parens k ++ c :: rest) mode) else none) :=
  ⟨parse_extra k rest mode d, parse_pending k rest mode d, parse_open k mode d,
    fun c hc => parse_nonascii k c hc rest mode d⟩

example : CallStack.parse .release ("((()))".toList ++ ")(".toList) ParseMode.default 6 = none ∧
    (CallStack.parse .release ("((()))".toList ++ ")(".toList) ParseMode.default 7).isSome = true ∧
    CallStack.parse .release "((()))|)".toList ParseMode.default 8 = none ∧
    (CallStack.parse .release "((()))|)".toList ParseMode.default 9).isSome = true ∧
    CallStack.parse .release "((()))(".toList ParseMode.default 6 = none ∧
    (CallStack.parse .release "((()))(".toList ParseMode.default 7).isSome = true := by decide +kernel

/-- C101, the three recursions: on a finished tree a walk and `note_positions` need room for `nested 3`, dropping any
tree for `nested 1` calls; less is too little where they succeed. -/
theorem C101_recursions (c : Component) (d : Nat) :
    (∀ {ε σ : Type} (p : Profile) (v : Visitor ε σ) (s : σ), Finalized c →
      (nested 3 c ≤ d → CallStack.walkComponent p v s c d = some (walkComponent p v s c)) ∧
      (d < nested 3 c → (walkComponent p v s c).isOk = true → CallStack.walkComponent p v s c d = none)) ∧
    (∀ {ε : Type} (bs : GlushkovBuildState), Finalized c →
      (nested 3 c ≤ d → CallStack.noteComponent (ε := ε) bs c d = some (bs.noteComponent c)) ∧
      (d < nested 3 c → (bs.noteComponent (ε := ε) c).isOk = true → CallStack.noteComponent (ε := ε) bs c d = none)) ∧
    (CallStack.dropComponent c d = if nested 1 c ≤ d then some (.ok ()) else none) := by
  refine ⟨fun p v s hf => ?_, fun {ε} bs hf => ?_, ?_⟩
  · have h := walkComponent_needs p v c s hf
    exact ⟨h.enough d, fun hd ho => h.least ho d hd⟩
  · have h := noteComponent_needs (ε := ε) c bs hf
    exact ⟨h.enough d, fun hd ho => h.least ho d hd⟩
  · have h := dropComponent_needs c
    split
    · exact h.enough d ‹_›
    · exact h.least rfl d (by omega)

example : Finalized (.sequence (.mk [.alternation (.mk [.mk [] none none none])] none (some 0) none)) ∧
    nested 3 (.sequence (.mk [.alternation (.mk [.mk [] none none none])] none (some 0) none)) = 5 ∧
    CallStack.dropComponent (.sequence (.mk [.alternation (.mk [.mk [] none none none])] none (some 0) none)) 4 = none :=
  ⟨⟨rfl, ⟨⟨rfl, trivial⟩, trivial⟩, trivial⟩, by decide, rfl⟩

end Rescan
